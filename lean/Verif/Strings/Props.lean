import Verif.Strings.Lemmas

/-!
# C08 - C13: string functions

A NUL-terminated string `s` in memory is `s ++ 0 :: r` with `NoNul s`; `r` is whatever follows the terminator.
-/

namespace Verif.Strings
open Spec

/-! ## C08: bounded writes -/

/-- What "storing" means: the buffer keeps its size, bytes beyond `n` are untouched, and, if `n > 0`, the first bytes are the
longest prefix of the ideal string that fits followed by a terminator. -/
theorem stored_props (d : Mem) (n : Nat) (ideal : Mem) (hn : n ≤ d.length) :
    (stored d n ideal).length = d.length ∧
    (∀ i, n ≤ i → (stored d n ideal)[i]? = d[i]?) ∧
    (0 < n → ∃ m, m = min ideal.length (n - 1) ∧ (stored d n ideal).take m = ideal.take m ∧
      (stored d n ideal)[m]? = some 0) := by
  unfold stored
  by_cases h : n = 0
  · simp [h]
  · rw [if_neg h]
    have hl : (ideal.take (n - 1)).length = min ideal.length (n - 1) := by simp [Nat.min_comm]
    refine ⟨?_, ?_, ?_⟩
    · simp; omega
    · intro i hi
      rw [List.getElem?_append_right (by omega), hl]
      have : i - min ideal.length (n - 1) = (i - min ideal.length (n - 1) - 1) + 1 := by omega
      rw [this, List.getElem?_cons_succ, List.getElem?_drop]
      congr 1; omega
    · intro _
      refine ⟨_, rfl, ?_, ?_⟩
      · rw [← hl, List.take_left']
        · rw [hl]; by_cases h2 : ideal.length ≤ n - 1
          · rw [Nat.min_eq_left h2, List.take_of_length_le h2, List.take_of_length_le le_rfl]
          · rw [Nat.min_eq_right (by omega)]
        · rfl
      · rw [List.getElem?_append_right (by omega), hl]; simp

/-- C08 for `vl_string_copy`: the string is stored in the first `n` bytes; the returned value is its full length. -/
theorem copy_stores (d s r : Mem) (n : Nat) (hn : n ≤ d.length) (hs : NoNul s) :
    copy (some d) n (s ++ 0 :: r) = some (some (stored d n s), s.length) := by
  have h : Fits (some d) n := by intro d' hd; cases hd; exact hn
  have := copyLoop_spec h [] s r hs
  simp only [Option.map_some, ov_nil, List.nil_append] at this
  simp only [copy]
  rw [show (0 : Nat) = ([] : Mem).length from rfl, this]
  simp only [Option.bind_eq_bind, Option.bind_some]
  rw [finalize_ov hn]; rfl

/-- C08 for `vl_string_copy` with a NULL destination of size 0: only the length is computed. -/
theorem copy_null (s r : Mem) (hs : NoNul s) : copy none 0 (s ++ 0 :: r) = some (none, s.length) := by
  have h : Fits none 0 := by intro d' hd; cases hd
  have := copyLoop_spec h [] s r hs
  simp only [Option.map_none, List.nil_append] at this
  simp only [copy]
  rw [show copyLoop none 0 0 (s ++ 0 :: r) = some (none, s.length) from this]
  simp [finalize]

/-- C08 for `vl_string_copy_sub`: the ideal string is the part of `s` before `end`. -/
theorem copySub_stores (d s r : Mem) (n m : Nat) (hn : n ≤ d.length) (hs : NoNul s) :
    copySub (some d) n (s ++ 0 :: r) m = some (some (stored d n (s.take m)), (s.take m).length) := by
  have h : Fits (some d) n := by intro d' hd; cases hd; exact hn
  have key : copySubLoop (some d) n 0 m (s ++ 0 :: r) = some (some (ov d n (s.take m)), (s.take m).length) := by
    by_cases hm : m ≤ s.length
    · have := copySubLoop_spec h [] s (0 :: r) hs m hm
      simpa only [Option.map_some, ov_nil, List.nil_append, List.length_nil] using this
    · have := copySubLoop_past h [] s r hs m (by omega)
      rw [List.take_of_length_le (by omega)]
      simpa only [Option.map_some, ov_nil, List.nil_append, List.length_nil] using this
  simp only [copySub, key, Option.bind_eq_bind, Option.bind_some]
  rw [finalize_ov hn]; rfl

/-- C08 for `vl_string_copy_sub` with a NULL destination. -/
theorem copySub_null (s r : Mem) (m : Nat) (hs : NoNul s) :
    copySub none 0 (s ++ 0 :: r) m = some (none, (s.take m).length) := by
  have h : Fits none 0 := by intro d' hd; cases hd
  have key : copySubLoop none 0 0 m (s ++ 0 :: r) = some (none, (s.take m).length) := by
    by_cases hm : m ≤ s.length
    · have := copySubLoop_spec h [] s (0 :: r) hs m hm
      simpa using this
    · have := copySubLoop_past h [] s r hs m (by omega)
      rw [List.take_of_length_le (by omega)]
      simpa using this
  simp [copySub, key, finalize]

/-- C08 and C09 for `vl_string_replace_wildcard`: the ideal string is the substitution `subst`. -/
theorem replaceWildcard_stores (d s r repl rr : Mem) (w e : Byte) (n : Nat) (hn : n ≤ d.length) (hs : NoNul s)
    (hr : NoNul repl) :
    replaceWildcard (some d) n (s ++ 0 :: r) w e (repl ++ 0 :: rr) =
      some (some (stored d n (subst w e repl s)), (subst w e repl s).length) := by
  have h : Fits (some d) n := by intro d' hd; cases hd; exact hn
  have := wildcardLoop_spec h w e repl rr hr [] s r hs
  simp only [Option.map_some, ov_nil, List.nil_append] at this
  simp only [replaceWildcard]
  rw [show (0 : Nat) = ([] : Mem).length from rfl, this]
  simp only [Option.bind_eq_bind, Option.bind_some]
  rw [finalize_ov hn]; rfl

/-- C08 for `vl_string_replace_wildcard` with a NULL destination. -/
theorem replaceWildcard_null (s r repl rr : Mem) (w e : Byte) (hs : NoNul s) (hr : NoNul repl) :
    replaceWildcard none 0 (s ++ 0 :: r) w e (repl ++ 0 :: rr) = some (none, (subst w e repl s).length) := by
  have h : Fits none 0 := by intro d' hd; cases hd
  have := wildcardLoop_spec h w e repl rr hr [] s r hs
  simp only [Option.map_none, List.nil_append] at this
  simp only [replaceWildcard]
  rw [show wildcardLoop none 0 0 false w e (repl ++ 0 :: rr) (s ++ 0 :: r) =
    some (none, (subst w e repl s).length) from this]
  simp [finalize]

/-- C09: a source with neither wildcard nor escape characters is unchanged. -/
theorem subst_plain (w e : Byte) (repl s : Mem) (hw : w ∉ s) (he : e ∉ s) : subst w e repl s = s := by
  induction s with
  | nil => simp [subst]
  | cons c s ih =>
    simp only [List.mem_cons, not_or] at hw he
    rw [subst_cons (Ne.symm he.1), if_neg (Ne.symm hw.1), ih hw.2 he.2]

/-- C09: a prefix that does not end in the middle of an escape sequence is handled independently of what follows. -/
theorem subst_append_plain (w e : Byte) (repl s t : Mem) (he : e ∉ s) :
    subst w e repl (s ++ t) = subst w e repl s ++ subst w e repl t := by
  induction s with
  | nil => simp [subst]
  | cons c s ih =>
    simp only [List.mem_cons, not_or] at he
    rw [List.cons_append, subst_cons (Ne.symm he.1), subst_cons (Ne.symm he.1), ih he.2]
    split <;> simp

theorem basename_aux (s r : Mem) (k : Nat) (hs : NoNul s) :
    ∃ (beg e : Nat), baseBeg 0 0 (s ++ 0 :: r) = some beg ∧ s.drop beg = fileName s ∧
      baseEnd (s ++ 0 :: r) beg (s.length - beg) k s.length = some e ∧
      (fileName s).take (e - beg) = dropExts k (fileName s) := by
  have h1 := baseBeg_spec [] s r hs
  simp only [List.nil_append] at h1
  have h1' : baseBeg 0 0 (s ++ 0 :: r) = some (s.length - (fileName s).length) := h1
  have hle := fileName_le s
  have hsuf := fileName_suffix s
  obtain ⟨e', he1, he2, he3⟩ := baseEnd_spec (s.take (s.length - (fileName s).length)) (fileName s) (0 :: r) k
    (fileName s).length (fileName s).length le_rfl le_rfl (by simp)
  rw [← hsuf] at he1
  have hpl : (s.take (s.length - (fileName s).length)).length = s.length - (fileName s).length := by simp
  rw [hpl] at he1
  refine ⟨_, s.length - (fileName s).length + e', h1', ?_, ?_, ?_⟩
  · conv_lhs => rw [hsuf]
    rw [List.drop_left']
    rw [← hsuf]; simp
  · have a1 : s.length - (s.length - (fileName s).length) = (fileName s).length := by omega
    have a2 : s.length - (fileName s).length + (fileName s).length = s.length := by omega
    rw [a2] at he1
    rw [a1]; exact he1
  · rw [Nat.add_sub_cancel_left, he3, List.take_length]

/-- C08 and C10 for `vl_string_basename`: the ideal string is the file name without its last `k` extensions. -/
theorem basename_stores (d s r : Mem) (n k : Nat) (hn : n ≤ d.length) (hs : NoNul s) :
    basename (some d) n (s ++ 0 :: r) k =
      some (some (stored d n (dropExts k (fileName s))), (dropExts k (fileName s)).length) := by
  obtain ⟨beg, e, h1, h2, h3, h4⟩ := basename_aux s r k hs
  have hnn : NoNul (fileName s) := by
    intro c hc; rw [← h2] at hc; exact hs c (List.mem_of_mem_drop hc)
  have hdrop : (s ++ 0 :: r).drop beg = fileName s ++ 0 :: r := by
    by_cases hb : beg ≤ s.length
    · rw [List.drop_append_of_le_length hb, h2]
    · exfalso
      have h := baseBeg_spec [] s r hs
      simp only [List.nil_append] at h
      rw [show baseBeg 0 0 (s ++ 0 :: r) = _ from h] at h1
      simp at h1; omega
  simp only [basename, h1, length_spec s r hs, h3, Option.bind_eq_bind, Option.bind_some, hdrop]
  rw [copySub_stores d (fileName s) r n _ hn hnn, h4]

/-- C08 and C10 for `vl_string_basename` with a NULL destination. -/
theorem basename_null (s r : Mem) (k : Nat) (hs : NoNul s) :
    basename none 0 (s ++ 0 :: r) k = some (none, (dropExts k (fileName s)).length) := by
  obtain ⟨beg, e, h1, h2, h3, h4⟩ := basename_aux s r k hs
  have hnn : NoNul (fileName s) := by
    intro c hc; rw [← h2] at hc; exact hs c (List.mem_of_mem_drop hc)
  have hdrop : (s ++ 0 :: r).drop beg = fileName s ++ 0 :: r := by
    by_cases hb : beg ≤ s.length
    · rw [List.drop_append_of_le_length hb, h2]
    · exfalso
      have h := baseBeg_spec [] s r hs
      simp only [List.nil_append] at h
      rw [show baseBeg 0 0 (s ++ 0 :: r) = _ from h] at h1
      simp at h1; omega
  simp only [basename, h1, length_spec s r hs, h3, Option.bind_eq_bind, Option.bind_some, hdrop]
  rw [copySub_null (fileName s) r _ hnn, h4]

/-- C08, the returned length never depends on the destination (so a call with size 0 can be used to size the buffer). -/
theorem copy_length_independent (d d' s r : Mem) (n n' : Nat) (hn : n ≤ d.length) (hn' : n' ≤ d'.length) (hs : NoNul s) :
    (copy (some d) n (s ++ 0 :: r)).map (·.2) = (copy (some d') n' (s ++ 0 :: r)).map (·.2) := by
  rw [copy_stores _ _ _ _ hn hs, copy_stores _ _ _ _ hn' hs]; rfl

/-- C08, a NULL destination with a non-zero size is dereferenced (vl/stringop.c:288-290 does not test the pointer). -/
theorem copy_null_nonzero_faults (s r : Mem) (n : Nat) (hs : NoNul s) : copy none (n + 1) (s ++ 0 :: r) = none := by
  have h : Fits none (n + 1) := by intro d' hd; cases hd
  have := copyLoop_spec h [] s r hs
  simp only [Option.map_none, List.nil_append] at this
  simp only [copy]
  rw [show copyLoop none (n + 1) 0 (s ++ 0 :: r) = some (none, s.length) from this]
  simp [finalize]

/-- C08, `vl_string_length`. -/
theorem length_correct (s r : Mem) (hs : NoNul s) : length (s ++ 0 :: r) = some s.length := length_spec s r hs

/-- `vl_string_find_char_rev` returns the last occurrence in the given range. -/
theorem findCharRev_last (mem : Mem) (c : Byte) (m : Nat) (hm : m ≤ mem.length) :
    ∃ res, findCharRev mem c m = some res ∧
      (res = none → ∀ i < m, mem[i]? ≠ some c) ∧
      (∀ i, res = some i → i < m ∧ mem[i]? = some c ∧ ∀ j, i < j → j < m → mem[j]? ≠ some c) := by
  induction m with
  | zero => exact ⟨none, rfl, by simp, by simp⟩
  | succ m ih =>
    have hr : rd mem m = some mem[m] := rd_of_lt (by omega)
    rw [findCharRev, hr]
    simp only [Option.bind_eq_bind, Option.bind_some]
    by_cases h : mem[m] = c
    · rw [if_pos h]
      refine ⟨_, rfl, by simp, ?_⟩
      intro i hi
      cases hi
      refine ⟨by omega, by rw [List.getElem?_eq_getElem (by omega), h], ?_⟩
      intro j h1 h2; omega
    · rw [if_neg h]
      obtain ⟨res, h1, h2, h3⟩ := ih (by omega)
      have hm' : mem[m]? ≠ some c := by rw [List.getElem?_eq_getElem (by omega)]; simpa using h
      refine ⟨res, h1, ?_, ?_⟩
      · intro hn i hi
        rcases Nat.lt_succ_iff_lt_or_eq.1 hi with hi | rfl
        · exact h2 hn i hi
        · exact hm'
      · intro i hi
        obtain ⟨a, b, c'⟩ := h3 i hi
        refine ⟨by omega, b, ?_⟩
        intro j h1 h2
        rcases Nat.lt_succ_iff_lt_or_eq.1 h2 with h2 | rfl
        · exact c' j h1 h2
        · exact hm'

/- "a.tar.gz" under "/x/" with two extensions removed, in a 3-byte buffer: only "a" remains. -/
example : basename (some [9, 9, 9]) 3 ("/x/a.tar.gz".toUTF8.toList ++ [0]) 2 = some (some [97, 0, 9], 1) := by decide +kernel
/- truncation: "hello" into 4 bytes. -/
example : copy (some [9, 9, 9, 9, 9]) 4 ("hello".toUTF8.toList ++ [0]) = some (some [104, 101, 108, 0, 9], 5) := by
  decide +kernel
/- wildcard '%' with escape '\': "a%b\%" with replacement "xy". -/
example : replaceWildcard (some (List.replicate 9 1)) 9 ("a%b\\%".toUTF8.toList ++ [0]) 37 92 ("xy".toUTF8.toList ++ [0]) =
    some (some ("axyb%".toUTF8.toList ++ [0, 1, 1, 1]), 5) := by decide +kernel

/-! ## C11: case-insensitive comparison -/

/-- C11: the sign of the result is the lexicographic comparison of the case-folded strings. -/
theorem caseiCmp_sign (s t r r' : Mem) (hs : NoNul s) (ht : NoNul t) :
    ∃ v, caseiCmp (s ++ 0 :: r) (t ++ 0 :: r') = some v ∧ (v = 0 ↔ s.map lower = t.map lower) ∧
      (v < 0 ↔ s.map lower < t.map lower) := caseiCmp_spec s t r r' hs ht

/-- C11: antisymmetry (on any memory). -/
theorem caseiCmp_antisymm (a b : Mem) : caseiCmp b a = (caseiCmp a b).map (fun v => -v) := by
  induction a generalizing b with
  | nil => cases b <;> simp [caseiCmp]
  | cons x a ih =>
    cases b with
    | nil => simp [caseiCmp]
    | cons y b =>
      simp only [caseiCmp]
      by_cases h : tolower x = tolower y
      · rw [if_pos h, if_pos h.symm]
        have hz : x = 0 ↔ y = 0 := by
          rw [← tolower_eq_zero x, ← tolower_eq_zero y, h]
        by_cases hx : x = 0
        · simp [hx, hz.1 hx]
        · have hy : ¬ y = 0 := fun h' => hx (hz.2 h')
          simp [hx, hy, ih]
      · rw [if_neg h, if_neg (Ne.symm h)]
        simp

/-- C11: transitivity. -/
theorem caseiCmp_trans (s t u r r' r'' : Mem) (hs : NoNul s) (ht : NoNul t) (hu : NoNul u) (v w x : Int)
    (h1 : caseiCmp (s ++ 0 :: r) (t ++ 0 :: r') = some v) (h2 : caseiCmp (t ++ 0 :: r') (u ++ 0 :: r'') = some w)
    (h3 : caseiCmp (s ++ 0 :: r) (u ++ 0 :: r'') = some x) (hv : v ≤ 0) (hw : w ≤ 0) : x ≤ 0 := by
  obtain ⟨v', a1, a2, a3⟩ := caseiCmp_spec s t r r' hs ht
  obtain ⟨w', b1, b2, b3⟩ := caseiCmp_spec t u r' r'' ht hu
  obtain ⟨x', c1, c2, c3⟩ := caseiCmp_spec s u r r'' hs hu
  rw [h1] at a1; rw [h2] at b1; rw [h3] at c1
  cases a1; cases b1; cases c1
  rcases Int.lt_or_eq_of_le hv with hv | hv
  · rcases Int.lt_or_eq_of_le hw with hw | hw
    · exact Int.le_of_lt (c3.2 (List.lt_trans (a3.1 hv) (b3.1 hw)))
    · rw [b2] at hw
      exact Int.le_of_lt (c3.2 (hw ▸ a3.1 hv))
  · rw [a2] at hv
    rcases Int.lt_or_eq_of_le hw with hw | hw
    · exact Int.le_of_lt (c3.2 (by rw [hv]; exact b3.1 hw))
    · rw [b2] at hw
      exact Int.le_of_eq (c2.2 (by rw [hv, hw]))

example : caseiCmp ("HeLLo".toUTF8.toList ++ [0]) ("hEllO".toUTF8.toList ++ [0]) = some 0 := by decide +kernel
example : caseiCmp ("Abc".toUTF8.toList ++ [0]) ("abD".toUTF8.toList ++ [0]) = some (-1) := by decide +kernel

/-! ## C12: enumeration lookup -/

/-- A table in memory: named members, then a member with a NULL name, then anything. -/
def encode (tbl : List (List UInt8 × Int)) (z : Int) (more : List Enumerator) : List Enumerator :=
  tbl.map (fun p => ⟨some (p.1 ++ [0]), p.2⟩) ++ ⟨none, z⟩ :: more

theorem enumLoop_spec (tbl : List (List UInt8 × Int)) (z : Int) (more : List Enumerator)
    (test : Mem → Int → Option Bool) (P : List UInt8 × Int → Bool)
    (h : ∀ p ∈ tbl, test (p.1 ++ [0]) p.2 = some (P p)) (i : Nat) :
    enumLoop test i (encode tbl z more) = some ((tbl.findIdx? P).map (· + i)) := by
  induction tbl generalizing i with
  | nil => simp [encode, enumLoop]
  | cons p tbl ih =>
    have hp := h p (by simp)
    have ih' := ih (fun q hq => h q (by simp [hq]))
    simp only [encode, List.map_cons, List.cons_append, enumLoop, hp, Option.bind_eq_bind, Option.bind_some]
    rw [List.findIdx?_cons]
    by_cases hP : P p = true
    · simp [hP]
    · rw [if_neg hP, if_neg hP]
      have := ih' (i + 1)
      simp only [encode] at this
      rw [this]
      cases List.findIdx? P tbl <;> simp [Nat.add_comm, Nat.add_left_comm]

/-- C12: exact-name lookup returns the first member with that name, NULL if there is none. -/
theorem enumGet_first (tbl : List (List UInt8 × Int)) (z : Int) (more : List Enumerator) (key : List UInt8)
    (hk : NoNul key) (ht : ∀ p ∈ tbl, NoNul p.1) :
    enumGet (encode tbl z more) (key ++ [0]) = some (tbl.findIdx? (fun p => decide (key = p.1))) := by
  rw [enumGet, enumLoop_spec tbl z more _ (fun p => decide (key = p.1))]
  · simp
  · intro p hp; exact strEq_spec key p.1 [] [] hk (ht p hp)

/-- C12: case-insensitive lookup returns the first member whose name is equal up to case. -/
theorem enumGetCasei_first (tbl : List (List UInt8 × Int)) (z : Int) (more : List Enumerator) (key : List UInt8)
    (hk : NoNul key) (ht : ∀ p ∈ tbl, NoNul p.1) :
    enumGetCasei (encode tbl z more) (key ++ [0]) =
      some (tbl.findIdx? (fun p => decide (key.map lower = p.1.map lower))) := by
  rw [enumGetCasei, enumLoop_spec tbl z more _ (fun p => decide (key.map lower = p.1.map lower))]
  · simp
  · intro p hp
    obtain ⟨v, h1, h2, _⟩ := caseiCmp_spec key p.1 [] [] hk (ht p hp)
    rw [h1]
    simp only [Option.map_some, Option.some.injEq]
    rw [Bool.eq_iff_iff, beq_iff_eq, h2, decide_eq_true_iff]; exact Iff.rfl

/-- C12: lookup by value returns the first member with that value. -/
theorem enumGetByValue_first (tbl : List (List UInt8 × Int)) (z : Int) (more : List Enumerator) (v : Int) :
    enumGetByValue (encode tbl z more) v = some (tbl.findIdx? (fun p => decide (p.2 = v))) := by
  rw [enumGetByValue, enumLoop_spec tbl z more _ (fun p => decide (p.2 = v))]
  · simp
  · intro p _; simp [Bool.beq_eq_decide_eq]

example : enumGetCasei (encode [([97], 1), ([65], 2), ([98], 3)] 0 []) [66, 0] = some (some 2) := by decide +kernel

/-! ## C13: protocols -/

def asciiName : List UInt8 := "ascii".toUTF8.toList
def binName : List UInt8 := "bin".toUTF8.toList

/-- C13: without `://` the protocol is NONE and the whole string is returned. -/
theorem parseProtocol_none (s r : Mem) (hs : NoNul s) (h : ∀ p rest, s ≠ p ++ sep ++ rest) :
    parseProtocol (s ++ 0 :: r) = some (.none, 0) := by
  simp [parseProtocol, strstrSep_none s r 0 hs h]

/-- C13, what the code computes in general: with `p` the part before the first `://`, the answer is ASCII when `p` is a
*prefix* of "ascii", else BINARY when it is a *prefix* of "bin", else UNKNOWN; the pointer returned is after `://`. -/
theorem parseProtocol_general (s p rest r : Mem) (hs : NoNul s) (h : SplitsAt s p rest) :
    parseProtocol (s ++ 0 :: r) =
      some (if p <+: asciiName then .ascii else if p <+: binName then .binary else .unknown, p.length + 3) := by
  obtain ⟨rfl, hmin⟩ := h
  have hp : NoNul p := fun c hc => hs c (by simp [hc])
  have h1 := strstrSep_found p rest r 0 hp hmin
  have h2 : strnEq p.length (p ++ sep ++ rest ++ 0 :: r) asciiLit = some (decide (p <+: asciiName)) := by
    have := strnEq_spec p (sep ++ rest ++ 0 :: r) asciiName hp (by decide +kernel)
    simpa [asciiLit, show asciiName = [97, 115, 99, 105, 105] by decide +kernel] using this
  have h3 : strnEq p.length (p ++ sep ++ rest ++ 0 :: r) binLit = some (decide (p <+: binName)) := by
    have := strnEq_spec p (sep ++ rest ++ 0 :: r) binName hp (by decide +kernel)
    simpa [binLit, show binName = [98, 105, 110] by decide +kernel] using this
  simp only [parseProtocol, h1, Option.bind_eq_bind, Option.bind_some, Nat.zero_add, h2, h3]
  by_cases ha : p <+: asciiName
  · simp [ha]
  · by_cases hb : p <+: binName
    · simp [ha, hb]
    · simp [ha, hb]

/-- The sep-free names. -/
theorem splits_of_noColon (p rest : Mem) (h : (58 : UInt8) ∉ p) : SplitsAt (p ++ sep ++ rest) p rest := by
  refine ⟨rfl, ?_⟩
  intro p' rest' he
  by_contra hc
  have hc : p'.length < p.length := by omega
  apply h
  have : (p ++ sep ++ rest)[p'.length]? = some 58 := by rw [he]; simp [sep]
  rw [List.append_assoc, List.getElem?_append_left hc] at this
  exact List.mem_of_getElem? this

/-- C13 (part that holds): `ascii://rest` and `bin://rest` are recognised and the pointer to `rest` is returned; a protocol
name that is not a prefix of "ascii" or "bin" is UNKNOWN; no `://` is NONE (previous theorem).  Missing: proper prefixes, which
the code accepts (see `parseProtocol_accepts_prefix`). -/
theorem parseProtocol_partial (rest r : Mem) (hr : NoNul rest) :
    parseProtocol (asciiName ++ sep ++ rest ++ 0 :: r) = some (.ascii, 8) ∧
    parseProtocol (binName ++ sep ++ rest ++ 0 :: r) = some (.binary, 6) ∧
    (∀ p, NoNul p → (58 : UInt8) ∉ p → ¬ p <+: asciiName → ¬ p <+: binName →
      parseProtocol (p ++ sep ++ rest ++ 0 :: r) = some (.unknown, p.length + 3)) := by
  have nn : ∀ p, NoNul p → NoNul (p ++ sep ++ rest) := by
    intro p hp c hc
    simp only [List.mem_append] at hc
    rcases hc with (hc | hc) | hc
    · exact hp c hc
    · simp [sep] at hc; rcases hc with rfl | rfl <;> decide
    · exact hr c hc
  refine ⟨?_, ?_, ?_⟩
  · rw [parseProtocol_general _ asciiName rest r (nn _ (by decide +kernel)) (splits_of_noColon _ _ (by decide +kernel))]
    decide +kernel
  · rw [parseProtocol_general _ binName rest r (nn _ (by decide +kernel)) (splits_of_noColon _ _ (by decide +kernel))]
    decide +kernel
  · intro p hp hc ha hb
    rw [parseProtocol_general _ p rest r (nn _ hp) (splits_of_noColon _ _ hc), if_neg ha, if_neg hb]

/-- C13, refuted: a proper prefix of the name, including the empty one, is accepted: `://x` and `a://x` are reported as ASCII,
`b://x` as BINARY, while the documented `binary://x` is UNKNOWN. -/
theorem parseProtocol_accepts_prefix :
    parseProtocol ("://x".toUTF8.toList ++ [0]) = some (.ascii, 3) ∧
    parseProtocol ("a://x".toUTF8.toList ++ [0]) = some (.ascii, 4) ∧
    parseProtocol ("b://x".toUTF8.toList ++ [0]) = some (.binary, 4) ∧
    parseProtocol ("binary://x".toUTF8.toList ++ [0]) = some (.unknown, 9) := by decide +kernel

/-- C13, refuted: the English claim is false of the code. -/
theorem parseProtocol_claim_false :
    ¬ ∀ s : Mem, NoNul s → ∀ k, parseProtocol (s ++ [0]) = some (.ascii, k) → ∃ rest, s = asciiName ++ sep ++ rest := by
  intro h
  obtain ⟨rest, hr⟩ := h "a://x".toUTF8.toList (by decide +kernel) 4 (by decide +kernel)
  rw [show asciiName = [97, 115, 99, 105, 105] by decide +kernel,
    show "a://x".toUTF8.toList = [97, 58, 47, 47, 120] by decide +kernel] at hr
  simp at hr

/-- C13: the name of a recognised protocol parses back to it; the name of an unknown one is the NULL pointer (the documentation
promises the empty string). -/
theorem protocolName_roundtrip (p : Protocol) (hp : p = .ascii ∨ p = .binary) (rest r : Mem) (hr : NoNul rest) :
    ∃ nm, protocolName p = some (nm ++ [0]) ∧ parseProtocol (nm ++ sep ++ rest ++ 0 :: r) = some (p, nm.length + 3) := by
  have h := parseProtocol_partial rest r hr
  rcases hp with rfl | rfl
  · exact ⟨asciiName, by decide +kernel, by rw [h.1]; decide +kernel⟩
  · exact ⟨binName, by decide +kernel, by rw [h.2.1]; decide +kernel⟩

end Verif.Strings
