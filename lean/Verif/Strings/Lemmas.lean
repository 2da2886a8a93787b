import Verif.Strings.Model
import Verif.Strings.Spec
import Mathlib.Data.List.Basic
import Mathlib.Data.List.Induction
import Mathlib.Tactic.Linarith

namespace Verif.Strings
open Spec

/-- Buffer `d` after the characters `p` have been emitted. -/
def ov (d : Mem) (n : Nat) (p : Mem) : Mem := p.take (n - 1) ++ d.drop (p.take (n - 1)).length

theorem ov_nil (d : Mem) (n : Nat) : ov d n [] = d := by simp [ov]

/-- The destination is NULL or has at least `n` bytes. -/
def Fits (dest : Option Mem) (n : Nat) : Prop := ∀ d, dest = some d → n ≤ d.length

theorem emit_ov {dest : Option Mem} {n : Nat} (h : Fits dest n) (p : Mem) (c : Byte) :
    emit (dest.map (ov · n p)) n p.length c = some (dest.map (ov · n (p ++ [c]))) := by
  cases dest with
  | none => simp [emit]
  | some d =>
    have hd := h d rfl
    simp only [emit, Option.map_some]
    split
    · rename_i hk
      have h1 : ov d n p = p ++ d.drop p.length := by
        simp only [ov]; rw [List.take_of_length_le (by omega)]
      have h2 : ov d n (p ++ [c]) = p ++ c :: d.drop (p.length + 1) := by
        simp only [ov]; rw [List.take_of_length_le (by simp; omega)]; simp
      have hlt : p.length < (ov d n p).length := by rw [h1]; simp; omega
      rw [wr_of_lt hlt, h1, h2]
      have : d.drop p.length = d[p.length]'(by omega) :: d.drop (p.length + 1) := by
        rw [List.drop_eq_getElem_cons]
      simp only [Option.map_some, Option.some.injEq]
      rw [List.set_append_right _ _ le_rfl, Nat.sub_self, this, List.set_cons_zero]
    · rename_i hk
      have : ov d n (p ++ [c]) = ov d n p := by
        simp only [ov]
        rw [List.take_append_of_le_length (by omega)]
      rw [this]

theorem finalize_ov {d : Mem} {n : Nat} (hd : n ≤ d.length) (p : Mem) :
    finalize (some (ov d n p)) n p.length = some (some (stored d n p)) := by
  simp only [finalize, stored]
  by_cases hn : n = 0
  · subst hn; simp [ov]
  · rw [if_pos (by omega), if_neg hn]
    have hl : (p.take (n - 1)).length = min p.length (n - 1) := by simp [Nat.min_comm]
    have hlt : min p.length (n - 1) < (ov d n p).length := by
      simp only [ov, List.length_append, List.length_drop, hl]; omega
    rw [wr_of_lt hlt]
    simp only [Option.map_some, Option.some.injEq]
    simp only [ov]
    rw [← hl, List.set_append_right _ _ le_rfl, Nat.sub_self]
    have hlt2 : (p.take (n-1)).length < d.length := by omega
    rw [List.drop_eq_getElem_cons hlt2, List.set_cons_zero]

theorem finalize_none (p : Nat) : finalize none 0 p = some none := by simp [finalize]

theorem copyLoop_spec {dest : Option Mem} {n : Nat} (h : Fits dest n) (p s rest : Mem) (hs : NoNul s) :
    copyLoop (dest.map (ov · n p)) n p.length (s ++ 0 :: rest) =
      some (dest.map (ov · n (p ++ s)), (p ++ s).length) := by
  induction s generalizing p with
  | nil => simp [copyLoop]
  | cons c s ih =>
    have hc : c ≠ 0 := hs c (by simp)
    have hs' : NoNul s := fun x hx => hs x (by simp [hx])
    simp only [List.cons_append, copyLoop, if_neg hc]
    rw [emit_ov h]
    simp only [Option.bind_eq_bind, Option.bind_some]
    have := ih (p ++ [c]) hs'
    simpa using this

theorem copySubLoop_spec {dest : Option Mem} {n : Nat} (h : Fits dest n) (p s rest : Mem) (hs : NoNul s) (m : Nat)
    (hm : m ≤ s.length) :
    copySubLoop (dest.map (ov · n p)) n p.length m (s ++ rest) =
      some (dest.map (ov · n (p ++ s.take m)), (p ++ s.take m).length) := by
  induction m generalizing p s with
  | zero => simp [copySubLoop]
  | succ m ih =>
    cases s with
    | nil => simp at hm
    | cons c s =>
      have hc : c ≠ 0 := hs c (by simp)
      have hs' : NoNul s := fun x hx => hs x (by simp [hx])
      simp only [List.cons_append, copySubLoop, if_neg hc]
      rw [emit_ov h]
      simp only [Option.bind_eq_bind, Option.bind_some]
      have := ih (p ++ [c]) s hs' (by simpa using hm)
      simpa using this

theorem copySubLoop_past {dest : Option Mem} {n : Nat} (h : Fits dest n) (p s rest : Mem) (hs : NoNul s) (m : Nat)
    (hm : s.length ≤ m) :
    copySubLoop (dest.map (ov · n p)) n p.length m (s ++ 0 :: rest) =
      some (dest.map (ov · n (p ++ s)), (p ++ s).length) := by
  induction m generalizing p s with
  | zero =>
    have : s = [] := List.length_eq_zero_iff.1 (by omega)
    subst this; simp [copySubLoop]
  | succ m ih =>
    cases s with
    | nil => simp [copySubLoop]
    | cons c s =>
      have hc : c ≠ 0 := hs c (by simp)
      have hs' : NoNul s := fun x hx => hs x (by simp [hx])
      simp only [List.cons_append, copySubLoop, if_neg hc]
      rw [emit_ov h]
      simp only [Option.bind_eq_bind, Option.bind_some]
      have := ih (p ++ [c]) s hs' (by simpa using hm)
      simpa using this

theorem subst_cons {w e : Byte} {repl : Mem} {c : Byte} {s : Mem} (h : c ≠ e) :
    subst w e repl (c :: s) = if c = w then repl ++ subst w e repl s else c :: subst w e repl s := by
  cases s <;> simp [subst, h]

theorem wildcardLoop_spec {dest : Option Mem} {n : Nat} (h : Fits dest n) (w e : Byte) (repl rrest : Mem) (hr : NoNul repl)
    (p s rest : Mem) (hs : NoNul s) :
    (wildcardLoop (dest.map (ov · n p)) n p.length false w e (repl ++ 0 :: rrest) (s ++ 0 :: rest) =
      some (dest.map (ov · n (p ++ subst w e repl s)), (p ++ subst w e repl s).length)) := by
  induction hl : s.length using Nat.strong_induction_on generalizing s p with
  | _ l ih =>
    cases s with
    | nil => simp [wildcardLoop, subst]
    | cons c s =>
      have hc : c ≠ 0 := hs c (by simp)
      have hs' : NoNul s := fun x hx => hs x (by simp [hx])
      have hsl : s.length < l := by rw [← hl]; simp
      rw [List.cons_append, wildcardLoop, if_neg hc]
      by_cases hce : c = e
      · rw [if_pos (by simp [hce])]
        cases s with
        | nil => simp [wildcardLoop, subst, hce]
        | cons x xs =>
          have hx : x ≠ 0 := hs' x (by simp)
          have hxs : NoNul xs := fun y hy => hs' y (by simp [hy])
          rw [List.cons_append, wildcardLoop, if_neg hx]
          rw [if_neg (by simp), if_neg (by simp)]
          rw [emit_ov h]
          simp only [Option.bind_eq_bind, Option.bind_some]
          have := ih xs.length (by simp at hsl; omega) (p ++ [x]) xs hxs rfl
          rw [subst, if_pos hce]
          simpa using this
      · rw [if_neg (by simp [hce])]
        by_cases hcw : c = w
        · rw [if_pos (by simp [hcw])]
          rw [replLoop, copyLoop_spec h p repl rrest hr]
          simp only [Option.bind_eq_bind, Option.bind_some]
          have := ih s.length hsl (p ++ repl) s hs' rfl
          rw [subst_cons hce, if_pos hcw]
          rw [this]; simp
        · rw [if_neg (by simp [hcw])]
          rw [emit_ov h]
          simp only [Option.bind_eq_bind, Option.bind_some]
          have := ih s.length hsl (p ++ [c]) s hs' rfl
          rw [subst_cons hce, if_neg hcw]
          simpa using this

theorem length_spec (s rest : Mem) (hs : NoNul s) : length (s ++ 0 :: rest) = some s.length := by
  induction s with
  | nil => simp [length]
  | cons c s ih =>
    have hc : c ≠ 0 := hs c (by simp)
    have hs' : NoNul s := fun x hx => hs x (by simp [hx])
    simp [length, hc, ih hs']

/-! ### basename -/

theorem fileName_append (a : Mem) (c : Byte) :
    fileName (a ++ [c]) = if c = 47 ∨ c = 92 then [] else fileName a ++ [c] := by
  simp only [fileName, List.reverse_append, List.reverse_singleton, List.singleton_append, List.takeWhile_cons]
  by_cases h : c = 47 ∨ c = 92
  · rw [if_neg, if_pos h]; · simp
    · rcases h with h | h <;> simp [h]
  · rw [if_pos, if_neg h]; · simp
    · simpa [not_or] using h

theorem fileName_suffix (a : Mem) : a = a.take (a.length - (fileName a).length) ++ fileName a := by
  have : a.reverse = a.reverse.takeWhile (fun c => c ≠ 47 ∧ c ≠ 92) ++ a.reverse.dropWhile (fun c => c ≠ 47 ∧ c ≠ 92) :=
    (List.takeWhile_append_dropWhile).symm
  have h2 := congrArg List.reverse this
  rw [List.reverse_reverse, List.reverse_append] at h2
  have h3 : a = (a.reverse.dropWhile (fun c => c ≠ 47 ∧ c ≠ 92)).reverse ++ fileName a := h2
  have hl : a.length = (a.reverse.dropWhile (fun c => c ≠ 47 ∧ c ≠ 92)).reverse.length + (fileName a).length := by
    conv_lhs => rw [h3]
    simp
  conv_lhs => rw [h3]
  congr 1
  conv_rhs => rw [h3]
  rw [List.take_append_of_le_length (by rw [← h3]; omega), List.take_of_length_le (by rw [← h3]; omega)]

theorem fileName_le (a : Mem) : (fileName a).length ≤ a.length := by
  have := congrArg List.length (fileName_suffix a)
  simp at this; omega

theorem baseBeg_spec (p s rest : Mem) (hs : NoNul s) :
    baseBeg p.length (p.length - (fileName p).length) (s ++ 0 :: rest) =
      some ((p ++ s).length - (fileName (p ++ s)).length) := by
  induction s generalizing p with
  | nil => simp [baseBeg]
  | cons c s ih =>
    have hc : c ≠ 0 := hs c (by simp)
    have hs' : NoNul s := fun x hx => hs x (by simp [hx])
    simp only [List.cons_append, baseBeg, if_neg hc]
    have := ih (p ++ [c]) hs'
    have e : (if c = 92 ∨ c = 47 then p.length + 1 else p.length - (fileName p).length) =
        (p ++ [c]).length - (fileName (p ++ [c])).length := by
      rw [fileName_append]
      by_cases h : c = 47 ∨ c = 92
      · rw [if_pos h, if_pos h.symm]; simp
      · rw [if_neg h, if_neg (fun h' => h h'.symm)]; simp
    rw [e]
    simpa using this

theorem dropExt_append_ne (b : Mem) (c : Byte) (hc : c ≠ 46) (hb : (46 : UInt8) ∈ b) :
    dropExt (b ++ [c]) = dropExt b := by
  simp [dropExt, hb, hc]

theorem dropExt_append_dot (b : Mem) : dropExt (b ++ [46]) = b := by
  simp [dropExt]

theorem dropExt_none (b : Mem) (h : (46 : UInt8) ∉ b) : dropExt b = b := by simp [dropExt, h]

theorem dropExts_none (k : Nat) (b : Mem) (h : (46 : UInt8) ∉ b) : dropExts k b = b := by
  induction k with
  | zero => rfl
  | succ k ih => rw [dropExts, dropExt_none b h, ih]

theorem dropExt_stable (a t : Mem) (ht : (46 : UInt8) ∉ t) (ha : (46 : UInt8) ∈ a) : dropExt (a ++ t) = dropExt a := by
  induction t using List.reverseRecOn with
  | nil => simp
  | append_singleton t c ih =>
    simp only [List.mem_append, List.mem_singleton, not_or] at ht
    rw [← List.append_assoc, dropExt_append_ne _ _ (fun h => ht.2 h.symm) (by simp [ha]), ih ht.1]

/-- The extension loop: `b` is the file name, the first `j` of its characters remain to be scanned and what follows up to the
current end contains no dot. -/
theorem baseEnd_spec (pre b post : Mem) (k j e : Nat) (hj : j ≤ e) (he : e ≤ b.length)
    (hnd : (46 : UInt8) ∉ (b.take e).drop j) :
    ∃ e', baseEnd (pre ++ b ++ post) pre.length j k (pre.length + e) = some (pre.length + e') ∧ e' ≤ b.length ∧
      b.take e' = dropExts k (b.take e) := by
  induction j generalizing k e with
  | zero =>
    refine ⟨e, rfl, he, ?_⟩
    rw [dropExts_none _ _ (by simpa using hnd)]
  | succ j ih =>
    have hjb : j < b.length := by omega
    have hr : rd (pre ++ b ++ post) (pre.length + j) = some b[j] := by
      have hlt : pre.length + j < (pre ++ b ++ post).length := by simp; omega
      rw [rd_of_lt hlt]
      simp [hjb]
    rw [baseEnd, hr]
    simp only [Option.bind_eq_bind, Option.bind_some]
    have hsplit : b.take e = b.take (j + 1) ++ (b.take e).drop (j + 1) := by
      conv_lhs => rw [← List.take_append_drop (j + 1) (b.take e)]
      rw [List.take_take, Nat.min_eq_left hj]
    have hlast : b.take (j + 1) = b.take j ++ [b[j]] := List.take_succ_eq_append_getElem hjb
    by_cases hc : b[j] = 46 ∧ k > 0
    · rw [if_pos hc]
      obtain ⟨hc, hk⟩ := hc
      obtain ⟨k', rfl⟩ : ∃ k', k = k' + 1 := ⟨k - 1, by omega⟩
      have := ih k' j le_rfl (by omega) (by simp)
      obtain ⟨e', h1, h2, h3⟩ := this
      refine ⟨e', by simpa using h1, h2, ?_⟩
      rw [h3, dropExts]
      congr 1
      rw [hsplit, dropExt_stable _ _ hnd (by rw [hlast]; simp [hc]), hlast, hc, dropExt_append_dot]
    · rw [if_neg hc]
      by_cases hk : k = 0
      · subst hk
        have : ∀ j, j ≤ b.length → baseEnd (pre ++ b ++ post) pre.length j 0 (pre.length + e) = some (pre.length + e) := by
          intro j hj
          induction j with
          | zero => rfl
          | succ j ih2 =>
            have hr : rd (pre ++ b ++ post) (pre.length + j) = some b[j] := by
              have hlt : pre.length + j < (pre ++ b ++ post).length := by simp; omega
              rw [rd_of_lt hlt]
              simp [show j < b.length by omega]
            rw [baseEnd, hr]
            simp only [Option.bind_eq_bind, Option.bind_some]
            rw [if_neg (by simp)]
            exact ih2 (by omega)
        exact ⟨e, this j (by omega), he, rfl⟩
      · have hc' : b[j] ≠ 46 := fun h => hc ⟨h, by omega⟩
        refine ih k e (by omega) he ?_
        intro hm
        apply hnd
        have : (b.take e).drop j = b[j] :: (b.take e).drop (j + 1) := by
          rw [List.drop_eq_getElem_cons (by simp; omega)]
          simp
        rw [this] at hm
        rcases List.mem_cons.1 hm with h | h
        · exact absurd h.symm hc'
        · exact h


/-! ### Case-insensitive comparison -/

theorem tolower_eq_zero (c : UInt8) : tolower c = 0 ↔ c = 0 := by
  have h : ∀ n : Fin 256, tolower (UInt8.ofFin n) = 0 ↔ UInt8.ofFin n = 0 := by decide +kernel
  exact h c.toFin

theorem tolower_ne_zero {c : UInt8} (h : c ≠ 0) : tolower c ≠ 0 := fun h' => h ((tolower_eq_zero c).1 h')

theorem toNat_lt_sub (a b : UInt8) : ((a.toNat : Int) - (b.toNat : Int) < 0) ↔ a < b := by
  rw [UInt8.lt_iff_toNat_lt]; omega

theorem caseiCmp_spec (s t r r' : Mem) (hs : NoNul s) (ht : NoNul t) :
    ∃ v, caseiCmp (s ++ 0 :: r) (t ++ 0 :: r') = some v ∧ (v = 0 ↔ s.map tolower = t.map tolower) ∧
      (v < 0 ↔ s.map tolower < t.map tolower) := by
  induction s generalizing t with
  | nil =>
    cases t with
    | nil => exact ⟨0, by simp [caseiCmp], by simp, by simp⟩
    | cons c t =>
      have hc : tolower c ≠ 0 := tolower_ne_zero (ht c (by simp))
      have h0 : tolower 0 = 0 := rfl
      refine ⟨((tolower 0).toNat : Int) - ((tolower c).toNat : Int), ?_, ?_, ?_⟩
      · simp only [List.nil_append, List.cons_append, caseiCmp]
        rw [if_neg (by rw [h0]; exact Ne.symm hc)]
      · have : (tolower c).toNat ≠ 0 := fun h => hc (UInt8.toNat_inj.1 (by simpa using h))
        rw [h0]
        simp [this]
      · have : (tolower c).toNat ≠ 0 := fun h => hc (UInt8.toNat_inj.1 (by simpa using h))
        rw [h0]
        simp
        omega
  | cons a s ih =>
    have ha : tolower a ≠ 0 := tolower_ne_zero (hs a (by simp))
    have hs' : NoNul s := fun x hx => hs x (by simp [hx])
    have h0 : tolower 0 = 0 := rfl
    cases t with
    | nil =>
      have hane : (tolower a).toNat ≠ 0 := fun h => ha (UInt8.toNat_inj.1 (by simpa using h))
      refine ⟨((tolower a).toNat : Int) - ((tolower 0).toNat : Int), ?_, ?_, ?_⟩
      · simp only [List.nil_append, List.cons_append, caseiCmp]
        rw [if_neg (by rw [h0]; exact ha)]
      · rw [h0]; simp [hane]
      · rw [h0]; simp
    | cons b t =>
      have ht' : NoNul t := fun x hx => ht x (by simp [hx])
      have ha0 : a ≠ 0 := hs a (by simp)
      simp only [List.cons_append, caseiCmp]
      by_cases hab : tolower a = tolower b
      · rw [if_pos hab, if_neg ha0]
        obtain ⟨v, h1, h2, h3⟩ := ih t hs' ht'
        refine ⟨v, h1, ?_, ?_⟩
        · rw [h2]; simp [hab]
        · rw [h3]; simp [hab]
      · rw [if_neg hab]
        refine ⟨_, rfl, ?_, ?_⟩
        · simp only [List.map_cons, List.cons.injEq, hab, false_and, iff_false]
          intro h
          exact hab (UInt8.toNat_inj.1 (by omega))
        · rw [toNat_lt_sub]
          simp [List.cons_lt_cons_iff, hab]

/-! ### Protocols -/

theorem strstrSep_none (s r : Mem) (k : Nat) (hs : NoNul s) (h : ∀ p rest, s ≠ p ++ sep ++ rest) :
    strstrSep k (s ++ 0 :: r) = some none := by
  induction s generalizing k with
  | nil => simp [strstrSep]
  | cons c s ih =>
    have hs' : NoNul s := fun x hx => hs x (by simp [hx])
    have hc : c ≠ 0 := hs c (by simp)
    rw [List.cons_append, strstrSep, if_neg, if_neg hc]
    · refine ih _ hs' ?_
      intro p rest he
      exact h (c :: p) rest (by simp [he])
    · rintro ⟨rfl, h0, h1⟩
      cases s with
      | nil => simp at h0
      | cons x s =>
        cases s with
        | nil => simp at h1
        | cons y s =>
          simp at h0 h1
          exact h [] s (by simp [sep, h0, h1])

theorem strstrSep_found (p rest r : Mem) (k : Nat) (hs : NoNul p)
    (h : ∀ p' rest', p ++ sep ++ rest = p' ++ sep ++ rest' → p.length ≤ p'.length) :
    strstrSep k (p ++ sep ++ rest ++ 0 :: r) = some (some (k + p.length)) := by
  induction p generalizing k with
  | nil => simp [strstrSep, sep]
  | cons c p ih =>
    have hs' : NoNul p := fun x hx => hs x (by simp [hx])
    have hc : c ≠ 0 := hs c (by simp)
    simp only [List.cons_append]
    rw [strstrSep, if_neg, if_neg hc]
    · rw [ih (k + 1) hs']
      · simp; omega
      · intro p' rest' he
        have := h (c :: p') rest' (by simp at he; simp [he])
        simpa using this
    · rintro ⟨rfl, h0, h1⟩
      have hl : 2 ≤ (p ++ sep ++ rest).length := by simp [sep]; omega
      generalize hq : p ++ sep ++ rest = q at *
      match q, hl with
      | x :: y :: q, _ =>
        simp at h0 h1
        have := h [] q (by simp only [List.cons_append, hq]; simp [sep, h0, h1])
        simp at this

/-- `strncmp (s, lit, n) == 0` when `n` does not exceed the length of `s`. -/
theorem strnEq_spec (p q lit : Mem) (hp : NoNul p) (hl : NoNul lit) :
    strnEq p.length (p ++ q) (lit ++ [0]) = some (decide (p <+: lit)) := by
  induction p generalizing lit with
  | nil => simp [strnEq]
  | cons c p ih =>
    have hp' : NoNul p := fun x hx => hp x (by simp [hx])
    have hc : c ≠ 0 := hp c (by simp)
    cases lit with
    | nil => simp [strnEq, hc]
    | cons b lit =>
      have hl' : NoNul lit := fun x hx => hl x (by simp [hx])
      simp only [List.length_cons, List.cons_append, strnEq]
      by_cases hb : c = b
      · subst hb
        rw [if_pos rfl, if_neg hc, ih lit hp' hl']
        simp [List.cons_prefix_cons]
      · rw [if_neg hb]; simp [List.cons_prefix_cons, hb]

theorem strEq_spec (s t r r' : Mem) (hs : NoNul s) (ht : NoNul t) :
    strEq (s ++ 0 :: r) (t ++ 0 :: r') = some (decide (s = t)) := by
  induction s generalizing t with
  | nil =>
    cases t with
    | nil => simp [strEq]
    | cons c t =>
      have : (0 : UInt8) ≠ c := Ne.symm (ht c (by simp))
      simp [strEq, this]
  | cons a s ih =>
    have hs' : NoNul s := fun x hx => hs x (by simp [hx])
    have ha : a ≠ 0 := hs a (by simp)
    cases t with
    | nil => simp [strEq, ha]
    | cons b t =>
      have ht' : NoNul t := fun x hx => ht x (by simp [hx])
      simp only [List.cons_append, strEq]
      by_cases hb : a = b
      · subst hb; rw [if_pos rfl, if_neg ha, ih t hs' ht']; simp
      · rw [if_neg hb]; simp [hb]

end Verif.Strings
