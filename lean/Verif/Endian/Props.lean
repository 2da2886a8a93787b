import Verif.Endian.Model
import Mathlib.Tactic.Linarith
import Mathlib.Tactic.Ring
import Mathlib.Data.List.Basic

/-!
# C14: byte-order conversion
-/

namespace Verif.Endian

/-! ## Specification -/

/-- The `n` bytes at offset `a`. -/
def bytes (mem : List UInt8) (a n : Nat) : List UInt8 := (mem.drop a).take n

/-- Value of a byte sequence, most significant byte first. -/
def bigEndianValue (l : List UInt8) : Nat := l.foldl (fun acc b => 256 * acc + b.toNat) 0

/-- Value of a byte sequence, least significant byte first. -/
def littleEndianValue : List UInt8 → Nat
  | [] => 0
  | b :: l => b.toNat + 256 * littleEndianValue l

/-- The value a word with these bytes has on the host. -/
def hostValue (big : Bool) (l : List UInt8) : Nat := if big then bigEndianValue l else littleEndianValue l

/-- The two `n`-byte buffers are inside the memory and do not overlap. -/
def Disjoint (mem : List UInt8) (dst src n : Nat) : Prop :=
  dst + n ≤ mem.length ∧ src + n ≤ mem.length ∧ (dst + n ≤ src ∨ src + n ≤ dst)

/-! ## Proofs -/

theorem assign_append (mem : List UInt8) (dst src : Nat) (p q : List (Nat × Nat)) :
    assign mem dst src (p ++ q) = (assign mem dst src p).bind (fun m => assign m dst src q) := by
  induction p generalizing mem with
  | nil => simp [assign]
  | cons x p ih =>
    obtain ⟨i, j⟩ := x
    simp only [List.cons_append, assign, Option.bind_eq_bind]
    cases rd mem (src + j) with
    | none => simp
    | some b =>
      simp only [Option.bind_some]
      cases wr mem (dst + i) b with
      | none => simp
      | some m => simp [ih]

/-- Assigning `dst[i] = src[f i]` for `i = 0, ..., k-1` between disjoint buffers. -/
theorem assign_map (mem : List UInt8) (dst src n k : Nat) (f : Nat → Nat) (h : Disjoint mem dst src n) (hk : k ≤ n)
    (hf : ∀ i < n, f i < n) :
    ∃ m, assign mem dst src ((List.range k).map (fun i => (i, f i))) = some m ∧ m.length = mem.length ∧
      (∀ i < k, m[dst + i]? = mem[src + f i]?) ∧ (∀ a, (a < dst ∨ dst + k ≤ a) → m[a]? = mem[a]?) := by
  obtain ⟨h1, h2, h3⟩ := h
  induction k with
  | zero => exact ⟨mem, by simp [assign], rfl, by simp, by simp⟩
  | succ k ih =>
    obtain ⟨m, a1, a2, a3, a4⟩ := ih (by omega)
    have hfk := hf k (by omega)
    have hsrc : src + f k < m.length := by omega
    have hdst : dst + k < m.length := by omega
    refine ⟨m.set (dst + k) m[src + f k], ?_, by simp [a2], ?_, ?_⟩
    · rw [List.range_succ, List.map_append, assign_append, a1]
      simp only [Option.bind_some, List.map_cons, List.map_nil, assign]
      rw [rd_of_lt hsrc]
      simp only [Option.bind_eq_bind, Option.bind_some]
      rw [wr_of_lt hdst]; rfl
    · intro i hi
      rcases Nat.lt_succ_iff_lt_or_eq.1 hi with hi' | rfl
      · rw [List.getElem?_set_ne (by omega), a3 i hi']
      · rw [List.getElem?_set_self hdst, ← a4 (src + f i) (by omega), List.getElem?_eq_getElem hsrc]
    · intro a ha
      rw [List.getElem?_set_ne (by omega), a4 a (by omega)]

theorem bytes_getElem? (mem : List UInt8) (a n i : Nat) : (bytes mem a n)[i]? = if i < n then mem[a + i]? else none := by
  simp only [bytes, List.getElem?_take, List.getElem?_drop]

theorem bytes_length (mem : List UInt8) (a n : Nat) (h : a + n ≤ mem.length) : (bytes mem a n).length = n := by
  simp [bytes]; omega

/-- Effect of an `n`-byte swap on disjoint buffers. -/
def SwapEffect (swap : Bool → List UInt8 → Nat → Nat → Option (List UInt8)) (n : Nat) : Prop :=
  ∀ (big : Bool) (mem : List UInt8) (dst src : Nat), Disjoint mem dst src n →
    ∃ m, swap big mem dst src = some m ∧ m.length = mem.length ∧
      bytes m dst n = (if big then bytes mem src n else (bytes mem src n).reverse) ∧
      (∀ a, (a < dst ∨ dst + n ≤ a) → m[a]? = mem[a]?)

theorem swapEffect_of (n : Nat) (swap : Bool → List UInt8 → Nat → Nat → Option (List UInt8))
    (hb : ∀ mem dst src, swap true mem dst src = assign mem dst src ((List.range n).map (fun i => (i, i))))
    (hl : ∀ mem dst src, swap false mem dst src = assign mem dst src ((List.range n).map (fun i => (i, n - 1 - i)))) :
    SwapEffect swap n := by
  intro big mem dst src h
  cases big with
  | true =>
    obtain ⟨m, a1, a2, a3, a4⟩ := assign_map mem dst src n n (fun i => i) h le_rfl (by simp)
    refine ⟨m, by rw [hb, a1], a2, ?_, a4⟩
    apply List.ext_getElem?
    intro i
    simp only [bytes_getElem?, if_true]
    by_cases hi : i < n
    · rw [if_pos hi, if_pos hi, a3 i hi]
    · rw [if_neg hi, if_neg hi]
  | false =>
    obtain ⟨m, a1, a2, a3, a4⟩ := assign_map mem dst src n n (fun i => n - 1 - i) h le_rfl (by intro i hi; omega)
    refine ⟨m, by rw [hl, a1], a2, ?_, a4⟩
    have hlen := bytes_length mem src n h.2.1
    apply List.ext_getElem?
    intro i
    simp only [Bool.false_eq_true, if_false]
    by_cases hi : i < n
    · rw [bytes_getElem?, if_pos hi, a3 i hi, List.getElem?_reverse (by omega), hlen, bytes_getElem?, if_pos (by omega)]
    · rw [bytes_getElem?, if_neg hi, List.getElem?_eq_none (by simp; omega)]

/-- C14, 8 bytes: into a disjoint buffer, the bytes are reversed on a little-endian host and copied on a big-endian one; nothing
else in memory changes. -/
theorem swap8_effect : SwapEffect swap8 8 :=
  swapEffect_of 8 swap8 (fun _ _ _ => rfl) (fun _ _ _ => rfl)

/-- C14, 4 bytes. -/
theorem swap4_effect : SwapEffect swap4 4 :=
  swapEffect_of 4 swap4 (fun _ _ _ => rfl) (fun _ _ _ => rfl)

/-- C14, 2 bytes. -/
theorem swap2_effect : SwapEffect swap2 2 :=
  swapEffect_of 2 swap2 (fun _ _ _ => rfl) (fun _ _ _ => rfl)

theorem little_append (l : List UInt8) (b : UInt8) :
    littleEndianValue (l ++ [b]) = littleEndianValue l + 256 ^ l.length * b.toNat := by
  induction l with
  | nil => simp [littleEndianValue]
  | cons c l ih => simp only [List.cons_append, littleEndianValue, ih, List.length_cons, pow_succ]; ring

theorem big_foldl (l : List UInt8) (a : Nat) :
    l.foldl (fun acc b => 256 * acc + b.toNat) a = 256 ^ l.length * a + bigEndianValue l := by
  induction l generalizing a with
  | nil => simp [bigEndianValue]
  | cons c l ih =>
    simp only [bigEndianValue, List.foldl_cons, List.length_cons]
    rw [ih, ih (256 * 0 + c.toNat)]
    ring

theorem big_reverse (l : List UInt8) : bigEndianValue l.reverse = littleEndianValue l := by
  induction l with
  | nil => rfl
  | cons c l ih =>
    rw [List.reverse_cons, bigEndianValue, List.foldl_append]
    simp only [List.foldl_cons, List.foldl_nil]
    rw [big_foldl, ih, littleEndianValue]
    ring

/-- C14: whatever the host, the value of the source word on the host is the big-endian value of the destination bytes, i.e. the
bytes written are in network order. -/
theorem swap_big_endian_on_wire (swap : Bool → List UInt8 → Nat → Nat → Option (List UInt8)) (n : Nat)
    (hs : SwapEffect swap n) (big : Bool) (mem : List UInt8) (dst src : Nat) (h : Disjoint mem dst src n) :
    ∃ m, swap big mem dst src = some m ∧ bigEndianValue (bytes m dst n) = hostValue big (bytes mem src n) := by
  obtain ⟨m, a1, _, a3, _⟩ := hs big mem dst src h
  refine ⟨m, a1, ?_⟩
  rw [a3]
  cases big
  · simp [hostValue, big_reverse]
  · simp [hostValue]

/-- C14: converting to network order and back yields the original bytes. -/
theorem swap_roundtrip (swap : Bool → List UInt8 → Nat → Nat → Option (List UInt8)) (n : Nat)
    (hs : SwapEffect swap n) (big : Bool) (mem : List UInt8) (tmp src dst : Nat)
    (h1 : Disjoint mem tmp src n) (h2 : Disjoint mem dst tmp n) :
    ∃ m m', swap big mem tmp src = some m ∧ swap big m dst tmp = some m' ∧ bytes m' dst n = bytes mem src n := by
  obtain ⟨m, a1, a2, a3, a4⟩ := hs big mem tmp src h1
  obtain ⟨m', b1, b2, b3, b4⟩ := hs big m dst tmp (by simpa [Disjoint, a2] using h2)
  refine ⟨m, m', a1, b1, ?_⟩
  rw [b3, a3]
  cases big <;> simp

/-- C14, instances of the round trip for the three functions. -/
theorem swap_roundtrip_all (big : Bool) (mem : List UInt8) (tmp src dst : Nat) :
    (Disjoint mem tmp src 8 → Disjoint mem dst tmp 8 →
      ∃ m m', swap8 big mem tmp src = some m ∧ swap8 big m dst tmp = some m' ∧ bytes m' dst 8 = bytes mem src 8) ∧
    (Disjoint mem tmp src 4 → Disjoint mem dst tmp 4 →
      ∃ m m', swap4 big mem tmp src = some m ∧ swap4 big m dst tmp = some m' ∧ bytes m' dst 4 = bytes mem src 4) ∧
    (Disjoint mem tmp src 2 → Disjoint mem dst tmp 2 →
      ∃ m m', swap2 big mem tmp src = some m ∧ swap2 big m dst tmp = some m' ∧ bytes m' dst 2 = bytes mem src 2) :=
  ⟨swap_roundtrip _ _ swap8_effect big mem tmp src dst, swap_roundtrip _ _ swap4_effect big mem tmp src dst,
    swap_roundtrip _ _ swap2_effect big mem tmp src dst⟩

/-- C14, in-place use is refuted: on a little-endian host the second half of the word is overwritten before it is read, so with
`dst = src` the word becomes a palindrome instead of being reversed, and two swaps do not restore it. -/
theorem swap_in_place_corrupts :
    swap8 false [1, 2, 3, 4, 5, 6, 7, 8] 0 0 = some [8, 7, 6, 5, 5, 6, 7, 8] ∧
    swap4 false [1, 2, 3, 4] 0 0 = some [4, 3, 3, 4] ∧
    swap2 false [1, 2] 0 0 = some [2, 2] := by decide +kernel

/-- C14, in-place use: the second half is always lost, whatever the word. -/
theorem swap2_in_place_loses (a b : UInt8) : swap2 false [a, b] 0 0 = some [b, b] := rfl

example : Disjoint [1, 2, 3, 4, 0, 0, 0, 0] 4 0 4 := by unfold Disjoint; decide
example : swap4 false [1, 2, 3, 4, 0, 0, 0, 0] 4 0 = some [1, 2, 3, 4, 4, 3, 2, 1] := by decide +kernel

end Verif.Endian
