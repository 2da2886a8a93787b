import Verif.Generic.Model
import Mathlib.Algebra.BigOperators.Group.List.Basic
import Mathlib.Tactic.Linarith

/-!
# Types and numeric arrays
-/

namespace Verif.Generic

/-! ## C65 -/

/-- The size in bytes of the C type of each constant. -/
def sizeSpec : Ty → Nat
  | .float => 4 | .double => 8 | .int8 => 1 | .uint8 => 1 | .int16 => 2 | .uint16 => 2 | .int32 => 4 | .uint32 => 4
  | .int64 => 8 | .uint64 => 8

/-- The name of each type. -/
def nameSpec : Ty → String
  | .float => "float" | .double => "double" | .int8 => "int8" | .uint8 => "uint8" | .int16 => "int16" | .uint16 => "uint16"
  | .int32 => "int32" | .uint32 => "uint32" | .int64 => "int64" | .uint64 => "uint64"

/-- The claim on the names. -/
def NameClaim : Prop := ∀ t : Ty, typeName t.value = some (nameSpec t)

/-- **C65** fails: the unsigned types have the names of the signed ones. -/
theorem typeName_unsigned : typeName Ty.uint8.value = typeName Ty.int8.value ∧ typeName Ty.uint16.value = typeName Ty.int16.value ∧
    typeName Ty.uint32.value = typeName Ty.int32.value ∧ typeName Ty.uint64.value = typeName Ty.int64.value := by decide

theorem typeName_claim_false : ¬ NameClaim := fun h => by
  have := h .uint8
  exact absurd this (by decide)

/-- **C65**, what holds: for every value, the size is that of the type it stands for and the function aborts on all the other values; the
names of the signed and floating point types are right, and no name is returned for other values. -/
theorem types_partial (n : Nat) :
    (∀ t : Ty, t.value = n → typeSize n = some (sizeSpec t)) ∧
    (∀ t : Ty, t.value = n → nameSpec t ∈ ["float", "double", "int8", "int16", "int32", "int64"] → typeName n = some (nameSpec t)) ∧
    ((¬ ∃ t : Ty, t.value = n) → typeSize n = none ∧ typeName n = none) := by
  refine ⟨?_, ?_, fun h => ?_⟩
  · rintro t rfl; cases t <;> rfl
  · rintro t rfl ht; cases t <;> first | rfl | (exact absurd ht (by decide))
  · have hn : ∀ t : Ty, n ≠ t.value := fun t e => h ⟨t, e.symm⟩
    have h1 := hn .float; have h2 := hn .double; have h3 := hn .int8; have h4 := hn .uint8; have h5 := hn .int16
    have h6 := hn .uint16; have h7 := hn .int32; have h8 := hn .uint32; have h9 := hn .int64; have h10 := hn .uint64
    simp only [Ty.value] at h1 h2 h3 h4 h5 h6 h7 h8 h9 h10
    unfold typeSize typeName
    constructor <;> split <;> first | rfl | (exact absurd rfl ‹_›)

/-! ## C64 -/

theorem numElements_mod {dims : List Nat} {n : Nat} (h : n ≤ dims.length) (hn : n ≠ 0) :
    numElements dims n = some ((dims.take n).prod % 2 ^ 64) := by
  unfold numElements
  rw [if_neg hn]
  obtain ⟨m, e1, e2⟩ := iter_inv (n := n) (f := fun k (m : Nat) => do
      let d ← rd dims k
      some (mulSize m d)) (s := 1) (fun k m => m = (dims.take k).prod % 2 ^ 64) (by simp) (by
    intro k hk m hm
    have hk' : k < dims.length := by omega
    rw [rd_of_lt hk']
    refine ⟨_, rfl, ?_⟩
    rw [hm, mulSize, List.take_succ_eq_append_getElem hk', List.prod_append, List.prod_singleton, Nat.mod_mul_mod])
  rw [e1, e2]

theorem copyDims_spec {src dst : List Nat} {n : Nat} (hs : n ≤ src.length) (hd : n ≤ dst.length) :
    copyDims src n dst = some (src.take n ++ dst.drop n) := by
  unfold copyDims
  obtain ⟨d, e1, e2⟩ := iter_inv (n := n) (f := fun k (dst : List Nat) => do
      let d ← rd src k
      wr dst k d) (s := dst) (fun k d => d = src.take k ++ dst.drop k) (by simp) (by
    intro k hk d hd'
    have hk' : k < src.length := by omega
    rw [rd_of_lt hk']
    simp only [Option.bind_eq_bind, Option.bind_some]
    have hlen : k < d.length := by rw [hd']; simp; omega
    refine ⟨_, wr_of_lt hlen _, ?_⟩
    subst hd'
    have hk'' : k < dst.length := by omega
    rw [List.drop_eq_getElem_cons hk'', List.set_append_right _ _ (by simp), List.length_take,
      Nat.min_eq_left (by omega), Nat.sub_self, List.set_cons_zero, List.take_succ_eq_append_getElem hk', List.append_assoc]
    rfl)
  rw [e1, e2]

/-- **C64**: the number of elements is the product of the dimensions, whenever that product is a `vl_size`, and zero without dimensions. -/
theorem numElements_correct {dims : List Nat} {n : Nat} (h : n ≤ dims.length) :
    (n = 0 → numElements dims n = some 0) ∧
    (n ≠ 0 → (dims.take n).prod < 2 ^ 64 → numElements dims n = some (dims.take n).prod) := by
  refine ⟨fun e => by unfold numElements; rw [if_pos e], fun hn hp => ?_⟩
  rw [numElements_mod h hn, Nat.mod_eq_of_lt hp]

/-- **C64**: a new array keeps the dimensions it is created with, and its block has room for all its elements, if their total size is
a `vl_size`. -/
theorem arrayInit_correct {g dims : List Nat} {t : Ty} (hg : g.length = 16) (hd : dims.length ≤ 16) (h0 : dims ≠ [])
    (hp : sizeSpec t * dims.prod < 2 ^ 64) :
    ∃ a, arrayInit g t.value dims.length dims = some a ∧ a.dimensions.take a.numDimensions = dims ∧
      numElements a.dimensions a.numDimensions = some dims.prod ∧ a.bytes = sizeSpec t * dims.prod ∧ a.isEnvelope = false := by
  have hn : dims.length ≠ 0 := fun e => h0 (List.length_eq_zero_iff.1 e)
  have hs := (types_partial t.value).1 t rfl
  have hpos : 1 ≤ sizeSpec t := by cases t <;> decide
  have hp' : dims.prod < 2 ^ 64 := Nat.lt_of_le_of_lt (Nat.le_mul_of_pos_left _ hpos) hp
  have htk : (dims ++ List.drop dims.length g).take dims.length = dims := by simp
  have hne : numElements (dims ++ List.drop dims.length g) dims.length = some dims.prod := by
    have := (numElements_correct (dims := dims ++ List.drop dims.length g) (n := dims.length) (by simp)).2 hn
    rw [htk] at this
    exact this hp'
  unfold arrayInit
  have ha : assert' (decide (dims.length ≤ 16)) = some () := by unfold assert'; rw [if_pos (by simpa using hd)]
  rw [ha, copyDims_spec (Nat.le_refl _) (by omega), List.take_length]
  simp only [Option.bind_eq_bind, Option.bind_some]
  rw [hne, Option.bind_some, hs, Option.bind_some]
  exact ⟨_, rfl, htk, hne, by simp only [mulSize]; exact Nat.mod_eq_of_lt hp, rfl⟩

/-- Why the condition is needed: the product wraps. -/
theorem numElements_wraps : numElements [2 ^ 32, 2 ^ 32] 2 = some 0 := by decide +kernel

example : numElements [3, 4, 5] 3 = some 60 := by decide

end Verif.Generic
