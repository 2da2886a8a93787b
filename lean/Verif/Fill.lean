import Verif.Flat

/-!
# Filling a matrix at the start of a block in any order
-/

namespace Verif

variable {α : Type}

/-- The block `l` has the length of `l0`; its first `n * m` elements are a matrix that holds the values `v` on the set `S`; the others are those of `l0`. -/
structure Filled (l0 l : List α) (n m : Nat) (v : Nat → Nat → α) (S : Nat → Nat → Prop) : Prop where
  len : l.length = l0.length
  get : ∀ i < n, ∀ j < m, S i j → l[i * m + j]? = some (v i j)
  rest : ∀ q, n * m ≤ q → l[q]? = l0[q]?

namespace Filled

variable {l0 l : List α} {n m : Nat} {v : Nat → Nat → α} {S : Nat → Nat → Prop}

theorem start (l0 : List α) (n m : Nat) (v : Nat → Nat → α) {S : Nat → Nat → Prop} (h : ∀ i < n, ∀ j < m, ¬ S i j) : Filled l0 l0 n m v S :=
  ⟨rfl, fun i hi j hj hs => absurd hs (h i hi j hj), fun _ _ => rfl⟩

theorem wr (h : Filled l0 l n m v S) (hl : n * m ≤ l0.length) {i j : Nat} (hi : i < n) (hj : j < m) {S' : Nat → Nat → Prop}
    (hS : ∀ i' < n, ∀ j' < m, S' i' j' → S i' j' ∨ (i' = i ∧ j' = j)) : ∃ l', Verif.wr l (i * m + j) (v i j) = some l' ∧ Filled l0 l' n m v S' := by
  have ha := Flat.addr_lt hi hj
  refine ⟨_, wr_of_lt (by rw [h.len]; omega) _, by simp [h.len], ?_, ?_⟩
  · intro i' hi' j' hj' hs
    rw [List.getElem?_set]
    by_cases e : i * m + j = i' * m + j'
    · obtain ⟨rfl, rfl⟩ := Flat.addr_inj hj hj' e
      rw [if_pos rfl, if_pos (by rw [h.len]; omega)]
    · rw [if_neg e]
      rcases hS i' hi' j' hj' hs with h1 | ⟨rfl, rfl⟩
      · exact h.get i' hi' j' hj' h1
      · exact absurd rfl e
  · intro q hq
    rw [List.getElem?_set, if_neg (by omega)]
    exact h.rest q hq

theorem mono (h : Filled l0 l n m v S) {S' : Nat → Nat → Prop} (hS : ∀ i < n, ∀ j < m, S' i j → S i j) : Filled l0 l n m v S' :=
  ⟨h.len, fun i hi j hj hs => h.get i hi j hj (hS i hi j hj hs), h.rest⟩

end Filled

end Verif
