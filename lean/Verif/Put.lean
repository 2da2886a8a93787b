import Verif.Loop

/-!
# Writing the elements of a table to given addresses of a block
-/

namespace Verif

variable {α : Type}

/-- The block `l` is `l0` with the values `v i j` stored at the addresses `addr i j` for the pairs in `S`. -/
structure Put (l0 l : List α) (addr : Nat → Nat → Nat) (v : Nat → Nat → α) (S : Nat → Nat → Prop) : Prop where
  len : l.length = l0.length
  get : ∀ i j, S i j → l[addr i j]? = some (v i j)
  rest : ∀ q, (∀ i j, S i j → addr i j ≠ q) → l[q]? = l0[q]?

namespace Put

variable {l0 l : List α} {addr : Nat → Nat → Nat} {v : Nat → Nat → α} {S S' : Nat → Nat → Prop}

theorem start (l0 : List α) (addr : Nat → Nat → Nat) (v : Nat → Nat → α) (h : ∀ i j, ¬ S i j) : Put l0 l0 addr v S :=
  ⟨rfl, fun i j hs => absurd hs (h i j), fun _ _ => rfl⟩

/-- One more element is stored: the pairs are then `S'`, that has `S`, the new pair and no other. -/
theorem wr (h : Put l0 l addr v S) {i j : Nat} (hb : addr i j < l0.length) (hS : ∀ i' j', S' i' j' ↔ S i' j' ∨ (i' = i ∧ j' = j)) (hinj : ∀ i' j', S i' j' → addr i' j' = addr i j → i' = i ∧ j' = j) :
    ∃ l', Verif.wr l (addr i j) (v i j) = some l' ∧ Put l0 l' addr v S' := by
  refine ⟨_, wr_of_lt (by rw [h.len]; omega) _, by simp [h.len], ?_, ?_⟩
  · intro i' j' hs
    rw [List.getElem?_set]
    by_cases e : addr i j = addr i' j'
    · rw [if_pos e, if_pos (by rw [h.len]; omega)]
      rcases (hS i' j').1 hs with h1 | ⟨rfl, rfl⟩
      · obtain ⟨rfl, rfl⟩ := hinj i' j' h1 e.symm
        rfl
      · rfl
    · rw [if_neg e]
      rcases (hS i' j').1 hs with h1 | ⟨rfl, rfl⟩
      · exact h.get i' j' h1
      · exact absurd rfl e
  · intro q hq
    rw [List.getElem?_set, if_neg (hq i j ((hS i j).2 (Or.inr ⟨rfl, rfl⟩)))]
    exact h.rest q fun i' j' hs => hq i' j' ((hS i' j').2 (Or.inl hs))

theorem congr (h : Put l0 l addr v S) (hS : ∀ i j, S i j ↔ S' i j) : Put l0 l addr v S' :=
  ⟨h.len, fun i j hs => h.get i j ((hS i j).2 hs), fun q hq => h.rest q fun i j hs => hq i j ((hS i j).1 hs)⟩

end Put

end Verif
