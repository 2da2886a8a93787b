import Verif.Loop

/-!
# Loops that write each of a family of distinct addresses once
-/

namespace Verif

/-- A loop that writes the address `a k` in round `k`, the addresses being distinct and inside the array. -/
theorem scatter_spec {α : Type} (f : Nat → List α → Option (List α)) {n : Nat} {m : List α} (a : Nat → Nat) (V : Nat → α)
    (hin : ∀ k < n, a k < m.length) (hinj : ∀ k < n, ∀ k' < n, a k = a k' → k = k')
    (hf : ∀ k < n, ∀ m' : List α, m'.length = m.length → f k m' = wr m' (a k) (V k)) :
    ∃ m', iter n f m = some m' ∧ m'.length = m.length ∧ (∀ k < n, m'[a k]? = some (V k)) ∧
      ∀ q, (∀ k < n, a k ≠ q) → m'[q]? = m[q]? := by
  obtain ⟨m', h1, h2, h3, h4⟩ := iter_inv (n := n) (f := f) (s := m) (fun i (m' : List α) => m'.length = m.length ∧
      (∀ k < i, m'[a k]? = some (V k)) ∧ ∀ q, (∀ k < i, a k ≠ q) → m'[q]? = m[q]?) ⟨rfl, by simp, fun _ _ => rfl⟩ (by
    intro k hk m' ⟨q1, q2, q3⟩
    rw [hf k hk m' q1, wr_of_lt (by rw [q1]; exact hin k hk)]
    refine ⟨_, rfl, by simpa using q1, fun j hj => ?_, fun q hq => ?_⟩
    · by_cases e : j = k
      · rw [e, List.getElem?_set_self (by rw [q1]; exact hin k hk)]
      · have hn : a k ≠ a j := fun h => e (hinj j (by omega) k hk h.symm)
        rw [List.getElem?_set_ne hn]
        exact q2 j (by omega)
    · rw [List.getElem?_set_ne (hq k (by omega))]
      exact q3 q fun j hj => hq j (by omega))
  exact ⟨m', h1, h2, h3, h4⟩

end Verif
