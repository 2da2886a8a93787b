import Verif.Qsort.Lemmas

/-! # Property C03: the generic quicksort sorts -/

namespace Verif.Qsort

variable {α : Type}

/-- C03: for every comparison that is the sign of a total preorder, and every array with at least `n ≥ 1` entries, sorting the
first `n` entries runs without out-of-bounds access within recursion depth `n`, yields these `n` entries rearranged in
non-decreasing order, and leaves the other entries alone. -/
theorem sort_correct {cmp : α → α → Int} (h : ThreeWay cmp) (a : List α) (n : Nat) (h1 : 1 ≤ n) (hn : n ≤ a.length) :
    ∃ a', sort cmp a n = some a' ∧ (a'.take n).Perm (a.take n) ∧
      (a'.take n).Pairwise (fun x y => cmp x y ≤ 0) ∧ a'.drop n = a.drop n := by
  obtain ⟨a', g1, g2, g3⟩ := sortRecursive_spec h n a 0 (n - 1) (by omega) (by omega) (by omega)
  have hd : a'.drop n = a.drop n := by
    apply List.ext_getElem?
    intro i
    rw [List.getElem?_drop, List.getElem?_drop, g2.out _ (by omega)]
  refine ⟨a', ?_, ?_, ?_, hd⟩
  · simp [sort, assert', h1, g1]
  · have hp := g2.perm
    rw [← List.take_append_drop n a', ← List.take_append_drop n a, hd] at hp
    exact (List.perm_append_right_iff _).1 hp
  · rw [List.pairwise_iff_getElem]
    intro i j hi hj hij
    have hl := g2.length
    simp only [List.length_take] at hi hj
    have := g3 i j (by omega) (by omega) (by omega)
    rw [List.getElem?_eq_getElem (by omega), List.getElem?_eq_getElem (by omega)] at this
    simpa [ole] using this

/-- C03 for a whole array. -/
theorem sort_whole {cmp : α → α → Int} (h : ThreeWay cmp) (a : List α) (ha : a ≠ []) :
    ∃ a', sort cmp a a.length = some a' ∧ a'.Perm a ∧ a'.Pairwise (fun x y => cmp x y ≤ 0) := by
  have hl : 1 ≤ a.length := List.length_pos_iff.2 ha
  obtain ⟨a', h1, h2, h3, h4⟩ := sort_correct h a a.length hl (Nat.le_refl _)
  have hlen : a'.length ≤ a.length := by
    have := congrArg List.length h4
    simp at this; omega
  rw [List.take_of_length_le hlen] at h2 h3
  rw [List.take_of_length_le (Nat.le_refl _)] at h2
  exact ⟨a', h1, h2, h3⟩

/-- An empty array violates the precondition asserted by the code. -/
theorem sort_empty (cmp : α → α → Int) (a : List α) : sort cmp a 0 = none := by simp [sort, assert']

/-- The hypotheses are met by a non-trivial case, with duplicates, sorting five of six entries. -/
example : (∃ a', sort (fun a b : Int => a - b) [3, 1, 3, -2, 0, 9] 5 = some a') ∧
    sort (fun a b : Int => a - b) [3, 1, 3, -2, 0, 9] 5 = some [-2, 0, 1, 3, 3, 9] :=
  ⟨(sort_correct threeWay_sub _ 5 (by decide) (by decide)).imp fun _ h => h.1, by decide +kernel⟩

end Verif.Qsort
