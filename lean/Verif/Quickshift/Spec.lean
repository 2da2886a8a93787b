import Mathlib.Algebra.BigOperators.Intervals
import Mathlib.Algebra.Order.Ring.Rat
import Mathlib.Algebra.Field.Rat
import Mathlib.Algebra.Order.Ring.Abs
import Mathlib.Order.WithBot

/-!
# Specification of quick shift

The pixel `i` of an image of `N1` rows is in row `i % N1` and column `i / N1`.
-/

namespace Verif.Quickshift

open Finset

/-- The squared distance of two pixels: positions and colours. -/
def pixDist (I : List ℚ) (N1 N2 K : Nat) (i j : Nat) : ℚ :=
  (((i % N1 : Nat) : ℚ) - (j % N1 : Nat)) ^ 2 + (((i / N1 : Nat) : ℚ) - (j / N1 : Nat)) ^ 2 + ∑ k ∈ range K, (I.getD (i + N1 * N2 * k) 0 - I.getD (j + N1 * N2 * k) 0) ^ 2

/-- The density of a pixel: the sum of `exp (- distance / 2 sigma ^ 2)` over the pixels that are at most `R` rows and columns away. -/
def parzen (ex : ℚ → ℚ) (I : List ℚ) (N1 N2 K : Nat) (sigma : ℚ) (R : Int) (i : Nat) : ℚ :=
  ∑ j2 ∈ range N2, ∑ j1 ∈ range N1, if |((i / N1 : Nat) : Int) - j2| ≤ R ∧ |((i % N1 : Nat) : Int) - j1| ≤ R then
    ex (- pixDist I N1 N2 K i (j1 + N1 * j2) / (2 * sigma ^ 2)) else 0

/-- `j` may be the parent of `i`: it has a higher density and it is at distance `tau` at most. -/
def Higher (E : Nat → ℚ) (D : Nat → Nat → ℚ) (tau : ℚ) (n i j : Nat) : Prop := j < n ∧ E i < E j ∧ D i j ≤ tau ^ 2

/-- The parent of `i` and its distance: the nearest pixel of higher density (the first of the nearest), or `i` itself, at infinite distance, if there is none. -/
def IsParent (sq : ℚ → ℚ) (E : Nat → ℚ) (D : Nat → Nat → ℚ) (tau : ℚ) (n i p : Nat) (d : WithTop ℚ) : Prop :=
  ((∀ j, ¬ Higher E D tau n i j) ∧ p = i ∧ d = ⊤) ∨
  (Higher E D tau n i p ∧ (∀ j, Higher E D tau n i j → D i p ≤ D i j) ∧ (∀ j, Higher E D tau n i j → D i j = D i p → p ≤ j) ∧ d = (sq (D i p) : ℚ))

end Verif.Quickshift
