import Mathlib.Algebra.BigOperators.Intervals
import Mathlib.Algebra.Order.Ring.Rat
import Mathlib.Algebra.Field.Rat
import Mathlib.Order.WithBot

/-!
# Specification of the descriptor matching
-/

namespace Verif.Ubc

/-- The squared distance of column `i` of `l1` and column `j` of `l2`. -/
def sqDist (l1 l2 : List ℚ) (ND i j : Nat) : ℚ := ∑ t ∈ Finset.range ND, (l1.getD (ND * i + t) 0 - l2.getD (ND * j + t) 0) ^ 2

/-- Column `j` of the second set, with `K2` columns, is the match of a point at distances `d` from them: it is the nearest one (the first of the nearest ones), and `thresh` times its distance is below
the distance of all the others; when there is no other it is below `maxval`. -/
def IsMatch (K2 : Nat) (d : Nat → ℚ) (thresh : ℚ) (maxval : WithTop ℚ) (j : Nat) : Prop :=
  j < K2 ∧ (∀ i < K2, d j ≤ d i) ∧ (∀ i < j, d j < d i) ∧ (∀ i < K2, i ≠ j → thresh * d j < d i) ∧ (K2 = 1 → ((thresh * d j : ℚ) : WithTop ℚ) < maxval)

end Verif.Ubc
