import Mathlib.Analysis.Real.Sqrt
import Mathlib.Analysis.SpecialFunctions.Log.Base
import Verif.Mathop.CompareModel

/-!
# Specification of the comparisons of vectors, from the table at vl/mathop.c:40-124

For each comparison, what one pair of components contributes.  A quotient by zero, that only arises for two null
components, stands for zero.
-/

namespace Verif.Mathop

/-- The contribution of one pair of components of two histograms.  The table gives twice the value for the Hellinger kernel, see `HellingerTableClaim`, and does not give the base of the logarithm of the Jensen-Shannon distance. -/
noncomputable def term : Cmp → ℝ → ℝ → ℝ
  | .distL1, x, y => |x - y|
  | .distL2, x, y => (x - y) ^ 2
  | .distChi2, x, y => (x - y) ^ 2 / (x + y)
  | .distHellinger, x, y => (√x - √y) ^ 2
  | .distJS, x, y => x * Real.logb 2 (2 * x / (x + y)) + y * Real.logb 2 (2 * y / (x + y))
  | .kernL1, x, y => min x y
  | .kernL2, x, y => x * y
  | .kernChi2, x, y => 2 * (x * y / (x + y))
  | .kernHellinger, x, y => √(x * y)
  | .kernJS, x, y => x / 2 * Real.logb 2 ((x + y) / x) + y / 2 * Real.logb 2 ((x + y) / y)

/-- The functions of the C library on the real numbers -/
noncomputable def realLibm : Libm ℝ where
  sqrt x := if 0 ≤ x then some √x else none
  log2 x := if 0 < x then some (Real.logb 2 x) else none

/-- The first `n` components of the block are the numbers `x 0`, `x 1`, ... -/
def Holds (n : Nat) (X : List ℝ) (x : Nat → ℝ) : Prop := ∀ i < n, X[i]? = some (x i)

/-- The distances with the kernel of the same name -/
inductive Pair : Cmp → Cmp → Prop
  | l1 : Pair .distL1 .kernL1
  | l2 : Pair .distL2 .kernL2
  | chi2 : Pair .distChi2 .kernChi2
  | hellinger : Pair .distHellinger .kernHellinger
  | js : Pair .distJS .kernJS

end Verif.Mathop
