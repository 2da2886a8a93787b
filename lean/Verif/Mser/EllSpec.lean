import Verif.Mser.Spec
import Mathlib.Algebra.BigOperators.Finprod
import Mathlib.Algebra.Order.Field.Rat

/-!
# Specification of the ellipsoids
-/

namespace Verif.Mser

open Verif.Erfill (coords)

/-- The coordinate `d` of the pixel `q`. -/
def coord (dims : List Nat) (d q : Nat) : ℚ := ((coords dims q).getD d 0 : ℕ)

/-- The mean of `h` over the pixels of the region `R`. -/
noncomputable def mean (R : Set Nat) (h : Nat → ℚ) : ℚ := (∑ᶠ q ∈ R, h q) / R.ncard

/-- The covariance of `h` and `h'` over the pixels of the region `R`. -/
noncomputable def covariance (R : Set Nat) (h h' : Nat → ℚ) : ℚ := mean R (fun q => h q * h' q) - mean R h * mean R h'

end Verif.Mser
