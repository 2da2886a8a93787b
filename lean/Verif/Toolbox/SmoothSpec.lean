import Verif.Toolbox.SmoothModel
import Mathlib.Algebra.BigOperators.Group.Finset.Basic
import Mathlib.Algebra.Order.Group.Unbundled.Int

/-!
# Specification of image smoothing

From the documentation of `vl_imsmooth`.
-/

namespace Verif.Toolbox

open Finset

variable {K : Type} [Field K]

/-- An image of `M` rows and `N` columns extended to the plane with zeros or with the nearest pixel. -/
def extend (zeropad : Bool) (A : Nat → Nat → K) (M N : Nat) (y x : Int) : K :=
  if 0 ≤ y ∧ y < M ∧ 0 ≤ x ∧ x < N then A y.toNat x.toNat
  else if zeropad then 0 else A (max 0 (min y (M - 1))).toNat (max 0 (min x (N - 1))).toNat

/-- The kernels have unit mass: samples of the Gaussian divided by their sum, the triangle of `2 W - 1` samples divided by `W ^ 2`. -/
def Kern.weight : Kern K → Int → K
  | .gaussian g W, d => g d / ∑ j ∈ range (2 * W + 1), g ((j : Int) - W)
  | .triangular W, d => ((W : K) - (d.natAbs : K)) / ((W : K) * W)

/-- The kernel has `2 r + 1` samples. -/
def Kern.radius : Kern K → Nat
  | .gaussian _ W => W
  | .triangular W => W - 1

/-- Convolution with the product of two kernels, at a pixel. -/
def smoothed (w : Int → K) (r : Nat) (I : Int → Int → K) (y x : Int) : K :=
  ∑ a ∈ range (2 * r + 1), ∑ b ∈ range (2 * r + 1), w ((a : Int) - r) * w ((b : Int) - r) * I (y - ((a : Int) - r)) (x - ((b : Int) - r))

/-- Pixel of a channel of an array of MATLAB, column by column. -/
def chanPixel (image : List K) (M N c y x : Nat) : K := image.getD (M * N * c + M * x + y) 0

end Verif.Toolbox
