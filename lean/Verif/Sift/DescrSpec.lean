import Verif.Sift.OrientSpec
import Mathlib.Algebra.Order.Round

/-!
# Specification of the descriptor of a SIFT keypoint
-/

namespace Verif.Sift

open Finset

/-- The distance of two positions on a circle of length 8. -/
def circDist (s t : ℚ) : ℚ := |(s - t) - 8 * (round ((s - t) / 8) : ℚ)|

/-- The position of the pixel `(u, v)` in the frame of the keypoint at `(x, y)`, in spatial bins of size `sbp`. -/
def frameX (ct0 st0 sbp x y : ℚ) (v u : Nat) : ℚ := (ct0 * (u - x) + st0 * (v - y)) / sbp
def frameY (ct0 st0 sbp x y : ℚ) (v u : Nat) : ℚ := (ct0 * (v - y) - st0 * (u - x)) / sbp

/-- What the pixel `(u, v)` adds to the bin `(bx, by', bt)`: its magnitude, times the weight of the window, times the three triangles.  The bins have their centres
at -3/2, -1/2, 1/2 and 3/2, those of the angles at the multiples of an eighth of a turn. -/
def descrTerm (twoPi : ℚ) (tab grad : List ℚ) (st0 ct0 angle0 sbp wsigma : ℚ) (w h lvl : Nat) (x y : ℚ) (by' bx bt v u : Nat) : ℚ :=
  gradMod grad w h lvl v u *
    expn tab ((frameX ct0 st0 sbp x y v u ^ 2 + frameY ct0 st0 sbp x y v u ^ 2) / (2 * wsigma ^ 2)) *
    tri (frameX ct0 st0 sbp x y v u - (bx - 3 / 2)) * tri (frameY ct0 st0 sbp x y v u - (by' - 3 / 2)) *
    max 0 (1 - circDist (8 * (gradAng grad w h lvl v u - angle0) / twoPi) bt)

/-- The histogram: the sum over the pixels of the window of half width `W` around `(xi, yi)`, without the `mg` outermost rows and columns. -/
def descrSum (twoPi : ℚ) (tab grad : List ℚ) (st0 ct0 angle0 sbp wsigma : ℚ) (w h lvl mg : Nat) (xi yi W : Int) (x y : ℚ) (by' bx bt : Nat) : ℚ :=
  ∑ v ∈ range h, if |(v : Int) - yi| ≤ W ∧ mg ≤ v ∧ v + mg < h then
    ∑ u ∈ range w, if |(u : Int) - xi| ≤ W ∧ mg ≤ u ∧ u + mg < w then
      descrTerm twoPi tab grad st0 ct0 angle0 sbp wsigma w h lvl x y by' bx bt v u else 0 else 0

/-- Division by the norm, made positive by `eps`. -/
def unit (sq : ℚ → ℚ) (eps : ℚ) (n : Nat) (f : Nat → ℚ) (i : Nat) : ℚ := f i / (sq (∑ j ∈ range n, f j ^ 2) + eps)

/-- Normalised, cut at 0.2 and normalised again, unless the norm is below the threshold. -/
def descrFinal (sq : ℚ → ℚ) (eps thr bound : ℚ) (n : Nat) (f : Nat → ℚ) (i : Nat) : ℚ :=
  if thr ≠ 0 ∧ sq (∑ j ∈ range n, f j ^ 2) + eps < bound then 0
  else unit sq eps n (fun j => min (unit sq eps n f j) (2 / 10)) i

/-- The level of the scale space next to `phi`, in the whole list of the levels from octave `oMin`, `O` octaves of `S` levels each. -/
def nearestLevel (oMin O S : Int) (phi : ℚ) : Int := max (oMin * S) (min ((oMin + O) * S - 1) ⌊(S : ℚ) * phi + 1 / 2⌋)

end Verif.Sift
