import Mathlib.Algebra.Order.Floor.Ring
import Mathlib.Data.Rat.Floor
import Mathlib.Algebra.Field.Rat
import Mathlib.Algebra.Order.Ring.Rat
import Mathlib.Algebra.BigOperators.Intervals

/-!
# Specification of the orientations of a SIFT keypoint
-/

namespace Verif.Sift

open Finset

/-- Bin `i` is a peak. -/
def IsPeak (n : Nat) (f : Nat → ℚ) (m : ℚ) (i : Nat) : Prop :=
  f i > 8 / 10 * m ∧ f i > f ((i + n - 1) % n) ∧ f i > f ((i + 1) % n)

instance (n : Nat) (f : Nat → ℚ) (m : ℚ) (i : Nat) : Decidable (IsPeak n f m i) := by unfold IsPeak; infer_instance

/-- The position of the top of the parabola through bin `i` and the two next to it, as an angle. -/
def peakAngle (twoPi : ℚ) (n : Nat) (f : Nat → ℚ) (i : Nat) : ℚ :=
  twoPi * ((i : ℚ) + - (1 / 2) * (f ((i + 1) % n) - f ((i + n - 1) % n)) / (f ((i + 1) % n) + f ((i + n - 1) % n) - 2 * f i) + 1 / 2) / n

/-- Linear interpolation in the table of the exponential. -/
def expn (tab : List ℚ) (x : ℚ) : ℚ :=
  if x > 25 then 0
  else (1 - (x * (256 / 25) - ⌊x * (256 / 25)⌋)) * tab.getD ⌊x * (256 / 25)⌋.toNat 0 +
    (x * (256 / 25) - ⌊x * (256 / 25)⌋) * tab.getD (⌊x * (256 / 25)⌋.toNat + 1) 0

/-- The triangle of half width one. -/
def tri (z : ℚ) : ℚ := max 0 (1 - |z|)

/-- The share of bin `b` of 36 on a circle, for a point at `fb`. -/
def share (fb : ℚ) (b : Nat) : ℚ := tri (fb - (b + 1 / 2)) + tri (fb - (b + 1 / 2) - 36) + tri (fb - (b + 1 / 2) + 36)

/-- The magnitude of the gradient at pixel `(u, v)` of level `lvl`. -/
def gradMod (grad : List ℚ) (w h lvl v u : Nat) : ℚ := grad.getD (2 * ((lvl * h + v) * w + u)) 0

/-- The angle of the gradient at pixel `(u, v)` of level `lvl`. -/
def gradAng (grad : List ℚ) (w h lvl v u : Nat) : ℚ := grad.getD (2 * ((lvl * h + v) * w + u) + 1) 0

/-- What the pixel `(u, v)` adds to bin `b`. -/
def orientTerm (twoPi : ℚ) (tab grad : List ℚ) (w h lvl : Nat) (W : Int) (x y sigmaw : ℚ) (b v u : Nat) : ℚ :=
  if ((u : ℚ) - x) * (u - x) + (v - y) * (v - y) < W * W + 6 / 10 then
    gradMod grad w h lvl v u * expn tab ((((u : ℚ) - x) * (u - x) + (v - y) * (v - y)) / (2 * sigmaw * sigmaw)) *
      share (36 * gradAng grad w h lvl v u / twoPi) b
  else 0

/-- A buffer of gradients with angles between 0 and 2π in `L` levels of `w` by `h` pixels, a table of 257 entries, and a keypoint such that no pixel is at the end of the
table. -/
structure OrientOk (twoPi : ℚ) (tab grad : List ℚ) (w h L lvl : Nat) (x y sigmaw : ℚ) : Prop where
  pi : 0 < twoPi
  tabLen : tab.length = 257
  gradLen : grad.length = 2 * (w * h * L)
  level : lvl < L
  ang : ∀ v < h, ∀ u < w, 0 ≤ gradAng grad w h lvl v u ∧ gradAng grad w h lvl v u ≤ twoPi
  table : ∀ v < h, ∀ u < w, (((u : ℚ) - x) * (u - x) + (v - y) * (v - y)) / (2 * sigmaw * sigmaw) ≠ 25

/-- The histogram: every pixel of the window around `(xi, yi)` adds its magnitude, weighted, to the two bins next to its angle. -/
def orientHistSpec (twoPi : ℚ) (tab grad : List ℚ) (w h lvl : Nat) (xi yi W : Int) (x y sigmaw : ℚ) (b : Nat) : ℚ :=
  ∑ v ∈ range h, if |(v : Int) - yi| ≤ W then
    ∑ u ∈ range w, if |(u : Int) - xi| ≤ W then orientTerm twoPi tab grad w h lvl W x y sigmaw b v u else 0 else 0

/-- The mean of three bins next to each other on a circle of `n`. -/
def mean3 (n : Nat) (f : Nat → ℚ) (i : Nat) : ℚ := (f ((i + n - 1) % n) + f i + f ((i + 1) % n)) / 3

end Verif.Sift
