import Mathlib.Analysis.SpecialFunctions.Pow.Real
import Mathlib.Analysis.SpecialFunctions.Sqrt
import Mathlib.Algebra.BigOperators.Group.Finset.Basic

/-!
# Specification of the Gaussian scale space of SIFT

Images are functions of the row and the column.
-/

namespace Verif.Sift

open Finset

/-- The nearest index below `n`. -/
def nearest (n : Nat) (p : Int) : Nat := (max 0 (min p ((n : Int) - 1))).toNat

/-- Sample of the Gaussian of standard deviation `σ`, up to a factor. -/
noncomputable def bellAt (σ : ℝ) (d : Int) : ℝ := Real.exp (-((d : ℝ) ^ 2) / (2 * σ ^ 2))

/-- The filter extends to four standard deviations, and at least to the neighbours. -/
noncomputable def reach (σ : ℝ) : Nat := max ⌈4 * σ⌉.toNat 1

/-- The weights are divided by their sum. -/
noncomputable def unitBell (σ : ℝ) (d : Int) : ℝ := bellAt σ d / ∑ j ∈ range (2 * reach σ + 1), bellAt σ ((j : Int) - reach σ)

/-- An image of `w` columns and `h` rows, extended by the nearest pixel, smoothed by a Gaussian. -/
noncomputable def blur (σ : ℝ) (w h : Nat) (A : Nat → Nat → ℝ) (y x : Nat) : ℝ :=
  ∑ a ∈ range (2 * reach σ + 1), ∑ b ∈ range (2 * reach σ + 1), unitBell σ ((a : Int) - reach σ) * unitBell σ ((b : Int) - reach σ) *
    A (nearest h ((y : Int) - ((a : Int) - reach σ))) (nearest w ((x : Int) - ((b : Int) - reach σ)))

/-- Scale of level `i` of an octave, in pixels of this octave: 1.6 at the first, doubled after `S` levels. -/
noncomputable def scaleOf (S : Nat) (i : Nat) : ℝ := 1.6 * 2 ^ ((i : ℝ) / S)

/-- Level `i` of an octave: each level is obtained from the one before, to which it adds what is missing to its scale. -/
noncomputable def levelOf (S w h : Nat) (base : Nat → Nat → ℝ) : Nat → Nat → Nat → ℝ
  | 0 => base
  | i + 1 => blur (√(scaleOf S (i + 1) ^ 2 - scaleOf S i ^ 2)) w h (levelOf S w h base i)

/-- The side of an image in octave `o`: halved `o` times, or doubled `- o` times. -/
def sideIn (n : Nat) (o : Int) : Nat := if o ≤ 0 then n * 2 ^ (-o).toNat else n / 2 ^ o.toNat

/-- The first level of the first octave: the image is assumed to have a scale of half a pixel; `res` is the image resampled. -/
noncomputable def firstBase (S : Nat) (oMin : Int) (w h : Nat) (res : Nat → Nat → ℝ) : Nat → Nat → ℝ :=
  if 0.5 * 2 ^ (-oMin) < scaleOf S 0 then blur (√(scaleOf S 0 ^ 2 - (0.5 * 2 ^ (-oMin)) ^ 2)) w h res else res

/-- Level `i` of the octave number `k` after the first: the first level has every second pixel of level `S` of the octave before. -/
noncomputable def octaveLevel (S : Nat) (oMin : Int) (w h : Nat) (res : Nat → Nat → ℝ) : Nat → Nat → Nat → Nat → ℝ
  | 0 => levelOf S (sideIn w oMin) (sideIn h oMin) (firstBase S oMin (sideIn w oMin) (sideIn h oMin) res)
  | k + 1 => levelOf S (sideIn w (oMin + (k + 1))) (sideIn h (oMin + (k + 1))) fun y x => octaveLevel S oMin w h res k S (2 * y) (2 * x)

end Verif.Sift
