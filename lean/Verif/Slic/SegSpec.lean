import Mathlib.Algebra.BigOperators.Intervals
import Mathlib.Algebra.Order.Floor.Ring
import Mathlib.Data.Rat.Floor
import Mathlib.Algebra.Order.Ring.Rat
import Mathlib.Algebra.Field.Rat
import Mathlib.Algebra.Order.Ring.Abs

/-!
# Specification of the k-means part of SLIC

The pixel `p` of an image of width `w` is in column `p % w` and row `p / w`.  The grid has `⌈w / rs⌉` columns and `⌈h / rs⌉` rows of regions; the region
`r` is in column `r % ⌈w / rs⌉` and row `r / ⌈w / rs⌉`.  The centre of the region `r` is the vector of the entries `(2 + K) * r` to `(2 + K) * (r + 1) - 1`.
-/

namespace Verif.Slic

open Finset

/-- The features of a pixel: its column, its row and its colours. -/
def feat (I : List ℚ) (w h : Nat) (p : Nat) : Nat → ℚ
  | 0 => ((p % w : Nat) : ℚ)
  | 1 => ((p / w : Nat) : ℚ)
  | k + 2 => I.getD (p + k * w * h) 0

/-- The distance of the pixel `p` to the centre of `r`: squared colour difference plus `factor` times squared distance. -/
def dist (I : List ℚ) (w h K : Nat) (factor : ℚ) (C : List ℚ) (p r : Nat) : ℚ :=
  ∑ k ∈ range K, (feat I w h p (k + 2) - C.getD ((2 + K) * r + (k + 2)) 0) ^ 2 +
    factor * ((feat I w h p 0 - C.getD ((2 + K) * r) 0) ^ 2 + (feat I w h p 1 - C.getD ((2 + K) * r + 1) 0) ^ 2)

/-- The number of columns or rows of the grid. -/
def gridSize (size rs : Nat) : Nat := (size + rs - 1) / rs

/-- The middle of the cell `u` of the grid is at most a cell away from the position `x`. -/
def Near (rs x u : Nat) : Prop := - (rs : ℚ) ≤ x - rs * ((u : ℚ) + 1 / 2) ∧ x - rs * ((u : ℚ) + 1 / 2) < (rs : ℚ)

/-- The regions compared for the pixel `p`. -/
def Cand (w h rs p r : Nat) : Prop :=
  r < gridSize w rs * gridSize h rs ∧ Near rs (p % w) (r % gridSize w rs) ∧ Near rs (p / w) (r / gridSize w rs)

/-- `r` is the nearest of the regions compared for `p`, the first one if there are several. -/
def IsNearest (w h rs : Nat) (D : Nat → Nat → ℚ) (p r : Nat) : Prop :=
  Cand w h rs p r ∧ (∀ r', Cand w h rs p r' → D p r ≤ D p r') ∧ ∀ r', Cand w h rs p r' → D p r' = D p r → r ≤ r'

/-- The number of pixels of a region. -/
def mass (n : Nat) (seg : List Nat) (r : Nat) : Nat := ((range n).filter (fun p => seg.getD p 0 = r)).card

/-- The squared strength of the gradient at the pixel `p`: central differences, zero on the border. -/
def edge (I : List ℚ) (w h K p : Nat) : ℚ :=
  if 1 ≤ p % w ∧ p % w + 1 < w ∧ 1 ≤ p / w ∧ p / w + 1 < h then
    ∑ k ∈ range K, ((I.getD (p - 1 + k * w * h) 0 - I.getD (p + 1 + k * w * h) 0) ^ 2 + (I.getD (p + w + k * w * h) 0 - I.getD (p - w + k * w * h) 0) ^ 2)
  else 0

/-- The middle of the cell `u` rounded to a pixel (halves up), the last pixel if it is outside. -/
def gridPos (size rs u : Nat) : Nat := min ((2 * rs * u + rs + 1) / 2) (size - 1)

/-- The pixel `p` is one of the nine around (or at) the middle of the cell of the region `r`. -/
def Around (w h rs r p : Nat) : Prop :=
  p < w * h ∧ |((p % w : Nat) : Int) - gridPos w rs (r % gridSize w rs)| ≤ 1 ∧ |((p / w : Nat) : Int) - gridPos h rs (r / gridSize w rs)| ≤ 1

/-- `p` is the pixel of weakest gradient around the middle of the cell, the first one if there are several. -/
def IsSeed (I : List ℚ) (w h K rs r p : Nat) : Prop :=
  Around w h rs r p ∧ (∀ q, Around w h rs r q → edge I w h K p ≤ edge I w h K q) ∧ ∀ q, Around w h rs r q → edge I w h K q = edge I w h K p → p ≤ q

end Verif.Slic
