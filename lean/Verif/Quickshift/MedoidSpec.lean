import Verif.Quickshift.Spec

/-!
# Specification of medoid shift

The pixel `i` of an image of `N1` rows is in row `i % N1` and column `i / N1`.
-/

namespace Verif.Quickshift

open Finset

/-- The coordinates of a pixel: row, column and colours. -/
def coord (I : List ℚ) (N1 N2 : Nat) : Nat → Nat → ℚ
  | 0, j => ((j % N1 : Nat) : ℚ)
  | 1, j => ((j / N1 : Nat) : ℚ)
  | t + 2, j => I.getD (j + N1 * N2 * t) 0

/-- At most `R` rows and columns away. -/
def Near (N1 : Nat) (R : Int) (i j : Nat) : Prop := |((i / N1 : Nat) : Int) - (j / N1 : Nat)| ≤ R ∧ |((i % N1 : Nat) : Int) - (j % N1 : Nat)| ≤ R

instance (N1 : Nat) (R : Int) (i j : Nat) : Decidable (Near N1 R i j) := by unfold Near; infer_instance

/-- The weight of the pixel `k` for the pixel `i`: `exp (- distance / 2 sigma ^ 2)` in the window, zero outside. -/
def weight (ex : ℚ → ℚ) (I : List ℚ) (N1 N2 K : Nat) (sigma : ℚ) (R : Int) (i k : Nat) : ℚ :=
  if Near N1 R i k then ex (- pixDist I N1 N2 K i k / (2 * sigma ^ 2)) else 0

/-- What a medoid minimises: the weighted sum of the squared distances of `j` to the pixels around `i`. -/
def scatter (ex : ℚ → ℚ) (I : List ℚ) (N1 N2 K : Nat) (sigma : ℚ) (R : Int) (i j : Nat) : ℚ :=
  ∑ k ∈ range (N1 * N2), weight ex I N1 N2 K sigma R i k * pixDist I N1 N2 K j k

/-- The weighted sum of the squared norms of the pixels around `i`: the scatter of the origin. -/
def energy (ex : ℚ → ℚ) (I : List ℚ) (N1 N2 K : Nat) (sigma : ℚ) (R : Int) (i : Nat) : ℚ :=
  ∑ k ∈ range (N1 * N2), weight ex I N1 N2 K sigma R i k * ∑ t ∈ range (K + 2), coord I N1 N2 t k ^ 2

/-- The medoid of the window of `i`, the first of the best. -/
def IsMedoid (S : Nat → ℚ) (near : Nat → Prop) (n p : Nat) : Prop :=
  p < n ∧ near p ∧ (∀ j < n, near j → S p ≤ S j) ∧ ∀ j < n, near j → S j = S p → p ≤ j

end Verif.Quickshift
