import Verif.ForInt
import Mathlib.Algebra.Field.Rat
import Mathlib.Algebra.Order.Ring.Rat
import Mathlib.Algebra.Order.AbsoluteValue.Basic
import Mathlib.Algebra.BigOperators.Intervals

/-!
# Specification of the SIFT detector

A difference of Gaussians is a function `D t y x` of the level, the row and the column.
-/

namespace Verif.Sift

open Finset

/-- The difference of levels `t + 1` and `t` of an octave stored level by level, row by row. -/
def dogOf (octave : List ℚ) (w h : Nat) (t y x : Int) : ℚ :=
  octave.getD (x + w * y + w * h * (t + 1)).toNat 0 - octave.getD (x + w * y + w * h * t).toNat 0

/-- A value above `0.8 tp` that exceeds all other values in the cube around it, or below `-0.8 tp` and less than all. -/
def Extremum (D : Int → Int → Int → ℚ) (tp : ℚ) (t y x : Int) : Prop :=
  (8 / 10 * tp ≤ D t y x ∧ ∀ dt ∈ [-1, 0, 1], ∀ dy ∈ [-1, 0, 1], ∀ dx ∈ [-1, 0, 1], ¬ (dt = 0 ∧ dy = 0 ∧ dx = 0) → D (t + dt) (y + dy) (x + dx) < D t y x) ∨
  (D t y x ≤ - (8 / 10 * tp) ∧ ∀ dt ∈ [-1, 0, 1], ∀ dy ∈ [-1, 0, 1], ∀ dx ∈ [-1, 0, 1], ¬ (dt = 0 ∧ dy = 0 ∧ dx = 0) → D t y x < D (t + dt) (y + dy) (x + dx))

instance (D : Int → Int → Int → ℚ) (tp : ℚ) (t y x : Int) : Decidable (Extremum D tp t y x) := by unfold Extremum; infer_instance

/-- The extrema among the inner points of `L` levels, level by level, row by row. -/
def extrema (D : Int → Int → Int → ℚ) (tp : ℚ) (w h : Nat) (L : Int) : List (Int × Int × Int) :=
  (intRange 1 (L - 2)).flatMap fun t => (intRange 1 ((h : Int) - 2)).flatMap fun y => (intRange 1 ((w : Int) - 2)).flatMap fun x =>
    if Extremum D tp t y x then [(t, y, x)] else []

/-- The gradient by central differences, in the order column, row, level. -/
def grad (D : Int → Int → Int → ℚ) (t y x : Int) (i : Nat) : ℚ :=
  match i with
  | 0 => (D t y (x + 1) - D t y (x - 1)) / 2
  | 1 => (D t (y + 1) x - D t (y - 1) x) / 2
  | _ => (D (t + 1) y x - D (t - 1) y x) / 2

/-- The matrix of second differences. -/
def hess (D : Int → Int → Int → ℚ) (t y x : Int) (i j : Nat) : ℚ :=
  match i, j with
  | 0, 0 => D t y (x + 1) - 2 * D t y x + D t y (x - 1)
  | 1, 1 => D t (y + 1) x - 2 * D t y x + D t (y - 1) x
  | 2, 2 => D (t + 1) y x - 2 * D t y x + D (t - 1) y x
  | 0, 1 | 1, 0 => (D t (y + 1) (x + 1) - D t (y + 1) (x - 1) - D t (y - 1) (x + 1) + D t (y - 1) (x - 1)) / 4
  | 0, 2 | 2, 0 => (D (t + 1) y (x + 1) - D (t + 1) y (x - 1) - D (t - 1) y (x + 1) + D (t - 1) y (x - 1)) / 4
  | 1, 2 | 2, 1 => (D (t + 1) (y + 1) x - D (t + 1) (y - 1) x - D (t - 1) (y + 1) x + D (t - 1) (y - 1) x) / 4
  | _, _ => 0

/-- The vector to the stationary point of the quadratic with this gradient and these second differences; zero if the matrix is within `eps` of a singular one. -/
def IsOffset (eps : ℚ) (D : Int → Int → Int → ℚ) (t y x : Int) (b : Nat → ℚ) : Prop :=
  (∀ i < 3, ∑ k ∈ range 3, hess D t y x i k * b k = - grad D t y x i) ∨
  ((∀ i < 3, b i = 0) ∧ ∃ u : Nat → ℚ, (∃ k < 3, u k = 1) ∧ ∀ i < 3, |∑ k ∈ range 3, hess D t y x i k * u k| < eps)

/-- The move along one axis with `n` pixels: one pixel towards an offset beyond 0.6, if this stays off the border. -/
def moveOf (b : ℚ) (x : Int) (n : Nat) : Int :=
  if 6 / 10 < b ∧ x < (n : Int) - 2 then 1 else if b < - (6 / 10) ∧ 1 < x then -1 else 0

/-- At most `k` moves from `(y, x)` lead to `(y', x')`, where the offset is `b`. -/
inductive Walk (eps : ℚ) (D : Int → Int → Int → ℚ) (w h : Nat) (t : Int) : Nat → Int → Int → Int → Int → (Nat → ℚ) → Prop
  | stop (k : Nat) (y x : Int) (b : Nat → ℚ) : IsOffset eps D t y x b → (k = 0 ∨ (moveOf (b 0) x w = 0 ∧ moveOf (b 1) y h = 0)) → Walk eps D w h t k y x y x b
  | move (k : Nat) (y x : Int) (b : Nat → ℚ) (y' x' : Int) (b' : Nat → ℚ) : IsOffset eps D t y x b →
      ¬ (moveOf (b 0) x w = 0 ∧ moveOf (b 1) y h = 0) → Walk eps D w h t k (y + moveOf (b 1) y h) (x + moveOf (b 0) x w) y' x' b' → Walk eps D w h t (k + 1) y x y' x' b'

/-- A keypoint with offset `b` is kept: its peak value exceeds `tp`, it does not lie on an edge, its offset is below 1.5 on each axis and it lies in the octave. -/
def Accept (D : Int → Int → Int → ℚ) (te tp : ℚ) (w h : Nat) (L : Int) (t y x : Int) (b : Nat → ℚ) : Prop :=
  let tr := hess D t y x 0 0 + hess D t y x 1 1
  let det := hess D t y x 0 0 * hess D t y x 1 1 - hess D t y x 0 1 ^ 2
  tp < |D t y x + (∑ i ∈ range 3, grad D t y x i * b i) / 2| ∧
  (0 < det ∨ (tr = 0 ∧ det ≠ 0)) ∧ tr ^ 2 / det < (te + 1) ^ 2 / te ∧ (∀ i < 3, |b i| < 3 / 2) ∧
  0 ≤ x + b 0 ∧ x + b 0 ≤ w - 1 ∧ 0 ≤ y + b 1 ∧ y + b 1 ≤ h - 1 ∧ 0 ≤ t + b 2 ∧ t + b 2 ≤ L

end Verif.Sift
