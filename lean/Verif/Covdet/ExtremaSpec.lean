import Verif.Covdet.Spec
import Verif.ForInt
import Mathlib.Algebra.BigOperators.Intervals

/-!
# What the detection should find

A map is a function `D z y x` of the level, the row and the column; a map in the plane is one that does not depend on the level and `dim` is then 2 instead of 3.
-/

namespace Verif.Covdet

open Finset

variable {K : Type} [Field K] [LinearOrder K]

/-- The displacements along the levels -/
def levelsAround (dim : Nat) : List Int := if dim = 3 then [-1, 0, 1] else [0]

/-- A value of at least `thr` that exceeds all other values around it, or of at most `-thr` and less than all. -/
def Extremum (dim : Nat) (D : Int → Int → Int → K) (thr : K) (z y x : Int) : Prop :=
  (thr ≤ D z y x ∧ ∀ dz ∈ levelsAround dim, ∀ dy ∈ [-1, 0, 1], ∀ dx ∈ [-1, 0, 1], ¬ (dz = 0 ∧ dy = 0 ∧ dx = 0) → D (z + dz) (y + dy) (x + dx) < D z y x) ∨
  (D z y x ≤ - thr ∧ ∀ dz ∈ levelsAround dim, ∀ dy ∈ [-1, 0, 1], ∀ dx ∈ [-1, 0, 1], ¬ (dz = 0 ∧ dy = 0 ∧ dx = 0) → D z y x < D (z + dz) (y + dy) (x + dx))

instance (dim : Nat) (D : Int → Int → Int → K) (thr : K) (z y x : Int) : Decidable (Extremum dim D thr z y x) := by unfold Extremum; infer_instance

/-- The extrema of level `z` off the border, row by row. -/
def extremaAt (dim : Nat) (D : Int → Int → Int → K) (thr : K) (w h : Nat) (z : Int) : List (Int × Int × Int) :=
  (intRange 1 ((h : Int) - 2)).flatMap fun y => (intRange 1 ((w : Int) - 2)).flatMap fun x => if Extremum dim D thr z y x then [(z, y, x)] else []

/-- The extrema among the inner points of `depth` levels, level by level. -/
def extremaAll (D : Int → Int → Int → K) (thr : K) (w h depth : Nat) : List (Int × Int × Int) :=
  (intRange 1 ((depth : Int) - 2)).flatMap fun z => extremaAt 3 D thr w h z

/-- The gradient by central differences, in the order column, row, level. -/
def grad (D : Int → Int → Int → K) (z y x : Int) (i : Nat) : K :=
  match i with
  | 0 => (D z y (x + 1) - D z y (x - 1)) / 2
  | 1 => (D z (y + 1) x - D z (y - 1) x) / 2
  | _ => (D (z + 1) y x - D (z - 1) y x) / 2

/-- The matrix of second differences. -/
def hess (D : Int → Int → Int → K) (z y x : Int) (i j : Nat) : K :=
  match i, j with
  | 0, 0 => D z y (x + 1) - 2 * D z y x + D z y (x - 1)
  | 1, 1 => D z (y + 1) x - 2 * D z y x + D z (y - 1) x
  | 2, 2 => D (z + 1) y x - 2 * D z y x + D (z - 1) y x
  | 0, 1 | 1, 0 => (D z (y + 1) (x + 1) - D z (y + 1) (x - 1) - D z (y - 1) (x + 1) + D z (y - 1) (x - 1)) / 4
  | 0, 2 | 2, 0 => (D (z + 1) y (x + 1) - D (z + 1) y (x - 1) - D (z - 1) y (x + 1) + D (z - 1) y (x - 1)) / 4
  | 1, 2 | 2, 1 => (D (z + 1) (y + 1) x - D (z + 1) (y - 1) x - D (z - 1) (y + 1) x + D (z - 1) (y - 1) x) / 4
  | _, _ => 0

/-- `b` is the only stationary point, relative to `(x, y, z)`, of the quadratic with this gradient and these second differences. -/
def IsOffset (dim : Nat) (D : Int → Int → Int → K) (z y x : Int) (b : Nat → K) : Prop :=
  ∀ u : Nat → K, (∀ i < dim, ∑ k ∈ range dim, hess D z y x i k * u k = - grad D z y x i) ↔ ∀ i < dim, u i = b i

/-- The matrix of second differences sends a vector that has an entry one to less than `tau` in all entries. -/
def NearlySingular (tau : K) (dim : Nat) (D : Int → Int → Int → K) (z y x : Int) : Prop :=
  ∃ u : Nat → K, (∃ k < dim, u k = 1) ∧ ∀ i < dim, |∑ k ∈ range dim, hess D z y x i k * u k| < tau

/-- The move along one axis with `n` pixels: one pixel towards an offset beyond 0.6, if this stays off the border. -/
def moveOf (b : K) (x : Int) (n : Nat) : Int :=
  if 6 / 10 < b ∧ x < (n : Int) - 2 then 1 else if b < - (6 / 10) ∧ 1 < x then -1 else 0

/-- At most `k` moves from `(y, x)` lead to `(y', x')`, where the offset is `b`, or where it cannot be found. -/
inductive Walk (tau : K) (dim : Nat) (D : Int → Int → Int → K) (w h : Nat) (z : Int) : Nat → Int → Int → Int → Int → Option (Nat → K) → Prop
  | stop (k : Nat) (y x : Int) (b : Nat → K) : IsOffset dim D z y x b → (k = 0 ∨ (moveOf (b 0) x w = 0 ∧ moveOf (b 1) y h = 0)) → Walk tau dim D w h z k y x y x (some b)
  | fail (k : Nat) (y x : Int) : NearlySingular tau dim D z y x → Walk tau dim D w h z k y x y x none
  | move (k : Nat) (y x : Int) (b : Nat → K) (y' x' : Int) (r : Option (Nat → K)) : IsOffset dim D z y x b →
      ¬ (moveOf (b 0) x w = 0 ∧ moveOf (b 1) y h = 0) → Walk tau dim D w h z k (y + moveOf (b 1) y h) (x + moveOf (b 0) x w) y' x' r → Walk tau dim D w h z (k + 1) y x y' x' r

/-- The trace and the determinant of the second differences in the plane -/
def tr2 (D : Int → Int → Int → K) (z y x : Int) : K := hess D z y x 0 0 + hess D z y x 1 1
def det2 (D : Int → Int → Int → K) (z y x : Int) : K := hess D z y x 0 0 * hess D z y x 1 1 - hess D z y x 0 1 ^ 2

/-- The edge score: the ratio of the larger to the smaller eigenvalue of the second differences in the plane, that is the number `e ≥ 1` with `(e + 1)² / e = trace² / determinant`; infinite for a saddle and for a degenerate point, except that a saddle of zero trace gets `-1`. -/
def IsEdge (D : Int → Int → Int → K) (z y x : Int) (e : WithTop K) : Prop :=
  (det2 D z y x = 0 ∧ e = ⊤) ∨ (det2 D z y x < 0 ∧ tr2 D z y x ≠ 0 ∧ e = ⊤) ∨ (det2 D z y x < 0 ∧ tr2 D z y x = 0 ∧ e = ((-1 : K) : WithTop K)) ∨
  (0 < det2 D z y x ∧ ∃ r : K, e = (r : WithTop K) ∧ 1 ≤ r ∧ (r + 1) ^ 2 * det2 D z y x = tr2 D z y x ^ 2 * r)

/-- The value at the stationary point -/
def peakAt (dim : Nat) (D : Int → Int → Int → K) (z y x : Int) (b : Nat → K) : K := D z y x + (∑ i ∈ range dim, grad D z y x i * b i) / 2

/-- The refined position is within 1.5 of the pixel on each axis and lies in the map, which has `depth` levels. -/
def Stable (dim : Nat) (w h depth : Nat) (z y x : Int) (b : Nat → K) : Prop :=
  (∀ i < dim, |b i| < 3 / 2) ∧ 0 ≤ (x : K) + b 0 ∧ (x : K) + b 0 ≤ (w : K) - 1 ∧ 0 ≤ (y : K) + b 1 ∧ (y : K) + b 1 ≤ (h : K) - 1 ∧
    (dim = 3 → 0 ≤ (z : K) + b 2 ∧ (z : K) + b 2 ≤ (depth : K) - 1)

/-- The feature at a refined extremum -/
def featureAt (dim : Nat) (D : Int → Int → Int → K) (step : K) (sig : K → K) (z y x : Int) (b : Nat → K) (e : K) : Feature K :=
  let s := if dim = 3 then sig (z + b 2) else sig z
  ⟨⟨(x + b 0) * step, (y + b 1) * step, s, 0, 0, s⟩, peakAt dim D z y x b, e, 0, 0⟩

/-- What becomes of the extremum at `(z, y, x)`: it is walked to a near pixel, and gives a feature there if it is stable, its peak exceeds `peak` and its edge score is below `edge`; else it gives none. -/
def Outcome (tau : K) (dim : Nat) (D : Int → Int → Int → K) (w h depth : Nat) (peak edge step : K) (sig : K → K) (p : Int × Int × Int) (f : Option (Feature K)) : Prop :=
  ∃ y' x' r e, Walk tau dim D w h p.1 4 p.2.1 p.2.2 y' x' r ∧ IsEdge D p.1 y' x' e ∧
    match r with
    | none => f = none
    | some b => (Stable dim w h depth p.1 y' x' b ∧ peak < |peakAt dim D p.1 y' x' b| ∧ e < (edge : WithTop K) ∧ f = some (featureAt dim D step sig p.1 y' x' b (e.untopD 0))) ∨
        (¬ (Stable dim w h depth p.1 y' x' b ∧ peak < |peakAt dim D p.1 y' x' b| ∧ e < (edge : WithTop K)) ∧ f = none)

end Verif.Covdet
