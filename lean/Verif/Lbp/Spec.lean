import Mathlib.Algebra.Order.Ring.Rat
import Mathlib.Algebra.Order.Group.Abs
import Mathlib.Algebra.BigOperators.Group.List.Basic
import Mathlib.Tactic.FieldSimp

/-!
# Specification of the LBP features
-/

namespace Verif.Lbp.Spec

/-- Bit `k` (modulo 8) of a pattern. -/
def bit (p k : Nat) : Bool := p.testBit (k % 8)

/-- Number of changes of value around the circle of 8 bits. -/
def transitions (p : Nat) : Nat := ((List.range 8).filter (fun k => bit p k != bit p (k + 1))).length

/-- Number of bits equal to one. -/
def ones (p : Nat) : Nat := ((List.range 8).filter (fun k => bit p k)).length

/-- The pattern seen in the transposed image: the east neighbour becomes the south one, and so on. -/
def transposePattern (p : Nat) : Nat :=
  ((List.range 8).map (fun k => if bit p (10 - k) then 2 ^ k else 0)).sum

/-- The eight neighbours of a pixel in the order of the bits, as displacements. -/
def neighbours : List (Int × Int) := [(1, 0), (1, 1), (0, 1), (-1, 1), (-1, 0), (-1, -1), (0, -1), (1, -1)]

/-- LBP pattern of the image `I` at `(x, y)`: bit `k` is set when the `k`-th neighbour is brighter. -/
def pattern (I : Int → Int → ℚ) (x y : Int) : Nat :=
  (neighbours.mapIdx (fun k d => if I (x + d.1) (y + d.2) > I x y then 2 ^ k else 0)).sum

/-- Hat function. -/
def hat (t : ℚ) : ℚ := max 0 (1 - |t|)

/-- Bilinear weight of pixel coordinate `x` in the cell of index `c` (cells of `cellSize` pixels, weights centred on cells). -/
def weight (cellSize : Nat) (x : Nat) (c : Nat) : ℚ := hat (((x : ℚ) + 1 / 2) / cellSize - 1 / 2 - c)

/-- Histogram entry for quantised pattern `k` of cell `(cx, cy)`: the sum over the interior pixels whose quantised pattern is
`k` of the bilinear weights. -/
def feature (quantise : Nat → Nat) (I : Int → Int → ℚ) (width height cellSize : Nat) (k cx cy : Nat) : ℚ :=
  (((List.range (height - 2)).map (fun (y' : Nat) => ((List.range (width - 2)).map (fun (x' : Nat) =>
    if quantise (pattern I ((x' : Int) + 1) ((y' : Int) + 1)) = k then weight cellSize (x' + 1) cx * weight cellSize (y' + 1) cy else 0)).sum)).sum)

end Verif.Lbp.Spec
