import Verif.Hog.PermModel
import Mathlib.Algebra.BigOperators.Group.Finset.Basic
import Mathlib.Data.Rat.Floor
import Mathlib.Algebra.Order.Floor.Ring

/-!
# Specification of the HOG features
-/

namespace Verif.Hog

/-- Weight of linear interpolation at distance `t` from a node, nodes being at unit distance. -/
def tent (t : ℚ) : ℚ := max 0 (1 - |t|)

/-- Position of pixel `x` on the axis where the centre of cell `n` of `c` pixels is at `n`. -/
def pos (c x : Nat) : ℚ := (x + 1 / 2) / c - 1 / 2

/-- Number of cells of `c` pixels along a side of `n` pixels: as many as possible, the last one at least half contained (up to one pixel when `c` is odd). -/
def cells (c n : Nat) : Nat := (n + c / 2) / c

/-- Weight given to cell `(X, Y)` by pixel `(x, y)`. -/
def share (c x y X Y : Nat) : ℚ := tent (pos c x - X) * tent (pos c y - Y)

/-- Value of channel `k` of an image at `(x, y)`. -/
def pix (im : List ℚ) (W H k x y : Nat) : ℚ := im.getD (x + y * W + k * (W * H)) 0

/-- Central differences of channel `k` at `(x, y)`. -/
def grad (im : List ℚ) (W H k x y : Nat) : ℚ × ℚ :=
  (pix im W H k (x + 1) y - pix im W H k (x - 1) y, pix im W H k x (y + 1) - pix im W H k x (y - 1))

/-- Squared norm. -/
def norm2 (g : ℚ × ℚ) : ℚ := g.1 ^ 2 + g.2 ^ 2

/-- `g` is the gradient of the channel of largest gradient at `(x, y)`, the first of them if there are several. -/
def LargestGradient (im : List ℚ) (W H C x y : Nat) (g : ℚ × ℚ) : Prop :=
  (C = 0 ∧ g = (0, 0)) ∨ ∃ k < C, g = grad im W H k x y ∧ (∀ j < C, norm2 (grad im W H j x y) ≤ norm2 g) ∧ ∀ j < k, norm2 (grad im W H j x y) < norm2 g

/-- Scalar product of a gradient with direction `k`. -/
def score (ox oy : List ℚ) (g : ℚ × ℚ) (k : Nat) : ℚ := g.1 * ox.getD k 0 + g.2 * oy.getD k 0

/-- `k` is the direction closest to the gradient, regardless of sign, among those of the set `S`; the first of them if there are several. -/
def Closest (s : Nat → ℚ) (S : Nat → Prop) (k : Nat) : Prop := S k ∧ (∀ j, S j → |s j| ≤ |s k|) ∧ ∀ j, S j → j < k → |s j| < |s k|

/-- The directed orientation of direction `k`: the opposite one has number `k + O`. -/
def directedBin (O : Nat) (s : Nat → ℚ) (k : Nat) : Nat := if s k < 0 then k + O else k

/-- Hard assignment: all the weight to the closest orientation. -/
def HardWeights (O : Nat) (s : Nat → ℚ) (ow : Nat → ℚ) : Prop :=
  ∃ k, Closest s (· < O) k ∧ ∀ p, ow p = if p = directedBin O s k then 1 else 0

/-- Soft assignment: `1 - t` to the closest orientation and `t` to the second closest one, where `t` is the angle to the closest one, in units of the angle between two orientations. -/
def SoftWeights (O : Nat) (s : Nat → ℚ) (t : ℚ → ℚ) (ow : Nat → ℚ) : Prop :=
  ∃ k, Closest s (· < O) k ∧
    ((O = 1 ∧ ∀ p, ow p = if p = directedBin O s k then 1 - t |s k| else 0) ∨
     ∃ l, Closest s (fun j => j < O ∧ j ≠ k) l ∧
       ∀ p, ow p = (if p = directedBin O s k then 1 - t |s k| else 0) + (if p = directedBin O s l then t |s k| else 0))

/-- Hard assignment of an angle of `a` steps to one of `P` orientations: the closest one. -/
def hardAngle (P : Nat) (a : ℚ) (p : Nat) : ℚ := if (p : Int) = ⌊a + 1 / 2⌋ % P then 1 else 0

/-- Soft assignment of an angle of `a` steps to the orientations before and after it, among `P`: linear interpolation. -/
def softAngle (P : Nat) (a : ℚ) (p : Nat) : ℚ := (if (p : Int) = ⌊a⌋ % P then 1 - (a - ⌊a⌋) else 0) + (if (p : Int) = (⌊a⌋ + 1) % P then a - ⌊a⌋ else 0)

/-- The same with the square of each weight. -/
def squaredSoftAngle (P : Nat) (a : ℚ) (p : Nat) : ℚ := (if (p : Int) = ⌊a⌋ % P then (1 - (a - ⌊a⌋)) ^ 2 else 0) + (if (p : Int) = (⌊a⌋ + 1) % P then (a - ⌊a⌋) ^ 2 else 0)

/-- Entry of a three-dimensional array of `w * h` planes. -/
def entry (l : List ℚ) (w h X Y p : Nat) : Option ℚ := l[X + Y * w + p * (w * h)]?

end Verif.Hog
