import Verif.Hog.AccSpec
import Mathlib.Algebra.BigOperators.Group.Finset.Basic

/-!
# Specification of the extraction of HOG features
-/

namespace Verif.Hog

open Finset

/-- Value of a histogram: orientation `p` of cell `(X, Y)`. -/
def hist (hog : List ℚ) (w h X Y p : Nat) : ℚ := (entry hog w h X Y p).getD 0

/-- Undirected histogram of a cell with `O` orientations: an orientation and its opposite one are added. -/
def undirected (O : Nat) (f : Nat → ℚ) (k : Nat) : ℚ := f k + f (k + O)

/-- Squared norm of the undirected histogram. -/
def cellNorm (O : Nat) (f : Nat → ℚ) : ℚ := ∑ k ∈ range O, undirected O f k ^ 2

/-- The neighbour before (`false`) or after (`true`) position `i` of `n`; the position itself at the border. -/
def neighbour (n i : Nat) (after : Bool) : Nat := if after then (if i + 1 < n then i + 1 else i) else (if 0 < i then i - 1 else i)

/-- Squared norm of one of the four blocks of two by two cells around `(x, y)`, plus a small constant. -/
def blockNorm (N : Nat → Nat → ℚ) (w h x y : Nat) (right down : Bool) : ℚ :=
  N x y + N (neighbour w x right) y + N x (neighbour h y down) + N (neighbour w x right) (neighbour h y down) + 1 / 10000

/-- Squared norm of the blocks of a cell, from left to right and top to bottom; on a transposed image, from top to bottom and left to right. -/
def blockOf (N : Nat → Nat → ℚ) (transposed : Bool) (w h x y : Nat) (i : Nat) : ℚ :=
  let a := i % 2 = 1
  let b := i / 2 = 1
  if transposed then blockNorm N w h x y (decide b) (decide a) else blockNorm N w h x y (decide a) (decide b)

/-- A component normalised by a block and saturated. -/
def saturated (sq : ℚ → ℚ) (n v : ℚ) : ℚ := min (1 / 5) (v / sq n)

/-- Feature `d` of a cell with directed histogram `f`, `n i` being the squared norm of block `i`.

Dalal-Triggs: the undirected histogram normalised by the four blocks.

UoCTTI: half the sum over the four blocks of the directed histogram and of the undirected one, then for each block the sum over the undirected histogram, scaled. -/
def feature (v : Variant) (O : Nat) (sq : ℚ → ℚ) (n : Nat → ℚ) (f : Nat → ℚ) (d : Nat) : ℚ :=
  match v with
  | .dalalTriggs => saturated sq (n (d / O)) (undirected O f (d % O))
  | .uoctti =>
    if d < 2 * O then 1 / 2 * ∑ i ∈ range 4, saturated sq (n i) (f d)
    else if d < 3 * O then 1 / 2 * ∑ i ∈ range 4, saturated sq (n i) (undirected O f (d - 2 * O))
    else 1 / sq 18 * ∑ k ∈ range O, saturated sq (n (d - 3 * O)) (undirected O f k)

end Verif.Hog
