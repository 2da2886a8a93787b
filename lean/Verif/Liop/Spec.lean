import Mathlib.Algebra.Order.Floor.Ring
import Mathlib.Data.Rat.Floor
import Mathlib.Algebra.Field.Rat
import Mathlib.Algebra.Order.Ring.Rat
import Mathlib.Algebra.BigOperators.Intervals
import Mathlib.Data.Nat.Factorial.Basic

/-!
# Specification of the LIOP descriptor
-/

namespace Verif.Liop

open Finset

/-- The number of a list among the rearrangements of its entries in lexicographic order (Lehmer): at each place, the number of later entries that are smaller, times the number of
arrangements of the later ones.  `Props` shows that it is this number. -/
def lexRank : List Nat → Nat
  | [] => 0
  | a :: l => l.countP (· < a) * l.length.factorial + lexRank l

/-- The patch, zero outside. -/
def pixel (patch : List ℚ) (side : Nat) (x y : Int) : ℚ :=
  if 0 ≤ x ∧ x < side ∧ 0 ≤ y ∧ y < side then patch.getD (x.toNat + y.toNat * side) 0 else 0

/-- Bilinear interpolation in the patch. -/
def bilinear (patch : List ℚ) (side : Nat) (x y : ℚ) : ℚ :=
  (1 - Int.fract y) * ((1 - Int.fract x) * pixel patch side ⌊x⌋ ⌊y⌋ + Int.fract x * pixel patch side (⌊x⌋ + 1) ⌊y⌋) +
    Int.fract y * ((1 - Int.fract x) * pixel patch side ⌊x⌋ (⌊y⌋ + 1) + Int.fract x * pixel patch side (⌊x⌋ + 1) (⌊y⌋ + 1))

/-- `τ` puts the indexes below `n` in an order in which the keys do not decrease. -/
def Sorts (n : Nat) (key : Nat → ℚ) (τ : List Nat) : Prop := τ.Perm (List.range n) ∧ τ.Pairwise (fun a b => key a ≤ key b)

/-- The number of pairs of keys that differ by more than `thr`. -/
def pairWeight (n : Nat) (key : Nat → ℚ) (thr : ℚ) : ℚ :=
  ∑ k ∈ range n, ∑ t ∈ range n, if k < t ∧ (key k > key t + thr ∨ key t > key k + thr) then 1 else 0

/-- The bin of the pixel at place `i` of `N`: the first `N / nb` pixels are in the first bin and so on, the rest is in the last one. -/
def binOf (N nb i : Nat) : Nat := if N / nb = 0 then min (i + 1) (nb - 1) else min (i / (N / nb)) (nb - 1)

/-- The pixels of the patch, row by row: those at squared distance at most `⌊(c - r + 0.6)²⌋` from the centre `(c, c)`, apart from the corner. -/
def discPixels (r : ℚ) (side : Nat) : List Nat :=
  let c : Int := ((side : Int) - 1) / 2
  (List.range (side * side)).filter fun p =>
    p ≠ 0 ∧ (((p % side : Nat) : Int) - c) ^ 2 + (((p / side : Nat) : Int) - c) ^ 2 ≤ ⌊((c : ℚ) - r + 6 / 10) ^ 2⌋

end Verif.Liop
