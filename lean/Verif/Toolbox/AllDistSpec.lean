import Verif.Toolbox.AllDistModel
import Mathlib.Algebra.BigOperators.Group.Finset.Basic
import Mathlib.Algebra.Order.AbsoluteValue.Basic
import Mathlib.Data.Finset.Fold
import Mathlib.Order.Interval.Finset.Nat

/-!
# Specification of the distances of all pairs

From the documentation of `vl_alldist2`.  A vector is a function of the row.
-/

namespace Verif.Toolbox

open Finset

variable {α : Type} [Field α] [LinearOrder α]

/-- The metrics and kernels of the documentation. -/
def metric (sq : α → α) (n : Norm) (L : Nat) (x y : Nat → α) : α :=
  match n with
  | .linf => (range L).fold max 0 fun l => |x l - y l|
  | .l2 => ∑ l ∈ range L, (x l - y l) ^ 2
  | .l1 => ∑ l ∈ range L, |x l - y l|
  | .l0 => #{l ∈ range L | x l ≠ y l}
  | .chi2 => ∑ l ∈ range L, (x l - y l) ^ 2 / (x l + y l)
  | .hell => ∑ l ∈ range L, (x l + y l - 2 * sq (x l * y l))
  | .kl2 => ∑ l ∈ range L, x l * y l
  | .kl1 => ∑ l ∈ range L, min (x l) (y l)
  | .kchi2 => 2 * ∑ l ∈ range L, x l * y l / (x l + y l)
  | .khell => ∑ l ∈ range L, sq (x l * y l)
  | .min => ∑ l ∈ range L, min (x l) (y l)

/-- The entry of a full matrix with `L` rows, column by column. -/
def fullEntry {α : Type} [Zero α] (L : Nat) (d : List α) (j l : Nat) : α := d.getD (L * j + l) 0

/-- The entry of a sparse matrix: the stored element of the column with this row, or zero. -/
def sparseEntry (A : SparseMat α) (j l : Nat) : α :=
  ∑ p ∈ Ico (A.jc.getD j 0) (A.jc.getD (j + 1) 0), if A.ir.getD p 0 = l then A.pr.getD p 0 else 0

/-- A sparse matrix of `L` rows and `N` columns as MATLAB stores it: columns one after the other, the rows of a column in increasing order. -/
structure SparseMat.Ok (A : SparseMat α) (L N : Nat) : Prop where
  len : A.jc.length = N + 1
  mono : ∀ j < N, A.jc.getD j 0 ≤ A.jc.getD (j + 1) 0
  room : ∀ j ≤ N, A.jc.getD j 0 ≤ A.pr.length ∧ A.jc.getD j 0 ≤ A.ir.length
  sorted : ∀ j < N, ∀ p q, A.jc.getD j 0 ≤ p → p < q → q < A.jc.getD (j + 1) 0 → A.ir.getD p 0 < A.ir.getD q 0
  rows : ∀ j < N, ∀ p, A.jc.getD j 0 ≤ p → p < A.jc.getD (j + 1) 0 → A.ir.getD p 0 < L

/-- A matrix of MATLAB. -/
def Mat.Ok : Mat α → Prop
  | .full L N d => d.length = L * N
  | .sparse L N A => A.Ok L N

/-- The entry of a matrix. -/
def Mat.entry : Mat α → Nat → Nat → α
  | .full L _ d => fullEntry L d
  | .sparse _ _ A => sparseEntry A

/-- The exact values for natural numbers, for the norms without division and roots. -/
def metricU (n : Norm) (L : Nat) (x y : Nat → Nat) : Nat :=
  match n with
  | .l2 => ∑ l ∈ range L, (max (x l) (y l) - min (x l) (y l)) ^ 2
  | .l1 => ∑ l ∈ range L, (max (x l) (y l) - min (x l) (y l))
  | .l0 => #{l ∈ range L | x l ≠ y l}
  | .linf => (range L).sup fun l => max (x l) (y l) - min (x l) (y l)
  | .kl2 => ∑ l ∈ range L, x l * y l
  | .kl1 => ∑ l ∈ range L, min (x l) (y l)
  | .min => ∑ l ∈ range L, min (x l) (y l)
  | _ => 0

/-- The norms without division and roots. -/
def Whole : Norm → Prop
  | .chi2 | .hell | .kchi2 | .khell => False
  | _ => True

/-- Both are full or both are sparse. -/
def SameKind {α : Type} : Mat α → Mat α → Prop
  | .full _ _ _, .full _ _ _ => True
  | .sparse _ _ _, .sparse _ _ _ => True
  | _, _ => False

end Verif.Toolbox
