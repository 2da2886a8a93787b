import Verif.Loop
import Mathlib.Order.Basic
import Mathlib.Data.Nat.Basic
import Mathlib.Algebra.BigOperators.Group.List.Basic

/-!
# Array functions of the toolbox: model

`vl_binsearch` and `vl_cummax`.  Numbers are the elements of a linear order; the NaN is not modelled.  `none` stands for an access
outside an array.
-/

namespace Verif.Toolbox

variable {α : Type} [LinearOrder α]

/-- Bisection, toolbox/misc/vl_binsearch.c:74-79.  The first argument bounds the number of steps of the loop; running out of
it gives `none`. -/
def bisect (B : List α) (x : α) : Nat → Nat → Nat → Option Nat
  | 0, lo, up => if lo + 1 < up then none else some (lo + 1)
  | n + 1, lo, up =>
    if lo + 1 < up then do
      let split := (up + lo) / 2
      let b ← rd B split
      if x < b then bisect B x n lo split else bisect B x n split up
    else some (lo + 1)

/-- Search of one element, toolbox/misc/vl_binsearch.c:59-79.  The result is stored as a `double` there. -/
def binsearch1 (B : List α) (x : α) : Option Nat := do
  let first ← rd B 0
  if x < first then some 0
  else do
    let last ← rd B (B.length - 1)
    if last ≤ x then some B.length
    else bisect B x B.length 0 (B.length - 1)

/-- `vl_binsearch`, toolbox/misc/vl_binsearch.c:40-82; the result is created full of zeros. -/
def binsearch (B X : List α) : Option (List Nat) :=
  if B.length = 0 then some (List.replicate X.length 0)
  else iter X.length (fun i idx => do
    let x ← rd X i
    let k ← binsearch1 B x
    wr idx i k) (List.replicate X.length 0)

/-- `_vl_cummax_T`, toolbox/misc/vl_cummax.def:67-91.  `p` and the loop counters are the offsets of the pointers `x` and `y`, which
advance together; the outer loop is over the blocks of `stride * dimension` elements that make up the `n` elements. -/
def cummaxLoop (x : List α) (n stride dimension : Nat) (y : List α) : Option (List α) :=
  iter (n / (stride * dimension)) (fun b y => do
    let p := b * (stride * dimension)
    let y ← iter stride (fun t y => do
      let v ← rd x (p + t)
      wr y (p + t) v) y
    iter (stride * (dimension - 1)) (fun t y => do
      let v ← rd x (p + stride + t)
      let w ← rd y (p + stride + t - stride)
      wr y (p + stride + t) (if w < v then v else w)) y) y

/-- The dimension to operate on when the user gives none, toolbox/misc/vl_cummax.c:118: the first that is not one, or the last. -/
def firstDim : List Nat → Nat
  | [] => 0
  | [_] => 0
  | d :: e :: l => if d = 1 then firstDim (e :: l) + 1 else 0

/-- Stride and length of the dimension, toolbox/misc/vl_cummax.c:106-121; `which` is zero when the user gives none. -/
def cummaxGeometry (dims : List Nat) (which : Nat) : Option (Nat × Nat) :=
  if 1 ≤ which then do
    let stride ← iter (which - 1) (fun k s => do
      let d ← rd dims k
      some (s * d)) 1
    let d ← rd dims (which - 1)
    some (stride, d)
  else do
    let d ← rd dims (firstDim dims)
    some (1, d)

/-- `vl_cummax`, toolbox/misc/vl_cummax.c:104-131: the array has `dims.prod` elements; `y` is the array created for the result.
Simplification: one numeric type. -/
def cummax (x : List α) (dims : List Nat) (which : Nat) (y : List α) : Option (List α) := do
  let g ← cummaxGeometry dims which
  cummaxLoop x dims.prod g.1 g.2 y

end Verif.Toolbox
