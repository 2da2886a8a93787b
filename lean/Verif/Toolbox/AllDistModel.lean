import Verif.Loop
import Mathlib.Algebra.Order.Field.Basic

/-!
# Model of the distances of all pairs of columns

toolbox/misc/vl_alldist2.c.  `float` and `double` are an ordered field and rounding is not modelled; the square root is a parameter.  Of the integer classes the unsigned ones are modelled, for the
norms that do not divide and take no root.
-/

namespace Verif.Toolbox

/-- The names of the options, toolbox/misc/vl_alldist2.c:25-56. -/
inductive Norm
  | linf | l2 | l1 | l0 | chi2 | hell | kl2 | kl1 | kchi2 | khell | min
deriving DecidableEq

/-- `ABS_DIFF`, toolbox/misc/vl_alldist2.c:68. -/
def absDiff {α : Type} [LE α] [DecidableLE α] [Sub α] (x y : α) : α := if x ≥ y then x - y else y - x

section Field

variable {α : Type} [Field α] [LinearOrder α]

/-- `F_LINF`, `F_L2`, …, `F_MIN` for `float` and `double`: one element, toolbox/misc/vl_alldist2.c:213-254. -/
def upd (sq : α → α) (n : Norm) (acc x y : α) : α :=
  match n with
  | .linf => let d := absDiff x y; if acc ≥ d then acc else d
  | .l2 => let tmp := absDiff x y; acc + tmp * tmp
  | .l1 => acc + absDiff x y
  | .l0 => acc + (if x ≠ y then 1 else 0)
  | .chi2 =>
    let meant2 := x + y
    if meant2 ≠ 0 then
      let tmp := absDiff x y
      acc + tmp * tmp / meant2
    else acc
  | .hell => acc + (x + y - 2 * sq (x * y))
  | .kl2 => acc + x * y
  | .kl1 => acc + (if x ≤ y then x else y)
  | .kchi2 =>
    let mean := (x + y) / 2
    if mean ≠ 0 then
      let tmp := x * y
      acc + tmp / mean
    else acc
  | .khell => acc + sq (x * y)
  | .min => acc + (if x ≤ y then x else y)

end Field

section Core

variable {α : Type} [Zero α]

/-- The distance of two columns, toolbox/misc/vl_alldist2.c:102-109; `F` is one element. -/
def columnDist (F : α → α → α → α) (X Y : List α) (L j1 j2 : Nat) : Option α :=
  iter L (fun l acc => do
    let s1 ← rd X (L * j1 + l)
    let s2 ← rd Y (L * j2 + l)
    some (F acc s1 s2)) 0

/-- The value of one pair, toolbox/misc/vl_alldist2.c:101-113 and 144-196: `dist` computes the distance; below the diagonal of a symmetric matrix it is computed and above it is copied.  The unsigned
product `(j1 - j2) * (N1 - 1)` wraps to the signed one when it is added to a pointer. -/
def pairVal (dist : Nat → Nat → Option α) (N1 : Nat) (self : Bool) (j1 j2 : Nat) (pt : Nat) (out : List α) : Option α :=
  if self = false ∨ j1 ≥ j2 then dist j1 j2 else rdI out (pt + ((j1 : Int) - j2) * ((N1 : Int) - 1))

/-- One pair, toolbox/misc/vl_alldist2.c:101-114 and 144-197.  The state is the pointer `pt` and the output. -/
def pairStep (dist : Nat → Nat → Option α) (N1 : Nat) (self : Bool) (j1 j2 : Nat) (s : Nat × List α) : Option (Nat × List α) := do
  let v ← pairVal dist N1 self j1 j2 s.1 s.2
  let out ← wr s.2 s.1 v
  some (s.1 + 1, out)

/-- The two loops, toolbox/misc/vl_alldist2.c:98-117 and 140-200. -/
def allPairs (dist : Nat → Nat → Option α) (N1 N2 : Nat) (self : Bool) (out : List α) : Option (List α) := do
  let s ← iter N2 (fun j2 s => iter N1 (fun j1 s => pairStep dist N1 self j1 j2 s) s) (0, out)
  some s.2

/-- The arrays of a sparse matrix: `mxGetPr`, `mxGetIr` and `mxGetJc`. -/
structure SparseMat (α : Type) where
  pr : List α
  ir : List Nat
  jc : List Nat

/-- The loop on two sparse columns, toolbox/misc/vl_alldist2.c:152-192, from elements `p1` and `p2` on with `nz1` and `nz2` elements left; the first argument bounds the number of rounds. -/
def sparseLoop (F : α → α → α → α) (A B : SparseMat α) : Nat → Nat → Nat → Nat → Nat → α → Option α
  | 0, _, _, nz1, nz2, acc => if nz1 = 0 ∧ nz2 = 0 then some acc else none
  | m + 1, p1, p2, nz1, nz2, acc =>
    if nz1 = 0 ∧ nz2 = 0 then some acc
    else if nz2 = 0 then do
      let a ← rd A.pr p1
      sparseLoop F A B m (p1 + 1) p2 (nz1 - 1) nz2 (F acc a 0)
    else if nz1 = 0 then do
      let b ← rd B.pr p2
      sparseLoop F A B m p1 (p2 + 1) nz1 (nz2 - 1) (F acc 0 b)
    else do
      let ir1 ← rd A.ir p1
      let ir2 ← rd B.ir p2
      if ir1 < ir2 then do
        let a ← rd A.pr p1
        sparseLoop F A B m (p1 + 1) p2 (nz1 - 1) nz2 (F acc a 0)
      else if ir1 > ir2 then do
        let b ← rd B.pr p2
        sparseLoop F A B m p1 (p2 + 1) nz1 (nz2 - 1) (F acc 0 b)
      else do
        let a ← rd A.pr p1
        let b ← rd B.pr p2
        sparseLoop F A B m (p1 + 1) (p2 + 1) (nz1 - 1) (nz2 - 1) (F acc a b)

/-- The distance of two sparse columns, toolbox/misc/vl_alldist2.c:142-192. -/
def sparseDist (F : α → α → α → α) (A B : SparseMat α) (j1 j2 : Nat) : Option α := do
  let a0 ← rd A.jc j1
  let a1 ← rd A.jc (j1 + 1)
  let b0 ← rd B.jc j2
  let b1 ← rd B.jc (j2 + 1)
  sparseLoop F A B ((a1 - a0) + (b1 - b0)) a0 b0 (a1 - a0) (b1 - b0) 0

/-- A matrix of MATLAB of class `double`. -/
inductive Mat (α : Type)
  | full (L N : Nat) (data : List α)
  | sparse (L N : Nat) (A : SparseMat α)

/-- `mxGetM`. -/
def Mat.rows {α : Type} : Mat α → Nat
  | .full L _ _ => L
  | .sparse L _ _ => L

/-- `mxGetN`. -/
def Mat.cols {α : Type} : Mat α → Nat
  | .full _ N _ => N
  | .sparse _ N _ => N

/-- `mxGetData`: of a sparse matrix this is the block of the elements that are stored. -/
def Mat.data {α : Type} : Mat α → List α
  | .full _ _ d => d
  | .sparse _ _ A => A.pr

/-- The driver, toolbox/misc/vl_alldist2.c:293-418, for two matrices of class `double`, or one for `Y = none`; an inner `none` is a reported error.  The result has `N1` rows. -/
def allDist (F : α → α → α → α) (X : Mat α) (Y : Option (Mat α)) : Option (Option (List α)) :=
  let Y' := Y.getD X
  match X, Y' with
  | .sparse _ _ _, .full _ _ _ => some none
  | .sparse L N1 A, .sparse L' N2 B =>
    if L ≠ L' then some none else (allPairs (sparseDist F A B) N1 N2 Y.isNone (List.replicate (N1 * N2) 0)).map some
  | .full L N1 x, _ =>
    if L ≠ Y'.rows then some none else (allPairs (columnDist F x Y'.data L) N1 Y'.cols Y.isNone (List.replicate (N1 * Y'.cols) 0)).map some

end Core

/-- The same for the unsigned classes, where `acc` is a `vl_uint32`: the arithmetic is modulo 2^32, toolbox/misc/vl_alldist2.c:213-237.  The norms that are not modelled do nothing here. -/
def updU (n : Norm) (acc x y : Nat) : Nat :=
  match n with
  | .linf => let d := absDiff x y; if acc ≥ d then acc else d
  | .l2 => let tmp := absDiff x y; (acc + tmp * tmp % 2 ^ 32) % 2 ^ 32
  | .l1 => (acc + absDiff x y) % 2 ^ 32
  | .l0 => (acc + (if x ≠ y then 1 else 0)) % 2 ^ 32
  | .kl2 => (acc + x * y % 2 ^ 32) % 2 ^ 32
  | .kl1 => (acc + (if x ≤ y then x else y)) % 2 ^ 32
  | .min => (acc + (if x ≤ y then x else y)) % 2 ^ 32
  | _ => acc

end Verif.Toolbox
