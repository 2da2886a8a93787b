import Verif.Loop
import Mathlib.Algebra.Field.Defs
import Mathlib.Algebra.Order.Group.Unbundled.Abs

/-!
# Model of Gaussian elimination (vl/mathop.c:838-1025)

Numbers are elements of a linearly ordered field (no rounding); the matrix is stored by columns.
-/

namespace Verif.Linear

variable {K : Type} [Field K] [LinearOrder K]

/-- Offset of `Aat(i,j)`, vl/mathop.c:912. -/
def at' (n i j : Nat) : Nat := i + j * n

/-- Variables `maxa`, `maxabsa`, `maxi` of the pivot search (`maxi = -1` is `none`). -/
structure Pivot (K : Type) where
  maxa : K
  maxabsa : K
  maxi : Option Nat

/-- Body of the pivot search, vl/mathop.c:936-944; iteration `t` handles `i = j + t`. -/
def pivotStep (A : List K) (n j : Nat) (t : Nat) (p : Pivot K) : Option (Pivot K) := do
  let a ← rd A (at' n (j + t) j)
  let absa := |a|
  if absa > p.maxabsa then some { maxa := a, maxabsa := absa, maxi := some (j + t) } else some p

/-- Body of the swap and normalise loop, vl/mathop.c:951-954; iteration `t` handles `jj = j + t`. -/
def swapStep (n i j : Nat) (maxa : K) (t : Nat) (A : List K) : Option (List K) := do
  let tmp ← rd A (at' n i (j + t))
  let u ← rd A (at' n j (j + t))
  let A ← wr A (at' n i (j + t)) u
  let A ← wr A (at' n j (j + t)) tmp
  let v ← rd A (at' n j (j + t))
  wr A (at' n j (j + t)) (v / maxa)

/-- `Aat(ii,jj) -= x * Aat(i,jj)`, vl/mathop.c:975 and 1004; iteration `t` handles `jj = c + t`. -/
def subStep (n ii i c : Nat) (x : K) (t : Nat) (A : List K) : Option (List K) := do
  let u ← rd A (at' n ii (c + t))
  let v ← rd A (at' n i (c + t))
  wr A (at' n ii (c + t)) (u - x * v)

/-- Elimination of one row, vl/mathop.c:972-977; iteration `t` handles `ii = j + 1 + t`. -/
def elimRow (n m j : Nat) (t : Nat) (A : List K) : Option (List K) := do
  let x ← rd A (at' n (j + 1 + t) j)
  iter (m - j) (subStep n (j + 1 + t) j j x) A

/-- One iteration of the main loop, vl/mathop.c:915-994.  The first component of the state tells that the function has
returned `VL_ERR_OVERFLOW`; `tau` is the constant `1e-10`. -/
def elimStep (tau : K) (n m : Nat) (j : Nat) (s : Bool × List K) : Option (Bool × List K) :=
  if s.1 then some s
  else do
    let p ← iter (n - j) (pivotStep s.2 n j) { maxa := 0, maxabsa := 0, maxi := none }
    if p.maxabsa < tau then some (true, s.2)
    else do
      let i ← p.maxi
      let A ← iter (m - j) (swapStep n i j p.maxa) s.2
      let A ← iter (n - (j + 1)) (elimRow n m j) A
      some (false, A)

/-- Substitution in one row, vl/mathop.c:1000-1006; iteration `t` handles `ii = i - 1 - t`. -/
def backRow (n m i : Nat) (t : Nat) (A : List K) : Option (List K) := do
  let x ← rd A (at' n (i - 1 - t) i)
  iter (m - n) (subStep n (i - 1 - t) i n x) A

/-- Substitution of one variable, vl/mathop.c:998-1007; iteration `t` handles `i = n - 1 - t`. -/
def backStep (n m : Nat) (t : Nat) (A : List K) : Option (List K) := iter (n - 1 - t) (backRow n m (n - 1 - t)) A

/-- `vl_gaussian_elimination`, vl/mathop.c:905-1025; the first component of the result is true for `VL_ERR_OVERFLOW`. -/
def gaussianElimination (tau : K) (A : List K) (n m : Nat) : Option (Bool × List K) := do
  let _ ← assert' (decide (n ≤ m))
  let s ← iter n (elimStep tau n m) (false, A)
  if s.1 then some s
  else do
    let A ← iter (n - 1) (backStep n m) s.2
    some (false, A)

/-- `vl_solve_linear_system_3`, vl/mathop.c:838-860: the error flag and `x`. -/
def solve3 (tau : K) (A b : List K) : Option (Bool × List K) := do
  let M0 ← A[0]?; let M1 ← A[1]?; let M2 ← A[2]?; let M3 ← A[3]?; let M4 ← A[4]?
  let M5 ← A[5]?; let M6 ← A[6]?; let M7 ← A[7]?; let M8 ← A[8]?
  let b0 ← b[0]?; let b1 ← b[1]?; let b2 ← b[2]?
  let (err, M) ← gaussianElimination tau [M0, M1, M2, M3, M4, M5, M6, M7, M8, b0, b1, b2] 3 4
  let x0 ← M[9]?; let x1 ← M[10]?; let x2 ← M[11]?
  some (err, [x0, x1, x2])

/-- `vl_solve_linear_system_2`, vl/mathop.c:871-886. -/
def solve2 (tau : K) (A b : List K) : Option (Bool × List K) := do
  let M0 ← A[0]?; let M1 ← A[1]?; let M2 ← A[2]?; let M3 ← A[3]?
  let b0 ← b[0]?; let b1 ← b[1]?
  let (err, M) ← gaussianElimination tau [M0, M1, M2, M3, b0, b1] 2 3
  let x0 ← M[4]?; let x1 ← M[5]?
  some (err, [x0, x1])

end Verif.Linear
