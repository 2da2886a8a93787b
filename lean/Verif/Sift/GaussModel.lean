import Verif.Loop
import Mathlib.Algebra.Field.Rat
import Mathlib.Algebra.Order.Ring.Rat
import Mathlib.Algebra.Order.AbsoluteValue.Basic

/-!
# Model of the solution of the linear system in the SIFT detector

vl/sift.c:1323-1375.  The code solves a system of three equations; the model has a parameter `n` for the number of equations.  The
matrix and the vector are functions; all indexes are loop counters below `n`.  The loops over the columns `jj` of a row are written as one
assignment of the row.
-/

namespace Verif.Sift

/-- A matrix `A` and a right hand side `b`. -/
structure Sys where
  A : Nat → Nat → ℚ
  b : Nat → ℚ

/-- The search of the pivot of column `j`, vl/sift.c:1325-1339: `maxa`, `maxabsa`, `maxi`. -/
def pivot (n : Nat) (A : Nat → Nat → ℚ) (j : Nat) : Option (ℚ × ℚ × Int) :=
  iter (n - j) (fun k (maxa, maxabsa, maxi) =>
    let a := A (j + k) j
    let absa := |a|
    some (if absa > maxabsa then (a, absa, ((j + k : Nat) : Int)) else (maxa, maxabsa, maxi))) (0, 0, -1)

/-- The swap of rows `i` and `j` and the division of row `j`, vl/sift.c:1351-1357. -/
def swapRows (s : Sys) (i j : Nat) (maxa : ℚ) : Sys :=
  { A := fun r c => if c < j then s.A r c else if r = j then s.A i c / maxa else if r = i then s.A j c else s.A r c
    b := fun r => if r = j then s.b i / maxa else if r = i then s.b j else s.b r }

/-- The elimination in row `ii`, vl/sift.c:1361-1365. -/
def elimRow (s : Sys) (j ii : Nat) : Sys :=
  { A := fun r c => if r = ii ∧ j ≤ c then s.A ii c - s.A ii j * s.A j c else s.A r c
    b := fun r => if r = ii then s.b ii - s.A ii j * s.b j else s.b r }

/-- The loop over the columns, vl/sift.c:1324-1367, for `k` columns up to the last; the flag is that the matrix is singular. -/
def eliminate (n : Nat) (eps : ℚ) : Nat → Sys → Option (Sys × Bool)
  | 0, s => some (s, false)
  | k + 1, s => do
    let j := n - (k + 1)
    let (maxa, maxabsa, maxi) ← pivot n s.A j
    if maxabsa < eps then some ({ s with b := fun _ => 0 }, true)
    else if maxi < 0 then none
    else do
      let s := swapRows s maxi.toNat j maxa
      let s ← iter (n - (j + 1)) (fun k s => some (elimRow s j (j + 1 + k))) s
      eliminate n eps k s

/-- The backward substitution, vl/sift.c:1370-1375. -/
def backSubst (n : Nat) (s : Sys) : Option (Nat → ℚ) :=
  iter (n - 1) (fun k b =>
    let i := n - 1 - k
    let x := b i
    iter i (fun k b =>
      let ii := i - 1 - k
      some (fun r => if r = ii then b ii - x * s.A ii i else b r)) b) s.b

/-- The whole solution, vl/sift.c:1323-1375, with the flag of a singular matrix. -/
def solve (n : Nat) (eps : ℚ) (s : Sys) : Option ((Nat → ℚ) × Bool) := do
  let (s, singular) ← eliminate n eps n s
  let b ← backSubst n s
  some (b, singular)

end Verif.Sift
