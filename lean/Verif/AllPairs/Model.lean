import Verif.Loop

/-!
# Model of the evaluation on all pairs (vl/mathop.c:554-598, `vl_eval_vector_comparison_on_all_pairs_{f,d}`)

The comparison function is any function of the two vectors of `dimension` elements it is given.
-/

namespace Verif.AllPairs

variable {α β : Type}

/-- The `dimension` elements at a pointer; `none` when they are not all in the block. -/
def slice (X : List α) (p : Int) (d : Nat) : Option (List α) :=
  if p < 0 then none else if p.toNat + d ≤ X.length then some ((X.drop p.toNat).take d) else none

/-- Moving pointers and the destination block. -/
structure St (β : Type) where
  X : Int
  Y : Int
  result : Int
  resultTransp : Int
  mem : List β

/-- Inner loop with two data sets, vl/mathop.c:571-574. -/
def innerXY (Xs Ys : List α) (d : Nat) (f : List α → List α → β) (_xi : Nat) (s : St β) : Option (St β) := do
  let x ← slice Xs s.X d
  let y ← slice Ys s.Y d
  let mem ← wrI s.mem s.result (f x y)
  some { s with result := s.result + 1, X := s.X + d, mem := mem }

/-- Outer loop with two data sets, vl/mathop.c:570-577. -/
def outerXY (Xs Ys : List α) (d nX : Nat) (f : List α → List α → β) (_yi : Nat) (s : St β) : Option (St β) := do
  let s ← iter nX (innerXY Xs Ys d f) s
  some { s with X := s.X - d * nX, Y := s.Y + d }

/-- Inner loop with one data set, vl/mathop.c:582-589. -/
def innerXX (Xs : List α) (d nX : Nat) (f : List α → List α → β) (_xi : Nat) (s : St β) : Option (St β) := do
  let x ← slice Xs s.X d
  let y ← slice Xs s.Y d
  let z := f x y
  let mem ← wrI s.mem s.result z
  let mem ← wrI mem s.resultTransp z
  some { s with X := s.X + d, mem := mem, result := s.result + 1, resultTransp := s.resultTransp + nX }

/-- Outer loop with one data set, vl/mathop.c:581-594. -/
def outerXX (Xs : List α) (d nX : Nat) (f : List α → List α → β) (yi : Nat) (s : St β) : Option (St β) := do
  let s ← iter (yi + 1) (innerXX Xs d nX f) s
  some { s with X := s.X - d * (yi + 1), Y := s.Y + d, result := s.result + ((nX : Int) - (yi + 1)),
                resultTransp := s.resultTransp + (1 - ((yi : Int) + 1) * nX) }

/-- `vl_eval_vector_comparison_on_all_pairs_*`, vl/mathop.c:554-598; `Ys = none` is a `NULL` argument `Y`. -/
def allPairs (mem : List β) (d : Nat) (Xs : List α) (nX : Nat) (Ys : Option (List α)) (nY : Nat) (f : List α → List α → β) :
    Option (List β) :=
  if d = 0 then some mem
  else if nX = 0 then some mem
  else match Ys with
    | some Ys =>
      if nY = 0 then some mem
      else (iter nY (outerXY Xs Ys d nX f) { X := 0, Y := 0, result := 0, resultTransp := 0, mem := mem }).map St.mem
    | none => (iter nX (outerXX Xs d nX f) { X := 0, Y := 0, result := 0, resultTransp := 0, mem := mem }).map St.mem

end Verif.AllPairs
