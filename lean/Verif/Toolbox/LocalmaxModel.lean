import Verif.Loop
import Mathlib.Order.WithBot
import Mathlib.Data.Int.Order.Basic

/-!
# `vl_localmax`: model

toolbox/misc/vl_localmax.c:56-254.  Numbers are the elements of a linear order; the NaN is not modelled, and the integers
do not overflow.  The arrays `dims`, `offsets` and `midx` are lists, and a loop over the dimensions goes down these lists; the outer
`none` stands for an access outside another array, the inner one for an error that is reported.
-/

namespace Verif.Toolbox

variable {α : Type} [LinearOrder α]

/-- The offsets between dimensions, toolbox/misc/vl_localmax.c:120-124; the first argument is one. -/
def offsetsFrom : Nat → List Nat → List Nat
  | _, [] => []
  | o, d :: ds => o :: offsetsFrom (o * d) ds

/-- The step to the next neighbour, toolbox/misc/vl_localmax.c:146-152; `none` is the exit `goto stop`. -/
def nbStep : List Nat → List Int → Int → Option (Int × List Int)
  | off :: offs, m :: ms, o =>
    let o := o + off
    if m + 1 > 1 then (nbStep offs ms (o - 3 * off)).map (fun r => (r.1, -1 :: r.2)) else some (o, (m + 1) :: ms)
  | _, _, _ => none

/-- `neighbors[i++] = o` unless `o` is zero, toolbox/misc/vl_localmax.c:144-145. -/
def nbPut (o : Int) (i : Nat) (nbs : List Int) : Option (List Int × Nat) :=
  if o ≠ 0 then (wr nbs i o).map (fun nbs => (nbs, i + 1)) else some (nbs, i)

/-- The enumeration of the neighbours, toolbox/misc/vl_localmax.c:141-154; the result is the array and the number of elements written. -/
def nbLoop (offs : List Nat) : Nat → Int → List Int → Nat → List Int → Option (List Int × Nat)
  | 0, _, _, _, _ => none
  | fuel + 1, o, ms, i, nbs => do
    let (nbs, i) ← nbPut o i nbs
    match nbStep offs ms o with
    | none => some (nbs, i)
    | some (o, ms) => nbLoop offs fuel o ms i nbs

/-- The array of the neighbours, toolbox/misc/vl_localmax.c:131-154; `offs` are the offsets of the first `P` dimensions and `junk` the new array. -/
def neighbours (offs : List Nat) (junk : Nat → Int) : Option (List Int × Nat) :=
  let n := 3 ^ offs.length - 1
  nbLoop offs (3 ^ offs.length) (-((offs.sum : Nat) : Int)) (List.replicate offs.length (-1)) 0 ((List.range n).map junk)

/-- `++midx[h]` -/
def incHead : List Nat → List Nat
  | [] => []
  | m :: ms => (m + 1) :: ms

/-- The carry along the multi-index, toolbox/misc/vl_localmax.c:181-189; the result is the multi-index, `pt`, and whether the
dimensions are exhausted (`goto next_layer`). -/
def carry : List Nat → List Nat → List Nat → Nat → List Nat × Nat × Bool
  | d :: ds, off :: offs, m :: ms, pt =>
    if m + 1 ≥ d then
      let r := carry ds offs (incHead ms) (pt + 2 * off)
      (1 :: r.1, r.2)
    else (m :: ms, pt, false)
  | _, _, ms, pt => (ms, pt, true)

/-- The next layer, toolbox/misc/vl_localmax.c:223-231; `none` is the exit `goto end`. -/
def nextLayer : List Nat → List Nat → Option (List Nat)
  | d :: ds, m :: ms => if m + 1 ≥ d then (nextLayer ds ms).map (fun ms => 0 :: ms) else some ((m + 1) :: ms)
  | _, _ => none

/-- The scan of the neighbours, toolbox/misc/vl_localmax.c:200-202. -/
def greaterThan (F : List α) (pt : Nat) (v : α) : List Int → Option Bool
  | [] => some true
  | o :: nbs => do
    let x ← rdI F ((pt : Int) + o)
    if v > x then greaterThan F pt v nbs else some false

/-- Is the element a maximum?  toolbox/misc/vl_localmax.c:197-202 -/
def isMaximum (F : List α) (thr : WithBot α) (nbs : List Int) (pt : Nat) : Option Bool := do
  let v ← rd F pt
  if (v : WithBot α) ≥ thr then greaterThan F pt v nbs else some false

/-- The array of the maxima: its contents and the offset of `maxima_iterator`. -/
structure Maxima where
  buf : List Nat
  count : Nat

/-- A maximum is appended, toolbox/misc/vl_localmax.c:205-216; the array grows by `MN` elements. -/
def Maxima.push (junk : Nat) (MN : Nat) (x : Nat) (s : Maxima) : Option Maxima := do
  let s : Maxima := if s.count = s.buf.length then
      let buf := s.buf ++ List.replicate MN junk
      ⟨buf, buf.length - MN⟩
    else s
  let buf ← wr s.buf s.count x
  some ⟨buf, s.count + 1⟩

/-- The maximum is appended if it is one, toolbox/misc/vl_localmax.c:205. -/
def Maxima.pushIf (junk : Nat) (MN : Nat) (b : Bool) (x : Nat) (s : Maxima) : Option Maxima :=
  if b then s.push junk MN x else some s

/-- The main loop, toolbox/misc/vl_localmax.c:177-232.  `ds`, `offs` and `ms` are the dimensions, offsets and multi-index of the dimensions that are
searched, `es` and `ls` the dimensions and multi-index of the others. -/
def maxLoop (F : List α) (thr : WithBot α) (nbs : List Int) (junk MN : Nat) (ds offs es : List Nat) : Nat → List Nat → List Nat → Nat → Maxima → Option Maxima
  | 0, _, _, _, _ => none
  | fuel + 1, ms, ls, pt, s =>
    let r := carry ds offs ms pt
    if r.2.2 then
      match nextLayer es ls with
      | none => some s
      | some ls => maxLoop F thr nbs junk MN ds offs es fuel r.1 ls r.2.1 s
    else do
      let b ← isMaximum F thr nbs r.2.1
      let s ← s.pushIf junk MN b (r.2.1 + 1)
      maxLoop F thr nbs junk MN ds offs es fuel (incHead r.1) ls (r.2.1 + 1) s

/-- toolbox/misc/vl_localmax.c:112-245, for the dimensions `dims` and the number `p` of those that are searched.  With `p = 0` the carry loop
nevertheless runs over the first dimension, as in the code. -/
def localmaxAlong (junk : Nat) (junkN : Nat → Int) (F : List α) (thr : WithBot α) (dims : List Nat) (p : Nat) : Option (List Nat) := do
  let M ← rd dims 0
  let N ← rd dims 1
  let offsets := offsetsFrom 1 dims
  let (nbs, _) ← neighbours (offsets.take p) junkN
  let pt := (offsets.take p).sum
  let midx := List.replicate p 1 ++ List.replicate (dims.length - p) 0
  if (dims.take p).any (fun d => decide (d < 3)) then some []
  else do
    let c := max p 1
    let s ← maxLoop F thr nbs junk (M * N) (dims.take c) (offsets.take c) (dims.drop c) (dims.prod + 1) (midx.take c) (midx.drop c) pt
      ⟨List.replicate (M * N) junk, 0⟩
    some (s.buf.take s.count)

/-- `vl_localmax`, toolbox/misc/vl_localmax.c:56-254; `P` is `none` if the user gives no number of dimensions. -/
def localmax (junk : Nat) (junkN : Nat → Int) (F : List α) (thr : WithBot α) (dims : List Nat) (P : Option Nat) : Option (Option (List Nat)) := do
  let M ← rd dims 0
  let N ← rd dims 1
  match P with
  | none =>
    if dims.length = 2 ∧ (M = 1 ∨ N = 1) then (localmaxAlong junk junkN F thr [max M N, 1] 1).map some
    else (localmaxAlong junk junkN F thr dims dims.length).map some
  | some p => if p > dims.length then some none else (localmaxAlong junk junkN F thr dims p).map some

end Verif.Toolbox
