import Verif.Loop

/-!
# Model of the filling of an extremal region

toolbox/mser/vl_erfill.c.  `int` and `idx_t` are unbounded.  The outer `Option` is `none` for an access outside an array; the inner one is `none` for a MATLAB error.
-/

namespace Verif.Erfill

/-- The strides, toolbox/mser/vl_erfill.c:106-110, of the dimensions from one of stride `s` on. -/
def stridesFrom (s : Nat) : List Nat → List Nat
  | [] => []
  | d :: ds => s :: stridesFrom (s * d) ds

/-- The loop from the last dimension down to the first that splits an index, toolbox/mser/vl_erfill.c:143-148: what is left of `temp`, and the subscripts.  The strides are not zero
because the image has a pixel. -/
def subscripts : List Nat → Nat → Nat × List Nat
  | [], temp => (temp, [])
  | s :: ss, temp => ((subscripts ss temp).1 % s, (subscripts ss temp).1 / s :: (subscripts ss temp).2)

/-- The loop that computes the index of a neighbour, toolbox/mser/vl_erfill.c:158-162: `none` when it is outside the image (not `good`). -/
def neighbour : List Int → List Nat → List Nat → List Nat → Int → Option Int
  | o :: os, s :: ss, d :: ds, t :: ts, nindex =>
    let temp := o + s
    if 0 ≤ temp ∧ temp < d then neighbour os ss ds ts (nindex + temp * t) else none
  | _, _, _, _, nindex => some nindex

/-- The step to the next neighbour, toolbox/mser/vl_erfill.c:188-192: `none` after the last one. -/
def nextOffset : List Int → Option (List Int)
  | [] => none
  | o :: os => if o + 1 > 1 then (nextOffset os).map ((-1) :: ·) else some ((o + 1) :: os)

/-- The flags `visited_pt` and the array `members_pt`, of which only the part in use is kept. -/
structure St where
  visited : List Bool
  members : List Nat

/-- The test of one neighbour and its addition to the list, toolbox/mser/vl_erfill.c:172-184; `cap` is the number of elements allocated for the list. -/
def visit (img : List Nat) (dims strides : List Nat) (cap : Nat) (invert : Bool) (value : Nat) (index : Nat) (subs : List Nat) (off : List Int) (s : St) : Option St :=
  match neighbour off subs dims strides 0 with
  | none => some s
  | some nindex =>
    if nindex = index then some s else do
    let v ← rdI img nindex
    if (invert = false ∧ v ≤ value) ∨ (invert = true ∧ v ≥ value) then do
      let f ← rdI s.visited nindex
      if f then some s else do
      let visited ← wrI s.visited nindex true
      if s.members.length < cap then some ⟨visited, s.members ++ [nindex.toNat]⟩ else none
    else some s

/-- The loop over the neighbours, toolbox/mser/vl_erfill.c:152-193. -/
def expand (img : List Nat) (dims strides : List Nat) (cap : Nat) (invert : Bool) (value : Nat) (index : Nat) (subs : List Nat) : Nat → List Int → St → Option St
  | 0, _, _ => none
  | fuel + 1, off, s => do
    let s ← visit img dims strides cap invert value index subs off s
    match nextOffset off with
    | none => some s
    | some off => expand img dims strides cap invert value index subs fuel off s

/-- The loop over the members, toolbox/mser/vl_erfill.c:134-195. -/
def grow (img : List Nat) (dims strides : List Nat) (cap : Nat) (invert : Bool) (value : Nat) : Nat → Nat → St → Option St
  | 0, _, _ => none
  | fuel + 1, lastExpanded, s =>
    if lastExpanded < s.members.length then do
      let index ← rd s.members lastExpanded
      let subs := (subscripts strides index).2
      let s ← expand img dims strides cap invert value index subs (3 ^ dims.length) (List.replicate dims.length (-1)) s
      grow img dims strides cap invert value fuel (lastExpanded + 1) s
    else some s

/-- `mexFunction`, toolbox/mser/vl_erfill.c:86-211, with a list of `cap` elements, after the check of the number and of the classes of the arguments; `er` is the second argument converted to an integer. -/
def fillCap (cap : Nat) (img : List Nat) (dims : List Nat) (er : Int) : Option (Option (List Nat)) :=
  let nel := img.length
  let strides := stridesFrom 1 dims
  let invert := decide (er < 0)
  let idx := if er < 0 then -er else er
  if idx < 1 ∨ idx > nel then some none else
  if cap < 1 then none else do
  let value ← rdI img (idx - 1)
  let s ← grow img dims strides cap invert value (cap + 1) 0 ⟨List.replicate nel false, [(idx - 1).toNat]⟩
  some (some (s.members.map (· + 1)))

/-- `mexFunction`: the list is allocated with `nel` elements, toolbox/mser/vl_erfill.c:101. -/
def fill (img : List Nat) (dims : List Nat) (er : Int) : Option (Option (List Nat)) := fillCap img.length img dims er

end Verif.Erfill
