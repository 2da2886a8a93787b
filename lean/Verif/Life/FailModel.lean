import Verif.Life.Model

/-! The creation and deletion of SVMs (vl/svm.c) and of scale spaces
(vl/scalespace.c), with requests of memory that may fail. -/

namespace Verif.Life

/-! ## SVM -/

/-- The blocks of an SVM object (vl/svm.c:880-935). -/
structure Svm where
  self : Nat
  model : Option Nat
  alpha : Option Nat
  scores : Option Nat
  dataset : Option Nat

/-- The dual variables are allocated for the dual solver only
(vl/svm.c:1064-1067); the flag tells whether the request failed. -/
def svmAlpha (E : Env) (h : Heap) (sdca : Bool) (n : Nat) : Option Nat × Heap × Bool :=
  if sdca then ((malloc E h n).1, (malloc E h n).2, (malloc E h n).1.isNone)
  else (none, h, false)

/-- `err_alloc` (vl/svm.c:1075-1089). -/
def svmErr (h : Heap) (s : Svm) : Option Heap := do
  let h ← freeIf h s.scores
  let h ← freeIf h s.model
  freeIf h s.alpha

/-- `vl_svm_new_with_abstract_data` (vl/svm.c:1011-1090); the inner `none` is the
NULL that is returned when memory runs out.  The structure itself is used
without a check. -/
def svmNewAbstract (E : Env) (h : Heap) (sdca : Bool) (dim n : Nat) :
    Option (Option Svm × Heap) := do
  let (self, h) ← need E h 0
  let (model, h) := malloc E h dim
  if model.isNone then
    let h ← svmErr h ⟨self, model, none, none, none⟩
    some (none, h)
  else
    let (alpha, h, failed) := svmAlpha E h sdca n
    if failed then
      let h ← svmErr h ⟨self, model, alpha, none, none⟩
      some (none, h)
    else
      let (scores, h) := malloc E h n
      if scores.isNone then
        let h ← svmErr h ⟨self, model, alpha, scores, none⟩
        some (none, h)
      else some (some ⟨self, model, alpha, scores, none⟩, h)

/-- `vl_svm_new` (vl/svm.c:955-966, 976-993): the dataset is read and the
functions and the dataset are set in the new object without a check. -/
def svmNew (E : Env) (h : Heap) (sdca : Bool) (dim n : Nat) : Option (Svm × Heap) := do
  let (d, h) ← need E h 0
  let (s, h) ← svmNewAbstract E h sdca dim n
  let s ← s
  some ({ s with dataset := some d }, h)

/-- `vl_svm_delete` (vl/svm.c:1097-1112).  Simplification: the dataset made by
`vl_svm_new` has no buffer of its own. -/
def svmDelete (h : Heap) (s : Svm) : Option Heap := do
  let h ← freeIf h s.model
  let h ← freeIf h s.alpha
  let h ← freeIf h s.dataset
  free h s.self

/-! ## Scale space -/

/-- A scale space: its structure, its list of octaves and the octaves, NULL when
they are not allocated (vl/scalespace.c:395-400). -/
structure SS where
  self : Nat
  list : Nat
  sizes : List Nat
  octs : List (Option Nat)

/-- The loop that allocates the octaves (vl/scalespace.c:576-581), which stops at
the first failure; the result lists the pointers so far, the others being NULL,
and whether there was a failure. -/
def ssAlloc (E : Env) : List Nat → Heap → List (Option Nat) × Heap × Bool
  | [], h => ([], h, false)
  | n :: ns, h =>
    match malloc E h n with
    | (none, h) => (none :: ns.map fun _ => none, h, true)
    | (some p, h) => (some p :: (ssAlloc E ns h).1, (ssAlloc E ns h).2)

/-- The loop that frees the octaves that are allocated
(vl/scalespace.c:585-589, 644-648). -/
def ssFree : List (Option Nat) → Heap → Option Heap
  | [], h => some h
  | p :: ps, h => do
    let h ← freeIf h p
    ssFree ps h

/-- `vl_scalespace_new_with_geometry` (vl/scalespace.c:558-594); `sizes` are the
numbers of elements of the octaves. -/
def ssNew (E : Env) (h : Heap) (sizes : List Nat) : Option (Option SS × Heap) :=
  match malloc E h 0 with
  | (none, h) => some (none, h)
  | (some self, h) =>
    match malloc E h sizes.length with
    | (none, h) => do
      let h ← free h self
      some (none, h)
    | (some list, h) =>
      match ssAlloc E sizes h with
      | (octs, h, true) => do
        let h ← ssFree octs h
        let h ← free h self
        some (none, h)
      | (octs, h, false) => some (some ⟨self, list, sizes, octs⟩, h)

/-- `vl_scalespace_delete` (vl/scalespace.c:636-653). -/
def ssDelete (h : Heap) (s : SS) : Option Heap := do
  let h ← ssFree s.octs h
  let h ← free h s.list
  free h s.self

/-- The loop that copies the octaves (vl/scalespace.c:611-617). -/
def ssCopyLoop : List Nat → List (Option Nat) → List (Option Nat) → Heap → Option Heap
  | n :: ns, some d :: ds, some p :: ps, h => do
    let h ← memcpy h d p n
    ssCopyLoop ns ds ps h
  | [], _, _, h => some h
  | _, _, _, _ => none

/-- `vl_scalespace_new_copy` (vl/scalespace.c:604-619). -/
def ssCopy (E : Env) (h : Heap) (s : SS) : Option (Option SS × Heap) := do
  let (c, h) ← ssNew E h s.sizes
  match c with
  | none => some (none, h)
  | some c => do
    let h ← ssCopyLoop s.sizes c.octs s.octs h
    some (some c, h)

end Verif.Life
