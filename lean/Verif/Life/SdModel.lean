import Verif.Life.BufModel

/-!
# The blocks of SVM data sets

`VlSvmDataset` wraps the data of the user, and keeps a buffer for one value of the
kernel map while a map is set (vl/svmdataset.c).
-/

namespace Verif.Life

/-- A kernel map of the user: the number of elements of a value, and the values
(vl/homkermap.c, see C50 and C91). -/
structure KMap where
  dim : Nat
  ev : ℚ → List ℚ

/-- `VlSvmDataset` (vl/svmdataset.c:104-112); `data` are the wrapped vectors. -/
structure Sd where
  self : Nat
  data : List (List ℚ)
  hom : Option KMap
  buf : Option Nat
  homDim : Nat

/-- `vl_svmdataset_new` (vl/svmdataset.c:137-155). -/
def sdNew (E : Env) (h : Heap) (data : List (List ℚ)) : Option Sd × Heap :=
  match malloc E h 0 with
  | (some p, h) => (some ⟨p, data, none, none, 0⟩, h)
  | (none, h) => (none, h)

/-- `vl_svmdataset_delete` (vl/svmdataset.c:164-171). -/
def sdDelete (h : Heap) (s : Sd) : Option Heap := do
  let _ ← load h s.self
  let h ← freeIf h s.buf
  free h s.self

/-- `vl_svmdataset_set_homogeneous_kernel_map` (vl/svmdataset.c:237-252). -/
def sdSet (E : Env) (h : Heap) (s : Sd) (m : Option KMap) : Option (Sd × Heap) := do
  let _ ← load h s.self
  let h ← freeIf h s.buf
  match m with
  | none => some ({ s with hom := none, homDim := 0, buf := none }, h)
  | some k =>
    let (p, h) := malloc E h k.dim
    some ({ s with hom := some k, homDim := k.dim, buf := p }, h)

/-- The inner product of the list `b` with the start of `model`; reading past the end is
undefined. -/
def dotAt : List ℚ → List ℚ → Option ℚ
  | [], _ => some 0
  | _ :: _, [] => none
  | x :: b, y :: model => (dotAt b model).map fun r => x * y + r

/-- Adds `c` times the list `b` to the start of `model`; writing past the end is
undefined. -/
def addAt (c : ℚ) : List ℚ → List ℚ → Option (List ℚ)
  | [], model => some model
  | _ :: _, [] => none
  | x :: b, y :: model => (addAt c b model).map fun r => (y + x * c) :: r

/-- The loop of `_vl_svmdataset_inner_product_hom` (vl/svmdataset.c:357-380). -/
def homInner (k : KMap) (buf : Option Nat) (homDim : Nat) : List ℚ → List ℚ → Heap → Option (ℚ × Heap)
  | [], _, h => some (0, h)
  | x :: l, model, h => do
    let h ← storeIf h buf (k.ev x)
    let b ← readIf h buf homDim
    let p ← dotAt b model
    let (r, h) ← homInner k buf homDim l (model.drop homDim) h
    some (p + r, h)

/-- The loop of `vl_svmdataset_accumulate_hom` (vl/svmdataset.c:382-403). -/
def homAdd (k : KMap) (buf : Option Nat) (homDim : Nat) (c : ℚ) : List ℚ → List ℚ → Heap → Option (List ℚ × Heap)
  | [], model, h => some (model, h)
  | x :: l, model, h => do
    let h ← storeIf h buf (k.ev x)
    let b ← readIf h buf homDim
    let m ← addAt c b (model.take homDim)
    let (r, h) ← homAdd k buf homDim c l (model.drop homDim) h
    some (m ++ r, h)

/-- The function given by `vl_svmdataset_get_inner_product_function`, applied to an
element (vl/svmdataset.c:290-321, 329-341). -/
def sdInner (h : Heap) (s : Sd) (i : Nat) (model : List ℚ) : Option (ℚ × Heap) := do
  let _ ← load h s.self
  let row ← s.data[i]?
  match s.hom with
  | none => (dotAt row model).map fun r => (r, h)
  | some k => homInner k s.buf s.homDim row model h

/-- The function given by `vl_svmdataset_get_accumulate_function`, applied to an element
(vl/svmdataset.c:259-283, 343-355). -/
def sdAdd (h : Heap) (s : Sd) (i : Nat) (model : List ℚ) (c : ℚ) : Option (List ℚ × Heap) := do
  let _ ← load h s.self
  let row ← s.data[i]?
  match s.hom with
  | none => (addAt c row model).map fun r => (r, h)
  | some k => homAdd k s.buf s.homDim c row model h

/-- A call on a data set. -/
inductive SdOp
  | set (m : Option KMap)
  | inner (i : Nat) (model : List ℚ)
  | add (i : Nat) (model : List ℚ) (c : ℚ)

/-- The effect of a call. -/
def sdStep (E : Env) : Sd × Heap → SdOp → Option (Sd × Heap)
  | (s, h), .set m => sdSet E h s m
  | (s, h), .inner i model => (sdInner h s i model).map fun r => (s, r.2)
  | (s, h), .add i model c => (sdAdd h s i model c).map fun r => (s, r.2)

/-- A sequence of calls. -/
def sdRun (E : Env) : List SdOp → Sd × Heap → Option (Sd × Heap)
  | [], s => some s
  | op :: ops, s => do sdRun E ops (← sdStep E s op)

end Verif.Life
