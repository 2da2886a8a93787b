import Verif.Life.Model

/-!
# The buffers of dense SIFT filters, MSER filters and hierarchical k-means trees

These objects keep blocks between calls and replace them when they do not fit.
The values that the functions compute are parameters; what is modelled is which
blocks are allocated, written, forgotten and freed.
-/

namespace Verif.Life

/-- Writing the list `v` at the start of a block whose pointer may be NULL: then
there must be nothing to write. -/
def storeIf (h : Heap) : Option Nat → List ℚ → Option Heap
  | some p, v => store h p v
  | none, [] => some h
  | none, _ :: _ => none

/-! ## Dense SIFT -/

/-- The fields of `VlDsiftFilter` that matter here (vl/dsift.h:31-60).
Simplification: the step, the bounds and the geometry are replaced by what is
computed from them, the number of frames, the size of a descriptor and the
number of orientations. -/
structure Ds where
  self : Nat
  tmp1 : Nat
  tmp2 : Nat
  area : Nat
  frames : Option Nat
  descrs : Option Nat
  grads : Option (Nat × List Nat)
  frameAlloc : Nat
  binAlloc : Nat
  gradAlloc : Nat
  numFrames : Nat
  descrSize : Nat
  numBinT : Nat

/-- Frees the first `n` blocks of an array of pointers (vl/dsift.c:331-333). -/
def freeFirst : Nat → List Nat → Heap → Option Heap
  | 0, _, h => some h
  | _ + 1, [], _ => none
  | n + 1, p :: l, h => do freeFirst n l (← free h p)

/-- `_vl_dsift_free_buffers` (vl/dsift.c:318-340). -/
def dFree (h : Heap) (s : Ds) : Option (Ds × Heap) := do
  let h ← freeIf h s.frames
  let h ← freeIf h s.descrs
  let h ← match s.grads with
    | none => some h
    | some (p, l) => do
      let _ ← load h p
      let h ← freeFirst s.gradAlloc l h
      free h p
  some ({ s with frames := none, descrs := none, grads := none, frameAlloc := 0, binAlloc := 0, gradAlloc := 0 }, h)

/-- Allocates `n` blocks of `size` elements (vl/dsift.c:393-396). -/
def needs (E : Env) (size : Nat) : Nat → Heap → Option (List Nat × Heap)
  | 0, h => some ([], h)
  | n + 1, h => do
    let (p, h) ← need E h size
    let (l, h) ← needs E size n h
    some (p :: l, h)

/-- `_vl_dsift_alloc_buffers` (vl/dsift.c:373-403).  Simplification: a keypoint is one
element. -/
def dAlloc (E : Env) (h : Heap) (s : Ds) : Option (Ds × Heap) :=
  if s.descrSize ≠ s.binAlloc ∨ s.numBinT ≠ s.gradAlloc ∨ s.numFrames ≠ s.frameAlloc then do
    let (s, h) ← dFree h s
    let (f, h) ← need E h s.numFrames
    let (d, h) ← need E h (s.descrSize * s.numFrames)
    let (g, h) ← need E h s.numBinT
    let (l, h) ← needs E s.area s.numBinT h
    some ({ s with frames := some f, descrs := some d, grads := some (g, l), binAlloc := s.descrSize, gradAlloc := s.numBinT, frameAlloc := s.numFrames }, h)
  else some (s, h)

/-- `vl_dsift_new` (vl/dsift.c:414-453), followed by the update of the counts, which
are `numFrames`, `descrSize` and `numBinT`. -/
def dNew (E : Env) (h : Heap) (area numFrames descrSize numBinT : Nat) : Option (Ds × Heap) := do
  let (p, h) ← need E h 0
  let (t1, h) ← need E h area
  let (t2, h) ← need E h area
  some (⟨p, t1, t2, area, none, none, none, 0, 0, 0, numFrames, descrSize, numBinT⟩, h)

/-- `vl_dsift_delete` (vl/dsift.c:483-490). -/
def dDelete (h : Heap) (s : Ds) : Option Heap := do
  let (s, h) ← dFree h s
  let h ← free h s.tmp2
  let h ← free h s.tmp1
  free h s.self

/-- Clears the first `n` gradient images and writes them (vl/dsift.c:671-674, 676-741). -/
def gradWrite (area : Nat) (f : Nat → Nat → ℚ) : Nat → Nat → List Nat → Heap → Option Heap
  | 0, _, _, h => some h
  | _ + 1, _, [], _ => none
  | n + 1, t, p :: l, h => do
    gradWrite area f n (t + 1) l (← store h p ((List.range area).map (f t)))

/-- What `vl_dsift_process` computes: the values of the gradient images, of the
keypoints and of the descriptors. -/
structure DOut where
  grad : Nat → Nat → ℚ
  frame : Nat → ℚ
  descr : Nat → ℚ

/-- `vl_dsift_process` (vl/dsift.c:664-778): the buffers are made to fit, the two
scratch images are written, and all the keypoints and descriptors. -/
def dProcess (E : Env) (h : Heap) (s : Ds) (v : DOut) : Option (Ds × Heap) := do
  let _ ← load h s.self
  let (s, h) ← dAlloc E h s
  let h ← gradWrite s.area v.grad s.numBinT 0 ((s.grads.map Prod.snd).getD []) h
  let h ← store h s.tmp1 ((List.range s.area).map (v.grad 0))
  let h ← store h s.tmp2 ((List.range s.area).map (v.grad 0))
  let h ← storeIf h s.frames ((List.range s.numFrames).map v.frame)
  let h ← storeIf h s.descrs ((List.range (s.descrSize * s.numFrames)).map v.descr)
  some (s, h)

/-- A call on a dense SIFT filter. -/
inductive DOp
  | set (numFrames descrSize numBinT : Nat)
  | process (v : DOut)

/-- `vl_dsift_set_steps`, `vl_dsift_set_bounds` and `vl_dsift_set_geometry`
(vl/dsift.h:234-276) change the counts and no block; `process` is above. -/
def dStep (E : Env) : Ds × Heap → DOp → Option (Ds × Heap)
  | (s, h), .set n b t => some ({ s with numFrames := n, descrSize := b, numBinT := t }, h)
  | (s, h), .process v => dProcess E h s v

/-- A sequence of calls. -/
def dRun (E : Env) : List DOp → Ds × Heap → Option (Ds × Heap)
  | [], s => some s
  | op :: ops, s => do dRun E ops (← dStep E s op)

/-! ## MSER -/

/-- The fields of `VlMserFilt` that are blocks or sizes of blocks
(vl/mser.h:206-243). -/
structure Ms where
  self : Nat
  dims : Nat
  subs : Nat
  dsubs : Nat
  strides : Nat
  perm : Nat
  joins : Nat
  r : Nat
  nel : Nat
  dof : Nat
  er : Option Nat
  rer : Nat
  mer : Option Nat
  rmer : Nat
  nmer : Nat
  ell : Option Nat
  rell : Nat
  nell : Nat
  acc : Option Nat

/-- `vl_mser_new` (vl/mser.c:319-372). -/
def mNew (E : Env) (h : Heap) (ndims nel : Nat) : Option (Ms × Heap) := do
  let (p, h) ← need E h 0
  let (a, h) ← need E h ndims
  let (b, h) ← need E h ndims
  let (c, h) ← need E h ndims
  let (d, h) ← need E h ndims
  let (e, h) ← need E h nel
  let (f, h) ← need E h nel
  let (g, h) ← need E h nel
  some (⟨p, a, b, c, d, e, f, g, nel, ndims * (ndims + 1) / 2 + ndims, none, 0, none, 0, 0, none, 0, 0, none⟩, h)

/-- `vl_mser_delete` (vl/mser.c:381-402). -/
def mDelete (h : Heap) (s : Ms) : Option Heap := do
  let _ ← load h s.self
  let h ← freeIf h s.acc
  let h ← freeIf h s.ell
  let h ← freeIf h s.er
  let h ← free h s.r
  let h ← free h s.joins
  let h ← free h s.perm
  let h ← free h s.strides
  let h ← free h s.dsubs
  let h ← free h s.subs
  let h ← free h s.dims
  let h ← freeIf h s.mer
  free h s.self

/-- A block is replaced if fewer than `n` entries were reserved; `size` is the size
of the new block (vl/mser.c:656-660, 861-865, 908-912). -/
def grow (E : Env) (h : Heap) (p : Option Nat) (reserved n size : Nat) :
    Option ((Option Nat × Nat) × Heap) :=
  if reserved < n then do
    let h ← freeIf h p
    let (q, h) ← need E h size
    some ((some q, n), h)
  else some ((p, reserved), h)

/-- What `vl_mser_process` writes into the blocks of the filter. -/
structure MOut where
  perm : Nat → ℚ
  joins : Nat → ℚ
  r : Nat → ℚ
  er : List ℚ
  mer : List ℚ

/-- `vl_mser_process` (vl/mser.c:414-871): the extremal regions found are `v.er` and the maximally
stable ones `v.mer`. -/
def mProcess (E : Env) (h : Heap) (s : Ms) (v : MOut) : Option (Ms × Heap) := do
  let _ ← load h s.self
  let s := { s with nell := 0 }
  let h ← store h s.perm ((List.range s.nel).map v.perm)
  let h ← store h s.joins ((List.range s.nel).map v.joins)
  let h ← store h s.r ((List.range s.nel).map v.r)
  let ((er, rer), h) ← grow E h s.er s.rer v.er.length v.er.length
  let s := { s with er := er, rer := rer }
  let h ← storeIf h s.er v.er
  let ((mer, rmer), h) ← grow E h s.mer s.rmer v.mer.length v.mer.length
  let s := { s with mer := mer, rmer := rmer, nmer := v.mer.length }
  let h ← storeIf h s.mer v.mer
  some (s, h)

/-- `vl_mser_ell_fit` (vl/mser.c:885-1001): the ellipsoids found are `v 0`, `v 1`, and so on. -/
def mFit (E : Env) (h : Heap) (s : Ms) (v : Nat → ℚ) : Option (Ms × Heap) := do
  let _ ← load h s.self
  if s.nell = s.nmer then some (s, h) else do
    let ((ell, rell), h) ← grow E h s.ell s.rell s.nmer (s.nmer * s.dof)
    let s := { s with ell := ell, rell := rell }
    let (a, h) ← match s.acc with
      | some a => some (a, h)
      | none => need E h s.nel
    let s := { s with acc := some a }
    let h ← store h a ((List.range s.nel).map v)
    let h ← storeIf h s.ell ((List.range (s.nmer * s.dof)).map v)
    some ({ s with nell := s.nmer }, h)

/-- A call on an MSER filter. -/
inductive MOp
  | process (v : MOut)
  | fit (v : Nat → ℚ)

/-- The effect of a call. -/
def mStep (E : Env) : Ms × Heap → MOp → Option (Ms × Heap)
  | (s, h), .process v => mProcess E h s v
  | (s, h), .fit v => mFit E h s v

/-- A sequence of calls. -/
def mRun (E : Env) : List MOp → Ms × Heap → Option (Ms × Heap)
  | [], s => some s
  | op :: ops, s => do mRun E ops (← mStep E s op)

/-- Reads the first `n` elements of a block whose pointer may be NULL. -/
def readIf (h : Heap) (p : Option Nat) (n : Nat) : Option (List ℚ) :=
  match p with
  | none => if n = 0 then some [] else none
  | some p => do
    let v ← load h p
    if n ≤ v.length then some (v.take n) else none

/-- `vl_mser_get_regions` with `vl_mser_get_regions_num` (vl/mser.h:391-402). -/
def mRegions (h : Heap) (s : Ms) : Option (List ℚ) := readIf h s.mer s.nmer

/-- `vl_mser_get_ell` with `vl_mser_get_ell_num` and `vl_mser_get_ell_dof`
(vl/mser.h:404-432). -/
def mEll (h : Heap) (s : Ms) : Option (List ℚ) := readIf h s.ell (s.nell * s.dof)

/-- `vl_dsift_get_descriptors` with `vl_dsift_get_keypoint_num` and
`vl_dsift_get_descriptor_size` (vl/dsift.h:105-168). -/
def dDescrs (h : Heap) (s : Ds) : Option (List ℚ) := readIf h s.descrs (s.descrSize * s.numFrames)

/-- `vl_dsift_get_keypoints` with `vl_dsift_get_keypoint_num`
(vl/dsift.h:130-168). -/
def dFrames (h : Heap) (s : Ds) : Option (List ℚ) := readIf h s.frames s.numFrames

/-! ## Hierarchical k-means -/

/-- `VlIKMFilt` (vl/ikmeans.h:44-53). -/
structure Ik where
  self : Nat
  K : Nat
  centers : Option Nat
  inter : Option Nat

/-- `vl_ikm_new` (vl/ikmeans.c:103-110). -/
def ikNew (E : Env) (h : Heap) : Option (Ik × Heap) := do
  let (p, h) ← need E h 0
  some (⟨p, 0, none, none⟩, h)

/-- `vl_ikm_init_rand_data` (vl/ikmeans_init.tc:51-72, 118-162, vl/ikmeans_elkan.tc:45-53): the centers are
replaced, and for Elkan's method also the distances between them. -/
def ikInit (E : Env) (elkan : Bool) (h : Heap) (f : Ik) (M K : Nat) : Option (Ik × Heap) := do
  let h ← freeIf h f.centers
  let (p, h) ← need E h (M * K)
  let f := { f with centers := some p, K := K }
  if elkan then do
    let h ← freeIf h f.inter
    let (q, h) ← need E h (f.K * f.K)
    some ({ f with inter := some q }, h)
  else some (f, h)

/-- `vl_ikm_delete` (vl/ikmeans.c:116-124). -/
def ikDelete (h : Heap) (f : Ik) : Option Heap := do
  let _ ← load h f.self
  let h ← freeIf h f.centers
  let h ← freeIf h f.inter
  free h f.self

/-- `VlHIKMNode` (vl/hikmeans.h:27-31), `n` levels above the leaves: its block, its filter,
and for an inner node the block of the array of children and the children. -/
def HN : Nat → Type
  | 0 => Nat × Ik
  | n + 1 => (Nat × Ik) × (Nat × List (HN n))

/-- The children of a node are made one after the other, each from a copy of its
data that is then freed (vl/hikmeans.c:123-142). -/
def kids {α : Type} (E : Env) (M : Nat) (size : Nat → Nat)
    (make : Nat → Heap → Option (α × Heap)) : Nat → Nat → Heap → Option (List α × Heap)
  | 0, _, h => some ([], h)
  | m + 1, k, h => do
    let (part, h) ← need E h (M * size k)
    let (c, h) ← make k h
    let h ← free h part
    let (cs, h) ← kids E M size make m (k + 1) h
    some (c :: cs, h)

/-- `xmeans` (vl/hikmeans.c:103-148) with height `n + 1`, at the node reached by `path`; `count`
tells how many data come to each node.  Simplification: the scratch blocks of
the clustering, which are freed before it returns, are left out. -/
def xmeans (E : Env) (elkan : Bool) (M : Nat) (count : List Nat → Nat) : (n : Nat) → List Nat → Nat → Heap →
    Option (HN n × Heap)
  | 0, path, K, h => do
    let (node, h) ← need E h 0
    let (ids, h) ← need E h (count path)
    let (f, h) ← ikNew E h
    let (f, h) ← ikInit E elkan h f M K
    let h ← free h ids
    some ((node, f), h)
  | n + 1, path, K, h => do
    let (node, h) ← need E h 0
    let (ids, h) ← need E h (count path)
    let (f, h) ← ikNew E h
    let (arr, h) ← need E h K
    let (f, h) ← ikInit E elkan h f M K
    let (cs, h) ← kids E M (fun k => count (path ++ [k]))
      (fun k h => xmeans E elkan M count n (path ++ [k]) (min K (count (path ++ [k]))) h) K 0 h
    let h ← free h ids
    some (((node, f), (arr, cs)), h)

/-- Deletes the first `k` children (vl/hikmeans.c:164-166). -/
def delKids {α : Type} (del : α → Heap → Option Heap) : Nat → List α → Heap → Option Heap
  | 0, _, h => some h
  | _ + 1, [], _ => none
  | k + 1, c :: cs, h => do delKids del k cs (← del c h)

/-- `xdelete` (vl/hikmeans.c:157-174). -/
def xdelete : (n : Nat) → HN n → Heap → Option Heap
  | 0, (node, f), h => do
    let _ ← load h node
    let h ← ikDelete h f
    free h node
  | n + 1, ((node, f), (arr, cs)), h => do
    let _ ← load h node
    let h ← delKids (xdelete n) f.K cs h
    let h ← free h arr
    let h ← ikDelete h f
    free h node

/-- `VlHIKMTree` (vl/hikmeans.h:34-43); the depth of the root goes with the root. -/
structure HT where
  self : Nat
  M : Nat
  K : Nat
  depth : Nat
  root : Option ((n : Nat) × HN n)

/-- `vl_hikm_new` (vl/hikmeans.c:182-189). -/
def htNew (E : Env) (h : Heap) : Option (HT × Heap) := do
  let (p, h) ← need E h 0
  some (⟨p, 0, 0, 0, none⟩, h)

/-- `xdelete` of a root that may be NULL. -/
def dropRoot (h : Heap) (t : HT) : Option Heap :=
  match t.root with
  | none => some h
  | some ⟨n, r⟩ => xdelete n r h

/-- `vl_hikm_init` (vl/hikmeans.c:217-230). -/
def htInit (h : Heap) (t : HT) (M K depth : Nat) : Option (HT × Heap) := do
  assert' (depth > 0)
  assert' (M > 0)
  assert' (K > 0)
  let h ← dropRoot h t
  some ({ t with root := none, M := M, K := K, depth := depth }, h)

/-- `vl_hikm_train` (vl/hikmeans.c:239-243). -/
def htTrain (E : Env) (elkan : Bool) (h : Heap) (t : HT) (count : List Nat → Nat) : Option (HT × Heap) := do
  let _ ← load h t.self
  match t.depth with
  | 0 => none
  | n + 1 => do
    let (r, h) ← xmeans E elkan t.M count n [] (min t.K (count [])) h
    some ({ t with root := some ⟨n, r⟩ }, h)

/-- `vl_hikm_delete` (vl/hikmeans.c:196-203). -/
def htDelete (h : Heap) (t : HT) : Option Heap := do
  let _ ← load h t.self
  let h ← dropRoot h t
  free h t.self

/-- A call on a tree. -/
inductive HOp
  | init (M K depth : Nat)
  | train (count : List Nat → Nat)

/-- The effect of a call. -/
def htStep (E : Env) (elkan : Bool) : HT × Heap → HOp → Option (HT × Heap)
  | (t, h), .init M K d => htInit h t M K d
  | (t, h), .train count => htTrain E elkan h t count

/-- A sequence of calls. -/
def htRun (E : Env) (elkan : Bool) : List HOp → HT × Heap → Option (HT × Heap)
  | [], s => some s
  | op :: ops, s => do htRun E elkan ops (← htStep E elkan s op)

end Verif.Life
