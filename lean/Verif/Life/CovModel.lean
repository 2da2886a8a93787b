import Verif.Life.FailModel

/-! The scale spaces and buffers of covariant detectors (vl/covdet.c).  The values
that are computed are parameters; what is modelled is which blocks are allocated,
read, written, forgotten and freed. -/

namespace Verif.Life

/-- The geometry of a scale space (vl/scalespace.h:26-39): the numbers of elements of
its octaves, and a number that stands for the remaining fields. -/
structure Geom where
  sizes : List Nat
  rest : Nat
  deriving DecidableEq

/-- The pointers of `struct _VlCovDet` and the sizes of its buffers
(vl/covdet.c:1450-1497).  Simplification: a feature is one element and sizes count
elements; `cgeom` is the geometry that the detector uses for the response of a scale
space (vl/covdet.c:1951-1954). -/
structure Cv where
  self : Nat
  cgeom : Geom → Geom
  gss : Option (Geom × SS)
  css : Option (Geom × SS)
  feats : Option Nat
  num : Nat
  cap : Nat
  patch : Option Nat
  patchCap : Nat

/-- `vl_covdet_new` (vl/covdet.c:1512-1609); the structure is used without a check. -/
def cvNew (E : Env) (h : Heap) (cgeom : Geom → Geom) : Option (Cv × Heap) := do
  let (p, h) ← need E h 0
  some (⟨p, cgeom, none, none, none, 0, 0, none, 0⟩, h)

/-- `if (s) vl_scalespace_delete (s)` -/
def ssDeleteIf (h : Heap) : Option (Geom × SS) → Option Heap
  | none => some h
  | some s => ssDelete h s.2

/-- `vl_covdet_reset` (vl/covdet.c:1619-1634): the counts of features are left. -/
def cvReset (h : Heap) (c : Cv) : Option (Cv × Heap) := do
  let _ ← load h c.self
  let h ← freeIf h c.feats
  let h ← ssDeleteIf h c.css
  let h ← ssDeleteIf h c.gss
  some ({ c with feats := none, css := none, gss := none }, h)

/-- `vl_covdet_delete` (vl/covdet.c:1640-1646). -/
def cvDelete (h : Heap) (c : Cv) : Option Heap := do
  let (c, h) ← cvReset h c
  let h ← freeIf h c.patch
  free h c.self

/-- All the octaves of a scale space are written. -/
def ssWrite (v : Nat → ℚ) : List Nat → List (Option Nat) → Heap → Option Heap
  | [], _, h => some h
  | n :: ns, some p :: ps, h => do
    let h ← store h p ((List.range n).map v)
    ssWrite v ns ps h
  | _ :: _, _, _ => none

/-- All the octaves of a scale space are read. -/
def ssRead : List Nat → List (Option Nat) → Heap → Option Unit
  | [], _, _ => some ()
  | n :: ns, some p :: ps, h => do
    let w ← load h p
    if n ≤ w.length then ssRead ns ps h else none
  | _ :: _, _, _ => none

/-- Makes a scale space of geometry `g`, unless `s` is one (vl/covdet.c:1732-1739,
1955-1961); the inner `none` is NULL. -/
def ssFit (E : Env) (h : Heap) (s : Option (Geom × SS)) (g : Geom) : Option (Option (Geom × SS) × Heap) :=
  match s with
  | some (g', t) =>
    if g' = g then some (some (g', t), h)
    else do
      let h ← ssDelete h t
      let (n, h) ← ssNew E h g.sizes
      some (n.map fun t => (g, t), h)
  | none => do
    let (n, h) ← ssNew E h g.sizes
    some (n.map fun t => (g, t), h)

/-- `vl_covdet_put_image` (vl/covdet.c:1692-1742), given the geometry for the image;
the flag tells whether an error is returned. -/
def cvPut (E : Env) (h : Heap) (c : Cv) (g : Geom) (v : Nat → ℚ) : Option (Bool × Cv × Heap) := do
  let _ ← load h c.self
  let (s, h) ← ssFit E h c.gss g
  match s with
  | none => some (true, { c with gss := none }, h)
  | some (g, t) => do
    let h ← ssWrite v t.sizes t.octs h
    some (false, { c with gss := some (g, t) }, h)

/-- `_vl_resize_buffer` (vl/covdet.c:955-976): the new pointer, the new size and
whether there was an error. -/
def resize (E : Env) (h : Heap) (buf : Option Nat) (size target : Nat) : Option (Option Nat × Nat × Bool × Heap) :=
  match buf with
  | none =>
    match malloc E h target with
    | (some p, h) => some (some p, target, false, h)
    | (none, h) => some (none, 0, true, h)
  | some q => do
    let w ← load h q
    match malloc E h target with
    | (some p, h) => do
      let h ← store h p (w.take target)
      let h ← free h q
      some (some p, target, false, h)
    | (none, h) => some (some q, size, true, h)

/-- `self->features[n - 1] = x` (vl/covdet.c:1673). -/
def putAt (h : Heap) (buf : Option Nat) (i : Nat) (x : ℚ) : Option Heap := do
  let p ← buf
  let w ← load h p
  let w ← wr w i x
  store h p w

/-- `vl_covdet_append_feature` (vl/covdet.c:1657-1675). -/
def cvAppend (E : Env) (h : Heap) (c : Cv) (x : ℚ) : Option (Cv × Heap) :=
  if c.num + 1 > c.cap then do
    let (p, n, failed, h) ← resize E h c.feats c.cap (c.num + 1 + 1000)
    if failed then some ({ c with feats := p, cap := n }, h)
    else do
      let h ← putAt h p c.num x
      some ({ c with feats := p, cap := n, num := c.num + 1 }, h)
  else do
    let h ← putAt h c.feats c.num x
    some ({ c with num := c.num + 1 }, h)

/-- A sequence of calls of `vl_covdet_append_feature`. -/
def cvAppends (E : Env) : List ℚ → Cv → Heap → Option (Cv × Heap)
  | [], c, h => some (c, h)
  | x :: xs, c, h => do
    let (c, h) ← cvAppend E h c x
    cvAppends E xs c h

/-- `vl_covdet_detect` (vl/covdet.c:1934-2150) with the features `xs` found.  The scale
space of the response is used without a check. -/
def cvDetect (E : Env) (h : Heap) (c : Cv) (v : Nat → ℚ) (xs : List ℚ) : Option (Cv × Heap) := do
  let _ ← load h c.self
  let (g, t) ← c.gss
  let c := { c with num := 0 }
  let (s, h) ← ssFit E h c.css (c.cgeom g)
  let (g', t') ← s
  ssRead t.sizes t.octs h
  let h ← ssWrite v t'.sizes t'.octs h
  cvAppends E xs { c with css := some (g', t') } h

/-- The functions that change or remove features in place: the suppression
(vl/covdet.c:2112-2145), `vl_covdet_extract_affine_shape` (2663-2680) and
`vl_covdet_drop_features_outside` (3127-3141); at most `k` features are left. -/
def cvKeep (h : Heap) (c : Cv) (k : Nat) (v : Nat → ℚ) : Option (Cv × Heap) := do
  let _ ← load h c.self
  if c.num = 0 then some (c, h)
  else do
    let p ← c.feats
    let h ← store h p ((List.range c.num).map v)
    some ({ c with num := min k c.num }, h)

/-- The patch buffer of `vl_covdet_extract_patch_helper` (vl/covdet.c:2203, 2327-2366)
when the patch has to be padded to `n` elements; the flag tells whether an error is
returned. -/
def cvPatch (E : Env) (h : Heap) (c : Cv) (n : Nat) (v : Nat → ℚ) : Option (Bool × Cv × Heap) := do
  let _ ← load h c.self
  let (_, t) ← c.gss
  ssRead t.sizes t.octs h
  if n > c.patchCap then do
    let (p, m, failed, h) ← resize E h c.patch c.patchCap n
    if failed then some (true, { c with patch := p, patchCap := m }, h)
    else do
      let q ← p
      let h ← store h q ((List.range n).map v)
      some (false, { c with patch := p, patchCap := m }, h)
  else if n = 0 then some (false, c, h)
  else do
    let q ← c.patch
    let h ← store h q ((List.range n).map v)
    some (false, c, h)

/-- A call on a covariant detector; `reset` stands also for the functions that set the
octaves and the resolution (vl/covdet.c:3260-3354), which end with a reset. -/
inductive CvOp
  | put (g : Geom) (v : Nat → ℚ)
  | detect (v : Nat → ℚ) (xs : List ℚ)
  | append (x : ℚ)
  | keep (k : Nat) (v : Nat → ℚ)
  | patch (n : Nat) (v : Nat → ℚ)
  | reset

/-- One call. -/
def cvStep (E : Env) : Cv × Heap → CvOp → Option (Cv × Heap)
  | (c, h), .put g v => (cvPut E h c g v).map Prod.snd
  | (c, h), .detect v xs => cvDetect E h c v xs
  | (c, h), .append x => cvAppend E h c x
  | (c, h), .keep k v => cvKeep h c k v
  | (c, h), .patch n v => (cvPatch E h c n v).map Prod.snd
  | (c, h), .reset => cvReset h c

/-- A sequence of calls. -/
def cvRun (E : Env) : List CvOp → Cv × Heap → Option (Cv × Heap)
  | [], s => some s
  | op :: ops, s => do cvRun E ops (← cvStep E s op)

end Verif.Life
