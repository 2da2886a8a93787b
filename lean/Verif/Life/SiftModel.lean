import Mathlib.Data.Rat.Floor
import Verif.Life.BufModel

/-!
# The blocks of SIFT filters

`VlSiftFilt` keeps the images of an octave, the filter of the last smoothing, and
the keypoints of the last detection (vl/sift.c).  Simplifications: a keypoint is
one element; the pixels that are computed are parameters; the standard deviations
of the smoothings are parameters of the call.
-/

namespace Verif.Life

/-- The fields of `VlSiftFilt` that matter here (vl/sift.h:50-89); `nel` is the
number of pixels of the largest octave, `area` that of the current one, `S` the
number of levels of an octave. -/
structure Sf where
  self : Nat
  temp : Nat
  octave : Nat
  dog : Nat
  grad : Nat
  nel : Nat
  S : Nat
  area : Nat
  gauss : Option Nat
  gaussSigma : ℚ
  gaussWidth : Nat
  keys : Option Nat
  nkeys : Nat
  keysRes : Nat

/-- `vl_sift_new` (vl/sift.c:872-934). -/
def sNew (E : Env) (h : Heap) (nel S : Nat) : Option (Sf × Heap) := do
  let (p, h) ← need E h 0
  let (t, h) ← need E h nel
  let (o, h) ← need E h (nel * (S + 3))
  let (d, h) ← need E h (nel * (S + 2))
  let (g, h) ← need E h (nel * 2 * (S + 2))
  some (⟨p, t, o, d, g, nel, S, 0, none, 0, 0, none, 0, 0⟩, h)

/-- `vl_sift_delete` (vl/sift.c:944-957). -/
def sDelete (h : Heap) (s : Sf) : Option Heap := do
  let _ ← load h s.self
  let h ← freeIf h s.keys
  let h ← free h s.grad
  let h ← free h s.dog
  let h ← free h s.octave
  let h ← free h s.temp
  let h ← freeIf h s.gauss
  free h s.self

/-- The Gaussian filter is prepared (vl/sift.c:781-798); `tap σ j` is the value of
the normalised filter at `j`. -/
def sFilter (E : Env) (tap : ℚ → Nat → ℚ) (h : Heap) (s : Sf) (σ : ℚ) : Option (Sf × Heap) :=
  if s.gaussSigma ≠ σ then do
    let h ← freeIf h s.gauss
    let w := max ⌈4 * σ⌉.toNat 1
    let (g, h) ← need E h (2 * w + 1)
    let h ← store h g ((List.range (2 * w + 1)).map (tap σ))
    some ({ s with gauss := some g, gaussSigma := σ, gaussWidth := w }, h)
  else some (s, h)

/-- `_vl_sift_smooth` (vl/sift.c:772-816): gives the filter that is used, `[]` if the
image is copied.  The result is written by `sOctave`. -/
def sSmooth (E : Env) (tap : ℚ → Nat → ℚ) (h : Heap) (s : Sf) (σ : ℚ) : Option ((Sf × List ℚ) × Heap) := do
  let (s, h) ← sFilter E tap h s σ
  if s.gaussWidth = 0 then some ((s, []), h) else do
    let f ← readIf h s.gauss (2 * s.gaussWidth + 1)
    some ((s, f), h)

/-- Successive smoothings. -/
def sSmooths (E : Env) (tap : ℚ → Nat → ℚ) : List ℚ → Heap → Sf → Option ((Sf × List (List ℚ)) × Heap)
  | [], h, s => some ((s, []), h)
  | σ :: l, h, s => do
    let ((s, f), h) ← sSmooth E tap h s σ
    let ((s, fs), h) ← sSmooths E tap l h s
    some ((s, f :: fs), h)

/-- `vl_sift_process_first_octave` and `vl_sift_process_next_octave` when there is
another octave (vl/sift.c:977-1138): the octave has `area` pixels, the smoothings
are `σs`, and `v` is what is left in the levels and in the scratch image. -/
def sOctave (E : Env) (tap : ℚ → Nat → ℚ) (h : Heap) (s : Sf) (area : Nat) (σs : List ℚ) (v : Nat → ℚ) :
    Option ((Sf × List (List ℚ)) × Heap) := do
  let _ ← load h s.self
  let s := { s with nkeys := 0, area := area }
  let ((s, fs), h) ← sSmooths E tap σs h s
  let h ← store h s.temp ((List.range area).map v)
  let h ← store h s.octave ((List.range (area * (s.S + 3))).map v)
  some ((s, fs), h)

/-- `vl_realloc` of a block to `n` elements, which moves it (vl/generic.c:1331-1337). -/
def reneed (E : Env) (h : Heap) (p n : Nat) : Option (Nat × Heap) := do
  let v ← load h p
  let (q, h) ← need E h n
  let h ← store h q (v.take n)
  let h ← free h p
  some (q, h)

/-- Writes the element `i` of a block. -/
def put (h : Heap) (p i : Nat) (x : ℚ) : Option Heap := do
  let v ← load h p
  if i < v.length then store h p (v.set i x) else none

/-- Room for one more keypoint (vl/sift.c:1234-1244). -/
def sRoom (E : Env) (h : Heap) (s : Sf) : Option (Sf × Heap) :=
  if s.nkeys ≥ s.keysRes then
    match s.keys with
    | some p => (reneed E h p (s.keysRes + 500)).map fun r => ({ s with keys := some r.1, keysRes := s.keysRes + 500 }, r.2)
    | none => (need E h (s.keysRes + 500)).map fun r => ({ s with keys := some r.1, keysRes := s.keysRes + 500 }, r.2)
  else some (s, h)

/-- A new keypoint (vl/sift.c:1233-1252). -/
def sPush (E : Env) (h : Heap) (s : Sf) (x : ℚ) : Option (Sf × Heap) := do
  let (s, h) ← sRoom E h s
  let p ← s.keys
  let h ← put h p s.nkeys x
  some ({ s with nkeys := s.nkeys + 1 }, h)

/-- The keypoints of the scan (vl/sift.c:1188-1258). -/
def sPushes (E : Env) : List ℚ → Heap → Sf → Option (Sf × Heap)
  | [], h, s => some (s, h)
  | x :: l, h, s => do
    let (s, h) ← sPush E h s x
    sPushes E l h s

/-- The refinement in place (vl/sift.c:1264-1431): `m` keypoints are left, the next one is
`i`, and `j` have been kept; `refine` gives the refined keypoint or drops it. -/
def sRefine (refine : ℚ → Option ℚ) (p : Nat) : Nat → Nat → Nat → Heap → Option (Nat × Heap)
  | 0, _, j, h => some (j, h)
  | m + 1, i, j, h => do
    let v ← load h p
    let x ← v[i]?
    match refine x with
    | none => sRefine refine p m (i + 1) j h
    | some y => sRefine refine p m (i + 1) (j + 1) (← put h p j y)

/-- `vl_sift_detect` (vl/sift.c:1151-1435): `found` are the extrema of the differences
`v`. -/
def sDetect (E : Env) (h : Heap) (s : Sf) (v : Nat → ℚ) (found : List ℚ) (refine : ℚ → Option ℚ) :
    Option (Sf × Heap) := do
  let _ ← load h s.self
  let s := { s with nkeys := 0 }
  let h ← store h s.dog ((List.range (s.area * (s.S + 2))).map v)
  let (s, h) ← sPushes E found h s
  match s.keys with
  | none => some ({ s with nkeys := 0 }, h)
  | some p => do
    let (n, h) ← sRefine refine p s.nkeys 0 0 h
    some ({ s with nkeys := n }, h)

/-- `update_gradient` (vl/sift.c:1446-1560), called for orientations and descriptors. -/
def sGrad (h : Heap) (s : Sf) (v : Nat → ℚ) : Option (Sf × Heap) := do
  let _ ← load h s.self
  let h ← store h s.grad ((List.range (2 * s.area * s.S)).map v)
  some (s, h)

/-- `vl_sift_get_keypoints` with `vl_sift_get_nkeypoints` (vl/sift.h:274-290). -/
def sKeys (h : Heap) (s : Sf) : Option (List ℚ) := readIf h s.keys s.nkeys

/-- A call on a SIFT filter. -/
inductive SOp
  | octave (area : Nat) (σs : List ℚ) (v : Nat → ℚ)
  | detect (v : Nat → ℚ) (found : List ℚ) (refine : ℚ → Option ℚ)
  | grad (v : Nat → ℚ)

/-- The effect of a call. -/
def sStep (E : Env) (tap : ℚ → Nat → ℚ) : Sf × Heap → SOp → Option (Sf × Heap)
  | (s, h), .octave a σs v => (sOctave E tap h s a σs v).map fun r => (r.1.1, r.2)
  | (s, h), .detect v found refine => sDetect E h s v found refine
  | (s, h), .grad v => sGrad h s v

/-- A sequence of calls. -/
def sRun (E : Env) (tap : ℚ → Nat → ℚ) : List SOp → Sf × Heap → Option (Sf × Heap)
  | [], s => some s
  | op :: ops, s => do sRun E tap ops (← sStep E tap s op)

end Verif.Life
