import Verif.Life.BufModel

/-!
# The blocks of HOG objects

`VlHog` keeps the histograms and the norms of the cells of the last image, and
replaces these blocks when the number of cells changes (vl/hog.c).
Simplification: what the pixels of an image add to each bin is a parameter.
-/

namespace Verif.Life

/-- The fields of `VlHog` that matter here (vl/hog.h:22-47); `N` is the number of
orientations. -/
structure Hg where
  self : Nat
  orientX : Nat
  orientY : Nat
  permutation : Nat
  glyphs : Nat
  N : Nat
  hog : Option Nat
  norm : Option Nat
  width : Nat
  height : Nat

/-- `vl_calloc` whose result is used without a check (vl/generic.c:1346-1350). -/
def cneed (E : Env) (h : Heap) (n : Nat) : Option (Nat × Heap) := do
  let (p, h) ← need E h n
  let h ← store h p (List.replicate n 0)
  some (p, h)

/-- `vl_hog_new` (vl/hog.c:174-314); the contents of the tables are left out. -/
def hgNew (E : Env) (h : Heap) (uoctti : Bool) (N : Nat) : Option (Hg × Heap) :=
  if N < 1 then none else do
    let (p, h) ← need E h 0
    let (x, h) ← need E h N
    let (y, h) ← need E h N
    let (q, h) ← need E h (if uoctti then 3 * N + 4 else 4 * N)
    let (g, h) ← cneed E h (21 * 21 * N)
    some (⟨p, x, y, q, g, N, none, none, 0, 0⟩, h)

/-- `vl_hog_delete` (vl/hog.c:321-355). -/
def hgDelete (h : Heap) (s : Hg) : Option Heap := do
  let _ ← load h s.self
  let h ← free h s.orientX
  let h ← free h s.orientY
  let h ← free h s.glyphs
  let h ← free h s.permutation
  let h ← freeIf h s.hog
  let h ← freeIf h s.norm
  free h s.self

/-- `vl_hog_prepare_buffers` (vl/hog.c:538-573); a failed assertion is undefined. -/
def hgPrepare (E : Env) (h : Heap) (s : Hg) (width height cell : Nat) : Option (Hg × Heap) :=
  if cell = 0 then none else
  let w := (width + cell / 2) / cell
  let t := (height + cell / 2) / cell
  if ¬ (width > 3 ∧ height > 3 ∧ w > 0 ∧ t > 0) then none else
  if s.hog ≠ none ∧ s.width = w ∧ s.height = t then do
    let h ← storeIf h s.hog (List.replicate (w * t * s.N * 2) 0)
    let h ← storeIf h s.norm (List.replicate (w * t) 0)
    some (s, h)
  else do
    let h ← freeIf h s.hog
    let h ← freeIf h s.norm
    let (p, h) ← cneed E h (w * t * s.N * 2)
    let (q, h) ← cneed E h (w * t)
    some ({ s with hog := some p, norm := some q, width := w, height := t }, h)

/-- `vl_hog_put_image` and `vl_hog_put_polar_field` (vl/hog.c:594-841): the pixels add
`a i` to the bin `i`. -/
def hgPut (E : Env) (h : Heap) (s : Hg) (width height cell : Nat) (a : Nat → ℚ) : Option (Hg × Heap) := do
  let _ ← load h s.self
  let (s, h) ← hgPrepare E h s width height cell
  let v ← readIf h s.hog (s.width * s.height * s.N * 2)
  let h ← storeIf h s.hog (v.mapIdx fun i x => x + a i)
  some (s, h)

/-- What `vl_hog_extract` computes the features from (vl/hog.c:853-1071): the histograms
and the norms of the cells.  The norms are added to what their block contains. -/
def hgExtract (h : Heap) (s : Hg) : Option ((List ℚ × List ℚ) × Heap) := do
  let _ ← load h s.self
  let c := s.width * s.height
  let v ← readIf h s.hog (c * s.N * 2)
  let n ← readIf h s.norm c
  let n := n.mapIdx fun i x => x + ((List.range s.N).map fun k => (v[i + k * c]?.getD 0 + v[i + (k + s.N) * c]?.getD 0) ^ 2).sum
  let h ← storeIf h s.norm n
  some ((v, n), h)

/-- A call on a HOG object. -/
inductive HgOp
  | put (width height cell : Nat) (a : Nat → ℚ)
  | extract

/-- The effect of a call. -/
def hgStep (E : Env) : Hg × Heap → HgOp → Option (Hg × Heap)
  | (s, h), .put w t c a => hgPut E h s w t c a
  | (s, h), .extract => (hgExtract h s).map fun r => (s, r.2)

/-- A sequence of calls. -/
def hgRun (E : Env) : List HgOp → Hg × Heap → Option (Hg × Heap)
  | [], s => some s
  | op :: ops, s => do hgRun E ops (← hgStep E s op)

end Verif.Life
