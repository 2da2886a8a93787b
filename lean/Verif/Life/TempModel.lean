import Verif.Life.HogModel

/-!
# The scratch memory of functions without objects

The image filters, the distance transform and the segmentation allocate blocks for the
time of a call (vl/imopv.c, vl/slic.c).  What they compute is in other files; here the results are parameters, and each
array is written and read as a whole.
-/

namespace Verif.Life

/-- The column of numbers that a function computes. -/
def vals (a : Nat → ℚ) (n : Nat) : List ℚ := (List.range n).map a

/-- Reading the first `n` elements of a block. -/
def readN (h : Heap) (p n : Nat) : Option (List ℚ) := do
  let v ← load h p
  if n ≤ v.length then some (v.take n) else none

/-- The columns of `vl_imconvcoltri`, one after the other in the same buffer
(vl/imopv.c:531-590): column `x` leaves `a x`. -/
def triCols (h : Heap) (p n : Nat) (a : Nat → Nat → ℚ) : Nat → Option Heap
  | 0 => some h
  | x + 1 => do
    let h ← triCols h p n a x
    let h ← store h p (vals (a x) n)
    let _ ← readN h p n
    some h

/-- `vl_imconvcoltri` (vl/imopv.c:510-592). -/
def triTemp (E : Env) (h : Heap) (width height size : Nat) (a : Nat → Nat → ℚ) : Option Heap := do
  let (p, h) ← need E h (height + size)
  if height = 0 then some h else
  let h ← triCols h p (height + size) a width
  free h p

/-- `_vl_new_gaussian_fitler` (vl/imopv.c:620-643): the block and the size; a sigma that
is negative makes the size wrap around. -/
def gaussTemp (E : Env) (h : Heap) (sigma : ℚ) (g : Nat → ℚ) : Option ((Nat × Nat) × Heap) :=
  if sigma < 0 then none else do
    let size := 2 * (sigma * 3).ceil.toNat + 1
    let (p, h) ← need E h size
    let h ← store h p (vals g size)
    some ((p, size), h)

/-- The choice of the filter for the columns (vl/imopv.c:655-660). -/
def gaussY (E : Env) (h : Heap) (sx sy : ℚ) (fx : Nat × Nat) (g : Nat → ℚ) : Option ((Nat × Nat) × Heap) :=
  if sx = sy then some (fx, h) else gaussTemp E h sy g

/-- `vl_imsmooth` (vl/imopv.c:645-679). -/
def smoothTemp (E : Env) (h : Heap) (width height : Nat) (sx sy : ℚ) (gx gy b : Nat → ℚ) : Option Heap := do
  let (fx, h) ← gaussTemp E h sx gx
  let (fy, h) ← gaussY E h sx sy fx gy
  let (p, h) ← need E h (width * height)
  let _ ← readN h fy.1 fy.2
  let h ← store h p (vals b (width * height))
  let _ ← readN h fx.1 fx.2
  let _ ← readN h p (width * height)
  let h ← free h p
  let h ← free h fx.1
  if sx ≠ sy then free h fy.1 else some h

/-- `vl_image_distance_transform` (vl/imopv.c:328-445). -/
def distTemp (E : Env) (h : Heap) (columns : Nat) (a b c d : Nat → ℚ) : Option Heap := do
  let (f, h) ← need E h (columns + 1)
  let (p, h) ← need E h columns
  let (q, h) ← need E h columns
  let (w, h) ← need E h columns
  let h ← store h w (vals a columns)
  let h ← store h f (vals b (columns + 1))
  let h ← store h p (vals c columns)
  let h ← store h q (vals d columns)
  let h ← free h f
  let h ← free h w
  let h ← free h p
  free h q

/-- `vl_slic_segment` (vl/slic.c:169-411), with a call that breaks an assertion undefined. -/
def slicTemp (E : Env) (h : Heap) (width height channels size : Nat) (a b c d e : Nat → ℚ) : Option Heap :=
  if width < 1 ∨ height < 1 ∨ channels < 1 ∨ size < 1 then none else do
    let r := ((width + size - 1) / size) * ((height + size - 1) / size)
    let pixels := width * height
    let (g, h) ← need E h pixels
    let (m, h) ← need E h pixels
    let (z, h) ← need E h ((2 + channels) * r)
    let h ← store h g (vals a pixels)
    let h ← store h z (vals b ((2 + channels) * r))
    let h ← store h m (List.replicate pixels 0)
    let h ← store h m (vals c r)
    let h ← free h m
    let h ← free h z
    let h ← free h g
    let (k, h) ← need E h pixels
    let (s, h) ← need E h pixels
    let h ← store h s (vals d pixels)
    let h ← store h k (vals e pixels)
    let h ← free h k
    free h s

/-- A call of one of these functions. -/
inductive TempOp
  | tri (width height size : Nat) (a : Nat → Nat → ℚ)
  | smooth (width height : Nat) (sx sy : ℚ) (gx gy b : Nat → ℚ)
  | dist (columns : Nat) (a b c d : Nat → ℚ)
  | slic (width height channels size : Nat) (a b c d e : Nat → ℚ)

/-- The effect of a call on the heap. -/
def tempStep (E : Env) (h : Heap) : TempOp → Option Heap
  | .tri w t n a => triTemp E h w t n a
  | .smooth w t sx sy gx gy b => smoothTemp E h w t sx sy gx gy b
  | .dist n a b c d => distTemp E h n a b c d
  | .slic w t k n a b c d e => slicTemp E h w t k n a b c d e

/-- A sequence of calls. -/
def tempRun (E : Env) : List TempOp → Heap → Option Heap
  | [], h => some h
  | op :: ops, h => do tempRun E ops (← tempStep E h op)

end Verif.Life
