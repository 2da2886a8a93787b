import Verif.Life.TempModel

/-!
# The blocks of LIOP and quick shift objects

These objects allocate their blocks once, and use them again for each patch or each run
(vl/liop.c, vl/quickshift.c).  What they compute is in C35, C49, C80, C81 and C172; here
the order of the pixels, the neighbours and the densities are parameters.
-/

namespace Verif.Life

/-! ## LIOP -/

/-- The fields of `VlLiopDesc` that matter here (vl/liop.h:22-44). -/
structure Lp where
  self : Nat
  pixels : Nat
  intensities : Nat
  permutation : Nat
  neighPerm : Nat
  neighInt : Nat
  samplesX : Nat
  samplesY : Nat
  size : Nat
  k : Nat
  side : Nat

/-- The pixels of the patch (vl/liop.c:346-361): those in a disc of squared radius `t2`,
but for the first. -/
def lpDisc (side : Nat) (t2 : ℤ) : List Nat :=
  (List.range (side * side)).filter fun i =>
    let c : ℤ := ((side - 1) / 2 : Nat)
    let dx : ℤ := (i % side : Nat) - c
    let dy : ℤ := (i / side : Nat) - c
    i ≠ 0 && decide (dx * dx + dy * dy ≤ t2)

/-- `vl_liopdesc_new` (vl/liop.c:320-399); `sx` and `sy` are the samples. -/
def lpNew (E : Env) (h : Heap) (k side : Nat) (t2 : ℤ) (sx sy : Nat → ℚ) : Option (Lp × Heap) := do
  let (s, h) ← need E h 0
  let px := lpDisc side t2
  let n := px.length
  let (p, h) ← need E h (side * side)
  let h ← store h p (px.map fun (i : Nat) => (i : ℚ))
  let (a, h) ← need E h n
  let (b, h) ← need E h n
  let (c, h) ← need E h k
  let (d, h) ← need E h k
  let (x, h) ← need E h (k * n)
  let (y, h) ← need E h (k * n)
  let h ← store h x (vals sx (k * n))
  let h ← store h y (vals sy (k * n))
  some (⟨s, p, a, b, c, d, x, y, n, k, side⟩, h)

/-- `vl_liopdesc_delete` (vl/liop.c:418-428). -/
def lpDelete (h : Heap) (s : Lp) : Option Heap := do
  let _ ← load h s.self
  let h ← free h s.pixels
  let h ← free h s.intensities
  let h ← free h s.permutation
  let h ← free h s.neighPerm
  let h ← free h s.neighInt
  let h ← free h s.samplesX
  let h ← free h s.samplesY
  free h s.self

/-- The neighbours of the pixels (vl/liop.c:497-543), pixel after pixel in the same
blocks: `q i` is their order and `v i` their intensities around the pixel `i`.  The
result is what the descriptor is computed from. -/
def lpPixels (h : Heap) (s : Lp) (q v : Nat → Nat → ℚ) : Nat → Option (List (List ℚ × List ℚ) × Heap)
  | 0 => some ([], h)
  | i + 1 => do
    let (l, h) ← lpPixels h s q v i
    let h ← store h s.neighPerm (vals (q i) s.k)
    let h ← store h s.neighInt (vals (v i) s.k)
    let a ← readN h s.neighPerm s.k
    let b ← readN h s.neighInt s.k
    some (l ++ [(a, b)], h)

/-- The values of a patch at the listed pixels; a pixel outside the patch is undefined. -/
def pick (patch : List ℚ) : List ℚ → Option (List ℚ)
  | [] => some []
  | i :: l => do
    let x ← patch[i.num.toNat]?
    let r ← pick patch l
    some (x :: r)

/-- `vl_liopdesc_process` (vl/liop.c:441-560): `o` is the order of the pixels.  The result is
what the descriptor is computed from. -/
def lpProcess (h : Heap) (s : Lp) (patch : List ℚ) (o : List ℚ → Nat → ℚ) (q v : Nat → Nat → ℚ) :
    Option ((List ℚ × List ℚ × List (List ℚ × List ℚ)) × Heap) := do
  let _ ← load h s.self
  let px ← readN h s.pixels s.size
  let z ← pick patch px
  let h ← store h s.intensities z
  let z ← readN h s.intensities s.size
  let h ← store h s.permutation (vals (o z) s.size)
  let r ← readN h s.permutation s.size
  let _ ← readN h s.samplesX (s.k * s.size)
  let _ ← readN h s.samplesY (s.k * s.size)
  let (l, h) ← lpPixels h s q v s.size
  some ((z, r, l), h)

/-- A patch and the values that depend on it. -/
structure LpOp where
  patch : List ℚ
  o : List ℚ → Nat → ℚ
  q : Nat → Nat → ℚ
  v : Nat → Nat → ℚ

/-- A sequence of patches. -/
def lpRun : List LpOp → Lp × Heap → Option (Lp × Heap)
  | [], s => some s
  | op :: ops, (s, h) => do
    let r ← lpProcess h s op.patch op.o op.q op.v
    lpRun ops (s, r.2)

/-! ## Quick shift -/

/-- The fields of `VlQS` that matter here (vl/quickshift.h:33-47). -/
structure Qs where
  self : Nat
  dists : Nat
  parents : Nat
  density : Nat
  n : Nat
  channels : Nat

/-- `vl_quickshift_new` (vl/quickshift.c:229-250), for an image of `n` pixels. -/
def qsNew (E : Env) (h : Heap) (n channels : Nat) : Option (Qs × Heap) := do
  let (s, h) ← need E h 0
  let (d, h) ← cneed E h n
  let (p, h) ← cneed E h n
  let (e, h) ← cneed E h n
  some (⟨s, d, p, e, n, channels⟩, h)

/-- The blocks for the medoids (vl/quickshift.c:275-278). -/
def qsMed (E : Env) (h : Heap) (s : Qs) (medoid : Bool) : Option (Option (Nat × Nat) × Heap) :=
  if medoid then do
    let (m, h) ← cneed E h (s.n * (2 + s.channels))
    let (k, h) ← cneed E h s.n
    some (some (m, k), h)
  else some (none, h)

/-- The end of the medoids (vl/quickshift.c:447-448). -/
def qsFree (h : Heap) : Option (Nat × Nat) → Option Heap
  | none => some h
  | some (m, k) => do
    let h ← free h m
    free h k

/-- `vl_quickshift_process` (vl/quickshift.c:258-449): the windows add `a` to the
densities; `p` and `d` are the parents and distances for the densities. -/
def qsProcess (E : Env) (h : Heap) (s : Qs) (medoid : Bool) (a : Nat → ℚ) (p d : List ℚ → Nat → ℚ) : Option Heap := do
  let _ ← load h s.self
  let (b, h) ← qsMed E h s medoid
  let e ← readN h s.density s.n
  let h ← store h s.density (e.mapIdx fun i x => x + a i)
  let e ← readN h s.density s.n
  let h ← store h s.parents (vals (p e) s.n)
  let h ← store h s.dists (vals (d e) s.n)
  qsFree h b

/-- `vl_quickshift_delete` (vl/quickshift.c:456-465). -/
def qsDelete (h : Heap) (s : Qs) : Option Heap := do
  let _ ← load h s.self
  let h ← free h s.parents
  let h ← free h s.dists
  let h ← free h s.density
  free h s.self

/-- A run with the values that depend on its settings. -/
structure QsOp where
  medoid : Bool
  a : Nat → ℚ
  p : List ℚ → Nat → ℚ
  d : List ℚ → Nat → ℚ

/-- A sequence of runs. -/
def qsRun (E : Env) : List QsOp → Qs × Heap → Option (Qs × Heap)
  | [], s => some s
  | op :: ops, (s, h) => do qsRun E ops (s, ← qsProcess E h s op.medoid op.a op.p op.d)

end Verif.Life
