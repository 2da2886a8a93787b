import Verif.Loop
import Verif.Accum
import Verif.Qsort.Model
import Verif.Sift.DescrModel

/-!
# Model of the LIOP descriptor

vl/liop.c.  `vl_int`, `vl_index` and `vl_size` are unbounded; `float` and `double` are rationals and rounding is not modelled.  The sines and cosines of the
sampling angles and the square root are parameters.
-/

namespace Verif.Liop

open Verif.Sift (trunc vlFloor)

/-- The loop of `factorial`, vl/liop.c:220-224; `none` when the loop is not over after `fuel` rounds. -/
def factLoop : Nat → Nat → Nat → Option Nat
  | 0, _, _ => none
  | fuel + 1, num, result => if num > 1 then factLoop fuel (num - 1) (num * result) else some result

/-- `factorial`, vl/liop.c:217-225. -/
def factorial (num : Nat) : Option Nat := factLoop (num + 1) num 1

/-- `get_permutation_index`, vl/liop.c:248-260: the index and the array as it is left. -/
def permIndex (perm : List Nat) (size : Nat) : Option (Nat × List Nat) :=
  iter size (fun i (index, perm) => do
    let pi ← rd perm i
    let index := index * (size - i) + pi
    let perm ← iter (size - (i + 1)) (fun k perm => do
      let j := i + 1 + k
      let pj ← rd perm j
      let pi ← rd perm i
      if pj > pi then wr perm j (pj - 1) else some perm) perm
    some (index, perm)) (0, perm)

/-- `patch_cmp` and `neigh_cmp`, vl/liop.c:263-268 and 283-288, as a comparison of two entries of the permutation.  The entries are indexes of the array of the
intensities. -/
def keyCmp (key : List ℚ) (a b : Nat) : Int := if key.getD a 0 < key.getD b 0 then -1 else if key.getD b 0 < key.getD a 0 then 1 else 0

/-- `VlLiopDesc`, vl/liop.h:24-48, without the scratch arrays and the sizes derived from the others. -/
structure Desc where
  numNeighbours : Nat
  numSpatialBins : Nat
  threshold : ℚ
  side : Nat
  pixels : List Nat
  sx : List ℚ
  sy : List ℚ

/-- The pixels of the patch, vl/liop.c:345-360. -/
def patchPixels (radius : ℚ) (side : Nat) : List Nat :=
  let center : Int := (side - 1) / 2
  let t : ℚ := center - radius + 6 / 10
  let t2 := trunc (t * t)
  (List.range side).flatMap fun (y : Nat) => (List.range side).flatMap fun (x : Nat) =>
    let dx : Int := x - center
    let dy : Int := y - center
    if x = 0 ∧ y = 0 then [] else if dx * dx + dy * dy ≤ t2 then [x + y * side] else []

/-- `vl_liopdesc_new`, vl/liop.c:320-395, for a side of at least one; `co pixel t` and `si pixel t` are the cosine and the sine of the angle `angle0 + dangle * t` of
the pixel. -/
def new (co si : Nat → Nat → ℚ) (numNeighbours numSpatialBins : Nat) (radius : ℚ) (side : Nat) : Option Desc := do
  let _ ← assert' (decide (radius ≤ ((side / 2 : Nat) : ℚ)))
  let center : Int := (side - 1) / 2
  let pixels := patchPixels radius side
  some { numNeighbours := numNeighbours
         numSpatialBins := numSpatialBins
         threshold := -(5 / 255)
         side := side
         pixels := pixels
         sx := pixels.flatMap fun pixel => (List.range numNeighbours).map fun t =>
           (((pixel % side : Nat) : Int) - center : Int) + radius * co pixel t + center
         sy := pixels.flatMap fun pixel => (List.range numNeighbours).map fun t =>
           (((pixel / side : Nat) : Int) - center : Int) + radius * si pixel t + center }

/-- One sample, vl/liop.c:510-528. -/
def sample (patch : List ℚ) (side : Nat) (x y : ℚ) : Option ℚ := do
  let ix := vlFloor x
  let iy := vlFloor y
  let wx := x - ix
  let wy := y - iy
  let L : Int := side
  let a ← (if ix ≥ 0 ∧ iy ≥ 0 then rdI patch (ix + iy * L) else some 0 : Option ℚ)
  let b ← (if ix < L - 1 ∧ iy ≥ 0 then rdI patch (ix + 1 + iy * L) else some 0 : Option ℚ)
  let c ← (if ix ≥ 0 ∧ iy < L - 1 then rdI patch (ix + (iy + 1) * L) else some 0 : Option ℚ)
  let d ← (if ix < L - 1 ∧ iy < L - 1 then rdI patch (ix + 1 + (iy + 1) * L) else some 0 : Option ℚ)
  some ((1 - wy) * (a + (b - a) * wx) + wy * (c + (d - c) * wx))

/-- The neighbours of the pixel number `q`, vl/liop.c:500-532. -/
def neighbours (D : Desc) (patch : List ℚ) (q : Nat) (np : List Nat) (ni : List ℚ) : Option (List Nat × List ℚ) :=
  iter D.numNeighbours (fun t (np, ni) => do
    let x ← rd D.sx (D.numNeighbours * q + t)
    let y ← rd D.sy (D.numNeighbours * q + t)
    let v ← sample patch D.side x y
    let np ← wr np t t
    let ni ← wr ni t v
    some (np, ni)) (np, ni)

/-- The weight, vl/liop.c:543-552. -/
def weight (n : Nat) (ni : List ℚ) (thr : ℚ) : Option ℚ :=
  iter n (fun k w => iter (n - (k + 1)) (fun j w => do
    let a ← rd ni k
    let b ← rd ni (k + 1 + j)
    some (w + (if a > b + thr ∨ b > a + thr then 1 else 0))) w) 0

/-- The threshold, vl/liop.c:466-474. -/
def tuneThreshold (D : Desc) (ints : List ℚ) (perm : List Nat) : Option ℚ :=
  if D.threshold < 0 then do
    let i ← rd perm 0
    let t ← rd perm (D.pixels.length - 1)
    let a ← rd ints t
    let b ← rd ints i
    some (- D.threshold * (a - b))
  else some D.threshold

/-- The state of the loop over the pixels. -/
structure Acc where
  desc : List ℚ
  binEnd : Nat
  binIndex : Nat
  offset : Nat
  np : List Nat
  ni : List ℚ

/-- The body of the loop over the pixels, vl/liop.c:487-554; `area` is `spatialBinArea` and `perms` is `numPermutations`. -/
def pixelStep (D : Desc) (patch : List ℚ) (perm : List Nat) (thr : ℚ) (area perms : Nat) (i : Nat) (s : Acc) : Option Acc := do
  let s := if i ≥ s.binEnd ∧ (s.binIndex : Int) < (D.numSpatialBins : Int) - 1 then
      { s with binEnd := s.binEnd + area, binIndex := s.binIndex + 1, offset := s.offset + perms } else s
  let q ← rd perm i
  let (np, ni) ← neighbours D patch q s.np s.ni
  let np ← Qsort.sort (keyCmp ni) np D.numNeighbours
  let (index, np) ← permIndex np D.numNeighbours
  let w ← weight D.numNeighbours ni thr
  let desc ← addAt s.desc (index + s.offset) w
  some { s with desc := desc, np := np, ni := ni }

/-- The normalisation, vl/liop.c:557-566; `tiny` is `1e-12`. -/
def normalize (sq : ℚ → ℚ) (tiny : ℚ) (n : Nat) (desc : List ℚ) : Option (List ℚ) := do
  let norm ← iter n (fun i norm => do
    let a ← rd desc i
    some (norm + a * a)) 0
  let norm := max (sq norm) tiny
  if norm = 0 then none else
  iter n (fun i desc => do
    let a ← rd desc i
    wr desc i (a / norm)) desc

/-- The loop that fills the arrays to sort, vl/liop.c:456-460. -/
def fillPatch (D : Desc) (patch ints : List ℚ) (perm : List Nat) : Option (List ℚ × List Nat) :=
  iter D.pixels.length (fun i (ints, perm) => do
    let pixel ← rd D.pixels i
    let v ← rd patch pixel
    let ints ← wr ints i v
    let perm ← wr perm i i
    some (ints, perm)) (ints, perm)

/-- `vl_liopdesc_process`, vl/liop.c:442-567: the descriptor.  `ints`, `perm`, `np` and `ni` are the contents of the scratch arrays of the object. -/
def process (sq : ℚ → ℚ) (tiny : ℚ) (D : Desc) (ints : List ℚ) (perm np : List Nat) (ni patch : List ℚ) : Option (List ℚ) := do
  let perms ← factorial D.numNeighbours
  let dimension := perms * D.numSpatialBins
  let (ints, perm) ← fillPatch D patch ints perm
  let perm ← Qsort.sort (keyCmp ints) perm D.pixels.length
  let thr ← tuneThreshold D ints perm
  if D.numSpatialBins = 0 then none else do
  let area := D.pixels.length / D.numSpatialBins
  let s ← iter D.pixels.length (fun i s => pixelStep D patch perm thr area perms i s) ⟨List.replicate dimension 0, area, 0, 0, np, ni⟩
  normalize sq tiny dimension s.desc

end Verif.Liop
