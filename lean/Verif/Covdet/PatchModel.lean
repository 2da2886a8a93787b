import Verif.Loop
import Mathlib.Algebra.Order.Floor.Defs
import Mathlib.Algebra.Order.Floor.Ring
import Mathlib.Algebra.Field.Rat

/-!
# Model of the extraction of patches (vl/covdet.c:2259-2411, the second part of `vl_covdet_extract_patch_helper`)

Arithmetic is exact, and the conversions of a rounded coordinate to an index are the integers themselves.  `level` is the level of the
scale space that was selected, `w` and `h` its width and height.
-/

namespace Verif.Covdet

variable {K : Type} [Field K] [LinearOrder K] [FloorRing K]

/-- The arrays `A` and `T` after the division by the sampling step, vl/covdet.c:2265-2270. -/
structure Warp (K : Type) where
  a0 : K
  a1 : K
  a2 : K
  a3 : K
  t0 : K
  t1 : K

/-- `A[i] /= step` and `T[i] /= step`, vl/covdet.c:2265-2270. -/
def Warp.scaled (A : Warp K) (step : K) : Warp K := ⟨A.a0 / step, A.a1 / step, A.a2 / step, A.a3 / step, A.t0 / step, A.t1 / step⟩

/-- The corners of the box, vl/covdet.c:2285-2295. -/
def corners (A : Warp K) (extent : K) : List (K × K) :=
  [(extent, -extent), (extent, extent), (-extent, extent), (-extent, -extent)].map
    (fun b => (A.a0 * b.1 + A.a2 * b.2 + A.t0, A.a1 * b.1 + A.a3 * b.2 + A.t1))

/-- The smallest and the largest of the numbers, vl/covdet.c:2281-2295; the infinite numbers that the code starts from are
replaced by the first number. The list is never empty. -/
def lowest : List K → K
  | [] => 0
  | x :: l => l.foldl min x

/-- See `lowest`. -/
def highest : List K → K
  | [] => 0
  | x :: l => l.foldl max x

/-- The pointers and the buffer when a row is padded. -/
structure RowSt (K : Type) where
  dst : Int
  src : Int
  buf : List K

/-- `*dst++ = *src`, vl/covdet.c:2339 and 2341. -/
def putSame (level : List K) (_ : Nat) (s : RowSt K) : Option (RowSt K) := do
  let a ← rdI level s.src
  let buf ← wrI s.buf s.dst a
  some { s with dst := s.dst + 1, buf := buf }

/-- `*dst++ = *src++`, vl/covdet.c:2340. -/
def putNext (level : List K) (_ : Nat) (s : RowSt K) : Option (RowSt K) := do
  let a ← rdI level s.src
  let buf ← wrI s.buf s.dst a
  some { dst := s.dst + 1, src := s.src + 1, buf := buf }

/-- The box with integer vertexes, vl/covdet.c:2303-2306. -/
structure PatchBox where
  x0 : Int
  y0 : Int
  x1 : Int
  y1 : Int

/-- One row of the central band, vl/covdet.c:2337-2341; `yi` is the row of the level. -/
def padRow (level : List K) (w : Nat) (b : PatchBox) (padx0 padx1 patchWidth : Int) (yi : Int) (buf : List K) : Option (List K) := do
  let s : RowSt K := ⟨(yi - b.y0) * patchWidth, yi * w + min (max 0 b.x0) ((w : Int) - 1), buf⟩
  let s ← iter padx0.toNat (putSame level) s
  let xi := max padx0 0
  let s ← iter (patchWidth - padx1 - 2 - xi).toNat (putNext level) s
  let xi := max xi (patchWidth - padx1 - 2)
  let s ← iter (patchWidth - xi).toNat (putSame level) s
  some s.buf

/-- `memcpy` of a row of the buffer, vl/covdet.c:2345-2352. -/
def copyRow (patchWidth dst src : Nat) (buf : List K) : Option (List K) :=
  iter patchWidth (fun i buf => do
    let a ← rd buf (src * patchWidth + i)
    wr buf (dst * patchWidth + i) a) buf

/-- The padded copy of the region of the box, vl/covdet.c:2319-2357; a new buffer has the contents `junk`. -/
def padCopy (junk : Nat → K) (level : List K) (w h : Nat) (b : PatchBox) (buf : List K) : Option (List K) := do
  let padx0 := max 0 (-b.x0)
  let pady0 := max 0 (-b.y0)
  let padx1 := max 0 (b.x1 - ((w : Int) - 1))
  let pady1 := max 0 (b.y1 - ((h : Int) - 1))
  let patchWidth := b.x1 - b.x0 + 1
  let patchHeight := b.y1 - b.y0 + 1
  let size := (patchWidth * patchHeight).toNat
  let buf := if size > buf.length then (List.range size).map junk else buf
  if pady0 < patchHeight - pady1 then do
    let buf ← iter (patchHeight - pady1 - pady0).toNat (fun i buf => padRow level w b padx0 padx1 patchWidth (b.y0 + pady0 + i) buf) buf
    let buf ← iter pady0.toNat (fun i buf => copyRow patchWidth.toNat i pady0.toNat buf) buf
    iter pady1.toNat (fun i buf => copyRow patchWidth.toNat ((patchHeight - pady1).toNat + i) (patchHeight - pady1 - 1).toNat buf) buf
  else some (List.replicate buf.length 0)

/-- One sample of the patch, vl/covdet.c:2391-2405. -/
def sample (level : List K) (w h : Nat) (x y : K) : Option K := do
  let xi := ⌊x⌋
  let yi := ⌊y⌋
  let i00 ← rdI level (yi * w + xi)
  let i10 ← rdI level (yi * w + xi + 1)
  let i01 ← rdI level ((yi + 1) * w + xi)
  let i11 ← rdI level ((yi + 1) * w + xi + 1)
  let wx := x - xi
  let wy := y - yi
  assert' (decide (xi ≥ 0) && decide (xi ≤ (w : Int) - 1))
  assert' (decide (yi ≥ 0) && decide (yi ≤ (h : Int) - 1))
  some ((1 - wy) * ((1 - wx) * i00 + wx * i10) + wy * ((1 - wx) * i01 + wx * i11))

/-- The pointer, the coordinate and the patch in the loops of the interpolation. -/
structure PatchWalk (K : Type) where
  pt : Nat
  hat : K
  patch : List K

/-- The interpolation, vl/covdet.c:2377-2411; `stephat` is `extent / resolution`, and the
properties are about a resolution that is not zero. -/
def resample (level : List K) (w h : Nat) (resolution : Nat) (extent stephat : K) (A : Warp K) (patch : List K) : Option (List K) := do
  let s ← iter (2 * resolution + 1) (fun _ (s : PatchWalk K) => do
    let rx := A.a2 * s.hat + A.t0
    let ry := A.a3 * s.hat + A.t1
    let r ← iter (2 * resolution + 1) (fun _ (r : PatchWalk K) => do
      let x := A.a0 * r.hat + rx
      let y := A.a1 * r.hat + ry
      let v ← sample level w h x y
      let patch ← wr r.patch r.pt v
      some ⟨r.pt + 1, r.hat + stephat, patch⟩) ⟨s.pt, -extent, s.patch⟩
    some ⟨r.pt, s.hat + stephat, r.patch⟩) ⟨0, -extent, patch⟩
  some s.patch

/-- The outcome of a call that has no undefined behaviour. -/
inductive Extracted (K : Type) where
  /-- `VL_ERR_EOF`, "Frame out of image" -/
  | outside
  /-- success, with the patch and the padding buffer of the detector -/
  | done (patch buf : List K)

/-- vl/covdet.c:2259-2411, the part of `vl_covdet_extract_patch_helper` after the selection of the level. -/
def extractPatch (junk : Nat → K) (allowPadded : Bool) (level : List K) (w h : Nat) (resolution : Nat) (extent step : K) (A : Warp K) (patch buf : List K) : Option (Extracted K) := do
  let A := A.scaled step
  let cs := corners A extent
  let x0 := lowest (cs.map (·.1))
  let x1 := highest (cs.map (·.1))
  let y0 := lowest (cs.map (·.2))
  let y1 := highest (cs.map (·.2))
  if (decide (x0 < 0) || decide (x1 > (w : K) - 1) || decide (y0 < 0) || decide (y1 > (h : K) - 1)) && !allowPadded then some .outside
  else do
    let b : PatchBox := ⟨⌊x0⌋ - 1, ⌊y0⌋ - 1, ⌈x1⌉ + 1, ⌈y1⌉ + 1⟩
    let stephat := extent / (resolution : K)
    if b.x0 < 0 || b.x1 > (w : Int) - 1 || b.y0 < 0 || b.y1 > (h : Int) - 1 then do
      let buf ← padCopy junk level w h b buf
      let patch ← resample buf (b.x1 - b.x0 + 1).toNat (b.y1 - b.y0 + 1).toNat resolution extent stephat
        { A with t0 := A.t0 - b.x0, t1 := A.t1 - b.y0 } patch
      some (.done patch buf)
    else do
      let patch ← resample level w h resolution extent stephat A patch
      some (.done patch buf)

end Verif.Covdet
