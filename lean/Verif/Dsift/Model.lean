import Verif.Loop
import Verif.ForStep
import Mathlib.Algebra.Field.Rat
import Mathlib.Algebra.Order.Ring.Rat

/-!
# Model of the dense SIFT filter

vl/dsift.c, vl/dsift.h.  `int` is unbounded; `float` and `double` are rationals and rounding is not modelled; the square
root is a parameter.  The buffers of the filter are lists; a null buffer is the empty list.  The images of the gradients
and their convolutions (vl/dsift.c:671-718 and the calls of `vl_imconvcol_vf` and `vl_imconvcoltri_f`, modelled in
`Verif.Imop`) are parameters: `conv bint biny binx` stands for the contents of `convTmp2` when the bin is sampled.
-/

namespace Verif.Dsift

/-- `VlDsiftKeypoint`, vl/dsift.h:21-27. -/
structure Keypoint where
  x : ℚ
  y : ℚ
  s : ℚ
  norm : ℚ
  deriving DecidableEq

/-- `VlDsiftDescriptorGeometry`, vl/dsift.h:30-37. -/
structure Geom where
  numBinT : Int
  numBinX : Int
  numBinY : Int
  binSizeX : Int
  binSizeY : Int
  deriving DecidableEq

/-- `VlDsiftFilter`, vl/dsift.h:40-71, without the buffers of the convolutions and the window parameters. -/
structure Filter where
  imWidth : Int
  imHeight : Int
  stepX : Int
  stepY : Int
  boundMinX : Int
  boundMinY : Int
  boundMaxX : Int
  boundMaxY : Int
  geom : Geom
  useFlatWindow : Bool
  numFrames : Int
  descrSize : Int
  frames : List Keypoint
  descrs : List ℚ
  numBinAlloc : Int
  numFrameAlloc : Int
  numGradAlloc : Int
  deriving DecidableEq

/-- `_vl_dsift_update_buffers`, vl/dsift.c:345-363. -/
def updateBuffers (f : Filter) : Filter :=
  let rangeX := f.boundMaxX - f.boundMinX - (f.geom.numBinX - 1) * f.geom.binSizeX
  let rangeY := f.boundMaxY - f.boundMinY - (f.geom.numBinY - 1) * f.geom.binSizeY
  let numFramesX := if 0 ≤ rangeX then rangeX.tdiv f.stepX + 1 else 0
  let numFramesY := if 0 ≤ rangeY then rangeY.tdiv f.stepY + 1 else 0
  { f with numFrames := numFramesX * numFramesY, descrSize := f.geom.numBinT * f.geom.numBinX * f.geom.numBinY }

/-- `vl_dsift_new`, vl/dsift.c:414-453. -/
def new (imWidth imHeight : Int) : Filter :=
  updateBuffers
    { imWidth := imWidth, imHeight := imHeight, stepX := 5, stepY := 5, boundMinX := 0, boundMinY := 0,
      boundMaxX := imWidth - 1, boundMaxY := imHeight - 1,
      geom := { numBinT := 8, numBinX := 4, numBinY := 4, binSizeX := 5, binSizeY := 5 },
      useFlatWindow := false, numFrames := 0, descrSize := 0, frames := [], descrs := [],
      numBinAlloc := 0, numFrameAlloc := 0, numGradAlloc := 0 }

/-- `vl_dsift_set_steps`, vl/dsift.h:234-242. -/
def setSteps (f : Filter) (sx sy : Int) : Filter := updateBuffers { f with stepX := sx, stepY := sy }

/-- `vl_dsift_set_bounds`, vl/dsift.h:253-262. -/
def setBounds (f : Filter) (minX minY maxX maxY : Int) : Filter :=
  updateBuffers { f with boundMinX := minX, boundMinY := minY, boundMaxX := maxX, boundMaxY := maxY }

/-- `vl_dsift_set_geometry`, vl/dsift.h:270-276. -/
def setGeometry (f : Filter) (g : Geom) : Filter := updateBuffers { f with geom := g }

/-- `vl_dsift_set_flat_window`, vl/dsift.h:284-289. -/
def setFlatWindow (f : Filter) (b : Bool) : Filter := { f with useFlatWindow := b }

/-- What `vl_malloc` returns: blocks of the size asked for, with arbitrary contents. -/
structure Mem where
  frames : Nat → List Keypoint
  floats : Nat → List ℚ
  frames_length : ∀ n, (frames n).length = n
  floats_length : ∀ n, (floats n).length = n

/-- `_vl_dsift_alloc_buffers`, vl/dsift.c:373-403; a block of negative size is not modelled (`toNat`). -/
def allocBuffers (mem : Mem) (f : Filter) : Filter :=
  let f := updateBuffers f
  if f.descrSize ≠ f.numBinAlloc ∨ f.geom.numBinT ≠ f.numGradAlloc ∨ f.numFrames ≠ f.numFrameAlloc then
    { f with
      frames := mem.frames f.numFrames.toNat
      descrs := mem.floats (f.descrSize * f.numFrames).toNat
      numBinAlloc := f.descrSize, numGradAlloc := f.geom.numBinT, numFrameAlloc := f.numFrames }
  else f

/-- `binSize * (numBin - 1) + 1`, vl/dsift.c:544-545, 634-635 and 731-732. -/
def frameSizeX (f : Filter) : Int := f.geom.binSizeX * (f.geom.numBinX - 1) + 1
/-- See `frameSizeX`. -/
def frameSizeY (f : Filter) : Int := f.geom.binSizeY * (f.geom.numBinY - 1) + 1

/-- The two loops over the frames, vl/dsift.c:548-558, 641-651 and 740-773. -/
def forFrames {σ : Type} (fuel : Nat) (f : Filter) (body : Int → Int → σ → Option σ) (s : σ) : Option σ :=
  forStep (f.boundMaxY - frameSizeY f + 1) f.stepY (fun framey s =>
    forStep (f.boundMaxX - frameSizeX f + 1) f.stepX (fun framex s => body framey framex s) fuel f.boundMinX s) fuel f.boundMinY s

/-- A buffer and a pointer into it. -/
structure Ptr where
  buf : List ℚ
  at_ : Int

/-- Sampling of one bin of all the descriptors, vl/dsift.c:536-559 (weight 1) and 627-651. -/
def sampleBin (fuel : Nat) (f : Filter) (src : List ℚ) (w : ℚ) (bint biny binx : Nat) (descrs : List ℚ) : Option (List ℚ) := do
  let p ← forFrames fuel f (fun framey framex (p : Ptr) => do
    let v ← rdI src ((framex + binx * f.geom.binSizeX) * 1 + (framey + biny * f.geom.binSizeY) * f.imWidth)
    let buf ← wrI p.buf p.at_ (w * v)
    some { buf := buf, at_ := p.at_ + f.descrSize })
    { buf := descrs, at_ := bint + binx * f.geom.numBinT + biny * (f.geom.numBinX * f.geom.numBinT) }
  some p.buf

/-- `_vl_dsift_with_gaussian_window`, vl/dsift.c:498-566. -/
def gaussianWindow (fuel : Nat) (f : Filter) (conv : Nat → Nat → Nat → List ℚ) (descrs : List ℚ) : Option (List ℚ) :=
  iter f.geom.numBinY.toNat (fun biny d => iter f.geom.numBinX.toNat (fun binx d => iter f.geom.numBinT.toNat (fun bint d =>
    sampleBin fuel f (conv bint biny binx) 1 bint biny binx d) d) d) descrs

/-- `_vl_dsift_with_flat_window`, vl/dsift.c:573-655; `wx` and `wy` are the values at lines 608-618 and 622-638. -/
def flatWindow (fuel : Nat) (f : Filter) (conv : Nat → Nat → Nat → List ℚ) (wx wy : Nat → ℚ) (descrs : List ℚ) : Option (List ℚ) :=
  iter f.geom.numBinT.toNat (fun bint d => iter f.geom.numBinY.toNat (fun biny d => iter f.geom.numBinX.toNat (fun binx d =>
    sampleBin fuel f (conv bint biny binx) (wx binx * wy biny) bint biny binx d) d) d) descrs

/-- Sum of a function of the `n` values from offset `o`, as vl/dsift.c:302-304 and 753-755. -/
def sumFrom (d : List ℚ) (o : Int) (n : Nat) (g : ℚ → ℚ) : Option ℚ :=
  iter n (fun i acc => do
    let v ← rdI d (o + i)
    some (acc + g v)) 0

/-- Replace each of the `n` values from offset `o`, as vl/dsift.c:307-309 and 764-765. -/
def mapFrom (d : List ℚ) (o : Int) (n : Nat) (g : ℚ → ℚ) : Option (List ℚ) :=
  iter n (fun i d => do
    let v ← rdI d (o + i)
    wrI d (o + i) (g v)) d

/-- `_vl_dsift_normalize_histogram`, vl/dsift.c:296-311; `sqrt` is `vl_fast_sqrt_f` and `eps` is `VL_EPSILON_F`. -/
def normalizeHistogram (sqrt : ℚ → ℚ) (eps : ℚ) (d : List ℚ) (o : Int) (n : Nat) : Option (List ℚ) := do
  let norm ← sumFrom d o n (fun v => v * v)
  mapFrom d o n (fun v => v / (sqrt norm + eps))

/-- The buffers and the pointers of the last pass, vl/dsift.c:727-728. -/
structure Out where
  frames : List Keypoint
  frameIter : Nat
  descrs : List ℚ
  descrIter : Int

/-- Body of the loop over the frames, vl/dsift.c:748-771.  The field `s` of the keypoint is not written. -/
def finishFrame (sqrt : ℚ → ℚ) (eps : ℚ) (f : Filter) (framey framex : Int) (o : Out) : Option Out := do
  let k ← rd o.frames o.frameIter
  let mass ← sumFrom o.descrs o.descrIter f.descrSize.toNat id
  let frames ← wr o.frames o.frameIter
    { k with
      x := framex + 1 / 2 * f.geom.binSizeX * (f.geom.numBinX - 1)
      y := framey + 1 / 2 * f.geom.binSizeY * (f.geom.numBinY - 1)
      norm := mass / (frameSizeX f * frameSizeY f) }
  let d ← normalizeHistogram sqrt eps o.descrs o.descrIter f.descrSize.toNat
  let d ← mapFrom d o.descrIter f.descrSize.toNat (fun v => if 1 / 5 < v then 1 / 5 else v)
  let d ← normalizeHistogram sqrt eps d o.descrIter f.descrSize.toNat
  some { frames := frames, frameIter := o.frameIter + 1, descrs := d, descrIter := o.descrIter + f.descrSize }

/-- Everything `vl_dsift_process` obtains from the image and the floating point library. -/
structure Env where
  mem : Mem
  sqrt : ℚ → ℚ
  eps : ℚ
  conv : Nat → Nat → Nat → List ℚ
  wx : Nat → ℚ
  wy : Nat → ℚ

/-- The pass chosen at vl/dsift.c:720-724. -/
def window (env : Env) (fuel : Nat) (f : Filter) : Option (List ℚ) :=
  if f.useFlatWindow then flatWindow fuel f env.conv env.wx env.wy f.descrs else gaussianWindow fuel f env.conv f.descrs

/-- `vl_dsift_process`, vl/dsift.c:664-775. -/
def process (env : Env) (fuel : Nat) (f : Filter) : Option Filter := do
  let f := allocBuffers env.mem f
  let d ← window env fuel f
  let o ← forFrames fuel f (finishFrame env.sqrt env.eps f) { frames := f.frames, frameIter := 0, descrs := d, descrIter := 0 }
  some { f with frames := o.frames, descrs := o.descrs }

end Verif.Dsift
