import Verif.Dsift.Model
import Verif.Imop.ConvModel
import Verif.Imop.TriModel
import Mathlib.Data.Rat.Floor

/-!
# Model of the dense SIFT descriptors: gradients, kernels and convolutions

Numbers are rationals and rounding is not modelled; the elementary functions are parameters.
-/

namespace Verif.Dsift

/-- The elementary functions: `sqrt` is `vl_fast_sqrt_f`, `exp` is `expf`, and `turn gy gx` is `vl_mod_2pi_f (vl_fast_atan2_f (gy,gx)) * (numBinT / (2*VL_PI))`. -/
structure Maths where
  sqrt : ℚ → ℚ
  eps : ℚ
  exp : ℚ → ℚ
  turn : ℚ → ℚ → ℚ

/-- `at(x,y)`, vl/dsift.c:677. -/
def imAt (im : List ℚ) (w : Nat) (x y : Int) : Option ℚ := rdI im (y * w + x)

/-- The derivative along `y` of a pixel, vl/dsift.c:688-695. -/
def gradYAt (im : List ℚ) (w h x y : Nat) : Option ℚ :=
  if y = 0 then do
    let a ← imAt im w x (y + 1)
    let b ← imAt im w x y
    some (a - b)
  else if (y : Int) = h - 1 then do
    let a ← imAt im w x y
    let b ← imAt im w x (y - 1)
    some (a - b)
  else do
    let a ← imAt im w x (y + 1)
    let b ← imAt im w x (y - 1)
    some (1 / 2 * (a - b))

/-- The derivative along `x` of a pixel, vl/dsift.c:697-704. -/
def gradXAt (im : List ℚ) (w x y : Nat) : Option ℚ :=
  if x = 0 then do
    let a ← imAt im w (x + 1) y
    let b ← imAt im w x y
    some (a - b)
  else if (x : Int) = w - 1 then do
    let a ← imAt im w x y
    let b ← imAt im w (x - 1) y
    some (a - b)
  else do
    let a ← imAt im w (x + 1) y
    let b ← imAt im w (x - 1) y
    some (1 / 2 * (a - b))

/-- `grads[t][k] = v` -/
def putGrad (g : List (List ℚ)) (t : Int) (k : Nat) (v : ℚ) : Option (List (List ℚ)) := do
  let im ← rdI g t
  let im ← wr im k v
  wrI g t im

/-- One pixel, vl/dsift.c:682-717. -/
def gradPixel (M : Maths) (T : Nat) (im : List ℚ) (w h y x : Nat) (g : List (List ℚ)) : Option (List (List ℚ)) := do
  let gy ← gradYAt im w h x y
  let gx ← gradXAt im w x y
  let mod := M.sqrt (gx * gx + gy * gy)
  let nt := M.turn gy gx
  let bint := ⌊nt⌋
  let rbint := nt - bint
  let g ← putGrad g (bint.tmod T) (x + y * w) ((1 - rbint) * mod)
  putGrad g ((bint + 1).tmod T) (x + y * w) (rbint * mod)

/-- The images of the gradients, vl/dsift.c:671-718; the blocks are cleared first. -/
def gradients (M : Maths) (T : Nat) (im : List ℚ) (w h : Nat) : Option (List (List ℚ)) :=
  iter h (fun y g => iter w (fun x g => gradPixel M T im w h y x g) g) (List.replicate T (List.replicate (w * h) 0))

/-- `delta`, vl/dsift.c:255 and 275. -/
def delta (binSize numBins binIndex : Nat) : ℚ := binSize * (binIndex - 1 / 2 * ((numBins : ℚ) - 1))

/-- `expf(- 0.5F * z*z)` for `x`, vl/dsift.c:264-266 and 282-283; a bin index is never negative in the calls. -/
def bellAt (M : Maths) (binSize numBins binIndex : Nat) (windowSize : ℚ) (x : Int) : ℚ :=
  let z := ((x : ℚ) - delta binSize numBins binIndex) / (binSize * windowSize)
  M.exp (- (1 / 2) * z * z)

/-- `_vl_dsift_new_kernel`, vl/dsift.c:249-269, for a positive size of the bins; a null window divides by zero. -/
def newKernel (M : Maths) (binSize numBins binIndex : Nat) (windowSize : ℚ) (ker : List ℚ) : Option (List ℚ) := do
  let _ ← assert' (decide ((binSize : ℚ) * windowSize ≠ 0))
  iter (2 * binSize - 1) (fun i ker =>
    let x : Int := - (binSize : Int) + 1 + i
    wr ker i ((1 - |(x : ℚ)| / binSize) * bellAt M binSize numBins binIndex windowSize x)) ker

/-- `_vl_dsift_get_bin_window_mean`, vl/dsift.c:271-288. -/
def binWindowMean (M : Maths) (binSize numBins binIndex : Nat) (windowSize : ℚ) : Option ℚ := do
  let _ ← assert' (decide ((binSize : ℚ) * windowSize ≠ 0))
  let acc ← iter (2 * binSize - 1) (fun i acc => some (acc + bellAt M binSize numBins binIndex windowSize (- (binSize : Int) + 1 + i))) (0 : ℚ)
  some (acc / (2 * binSize - 1))

/-- The descriptors and the two temporary images. -/
structure Work where
  descrs : List ℚ
  tmp1 : List ℚ
  tmp2 : List ℚ

/-- `_vl_dsift_with_gaussian_window`, vl/dsift.c:498-566. -/
def gaussianFull (M : Maths) (mem : Mem) (fuel : Nat) (f : Filter) (windowSize : ℚ) (grads : List (List ℚ)) (s : Work) : Option Work :=
  let w := f.imWidth.toNat
  let h := f.imHeight.toNat
  let bx := f.geom.binSizeX.toNat
  let bY := f.geom.binSizeY.toNat
  iter f.geom.numBinY.toNat (fun biny s => do
    let yker ← newKernel M bY f.geom.numBinY.toNat biny windowSize (mem.floats (2 * bY - 1))
    iter f.geom.numBinX.toNat (fun binx s => do
      let xker ← newKernel M bx f.geom.numBinX.toNat binx windowSize (mem.floats (2 * bx - 1))
      iter f.geom.numBinT.toNat (fun bint s => do
        let g ← rd grads bint
        let tmp1 ← Imop.imconvcol s.tmp1 h g w h w yker (-(bY - 1 : Nat)) (bY - 1 : Nat) 1 true false
        let tmp2 ← Imop.imconvcol s.tmp2 w tmp1 h w h xker (-(bx - 1 : Nat)) (bx - 1 : Nat) 1 true false
        let d ← sampleBin fuel f tmp2 1 bint biny binx s.descrs
        some ⟨d, tmp1, tmp2⟩) s) s) s

/-- `_vl_dsift_with_flat_window`, vl/dsift.c:573-655; the blocks that the convolutions allocate have any contents. -/
def flatFull (M : Maths) (mem : Mem) (fuel : Nat) (f : Filter) (windowSize : ℚ) (grads : List (List ℚ)) (s : Work) : Option Work :=
  let w := f.imWidth.toNat
  let h := f.imHeight.toNat
  let bx := f.geom.binSizeX.toNat
  let bY := f.geom.binSizeY.toNat
  iter f.geom.numBinT.toNat (fun bint s => do
    let g ← rd grads bint
    let tmp1 ← Imop.imconvcoltri s.tmp1 h g w h w bY 1 true false (mem.floats (h + bY))
    let tmp2 ← Imop.imconvcoltri s.tmp2 w tmp1 h w h bx 1 true false (mem.floats (w + bx))
    let d ← iter f.geom.numBinY.toNat (fun biny d => do
      let wy ← binWindowMean M bY f.geom.numBinY.toNat biny windowSize
      let wy := wy * bY
      iter f.geom.numBinX.toNat (fun binx d => do
        let wx ← binWindowMean M bx f.geom.numBinX.toNat binx windowSize
        let wx := wx * bx
        sampleBin fuel f tmp2 (wx * wy) bint biny binx d) d) s.descrs
    some ⟨d, tmp1, tmp2⟩) s

/-- `vl_dsift_process`, vl/dsift.c:664-775; the result is the filter with the temporary images. -/
def processFull (M : Maths) (mem : Mem) (fuel : Nat) (f : Filter) (windowSize : ℚ) (tmp1 tmp2 im : List ℚ) : Option (Filter × List ℚ × List ℚ) := do
  let f := allocBuffers mem f
  let grads ← gradients M f.geom.numBinT.toNat im f.imWidth.toNat f.imHeight.toNat
  let s ← if f.useFlatWindow then flatFull M mem fuel f windowSize grads ⟨f.descrs, tmp1, tmp2⟩ else gaussianFull M mem fuel f windowSize grads ⟨f.descrs, tmp1, tmp2⟩
  let o ← forFrames fuel f (finishFrame M.sqrt M.eps f) { frames := f.frames, frameIter := 0, descrs := s.descrs, descrIter := 0 }
  some ({ f with frames := o.frames, descrs := o.descrs }, s.tmp1, s.tmp2)

end Verif.Dsift
