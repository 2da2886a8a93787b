import Verif.Covdet.FeatModel
import Verif.Accum
import Mathlib.Algebra.Order.Floor.Ring
import Mathlib.Data.Rat.Floor
import Mathlib.Algebra.Field.Rat
import Mathlib.Algebra.Order.Ring.Rat

/-!
# Model of the orientations of the features of the covariant detector

`vl_covdet_extract_orientations_for_frame` after the gradients of the patch, and `vl_covdet_extract_orientations`.  Numbers are
rational and rounding is not modelled; `binExtent` and `halfPi` are the values of `2 pi / 36` and `pi / 2` that are used.
-/

namespace Verif.Covdet

/-- One gradient, vl/covdet.c:2795-2806; a negative `bin` is not modelled, the angles given by `vl_imgradient_polar_f` are not negative. -/
def oriVote (binExtent : ℚ) (numBins : Nat) (mods angs mask : List ℚ) (k : Nat) (hist : List ℚ) : Option (List ℚ) := do
  let modulus ← rd mods k
  let angle ← rd angs k
  let weight ← rd mask k
  let x := angle / binExtent
  let bin := ⌊x⌋
  assert' (decide (0 ≤ bin))
  let w2 := x - bin
  let w1 := 1 - w2
  let hist ← addAt hist ((bin.toNat + numBins) % numBins) (w1 * (modulus * weight))
  addAt hist ((bin.toNat + numBins + 1) % numBins) (w2 * (modulus * weight))

/-- The histogram, vl/covdet.c:2792-2807; `n` is the number of pixels of the patch. -/
def oriHist (binExtent : ℚ) (numBins n : Nat) (mods angs mask : List ℚ) : Option (List ℚ) :=
  iter n (oriVote binExtent numBins mods angs mask) (List.replicate numBins 0)

/-- One pass of the smoothing, vl/covdet.c:2811-2819. -/
def oriPass (numBins : Nat) (hist : List ℚ) : Option (List ℚ) := do
  let prev ← rd hist (numBins - 1)
  let first ← rd hist 0
  let (hist, prev) ← iter (numBins - 1) (fun i (hist, prev) => do
    let hi ← rd hist i
    let hn ← rd hist ((i + 1) % numBins)
    let hist ← wr hist i ((prev + hi + hn) / 3)
    some (hist, hi)) (hist, prev)
  let hl ← rd hist (numBins - 1)
  wr hist (numBins - 1) ((prev + hl + first) / 3)

/-- The six passes, vl/covdet.c:2810. -/
def oriSmooth (numBins : Nat) (hist : List ℚ) : Option (List ℚ) := iter 6 (fun _ hist => oriPass numBins hist) hist

/-- The maximum, vl/covdet.c:2823-2826. -/
def oriMax (numBins : Nat) (hist : List ℚ) : Option ℚ := iter numBins (fun i m => do
  let hi ← rd hist i
  some (if m > hi then m else hi)) 0

/-- `VlCovDetFeatureOrientation`, vl/covdet.h:147-151. -/
structure Ori where
  angle : ℚ
  score : ℚ
  deriving DecidableEq

/-- What the angles depend on. -/
structure OriConf where
  binExtent : ℚ
  halfPi : ℚ
  theta0 : ℚ
  transposed : Bool

/-- The peaks, vl/covdet.c:2830-2852, when `k` bins are left; `num` is `*numOrientations`. -/
def oriPeaks (c : OriConf) (maxNum numBins : Nat) (hist : List ℚ) (maxPeak : ℚ) : Nat → List Ori → Nat → Option (List Ori × Nat)
  | 0, out, num => some (out, num)
  | k + 1, out, num => do
    let i := numBins - (k + 1)
    let h0 ← rd hist i
    let hm ← rd hist ((i + numBins - 1) % numBins)
    let hp ← rd hist ((i + 1 + numBins) % numBins)
    if h0 > 8 / 10 * maxPeak ∧ h0 > hm ∧ h0 > hp then do
      let di := - (1 / 2) * (hp - hm) / (hp + hm - 2 * h0)
      let th := c.binExtent * ((i : ℚ) + di) + c.theta0
      let th := if c.transposed then th - c.halfPi else th
      let out ← wr out num ⟨th, h0⟩
      let num := num + 1
      if num ≥ maxNum then some (out, num) else oriPeaks c maxNum numBins hist maxPeak k out num
    else oriPeaks c maxNum numBins hist maxPeak k out num

/-- `vl_covdet_extract_orientations_for_frame` from the gradients, vl/covdet.c:2792-2860; `sort` is the function `qsort` of
the C library with the comparison of lines 2687-2695, and `out` the array `self->orientations`. -/
def oriForPatch (sort : List Ori → List Ori) (c : OriConf) (maxNum n : Nat) (mods angs mask : List ℚ) (out : List Ori) : Option (List Ori × Nat) := do
  let numBins := 36
  let hist ← oriHist c.binExtent numBins n mods angs mask
  let hist ← oriSmooth numBins hist
  let maxPeak ← oriMax numBins hist
  let (out, num) ← oriPeaks c maxNum numBins hist maxPeak numBins out 0
  some (sort (out.take num) ++ out.drop num, num)

/-- The frame with the axes turned, vl/covdet.c:2881-2902. -/
def orient {K : Type} [Field K] (f : Feature K) (r1 r2 score : K) : Feature K :=
  { f with
    orientationScore := score
    frame := { f.frame with
      a11 := f.frame.a11 * r1 + f.frame.a12 * r2
      a21 := f.frame.a21 * r1 + f.frame.a22 * r2
      a12 := - f.frame.a11 * r2 + f.frame.a12 * r1
      a22 := - f.frame.a21 * r2 + f.frame.a22 * r1 } }

/-- `vl_covdet_extract_orientations`, vl/covdet.c:2872-2905; `oris` gives the orientations of a frame as their cosine, sine and score, or
`none` if there is undefined behaviour.  It is assumed that there is memory for the features that are appended. -/
def extractOrientations {K : Type} [Field K] (oris : Frame K → Option (List (K × K × K))) (features : List (Feature K)) : Option (List (Feature K)) :=
  let numFeatures := features.length
  iter numFeatures (fun i features => do
    let feature ← rd features i
    let os ← oris feature.frame
    iter os.length (fun j features => do
      let (r1, r2, score) ← rd os j
      if j = 0 then wr features i (orient feature r1 r2 score)
      else
        let features := features ++ [feature]
        wr features (features.length - 1) (orient feature r1 r2 score)) features) features

end Verif.Covdet
