import Verif.Sift.OctaveModel
import Verif.Sift.ResampleModel
import Verif.Toolbox.SmoothModel
import Mathlib.Analysis.SpecialFunctions.Pow.Real
import Mathlib.Analysis.SpecialFunctions.Sqrt

/-!
# Model of the Gaussian scale space of the SIFT filter

`vl_sift_new`, `_vl_sift_smooth`, `vl_sift_process_first_octave` and `vl_sift_process_next_octave`, vl/sift.c:773-816, 874-934, 977-1139, with the blocks of pixels and the Gaussian filter that the object
keeps from one call to the next.  Pixels and scales are real numbers.  `mem n` is the content of a freshly allocated block of `n` elements.  Sizes do not overflow.  The records of the keypoints and the
gradients are in other models.
-/

namespace Verif.Sift

/-- The filter kept by the object, vl/sift.h:76-78. -/
structure Cache where
  sigma : ℝ
  width : Nat
  filter : List ℝ

/-- The fields of `VlSiftFilt` in the model, vl/sift.h:50-78; `s_min` is -1 and `s_max` is `S + 1`. -/
structure Space where
  width : Nat
  height : Nat
  O : Int
  S : Nat
  oMin : Int
  oCur : Int
  sigman : ℝ
  sigma0 : ℝ
  sigmak : ℝ
  dsigma0 : ℝ
  octaveWidth : Nat
  octaveHeight : Nat
  temp : List ℝ
  octave : List ℝ
  gauss : Cache

/-- `vl_sift_new`, vl/sift.c:874-934, for a number of octaves that is given (its default value is in `newFilt`). -/
noncomputable def newSpace (mem : Nat → List ℝ) (width height : Nat) (noctaves : Int) (nlevels : Nat) (oMin : Int) : Space :=
  let w := shiftLeft width (- oMin)
  let h := shiftLeft height (- oMin)
  let nel := w * h
  let sigmak : ℝ := 2 ^ ((1 : ℝ) / nlevels)
  let sigma0 : ℝ := 1.6 * sigmak
  { width := width, height := height, O := noctaves, S := nlevels, oMin := oMin, oCur := oMin, temp := mem nel, octave := mem (nel * (nlevels + 1 + 1 + 1)), sigman := 0.5, sigmak := sigmak, sigma0 := sigma0,
    dsigma0 := sigma0 * √(1 - 1 / (sigmak * sigmak)), octaveWidth := 0, octaveHeight := 0, gauss := { sigma := 0, width := 0, filter := [] } }

/-- The filter for `sigma`, vl/sift.c:783-799.  The loops are the same as in the driver of `vl_imsmooth`.  A division by a `sigma` of zero is an error in the model. -/
noncomputable def prepare (mem : Nat → List ℝ) (c : Cache) (sigma : ℝ) : Option Cache :=
  if c.sigma ≠ sigma then
    if sigma = 0 then none
    else do
      let width := (max ⌈4 * sigma⌉ 1).toNat
      let filter ← Toolbox.drvFilter (fun d : Int => Real.exp (-0.5 * ((d : ℝ) / sigma * ((d : ℝ) / sigma)))) width (mem (2 * width + 1))
      some { sigma := sigma, width := width, filter := filter }
  else some c

/-- `_vl_sift_smooth`, vl/sift.c:773-816, from level number `src` to level number `dst` of the octave, counted from zero.  The pointers to the levels are the suffixes of the block. -/
noncomputable def smoothLevel (mem : Nat → List ℝ) (sp : Space) (dst src w h : Nat) (sigma : ℝ) : Option Space := do
  let c ← prepare mem sp.gauss sigma
  if c.width = 0 then do
    let o ← iter (w * h) (fun i o => do
      let v ← rd o (w * h * src + i)
      wr o (w * h * dst + i) v) sp.octave
    some { sp with octave := o, gauss := c }
  else do
    let t ← Imop.imconvcol sp.temp h (sp.octave.drop (w * h * src)) w h w c.filter (-(c.width : Int)) c.width 1 true false
    let o ← Imop.imconvcol (sp.octave.drop (w * h * dst)) w t h w h c.filter (-(c.width : Int)) c.width 1 true false
    some { sp with temp := t, octave := sp.octave.take (w * h * dst) ++ o, gauss := c }

/-- The loop that fills the levels, vl/sift.c:1057-1061 and 1132-1136; `i` is `s`. -/
noncomputable def fillOctave (mem : Nat → List ℝ) (w h : Nat) (sp : Space) : Option Space :=
  iter (sp.S + 2) (fun i s => smoothLevel mem s (i + 1) i w h (s.dsigma0 * s.sigmak ^ i)) sp

/-- `vl_sift_process_first_octave`, vl/sift.c:977-1064. -/
noncomputable def firstOctave (mem : Nat → List ℝ) (sp : Space) (im : List ℝ) : Option (Err × Space) := do
  let w := shiftLeft sp.width (- sp.oMin)
  let h := shiftLeft sp.height (- sp.oMin)
  let sp := { sp with oCur := sp.oMin, octaveWidth := w, octaveHeight := h }
  if sp.O = 0 then some (.eof, sp)
  else do
    let b ← (if sp.oMin < 0 then upsampleImage sp.temp sp.octave im sp.width sp.height (- sp.oMin).toNat
      else if sp.oMin > 0 then (downsample sp.octave im sp.width sp.height sp.oMin.toNat).map fun r => (sp.temp, r.1)
      else (iter (sp.width * sp.height) (fun i o => do
        let v ← rd im i
        wr o i v) sp.octave).map fun o => (sp.temp, o))
    let sp := { sp with temp := b.1, octave := b.2 }
    let sa := sp.sigma0 * sp.sigmak ^ (-1 : Int)
    let sb := sp.sigman * 2 ^ (- sp.oMin)
    let sp ← (if sa > sb then smoothLevel mem sp 0 0 w h (√(sa * sa - sb * sb)) else some sp)
    let sp ← fillOctave mem w h sp
    some (.ok, sp)

/-- `vl_sift_process_next_octave`, vl/sift.c:1083-1139.  The pixels that are read while downsampling are beyond those that are written, because `S` is at least one; level number `s_best` is number
`s_best + 1` from zero. -/
noncomputable def nextOctave (mem : Nat → List ℝ) (sp : Space) : Option (Err × Space) := do
  if sp.oCur = sp.oMin + sp.O - 1 then some (.eof, sp)
  else do
    let sBest : Int := min (-1 + sp.S) (sp.S + 1)
    let d ← downsample sp.octave (sp.octave.drop (sp.octaveWidth * sp.octaveHeight * (sBest + 1).toNat)) sp.octaveWidth sp.octaveHeight 1
    let o := sp.oCur + 1
    let w := shiftLeft sp.width (- o)
    let h := shiftLeft sp.height (- o)
    let sp := { sp with oCur := o, octaveWidth := w, octaveHeight := h, octave := d.1 }
    let sa := sp.sigma0 * sp.sigmak ^ (-1 : Int)
    let sb := sp.sigma0 * sp.sigmak ^ (sBest - sp.S)
    let sp ← (if sa > sb then smoothLevel mem sp 0 0 w h (√(sa * sa - sb * sb)) else some sp)
    let sp ← fillOctave mem w h sp
    some (.ok, sp)

end Verif.Sift
