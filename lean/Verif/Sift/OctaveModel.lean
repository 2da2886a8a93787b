import Mathlib.Algebra.Field.Rat
import Mathlib.Data.List.Basic

/-!
# Model of the sequence of octaves of a SIFT filter

`vl_sift_new`, `vl_sift_process_first_octave`, `vl_sift_process_next_octave` and the test of the cache in `update_gradient`: vl/sift.c:874-934, 977-1064, 1083-1139,
1458 and 1530.  The levels of the octave are a list of images, in the order from `s_min` to `s_max`; the resampling, the smoothing and the gradients are functions given as
parameters (they have their own models): they depend on the octave through its size.
-/

namespace Verif.Sift

/-- The operations on images. -/
structure Ops where
  /-- The first level from the image, vl/sift.c:1017-1037 and 1045-1051. -/
  first : List ℚ → List ℚ
  /-- The first level of octave `o` from level `s_best` of the octave before, vl/sift.c:1113 and 1120-1126. -/
  next : Int → List ℚ → List ℚ
  /-- The smoothing of a level into level number `s`, counted from zero, of octave `o`, vl/sift.c:1057-1061 and 1132-1136. -/
  smooth : Int → Nat → List ℚ → List ℚ
  /-- The gradients of octave `o`, vl/sift.c:1460-1529. -/
  gradients : Int → List (List ℚ) → List ℚ

/-- The fields of `VlSiftFilt` in the model, vl/sift.h:50-91; `s_min` is -1 and `s_max` is `nlevels + 1`. -/
structure Filt where
  width : Nat
  height : Nat
  O : Int
  S : Nat
  oMin : Int
  oCur : Int
  octaveWidth : Nat
  octaveHeight : Nat
  octave : List (List ℚ)
  gradO : Int
  grad : List ℚ

/-- `VL_SHIFT_LEFT (x, - o)`, vl/generic.h:197. -/
def shiftLeft (x : Nat) (n : Int) : Nat := if n ≥ 0 then x <<< n.toNat else x >>> (-n).toNat

/-- `vl_sift_new`, vl/sift.c:874-934.  `maxO` is `floor (log2 (min (width, height)))`; the blocks have arbitrary content. -/
def newFilt (width height : Nat) (noctaves : Int) (nlevels : Nat) (oMin : Int) (maxO : Int) (octave : List (List ℚ)) (grad : List ℚ) : Filt :=
  { width := width, height := height, O := if noctaves < 0 then max (maxO - oMin - 3) 1 else noctaves, S := nlevels, oMin := oMin, oCur := oMin,
    octaveWidth := 0, octaveHeight := 0, octave := octave, gradO := oMin - 1, grad := grad }

/-- The loop that fills the levels, vl/sift.c:1057-1061 and 1132-1136: level `s` is smoothed from level `s - 1`. -/
def fillLevels (ops : Ops) (o : Int) (base : List ℚ) : Nat → List (List ℚ)
  | 0 => [base]
  | n + 1 =>
    let l := fillLevels ops o base n
    l ++ [ops.smooth o (n + 1) (l.getLastD [])]

/-- The result of a call. -/
inductive Err
  | ok
  | eof
deriving DecidableEq

/-- `vl_sift_process_first_octave`, vl/sift.c:977-1064. -/
def processFirst (ops : Ops) (f : Filt) (im : List ℚ) : Err × Filt :=
  let f := { f with oCur := f.oMin, octaveWidth := shiftLeft f.width (- f.oMin), octaveHeight := shiftLeft f.height (- f.oMin) }
  if f.O = 0 then (.eof, f)
  else (.ok, { f with octave := fillLevels ops f.oCur (ops.first im) (f.S + 2) })

/-- `vl_sift_process_next_octave`, vl/sift.c:1083-1139. -/
def processNext (ops : Ops) (f : Filt) : Err × Filt :=
  if f.oCur = f.oMin + f.O - 1 then (.eof, f)
  else
    let sBest := min f.S (f.S + 2)
    let o := f.oCur + 1
    (.ok, { f with oCur := o, octaveWidth := shiftLeft f.width (- o), octaveHeight := shiftLeft f.height (- o),
                   octave := fillLevels ops o (ops.next o (f.octave.getD sBest [])) (f.S + 2) })

/-- `update_gradient`, vl/sift.c:1447-1531; called by the functions that compute orientations and descriptors. -/
def updateGradient (ops : Ops) (f : Filt) : Filt :=
  if f.gradO = f.oCur then f else { f with grad := ops.gradients f.oCur f.octave, gradO := f.oCur }

end Verif.Sift
