import Verif.Covdet.FeatModel

/-!
# Model of the Laplacian scales of the features of the covariant detector

`vl_covdet_extract_laplacian_scales_for_frame` after the extraction of the patch, and `vl_covdet_extract_laplacian_scales`.
Rounding is not modelled; the results of `pow` and `sqrt` are parameters.
-/

namespace Verif.Covdet

variable {K : Type} [Field K] [LinearOrder K]

/-- The product with one Laplacian, vl/covdet.c:2984-2986; `pt` is the position in the bank. -/
def lapScore (laps patch : List K) (n pt : Nat) : Option (K × Nat) :=
  iter n (fun q (score, pt) => do
    let l ← rd laps pt
    let p ← rd patch q
    some (score + l * p, pt + 1)) (0, pt)

/-- The scores, vl/covdet.c:2974-2988; `sigmaLap k` is the result of the square root at lines 2980-2982. -/
def lapScores (sigmaLap : Nat → K) (numLevels n : Nat) (laps patch scores : List K) : Option (List K) := do
  let (scores, _) ← iter numLevels (fun k (scores, pt) => do
    let (score, pt) ← lapScore laps patch n pt
    let scores ← wr scores k (score * sigmaLap k * sigmaLap k)
    some (scores, pt)) (scores, 0)
  some scores

/-- `VlCovDetFeatureLaplacianScale`, vl/covdet.h:154-158. -/
structure LapScale (K : Type) where
  scale : K
  score : K
  deriving DecidableEq

/-- One level, vl/covdet.c:2992-3017; `scaleAt s` is the scale computed at lines 3000-3006, times `factor`, which is one.
`maxNum` is `VL_COVDET_MAX_NUM_LAPLACIAN_SCALES`. -/
def lapStep (scaleAt : K → K) (threshold : K) (maxNum : Nat) (scores : List K) (k : Nat) (s : List (LapScale K) × Nat) : Option (List (LapScale K) × Nat) := do
  let a ← rd scores (k - 1)
  let b ← rd scores k
  let c ← rd scores (k + 1)
  if ((b > a ∧ b > c) ∨ (b < a ∧ b < c)) ∧ |b| ≥ threshold then do
    let dk := - (1 / 2) * (c - a) / (c + a - 2 * b)
    let x := (k : K) + dk
    if s.2 < maxNum then do
      let out ← wr s.1 s.2 ⟨scaleAt x, b + 1 / 2 * (c - a) * dk⟩
      some (out, s.2 + 1)
    else some s
  else some s

/-- The extrema, vl/covdet.c:2991-3017; `out` is `self->scales`. -/
def lapScales (scaleAt : K → K) (threshold : K) (maxNum numLevels : Nat) (scores : List K) (out : List (LapScale K)) : Option (List (LapScale K) × Nat) :=
  iter (numLevels - 2) (fun i s => lapStep scaleAt threshold maxNum scores (i + 1) s) (out, 0)

/-- vl/covdet.c:2973-3018, with the ten levels of the bank; the array of the scores has not been written. -/
def lapForPatch (sigmaLap : Nat → K) (scaleAt : K → K) (threshold : K) (n : Nat) (laps patch junk : List K) (out : List (LapScale K)) : Option (List (LapScale K) × Nat) := do
  let scores ← lapScores sigmaLap 10 n laps patch junk
  lapScales scaleAt threshold 4 10 scores out

/-- A frame with the scale, vl/covdet.c:3058-3062. -/
def rescale (f : Feature K) (s : LapScale K) : Feature K :=
  { f with
    laplacianScaleScore := s.score
    frame := { f.frame with
      a11 := f.frame.a11 * s.scale
      a21 := f.frame.a21 * s.scale
      a12 := f.frame.a12 * s.scale
      a22 := f.frame.a22 * s.scale } }

/-- The body of the first loop of `vl_covdet_extract_laplacian_scales`, vl/covdet.c:3038-3064; the state is `self->features` and
`self->numFeaturesWithNumScales`.  It is assumed that there is memory for the features that are appended. -/
def lapFeature (scales : Frame K → Option (List (LapScale K))) (i : Nat) (s : List (Feature K) × List Nat) : Option (List (Feature K) × List Nat) := do
  let feature ← rd s.1 i
  let ss ← scales feature.frame
  let c ← rd s.2 ss.length
  let counts ← wr s.2 ss.length (c + 1)
  let features ← if ss.length = 0 then do
      let f ← rd s.1 i
      wr s.1 i { f with peakScore := 0 }
    else some s.1
  let features ← iter ss.length (fun j features => do
    let sc ← rd ss j
    if j = 0 then do
      let f ← rd features i
      wr features i (rescale f sc)
    else do
      let features := features ++ [feature]
      let f ← rd features (features.length - 1)
      wr features (features.length - 1) (rescale f sc)) features
  some (features, counts)

/-- `vl_covdet_extract_laplacian_scales`, vl/covdet.c:3030-3077; the result is the features and `numFeaturesWithNumScales`.
The compaction at lines 3066-3075 is `compact nonNull`. -/
def extractLaplacian (scales : Frame K → Option (List (LapScale K))) (features : List (Feature K)) : Option (List (Feature K) × List Nat) := do
  let (features, counts) ← iter features.length (lapFeature scales) (features, List.replicate 5 0)
  let (features, j) ← compact nonNull features.length features
  some (features.take j, counts)

end Verif.Covdet
