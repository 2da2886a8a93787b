import Verif.Loop
import Mathlib.Algebra.Field.Defs
import Mathlib.Algebra.Order.Ring.Defs
import Mathlib.Algebra.Order.Group.Abs
import Mathlib.Order.WithBot

/-!
# Model of the features of the covariant detector, vl/covdet.c

`K` stands for `float` and `double`; rounding is not modelled.
-/

namespace Verif.Covdet

/-- `VlFrameOrientedEllipse`, vl/covdet.h:78-85. -/
structure Frame (K : Type) where
  x : K
  y : K
  a11 : K
  a12 : K
  a21 : K
  a22 : K
  deriving DecidableEq

/-- `VlCovDetFeature`, vl/covdet.h:137-144. -/
structure Feature (K : Type) where
  frame : Frame K
  peakScore : K
  edgeScore : K
  orientationScore : K
  laplacianScaleScore : K
  deriving DecidableEq

/-- The result of `_vl_resize_buffer` and the arguments it changes -/
structure Resized (α : Type) where
  buffer : Option (List α)
  size : Nat
  failed : Bool

/-- `_vl_resize_buffer`, vl/covdet.c:955-976.  A block of `target` bytes is a list of `target / sz` elements of `sz` bytes; `ok` tells whether the memory manager succeeds, `junk` is the content of new memory. -/
def resizeBuffer {α : Type} (sz : Nat) (ok : Bool) (junk : Nat → α) (buffer : Option (List α)) (size target : Nat) : Resized α :=
  match buffer with
  | none => if ok then ⟨some ((List.range (target / sz)).map junk), target, false⟩ else ⟨none, 0, true⟩
  | some l => if ok then ⟨some ((List.range (target / sz)).map fun i => (l[i]?).getD (junk i)), target, false⟩ else ⟨some l, size, true⟩

/-- The fields `features`, `numFeatures` and `numFeatureBufferSize` (bytes) of `struct _VlCovDet`, vl/covdet.c:1473-1475. -/
structure Feats (α : Type) where
  features : Option (List α)
  num : Nat
  bufferSize : Nat

/-- vl/covdet.c:1546-1548 -/
def Feats.new {α : Type} : Feats α := ⟨none, 0, 0⟩

/-- `*feature` is stored at the end, vl/covdet.c:1673. -/
def storeLast {α : Type} (s : Feats α) (f : α) : Option (Feats α) := do
  let l ← s.features
  let l ← wr l (s.num - 1) f
  pure { s with features := some l }

/-- `vl_covdet_append_feature`, vl/covdet.c:1657-1675; the second value tells whether there was an error. -/
def append {α : Type} (sz : Nat) (ok : Bool) (junk : Nat → α) (s : Feats α) (f : α) : Option (Feats α × Bool) :=
  let num := s.num + 1
  let required := num * sz
  if required > s.bufferSize then
    let r := resizeBuffer sz ok junk s.features s.bufferSize ((num + 1000) * sz)
    if r.failed then some (⟨r.buffer, num - 1, r.size⟩, true)
    else (storeLast ⟨r.buffer, num, r.size⟩ f).map (fun s => (s, false))
  else (storeLast ⟨s.features, num, s.bufferSize⟩ f).map (fun s => (s, false))

/-- `vl_covdet_reset`, vl/covdet.c:1619-1634, on these fields. -/
def reset {α : Type} (s : Feats α) : Feats α := { s with features := none }

/-- The first lines of `vl_covdet_detect`, vl/covdet.c:1948. -/
def clear {α : Type} (s : Feats α) : Feats α := { s with num := 0 }

/-- The features that a user reads: `vl_covdet_get_num_features` elements of `vl_covdet_get_features`, vl/covdet.c:3429-3443; `none` is an access through a null pointer or out of the block. -/
def read {α : Type} (s : Feats α) : Option (List α) :=
  if s.num = 0 then some []
  else do
    let l ← s.features
    (List.range s.num).mapM (fun i => rd l i)

/-- The loops that remove features while moving the others to the front, vl/covdet.c:2137-2144, 2666-2679 (`f` gives the adapted feature), 3067-3074 and 3130-3140: `f x` is the new feature, or `none` if the feature is removed. -/
def compact {α : Type} (f : α → Option α) (n : Nat) (l : List α) : Option (List α × Nat) :=
  iter n (fun i (s : List α × Nat) => do
    let x ← rd s.1 i
    match f x with
    | some y => do
      let l ← wr s.1 s.2 y
      pure (l, s.2 + 1)
    | none => pure s) (l, 0)

variable {K : Type} [Field K] [LinearOrder K]

/-- The inner test of the suppression, vl/covdet.c:2127-2131. -/
def suppresses (tol x y sigma score : K) (g : Feature K) : Bool :=
  decide (sigma < (1 + tol) * g.frame.a11) && decide (g.frame.a11 < (1 + tol) * sigma) && decide (|g.frame.x - x| < tol * sigma) && decide (|g.frame.y - y| < tol * sigma) && decide (|g.peakScore| < |score|)

/-- The suppression of the features close to a stronger one, vl/covdet.c:2114-2136: the features and `numNonExtremaSuppressed`. -/
def suppress (tol : K) (n : Nat) (l : List (Feature K)) : Option (List (Feature K) × Nat) :=
  iter n (fun i (s : List (Feature K) × Nat) => do
    let f ← rd s.1 i
    iter n (fun j (s : List (Feature K) × Nat) => do
      let g ← rd s.1 j
      if g.peakScore = 0 then pure s
      else if suppresses tol f.frame.x f.frame.y f.frame.a11 f.peakScore g then do
        let l ← wr s.1 j { g with peakScore := 0 }
        pure (l, s.2 + 1)
      else pure s) s) (l, 0)

/-- `if (feature.peakScore != 0)`, vl/covdet.c:2140-2142 and 3070-3072. -/
def nonNull (f : Feature K) : Option (Feature K) := if f.peakScore ≠ 0 then some f else none

/-- The end of `vl_covdet_detect`, vl/covdet.c:2111-2145: the features, their number and `numNonExtremaSuppressed`, whose previous value is `count`. -/
def nonExtrema (tol : K) (n : Nat) (l : List (Feature K)) (count : Nat) : Option (List (Feature K) × Nat × Nat) :=
  if tol ≠ 0 then do
    let s ← suppress tol n l
    let r ← compact nonNull n s.1
    pure (r.1, r.2, s.2)
  else some (l, n, count)

/-- The bounds `x0`, `x1`, `y0`, `y1` of `_vl_covdet_check_frame_inside`. -/
structure Box (K : Type) where
  x0 : WithTop K
  x1 : WithBot K
  y0 : WithTop K
  y1 : WithBot K

/-- One corner, vl/covdet.c:3098-3103. -/
def Box.add (f : Frame K) (b : Box K) (u v : K) : Box K :=
  let x := f.a11 * u + f.a12 * v + f.x
  let y := f.a21 * u + f.a22 * v + f.y
  ⟨min b.x0 (x : WithTop K), max b.x1 (x : WithBot K), min b.y0 (y : WithTop K), max b.y1 (y : WithBot K)⟩

/-- `_vl_covdet_check_frame_inside`, vl/covdet.c:3083-3109; `width` and `height` are those of the image, at least one. -/
def checkInside (width height : Nat) (margin : K) (f : Frame K) : Bool :=
  let b : Box K := ⟨⊤, ⊥, ⊤, ⊥⟩
  let b := b.add f margin (- margin)
  let b := b.add f margin margin
  let b := b.add f (- margin) margin
  let b := b.add f (- margin) (- margin)
  decide (((0 : K) : WithTop K) ≤ b.x0) && decide (b.x1 ≤ (((width : K) - 1 : K) : WithBot K)) && decide (((0 : K) : WithTop K) ≤ b.y0) && decide (b.y1 ≤ (((height : K) - 1 : K) : WithBot K))

/-- `vl_covdet_drop_features_outside`, vl/covdet.c:3127-3141. -/
def dropOutside (width height : Nat) (margin : K) (n : Nat) (l : List (Feature K)) : Option (List (Feature K) × Nat) :=
  compact (fun f => if checkInside width height margin f.frame then some f else none) n l

end Verif.Covdet
