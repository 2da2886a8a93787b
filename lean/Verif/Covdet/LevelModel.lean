import Verif.Covdet.ResponseModel
import Mathlib.Analysis.SpecialFunctions.Log.Base
import Mathlib.Data.Int.Log

/-!
# Model of the choice of the octaves of an image and of the level from which a patch is extracted

The scales are real numbers and the powers and logarithms are exact.
-/

namespace Verif.Covdet

/-- The fields of `VlScaleSpaceGeometry` that are used, vl/scalespace.h:31-42. -/
structure Levels where
  firstOctave : Int
  lastOctave : Int
  resolution : Nat
  firstSub : Int
  lastSub : Int
  base : ℝ

/-- The octaves and the levels of the scale space of an image, vl/covdet.c:1698-1729. The code takes the floor of the
logarithm in base two of a rational number, and has undefined behaviour if the number is zero (the conversion of an infinite number to
an integer); `log` of the natural numbers is `none` there. The allocation requires that the geometry is valid,
vl/scalespace.c:323-328 and 566. -/
noncomputable def imageLevels (method : Method) (firstOctave : Int) (numOctaves resolution : Nat) (baseScale : ℝ) (width height : Nat) : Option Levels := do
  let minOctaveSize := 16
  assert' (decide (1 ≤ width) && decide (1 ≤ height))
  let m := min ((width : ℚ) - 1) ((height : ℚ) - 1)
  assert' (decide (m / ((minOctaveSize : ℚ) - 1) ≠ 0))
  let lastOctave := Int.log 2 (m / ((minOctaveSize : ℚ) - 1))
  let lastOctave := if numOctaves > 0 then min ((numOctaves : Int) - firstOctave - 1) lastOctave else lastOctave
  let sub : Int × Int := match method with
    | .dog => (-1, (resolution : Int) + 1)
    | .hessian => (-1, (resolution : Int))
    | _ => (0, (resolution : Int) - 1)
  assert' (decide (firstOctave ≤ lastOctave) && decide (1 ≤ resolution) && decide (sub.1 ≤ sub.2))
  some ⟨firstOctave, lastOctave, resolution, sub.1, sub.2, baseScale * (2 : ℝ) ^ (1 / (resolution : ℝ))⟩

/-- `s` at lines 2231-2233 and 2242-2244 of vl/covdet.c; `ratio` is `sigma / (factor * geom.baseScale)`. -/
noncomputable def Levels.sub (g : Levels) (ratio : ℝ) (o : Int) : Int :=
  let s := ⌊Real.logb 2 ratio - o⌋
  let s := max s g.firstSub
  min s g.lastSub

/-- `sigma_` at lines 2234 and 2245 of vl/covdet.c. -/
noncomputable def Levels.sigma (g : Levels) (o s : Int) : ℝ := g.base * (2 : ℝ) ^ ((o : ℝ) + (s : ℝ) / (g.resolution : ℝ))

open Classical in
/-- The scan of the octaves from `o`, vl/covdet.c:2230-2240, with the number of octaves that are left; the value is `o` after the
loop. -/
noncomputable def Levels.scan (g : Levels) (factor sigma : ℝ) : Nat → Int → Int
  | 0, o => o
  | n + 1, o => if factor * g.sigma o (g.sub (sigma / (factor * g.base)) o) > sigma then o - 1 else g.scan factor sigma n (o + 1)

/-- The level that is chosen. -/
structure Chosen where
  o : Int
  s : Int
  sigma1 : ℝ
  sigma2 : ℝ

/-- vl/covdet.c:2228-2247, the first part of `vl_covdet_extract_patch_helper`. -/
noncomputable def chooseLevel (g : Levels) (sigma d1 d2 : ℝ) : Chosen :=
  let factor := 1 / min d1 d2
  let o := g.scan factor sigma (g.lastOctave - g.firstOctave).toNat (g.firstOctave + 1)
  let o := min o g.lastOctave
  let s := g.sub (sigma / (factor * g.base)) o
  ⟨o, s, g.sigma o s / d1, g.sigma o s / d2⟩

end Verif.Covdet
