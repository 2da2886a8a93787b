import Verif.Hog.PermModel
import Verif.Rows
import Mathlib.Algebra.Field.Defs
import Mathlib.Analysis.SpecialFunctions.Trigonometric.Basic

/-!
# Model of the rendering of HOG descriptors, vl/hog.c

The glyphs are drawn with exact real arithmetic.  A pointer that is moved beyond the end of a buffer without being used is not taken as undefined behaviour.
-/

namespace Verif.Hog

/-! ## Glyphs -/

/-- `vl_round_d`, vl/mathop.h:211-225: half away from zero. -/
noncomputable def lround (x : ℝ) : Int := if 0 ≤ x then ⌊x + 1 / 2⌋ else ⌈x - 1 / 2⌉

/-- `fmod(a, VL_PI)` for `a` not negative. -/
noncomputable def fmodPi (a : ℝ) : ℝ := a - Real.pi * ⌊a / Real.pi⌋

/-- `atglyph(i,j,o) = 1`, or `atglyph(j,i,o) = 1` for transposed images, vl/hog.c:277, 292-296. -/
def setGlyph (gs : Nat) (transposed : Bool) (o : Nat) (i j : Int) (g : List ℝ) : Option (List ℝ) :=
  wrI g (if transposed then j + gs * i + gs * gs * o else i + gs * j + gs * gs * o) 1

/-- One glyph, vl/hog.c:279-315.  A division by zero gives `none`; the conversions of `skip` truncate a number that is not negative. -/
noncomputable def drawGlyph (gs O : Nat) (transposed : Bool) (o : Nat) (g : List ℝ) : Option (List ℝ) :=
  let angle := fmodPi (o * Real.pi / O + Real.pi / 2)
  let x2 := gs * Real.cos angle / 2
  let y2 := gs * Real.sin angle / 2
  if angle ≤ Real.pi / 4 ∨ angle ≥ Real.pi * 3 / 4 then
    if x2 = 0 then none else
      let slope := y2 / x2
      let offset := (1 - slope) * ((gs : ℝ) - 1) / 2
      let skip := ⌊(1 - |Real.cos angle|) / 2 * gs⌋₊
      iter (gs - skip - skip) (fun n g => setGlyph gs transposed o ((skip + n : Nat) : Int) (lround (slope * ((skip + n : Nat) : ℝ) + offset)) g) g
  else
    if y2 = 0 then none else
      let slope := x2 / y2
      let offset := (1 - slope) * ((gs : ℝ) - 1) / 2
      let skip := ⌊(1 - Real.sin angle) / 2 * gs⌋₊
      iter (gs - skip - skip) (fun n g => setGlyph gs transposed o (lround (slope * ((skip + n : Nat) : ℝ) + offset)) ((skip + n : Nat) : Int) g) g

/-- The glyphs made by `vl_hog_new`, vl/hog.c:276-316; `gs` is 21, vl/hog.c:183. -/
noncomputable def drawGlyphs (gs O : Nat) (transposed : Bool) : Option (List ℝ) :=
  iter O (drawGlyph gs O transposed) (List.replicate (gs * gs * O) 0)

/-! ## Rendering -/

variable {K : Type} [Field K] [LinearOrder K]

/-- The weight of a glyph, vl/hog.c:453-469; `d` is the offset of `descriptor`. -/
def weight (v : Variant) (O stride : Nat) (desc : List K) (d k : Nat) : Option K :=
  match v with
  | .uoctti => do
    let a ← rd desc (d + k * stride)
    let b ← rd desc (d + (k + O) * stride)
    let c ← rd desc (d + (k + 2 * O) * stride)
    some (a + b + c)
  | .dalalTriggs => do
    let a ← rd desc (d + k * stride)
    let b ← rd desc (d + (k + O) * stride)
    let c ← rd desc (d + (k + 2 * O) * stride)
    let e ← rd desc (d + (k + 3 * O) * stride)
    some (a + b + c + e)

/-- The loops over the pixels of a cell, vl/hog.c:473-478 and 484-490: `p` is the offset of `glyphImage`, the second component counts the pixels. -/
def cellLoop (gs width : Nat) (act : Nat → K → Option K) (p : Nat) (image : List K) : Option (List K) := do
  let s ← iter gs (fun _ (s : Nat × Nat × List K) => do
    let s ← iter gs (fun _ (s : Nat × Nat × List K) => do
      let v ← rd s.2.2 s.1
      let v ← act s.2.1 v
      let im ← wr s.2.2 s.1 v
      some (s.1 + 1, s.2.1 + 1, im)) s
    some (s.1 + (width - 1) * gs, s.2)) (p, 0, image)
  some s.2.2

/-- One cell, vl/hog.c:445-493; the state is the image and the offset of `descriptor`. -/
def renderCell (v : Variant) (gs O width height : Nat) (glyphs desc : List K) (y x : Nat) (s : List K × Nat) : Option (List K × Nat) := do
  let p := gs * x + y * width * (gs * gs)
  let t ← iter O (fun k (t : List K × K × K) => do
    let w ← weight v O (width * height) desc s.2 k
    let im ← cellLoop gs width (fun q a => do
      let g ← rd glyphs (k * (gs * gs) + q)
      some (a + w * g)) p t.1
    some (im, min w t.2.1, max w t.2.2)) (s.1, 0, 0)
  let im ← cellLoop gs width (fun _ a => some (max t.2.1 (min t.2.2 a))) p t.1
  some (im, s.2 + 1)

/-- `vl_hog_render`, vl/hog.c:427-496. -/
def render (v : Variant) (gs O : Nat) (glyphs image desc : List K) (width height : Nat) : Option (List K) := do
  assert' (decide (width > 0))
  assert' (decide (height > 0))
  let r ← iter height (fun y s => iter width (fun x s => renderCell v gs O width height glyphs desc y x s) s) (image, 0)
  some r.1

end Verif.Hog
