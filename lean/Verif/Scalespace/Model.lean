import Verif.Loop
import Verif.ForStep
import Mathlib.Algebra.Field.Rat
import Mathlib.Algebra.Order.Ring.Rat

/-!
# Model of the scale space

vl/scalespace.c, vl/scalespace.h.  `float` and `double` are rationals and rounding is not modelled; shifts do not overflow.
Each octave is a separate block, `octaves[o - firstOctave]`; a failed allocation is not modelled.  A call of `vl_imsmooth_f`
(with the computation of its standard deviations and the test of whether it is needed) is a parameter that maps the pixels
read to the pixels written.
-/

namespace Verif.Scalespace

/-- `VlScaleSpaceGeometry`, vl/scalespace.h:31-42. -/
structure Geometry where
  width : Nat
  height : Nat
  firstOctave : Int
  lastOctave : Int
  octaveResolution : Nat
  octaveFirstSubdivision : Int
  octaveLastSubdivision : Int
  baseScale : ℚ
  nominalScale : ℚ
  deriving DecidableEq

/-- `vl_scalespacegeometry_is_equal`, vl/scalespace.c:336-349. -/
def isEqual (a b : Geometry) : Bool :=
  a.width == b.width &&
  a.height == b.height &&
  a.firstOctave == b.firstOctave &&
  a.lastOctave == b.lastOctave &&
  a.octaveResolution == b.octaveResolution &&
  a.octaveFirstSubdivision == b.octaveLastSubdivision &&
  decide (a.baseScale = b.baseScale) &&
  decide (a.nominalScale = b.nominalScale)

/-- `is_valid_geometry`, vl/scalespace.c:323-328. -/
def isValid (g : Geometry) : Bool :=
  decide (g.firstOctave ≤ g.lastOctave) && decide (1 ≤ g.octaveResolution) &&
  decide (g.octaveFirstSubdivision ≤ g.octaveLastSubdivision) && decide (0 ≤ g.baseScale) && decide (0 ≤ g.nominalScale)

/-- `vl_scalespace_get_default_geometry`, vl/scalespace.c:305-321; the floor of the logarithm is exact, and the value of
`baseScale`, a power with a fractional exponent, is a parameter. -/
def defaultGeometry (baseScale : ℚ) (width height : Nat) : Option Geometry := do
  let _ ← assert' (decide (1 ≤ width))
  let _ ← assert' (decide (1 ≤ height))
  some { width := width, height := height, firstOctave := 0, lastOctave := max ((Nat.log2 (min width height) : Int) - 3) 0,
         octaveResolution := 3, octaveFirstSubdivision := 0, octaveLastSubdivision := 2, baseScale := baseScale,
         nominalScale := 1 / 2 }

/-- `VL_SHIFT_LEFT(x, n)`, vl/generic.h:197. -/
def shiftLeft (x : Nat) (n : Int) : Nat := if 0 ≤ n then x * 2 ^ n.toNat else x / 2 ^ (-n).toNat

/-- Width of an octave, vl/scalespace.c:372. -/
def octaveWidth (g : Geometry) (o : Int) : Nat := shiftLeft g.width (-o)
/-- Height of an octave, vl/scalespace.c:373. -/
def octaveHeight (g : Geometry) (o : Int) : Nat := shiftLeft g.height (-o)

/-- Number of levels of an octave, vl/scalespace.c:568. -/
def numSublevels (g : Geometry) : Nat := (g.octaveLastSubdivision - g.octaveFirstSubdivision + 1).toNat

/-- The blocks of the octaves, allocated at vl/scalespace.c:575-580: `malloc k n` is the block of `n` values of octave
number `k`. -/
def newOctaves (g : Geometry) (malloc : Nat → Nat → List ℚ) : Option (List (List ℚ)) := do
  let _ ← assert' (isValid g)
  some ((List.range (g.lastOctave - g.firstOctave + 1).toNat).map fun k =>
    malloc k (octaveWidth g (g.firstOctave + k) * octaveHeight g (g.firstOctave + k) * numSublevels g))

/-- A pointer: number of the block and offset in it. -/
structure Loc where
  oct : Nat
  off : Nat
  deriving DecidableEq

/-- `vl_scalespace_get_level`, vl/scalespace.c:389-402. -/
def getLevel (g : Geometry) (o s : Int) : Option Loc := do
  let _ ← assert' (decide (g.firstOctave ≤ o))
  let _ ← assert' (decide (o ≤ g.lastOctave))
  let _ ← assert' (decide (g.octaveFirstSubdivision ≤ s))
  let _ ← assert' (decide (s ≤ g.octaveLastSubdivision))
  some { oct := (o - g.firstOctave).toNat,
         off := octaveWidth g o * octaveHeight g o * (s - g.octaveFirstSubdivision).toNat }

/-- Destination buffer and pointer. -/
structure Out where
  buf : List ℚ
  at_ : Nat

/-- `copy_and_upsample`, vl/scalespace.c:450-480, from offset `so` of `src` to offset `off` of `dst`.  The values `v10` and `v11`
carried from one pixel to the next are read again. -/
def copyAndUpsample (src : List ℚ) (so width height : Nat) (dst : List ℚ) (off : Nat) : Option (List ℚ) :=
  iter height (fun y dst => iter width (fun x dst => do
    let oy := if y + 1 < height then width else 0
    let ox := if x + 1 < width then 1 else 0
    let v00 ← rd src (so + (y * width + x))
    let v01 ← rd src (so + (y * width + x) + oy)
    let v10 ← rd src (so + (y * width + x) + ox)
    let v11 ← rd src (so + (y * width + x) + (ox + oy))
    let d := off + (y * (4 * width) + 2 * x)
    let dst ← wr dst d v00
    let dst ← wr dst (d + 1) (1 / 2 * (v00 + v10))
    let dst ← wr dst (d + 2 * width) (1 / 2 * (v00 + v01))
    wr dst (d + 2 * width + 1) (1 / 4 * (v00 + v01 + v10 + v11))) dst) dst

/-- `copy_and_downsample`, vl/scalespace.c:497-520.  The source pointer `p` is `source + y * width + x`. -/
def copyAndDownsample (fuel : Nat) (src : List ℚ) (so width height numOctaves : Nat) (dst : List ℚ) (off : Nat) : Option (List ℚ) :=
  let step : Nat := 2 ^ numOctaves
  if numOctaves = 0 then
    iter (width * height) (fun i dst => do
      let v ← rd src (so + i)
      wr dst (off + i) v) dst
  else do
    let o ← forStep ((height : Int) - 1) step (fun y o =>
      forStep ((width : Int) - (step - 1) - 1) step (fun x (o : Out) => do
        let v ← rdI src (so + y * width + x)
        let buf ← wr o.buf o.at_ v
        some { buf := buf, at_ := o.at_ + 1 }) fuel 0 o) fuel 0 { buf := dst, at_ := off }
    some o.buf

/-- The smoothing operations: what `vl_imsmooth_f` stores, given what it reads. -/
structure Smooth where
  /-- vl/scalespace.c:676-684, from level `s - 1` to level `s` of octave `o`. -/
  fill : Int → Int → List ℚ → List ℚ
  /-- vl/scalespace.c:734-744, on the first level of the first octave. -/
  image : List ℚ → List ℚ
  /-- vl/scalespace.c:788-800, on the first level of octave `o`. -/
  prev : Int → List ℚ → List ℚ
  fill_length : ∀ o s l, (fill o s l).length = l.length
  image_length : ∀ l, (image l).length = l.length
  prev_length : ∀ o l, (prev o l).length = l.length

/-- Read `n` values at `src`, transform them, and store the result at `dst`, in one block. -/
def smoothAt (octs : List (List ℚ)) (k src dst n : Nat) (sm : List ℚ → List ℚ) : Option (List (List ℚ)) := do
  let oct ← rd octs k
  let _ ← assert' (decide (src + n ≤ oct.length))
  let _ ← assert' (decide (dst + n ≤ oct.length))
  wr octs k (oct.take dst ++ sm ((oct.drop src).take n) ++ oct.drop (dst + n))

/-- `_vl_scalespace_fill_octave`, vl/scalespace.c:668-686. -/
def fillOctave (g : Geometry) (sm : Smooth) (o : Int) (octs : List (List ℚ)) : Option (List (List ℚ)) :=
  iter (g.octaveLastSubdivision - g.octaveFirstSubdivision).toNat (fun i octs => do
    let s := g.octaveFirstSubdivision + 1 + i
    let level ← getLevel g o s
    let previous ← getLevel g o (s - 1)
    smoothAt octs level.oct previous.off level.off (octaveWidth g o * octaveHeight g o) (sm.fill o s)) octs

/-- `_vl_scalespace_start_octave_from_image`, vl/scalespace.c:699-745. -/
def startFromImage (fuel : Nat) (g : Geometry) (sm : Smooth) (image : List ℚ) (o : Int) (octs : List (List ℚ)) :
    Option (List (List ℚ)) := do
  let _ ← assert' (decide (g.firstOctave ≤ o))
  let _ ← assert' (decide (o ≤ g.lastOctave))
  let level ← getLevel g (max 0 o) g.octaveFirstSubdivision
  let dst ← rd octs level.oct
  let dst ← copyAndDownsample fuel image 0 g.width g.height (max 0 o).toNat dst level.off
  let octs ← wr octs level.oct dst
  let octs ← iter (-o).toNat (fun i octs => do
    let op : Int := -1 - i
    let succLevel ← getLevel g (op + 1) g.octaveFirstSubdivision
    let level ← getLevel g op g.octaveFirstSubdivision
    let src ← rd octs succLevel.oct
    let dst ← rd octs level.oct
    let dst ← copyAndUpsample src succLevel.off (octaveWidth g (op + 1)) (octaveHeight g (op + 1)) dst level.off
    wr octs level.oct dst) octs
  let level ← getLevel g o g.octaveFirstSubdivision
  smoothAt octs level.oct level.off level.off (octaveWidth g o * octaveHeight g o) sm.image

/-- The level of the previous octave an octave is started from, vl/scalespace.c:775-777. -/
def prevLevelIndex (g : Geometry) : Int := min (g.octaveFirstSubdivision + g.octaveResolution) g.octaveLastSubdivision

/-- `_vl_scalespace_start_octave_from_previous_octave`, vl/scalespace.c:755-801. -/
def startFromPrevious (fuel : Nat) (g : Geometry) (sm : Smooth) (o : Int) (octs : List (List ℚ)) : Option (List (List ℚ)) := do
  let _ ← assert' (decide (g.firstOctave < o))
  let _ ← assert' (decide (o ≤ g.lastOctave))
  let prevLevel ← getLevel g (o - 1) (prevLevelIndex g)
  let level ← getLevel g o g.octaveFirstSubdivision
  let src ← rd octs prevLevel.oct
  let dst ← rd octs level.oct
  let dst ← copyAndDownsample fuel src prevLevel.off (octaveWidth g (o - 1)) (octaveHeight g (o - 1)) 1 dst level.off
  let octs ← wr octs level.oct dst
  smoothAt octs level.oct level.off level.off (octaveWidth g o * octaveHeight g o) (sm.prev o)

/-- `vl_scalespace_put_image`, vl/scalespace.c:811-821. -/
def putImage (fuel : Nat) (g : Geometry) (sm : Smooth) (image : List ℚ) (octs : List (List ℚ)) : Option (List (List ℚ)) := do
  let octs ← startFromImage fuel g sm image g.firstOctave octs
  let octs ← fillOctave g sm g.firstOctave octs
  iter (g.lastOctave - g.firstOctave).toNat (fun i octs => do
    let o := g.firstOctave + 1 + i
    let octs ← startFromPrevious fuel g sm o octs
    fillOctave g sm o octs) octs

end Verif.Scalespace
