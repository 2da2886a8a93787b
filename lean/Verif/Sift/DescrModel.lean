import Verif.Sift.OrientModel
import Verif.Sift.DetectModel
import Mathlib.Algebra.Order.Field.Basic

/-!
# Model of the descriptor of a SIFT keypoint

vl/sift.c and the functions of vl/mathop.h it uses.  `int` is unbounded; `float` and `double` are rationals and rounding is not modelled.
2π, the square root of 2, the sine and the cosine of the angle of the keypoint, the square root and the two machine epsilons are parameters.  A division by zero is
`none`.
-/

namespace Verif.Sift

/-- `vl_floor_f` and `vl_floor_d`, vl/mathop.h:134-140 and 146-152. -/
def vlFloor (x : ℚ) : Int :=
  let xi := trunc x
  if x ≥ 0 ∨ (xi : ℚ) = x then xi else xi - 1

/-- The first loop of `vl_mod_2pi_f`, vl/mathop.h:111; `none` when the loop is not over after `n` rounds. -/
def subLoop (twoPi : ℚ) : Nat → ℚ → Option ℚ
  | 0, x => if x > twoPi then none else some x
  | n + 1, x => if x > twoPi then subLoop twoPi n (x - twoPi) else some x

/-- The second loop of `vl_mod_2pi_f`, vl/mathop.h:112. -/
def addLoop (twoPi : ℚ) : Nat → ℚ → Option ℚ
  | 0, x => if x < 0 then none else some x
  | n + 1, x => if x < 0 then addLoop twoPi n (x + twoPi) else some x

/-- `vl_mod_2pi_f`, vl/mathop.h:108-114; `fuel` is the number of the rounds after which a loop counts as one that does not end. -/
def mod2pi (twoPi : ℚ) (fuel : Nat) (x : ℚ) : Option ℚ := do
  let x ← subLoop twoPi fuel x
  addLoop twoPi fuel x

/-- What does not change from sample to sample: 2π, the rounds of the loops of `vl_mod_2pi_f`, the table of `fast_expn`, the sine and the cosine of the angle of the
keypoint, the angle, the size of a spatial bin, the window size. -/
structure DescrEnv where
  twoPi : ℚ
  fuel : Nat
  tab : List ℚ
  st0 : ℚ
  ct0 : ℚ
  angle0 : ℚ
  sbp : ℚ
  wsigma : ℚ

/-- The sample at `(dxi, dyi)`, vl/sift.c:1815-1869 and 2012-2066; `pt` is the offset of the keypoint in the buffer of the gradients. -/
def descrSample (E : DescrEnv) (grad : List ℚ) (pt w xi yi : Int) (x y : ℚ) (dyi dxi : Int) (descr : List ℚ) : Option (List ℚ) :=
  if E.sbp = 0 ∨ 2 * E.wsigma * E.wsigma = 0 then none else do
  let mod ← rdI grad (pt + dxi * 2 + dyi * (2 * w) + 0)
  let angle ← rdI grad (pt + dxi * 2 + dyi * (2 * w) + 1)
  let theta ← mod2pi E.twoPi E.fuel (angle - E.angle0)
  let dx := ((xi + dxi : Int) : ℚ) - x
  let dy := ((yi + dyi : Int) : ℚ) - y
  let nx := (E.ct0 * dx + E.st0 * dy) / E.sbp
  let ny := (-E.st0 * dx + E.ct0 * dy) / E.sbp
  let nt := 8 * theta / E.twoPi
  let win ← fastExpn E.tab ((nx * nx + ny * ny) / (2 * E.wsigma * E.wsigma))
  let binx := vlFloor (nx - 1 / 2)
  let biny := vlFloor (ny - 1 / 2)
  let bint := vlFloor nt
  let rbinx := nx - (binx + 1 / 2)
  let rbiny := ny - (biny + 1 / 2)
  let rbint := nt - bint
  iter 2 (fun dbinx descr =>
    iter 2 (fun dbiny descr =>
      iter 2 (fun dbint descr =>
        if binx + dbinx ≥ -2 ∧ binx + dbinx < 2 ∧ biny + dbiny ≥ -2 ∧ biny + dbiny < 2 then
          let weight := win * mod * |1 - dbinx - rbinx| * |1 - dbiny - rbiny| * |1 - dbint - rbint|
          addI descr ((2 * 32 + 2 * 8 : Int) + (bint + dbint).tmod 8 * 1 + (biny + dbiny) * 32 + (binx + dbinx) * 8) weight
        else some descr) descr) descr) descr

/-- The histogram before the normalisation; `mg` is 0 in `vl_sift_calc_raw_descriptor`, vl/sift.c:1793-1871, and 1 in `vl_sift_calc_keypoint_descriptor`,
vl/sift.c:1990-2068. -/
def descrHist (E : DescrEnv) (grad : List ℚ) (mg pt w h xi yi W : Int) (x y : ℚ) : Option (List ℚ) :=
  forInt (max (-W) (mg - yi)) (min W (h - yi - 1 - mg)) (fun dyi descr =>
    forInt (max (-W) (mg - xi)) (min W (w - xi - 1 - mg)) (fun dxi descr => descrSample E grad pt w xi yi x y dyi dxi descr) descr)
    (List.replicate 128 0)

/-- `normalize_histogram`, vl/sift.c:1702-1718, of a histogram of `n` bins. -/
def normalizeHist (sq : ℚ → ℚ) (eps : ℚ) (n : Nat) (hist : List ℚ) : Option (List ℚ × ℚ) := do
  let norm ← iter n (fun i norm => do
    let a ← rd hist i
    some (norm + a * a)) 0
  let norm := sq norm + eps
  if norm = 0 then none else do
    let hist ← iter n (fun i hist => do
      let a ← rd hist i
      wr hist i (a / norm)) hist
    some (hist, norm)

/-- The end of the two functions, vl/sift.c:1873-1902 and 2070-2091; `thr` is the threshold of the norm and `bound` what the norm is compared with. -/
def finishDescr (sq : ℚ → ℚ) (eps thr bound : ℚ) (n : Nat) (descr : List ℚ) : Option (List ℚ) := do
  let (descr, norm) ← normalizeHist sq eps n descr
  if thr ≠ 0 ∧ norm < bound then iter n (fun bin descr => wr descr bin 0) descr
  else do
    let descr ← iter n (fun bin descr => do
      let a ← rd descr bin
      if a > 2 / 10 then wr descr bin (2 / 10) else some descr) descr
    let (descr, _) ← normalizeHist sq eps n descr
    some descr

/-- The parameters of the filter and the machine: the magnification, the window size, the threshold of the norm; 2π, √2, the square root, the
two machine epsilons, the table of `fast_expn`. -/
structure DescrFilt where
  magnif : ℚ
  windowSize : ℚ
  normThresh : ℚ
  twoPi : ℚ
  sqrt2 : ℚ
  sq : ℚ → ℚ
  epsD : ℚ
  epsF : ℚ
  tab : List ℚ
  fuel : Nat

/-- `SBP`, vl/sift.c:1774 and 1963. -/
def DescrFilt.sbp (f : DescrFilt) (sigma : ℚ) : ℚ := f.magnif * sigma + f.epsD

/-- `W`, vl/sift.c:1775-1776 and 1964-1965. -/
def DescrFilt.win (f : DescrFilt) (sigma : ℚ) : Int := ⌊f.sqrt2 * f.sbp sigma * 5 / 2 + 1 / 2⌋

/-- What the samples need. -/
def DescrFilt.env (f : DescrFilt) (sigma st0 ct0 angle0 : ℚ) : DescrEnv :=
  ⟨f.twoPi, f.fuel, f.tab, st0, ct0, angle0, f.sbp sigma, f.windowSize⟩

/-- `vl_sift_calc_raw_descriptor`, vl/sift.c:1754-1903; `st0` and `ct0` are the sine and the cosine of `angle0`. -/
def rawDescriptor (f : DescrFilt) (grad descr : List ℚ) (w h : Int) (x y sigma st0 ct0 angle0 : ℚ) : Option (List ℚ) :=
  let xi := trunc (x + 1 / 2)
  let yi := trunc (y + 1 / 2)
  let W := f.win sigma
  if xi < 0 ∨ xi ≥ w ∨ yi < 0 ∨ yi ≥ h - 1 then some descr
  else do
    let descr ← descrHist (f.env sigma st0 ct0 angle0) grad 0 (xi * 2 + yi * (2 * w)) w h xi yi W x y
    let numSamples := (min W (w - xi - 1) - max (-W) (-xi) + 1) * (min W (h - yi - 1) - max (-W) (-yi) + 1)
    finishDescr f.sq f.epsF f.normThresh (f.normThresh * numSamples) 128 descr

/-- `vl_sift_calc_keypoint_descriptor`, vl/sift.c:1923-2093, for a keypoint in the coordinates of the octave; `current` is the test `k->o == f->o_cur`, `sMin` and `sMax` are
`f->s_min` and `f->s_max`, the gradients are up to date. -/
def keypointDescriptor (f : DescrFilt) (grad descr : List ℚ) (w h sMin sMax : Int) (current : Bool) (x y sigma : ℚ) (si : Int) (st0 ct0 angle0 : ℚ) :
    Option (List ℚ) :=
  let xi := trunc (x + 1 / 2)
  let yi := trunc (y + 1 / 2)
  let W := f.win sigma
  if current = false ∨ xi < 0 ∨ xi ≥ w ∨ yi < 0 ∨ yi ≥ h - 1 ∨ si < sMin + 1 ∨ si > sMax - 2 then some descr
  else do
    let descr ← descrHist (f.env sigma st0 ct0 angle0) grad 1 (xi * 2 + yi * (2 * w) + (si - sMin - 1) * (2 * w * h)) w h xi yi W x y
    finishDescr f.sq f.epsF f.normThresh f.normThresh 128 descr

/-- `vl_sift_keypoint_init`, vl/sift.c:2163-2197; `phi` is `log2 ((sigma + VL_EPSILON_D) / f->sigma0)`, `xper` the power of two of the octave.  `none` for `S` zero, which
divides by zero. -/
def keypointInit (xper : Int → ℚ) (sMin sMax oMin O S : Int) (phi x y sigma : ℚ) : Option Keypoint :=
  if S = 0 then none else
  let o := vlFloor (phi - ((sMin : ℚ) + 1 / 2) / S)
  let o := min o (oMin + O - 1)
  let o := max o oMin
  let s := S * (phi - o)
  let is := trunc (s + 1 / 2)
  let is := min is (sMax - 2)
  let is := max is (sMin + 1)
  if xper o = 0 then none else
  some ⟨o, trunc (x / xper o + 1 / 2), trunc (y / xper o + 1 / 2), is, x, y, s, sigma⟩

end Verif.Sift
