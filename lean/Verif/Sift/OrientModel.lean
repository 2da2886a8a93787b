import Verif.ForInt
import Verif.Accum
import Mathlib.Algebra.Order.Floor.Ring
import Mathlib.Data.Rat.Floor
import Mathlib.Algebra.Field.Rat
import Mathlib.Algebra.Order.Ring.Rat

/-!
# Model of the orientations of a SIFT keypoint

vl/sift.c.  `int` is unbounded; `float` and `double` are rationals and rounding is not modelled; the double nearest to 2π is a
parameter.
-/

namespace Verif.Sift

/-- The conversion `(int) x`. -/
def trunc (x : ℚ) : Int := if 0 ≤ x then ⌊x⌋ else -⌊-x⌋

/-- `fast_expn`, vl/sift.c:691-707, with the table `expn_tab` of 257 entries. -/
def fastExpn (tab : List ℚ) (x : ℚ) : Option ℚ :=
  if x > 25 then some 0
  else do
    let x := x * (256 / 25)
    let i := ⌊x⌋
    let r := x - i
    let a ← rdI tab i
    let b ← rdI tab (i + 1)
    some (a + r * (b - a))

/-- `hist[i] += v` for a signed index. -/
def addI (hist : List ℚ) (i : Int) (v : ℚ) : Option (List ℚ) := if i < 0 then none else addAt hist i.toNat v

/-- The sample at `(xs, ys)`, vl/sift.c:1623-1642; `pt` is the offset of the keypoint in the buffer of the gradients. -/
def orientSample (twoPi : ℚ) (tab grad : List ℚ) (pt w xi yi W : Int) (x y sigmaw : ℚ) (ys xs : Int) (hist : List ℚ) : Option (List ℚ) :=
  let dx := ((xi + xs : Int) : ℚ) - x
  let dy := ((yi + ys : Int) : ℚ) - y
  let r2 := dx * dx + dy * dy
  if r2 ≥ (W * W : Int) + 6 / 10 then some hist
  else do
    let wgt ← fastExpn tab (r2 / (2 * sigmaw * sigmaw))
    let mod ← rdI grad (pt + xs * 2 + ys * (2 * w))
    let ang ← rdI grad (pt + xs * 2 + ys * (2 * w) + 1)
    let fbin := 36 * ang / twoPi
    let bin := ⌊fbin - 1 / 2⌋
    let rbin := fbin - bin - 1 / 2
    let hist ← addI hist ((bin + 36).tmod 36) ((1 - rbin) * mod * wgt)
    addI hist ((bin + 1).tmod 36) (rbin * mod * wgt)

/-- The histogram, vl/sift.c:1608-1652. -/
def orientHist (twoPi : ℚ) (tab grad : List ℚ) (pt w h xi yi W : Int) (x y sigmaw : ℚ) : Option (List ℚ) :=
  forInt (max (-W) (-yi)) (min W (h - 1 - yi)) (fun ys hist =>
    forInt (max (-W) (-xi)) (min W (w - 1 - xi)) (fun xs hist => orientSample twoPi tab grad pt w xi yi W x y sigmaw ys xs hist) hist)
    (List.replicate 36 0)

/-- One pass of the smoothing, vl/sift.c:1656-1664; `n` is the number of the bins. -/
def smoothPass (n : Nat) (hist : List ℚ) : Option (List ℚ) := do
  let prev ← rd hist (n - 1)
  let first ← rd hist 0
  let (hist, prev) ← iter (n - 1) (fun i (hist, prev) => do
    let hi ← rd hist i
    let hn ← rd hist ((i + 1) % n)
    let hist ← wr hist i ((prev + hi + hn) / 3)
    some (hist, hi)) (hist, prev)
  let hl ← rd hist (n - 1)
  wr hist (n - 1) ((prev + hl + first) / 3)

/-- The six passes, vl/sift.c:1655. -/
def smooth (n : Nat) (hist : List ℚ) : Option (List ℚ) := iter 6 (fun _ hist => smoothPass n hist) hist

/-- The maximum, vl/sift.c:1668-1670. -/
def maxHist (n : Nat) (hist : List ℚ) : Option ℚ := iter n (fun i m => do
  let hi ← rd hist i
  some (if m > hi then m else hi)) 0

/-- The peaks, vl/sift.c:1673-1691, from bin `n - k`; `angles` has four entries and `nangles` of them are written. -/
def peaks (twoPi : ℚ) (n : Nat) (hist : List ℚ) (maxh : ℚ) : Nat → List ℚ → Nat → Option (List ℚ × Nat)
  | 0, angles, nangles => some (angles, nangles)
  | k + 1, angles, nangles => do
    let i := n - (k + 1)
    let h0 ← rd hist i
    let hm ← rd hist ((i + n - 1) % n)
    let hp ← rd hist ((i + 1 + n) % n)
    if h0 > 8 / 10 * maxh ∧ h0 > hm ∧ h0 > hp then do
      let di := - (1 / 2) * (hp - hm) / (hp + hm - 2 * h0)
      let th := twoPi * ((i : ℚ) + di + 1 / 2) / n
      let angles ← wr angles nangles th
      if nangles + 1 = 4 then some (angles, 4) else peaks twoPi n hist maxh k angles (nangles + 1)
    else peaks twoPi n hist maxh k angles nangles

/-- A keypoint in the coordinates of the octave and the octave: the first lines of `vl_sift_calc_keypoint_orientations`, vl/sift.c:1559-1605.  `current` is the test
`k->o != f->o_cur`; `sMin` and `sMax` are `f->s_min` and `f->s_max`; the gradients are up to date. -/
def orientations (twoPi : ℚ) (tab grad : List ℚ) (w h sMin sMax : Int) (current : Bool) (x y sigma : ℚ) (si : Int) (angles : List ℚ) :
    Option (List ℚ × Nat) :=
  let xi := trunc (x + 1 / 2)
  let yi := trunc (y + 1 / 2)
  let sigmaw := 15 / 10 * sigma
  let W := max ⌊3 * sigmaw⌋ 1
  if current = false then some (angles, 0)
  else if xi < 0 ∨ xi > w - 1 ∨ yi < 0 ∨ yi > h - 1 ∨ si < sMin + 1 ∨ si > sMax - 2 then some (angles, 0)
  else do
    let hist ← orientHist twoPi tab grad (2 * xi + 2 * w * yi + 2 * w * h * (si - sMin - 1)) w h xi yi W x y sigmaw
    let hist ← smooth 36 hist
    let maxh ← maxHist 36 hist
    peaks twoPi 36 hist maxh 36 angles 0

end Verif.Sift
