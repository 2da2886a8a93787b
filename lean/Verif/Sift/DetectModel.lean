import Verif.Loop
import Verif.Sift.GaussModel

/-!
# Model of the SIFT detector

`vl_sift_detect`, vl/sift.c:1151-1431.  Pixels are rational numbers.  The constant `1e-10f`, the power `pow (2.0, o_cur)` and the scale
`sigma0 * pow (2.0, sn / S)` are parameters.  A division by zero in the edge score gives an infinite or undefined score in the code, which fails
the tests that follow: the model has a condition for it.
-/

namespace Verif.Sift

/-- `VlSiftKeypoint`, vl/sift.h:30-42. -/
structure Keypoint where
  o : Int
  ix : Int
  iy : Int
  is : Int
  x : ℚ
  y : ℚ
  s : ℚ
  sigma : ℚ
deriving DecidableEq

/-- The fields of `VlSiftFilt` used by the detector, vl/sift.h:50-91. -/
structure DetFilt where
  octave : List ℚ
  dog : List ℚ
  w : Nat
  h : Nat
  sMin : Int
  sMax : Int
  oCur : Int
  te : ℚ
  tp : ℚ
  keys : List Keypoint
  nkeys : Nat
  keysRes : Nat

/-- The differences of the levels, vl/sift.c:1177-1185. -/
def dogLevels (octave : List ℚ) (w h : Nat) (levels : Nat) (dog : List ℚ) : Option (Nat × List ℚ) :=
  iter levels (fun t (st : Nat × List ℚ) =>
    iter (w * h) (fun p (pt, dog) => do
      let b ← rd octave (w * h * (t + 1) + p)
      let a ← rd octave (w * h * t + p)
      let dog ← wr dog pt (b - a)
      some (pt + 1, dog)) st) (0, dog)

/-- The offsets of the neighbours in the order of the tests, vl/sift.c:1201-1229. -/
def offsets (xo yo so : Int) : List Int :=
  [xo, -xo, so, -so, yo, -yo,
   yo + xo, yo - xo, -yo + xo, -yo - xo,
   xo + so, -xo + so, yo + so, -yo + so, yo + xo + so, yo - xo + so, -yo + xo + so, -yo - xo + so,
   xo - so, -xo - so, yo - so, -yo - so, yo + xo - so, yo - xo - so, -yo + xo - so, -yo - xo - so]

/-- The comparisons with the neighbours, up to the first that fails, vl/sift.c:1201-1229. -/
def checkAll (cmp : ℚ → ℚ → Bool) (dog : List ℚ) (pt : Int) (v : ℚ) : List Int → Option Bool
  | [] => some true
  | o :: os => do
    let u ← rdI dog (pt + o)
    if cmp v u then checkAll cmp dog pt v os else some false

/-- The condition of vl/sift.c:1231-1232. -/
def isExtremum (dog : List ℚ) (w h : Nat) (tp : ℚ) (pt : Int) (v : ℚ) : Option Bool := do
  let a ← if v ≥ 8 / 10 * tp then checkAll (fun v u => v > u) dog pt v (offsets 1 w (w * h)) else some false
  if a then some true
  else if v ≤ - (8 / 10) * tp then checkAll (fun v u => v < u) dog pt v (offsets 1 w (w * h)) else some false

/-- The state of the search for extrema. -/
structure Scan where
  pt : Int
  keys : List Keypoint
  nkeys : Nat
  keysRes : Nat

/-- A keypoint is appended, vl/sift.c:1235-1251; `junk` is the content of new memory. -/
def appendKey (junk : Keypoint) (st : Scan) (x y s : Int) : Option Scan := do
  let st := if st.nkeys ≥ st.keysRes then { st with keysRes := st.keysRes + 500, keys := st.keys ++ List.replicate 500 junk } else st
  let k ← rd st.keys st.nkeys
  let keys ← wr st.keys st.nkeys { k with ix := x, iy := y, is := s }
  some { st with keys := keys, nkeys := st.nkeys + 1 }

/-- The search for extrema, vl/sift.c:1192-1258. -/
def findExtrema (junk : Keypoint) (dog : List ℚ) (w h : Nat) (sMin sMax : Int) (tp : ℚ) (keys : List Keypoint) (keysRes : Nat) : Option Scan :=
  iter (sMax - 2 - sMin).toNat (fun t st => do
    let s := sMin + 1 + t
    let st ← iter (h - 2) (fun yy st => do
      let y : Int := 1 + yy
      let st ← iter (w - 2) (fun xx st => do
        let x : Int := 1 + xx
        let v ← rdI dog st.pt
        let e ← isExtremum dog w h tp st.pt v
        let st ← if e then appendKey junk st x y s else some st
        some { st with pt := st.pt + 1 }) st
      some { st with pt := st.pt + 2 }) st
    some { st with pt := st.pt + 2 * w }) ⟨1 + w + w * h, keys, 0, keysRes⟩

/-- The derivatives at a point, vl/sift.c:1298-1309, and the value `at(0,0,0)`. -/
structure Derivs where
  v : ℚ
  dx : ℚ
  dy : ℚ
  ds : ℚ
  dxx : ℚ
  dyy : ℚ
  dss : ℚ
  dxy : ℚ
  dxs : ℚ
  dys : ℚ

/-- vl/sift.c:1292-1309. -/
def derivs (dog : List ℚ) (w h : Nat) (pt : Int) : Option Derivs := do
  let at' (dx dy ds : Int) : Option ℚ := rdI dog (pt + dx + dy * w + ds * (w * h))
  let c ← at' 0 0 0
  let xp ← at' 1 0 0
  let xm ← at' (-1) 0 0
  let yp ← at' 0 1 0
  let ym ← at' 0 (-1) 0
  let sp ← at' 0 0 1
  let sm ← at' 0 0 (-1)
  let xpyp ← at' 1 1 0
  let xmym ← at' (-1) (-1) 0
  let xmyp ← at' (-1) 1 0
  let xpym ← at' 1 (-1) 0
  let xpsp ← at' 1 0 1
  let xmsm ← at' (-1) 0 (-1)
  let xmsp ← at' (-1) 0 1
  let xpsm ← at' 1 0 (-1)
  let ypsp ← at' 0 1 1
  let ymsm ← at' 0 (-1) (-1)
  let ymsp ← at' 0 (-1) 1
  let ypsm ← at' 0 1 (-1)
  some { v := c
         dx := 1 / 2 * (xp - xm)
         dy := 1 / 2 * (yp - ym)
         ds := 1 / 2 * (sp - sm)
         dxx := xp + xm - 2 * c
         dyy := yp + ym - 2 * c
         dss := sp + sm - 2 * c
         dxy := 1 / 4 * (xpyp + xmym - xmyp - xpym)
         dxs := 1 / 4 * (xpsp + xmsm - xmsp - xpsm)
         dys := 1 / 4 * (ypsp + ymsm - ymsp - ypsm) }

/-- The linear system, vl/sift.c:1312-1321. -/
def system (d : Derivs) : Sys :=
  { A := fun i j =>
      if i = 0 then (if j = 0 then d.dxx else if j = 1 then d.dxy else d.dxs)
      else if i = 1 then (if j = 0 then d.dxy else if j = 1 then d.dyy else d.dys)
      else (if j = 0 then d.dxs else if j = 1 then d.dys else d.dss)
    b := fun i => if i = 0 then - d.dx else if i = 1 then - d.dy else - d.ds }

/-- The rounds of the refinement, vl/sift.c:1281-1389, with a number of rounds left. -/
def refineLoop (eps : ℚ) (dog : List ℚ) (w h : Nat) (t : Int) : Nat → Int → Int → Option (Int × Int × Derivs × (Nat → ℚ))
  | 0, _, _ => none
  | k + 1, x, y => do
    let pt : Int := x + w * y + w * h * t
    let d ← derivs dog w h pt
    let (b, _) ← solve 3 eps (system d)
    let dx : Int := (if b 0 > 6 / 10 ∧ x < (w : Int) - 2 then 1 else 0) + (if b 0 < - (6 / 10) ∧ x > 1 then -1 else 0)
    let dy : Int := (if b 1 > 6 / 10 ∧ y < (h : Int) - 2 then 1 else 0) + (if b 1 < - (6 / 10) ∧ y > 1 then -1 else 0)
    if (dx = 0 ∧ dy = 0) ∨ k = 0 then some (x, y, d, b) else refineLoop eps dog w h t k (x + dx) (y + dy)

/-- The refinement of one keypoint and the tests, vl/sift.c:1269-1426: the keypoint that is written, if any. -/
def refinePoint (eps xper : ℚ) (sig : ℚ → ℚ) (dog : List ℚ) (w h : Nat) (sMin sMax oCur : Int) (te tp : ℚ) (x y s : Int) : Option (Option Keypoint) := do
  let (x, y, d, b) ← refineLoop eps dog w h (s - sMin) 5 x y
  let val := d.v + 1 / 2 * (d.dx * b 0 + d.dy * b 1 + d.ds * b 2)
  let den := d.dxx * d.dyy - d.dxy * d.dxy
  let score := (d.dxx + d.dyy) * (d.dxx + d.dyy) / den
  let xn := x + b 0
  let yn := y + b 1
  let sn := s + b 2
  if |val| > tp ∧ den ≠ 0 ∧ score < (te + 1) * (te + 1) / te ∧ score ≥ 0 ∧ |b 0| < 3 / 2 ∧ |b 1| < 3 / 2 ∧ |b 2| < 3 / 2 ∧
      xn ≥ 0 ∧ xn ≤ (w : ℚ) - 1 ∧ yn ≥ 0 ∧ yn ≤ (h : ℚ) - 1 ∧ sn ≥ sMin ∧ sn ≤ sMax then
    some (some { o := oCur, ix := x, iy := y, is := s, s := sn, x := xn * xper, y := yn * xper, sigma := sig sn * xper })
  else some none

/-- The loop over the keypoints, vl/sift.c:1265-1427; `k` is the write index. -/
def refineAll (r : Int → Int → Int → Option (Option Keypoint)) (nkeys : Nat) (keys : List Keypoint) : Option (List Keypoint × Nat) :=
  iter nkeys (fun i (keys, k) => do
    let kp ← rd keys i
    match ← r kp.ix kp.iy kp.is with
    | some new => do
      let keys ← wr keys k new
      some (keys, k + 1)
    | none => some (keys, k)) (keys, 0)

/-- `vl_sift_detect`, vl/sift.c:1153-1431. -/
def detect (eps xper : ℚ) (sig : ℚ → ℚ) (junk : Keypoint) (f : DetFilt) : Option DetFilt := do
  let (_, dog) ← dogLevels f.octave f.w f.h (f.sMax - f.sMin).toNat f.dog
  let st ← findExtrema junk dog f.w f.h f.sMin f.sMax f.tp f.keys f.keysRes
  let (keys, k) ← refineAll (refinePoint eps xper sig dog f.w f.h f.sMin f.sMax f.oCur f.te f.tp) st.nkeys st.keys
  some { f with dog := dog, keys := keys, nkeys := k, keysRes := st.keysRes }

end Verif.Sift
