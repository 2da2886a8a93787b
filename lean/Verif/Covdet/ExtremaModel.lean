import Verif.Covdet.FeatModel
import Verif.Linear.Model
import Mathlib.Algebra.Order.AbsoluteValue.Basic

/-!
# Model of the search and of the refinement of the extrema in the covariant detector, vl/covdet.c
-/

namespace Verif.Covdet

variable {K : Type} [Field K] [LinearOrder K]

/-- The comparisons with the neighbours, up to the first that fails, vl/covdet.c:1071-1101 and 1159-1169. -/
def checkAll (cmp : K → K → Bool) (map : List K) (pt : Int) (v : K) : List Int → Option Bool
  | [] => some true
  | o :: os => do
    let u ← rdI map (pt + o)
    if cmp v u then checkAll cmp map pt v os else some false

/-- The neighbours in the order of the tests, vl/covdet.c:1073-1101. -/
def offsets3 (xo yo zo : Int) : List Int :=
  [xo, -xo, zo, -zo, yo, -yo,
   yo + xo, yo - xo, -yo + xo, -yo - xo,
   xo + zo, -xo + zo, yo + zo, -yo + zo, yo + xo + zo, yo - xo + zo, -yo + xo + zo, -yo - xo + zo,
   xo - zo, -xo - zo, yo - zo, -yo - zo, yo + xo - zo, yo - xo - zo, -yo + xo - zo, -yo - xo - zo]

/-- The neighbours in the order of the tests, vl/covdet.c:1161-1169. -/
def offsets2 (xo yo : Int) : List Int := [xo, -xo, yo, -yo, yo + xo, yo - xo, -yo + xo, -yo - xo]

/-- The condition of vl/covdet.c:1107 and 1174. -/
def isExtremum (offs : List Int) (map : List K) (thr : K) (pt : Int) (v : K) : Option Bool := do
  let a ← if v ≥ thr then checkAll (fun v u => v > u) map pt v offs else some false
  if a then some true
  else if v ≤ - thr then checkAll (fun v u => v < u) map pt v offs else some false

/-- The state of the search: the pointer, the buffer and its size in bytes, `numExtrema` and `requiredSize`. -/
structure Scan where
  pt : Int
  buf : Option (List Int)
  size : Nat
  num : Nat
  required : Nat

/-- An extremum with coordinates `cs` is stored, vl/covdet.c:1108-1117 (`cs` is `x, y, z`) and 1175-1183 (`cs` is `x, y`); a `vl_index` has 8 bytes.  The program is aborted if there is no memory, so the model only has the other case. -/
def record (junk : Nat → Int) (cs : List Int) (st : Scan) : Option Scan :=
  let num := st.num + 1
  let required := st.required + 8 * cs.length
  let r : Resized Int := if st.size < required then resizeBuffer 8 true junk st.buf st.size (required + 2000 * cs.length * 8) else ⟨st.buf, st.size, false⟩
  do
    let l ← r.buffer
    let l ← iter cs.length (fun k l => do
      let c ← rd cs k
      wr l (cs.length * (num - 1) + k) c) l
    pure ⟨st.pt, some l, r.size, num, required⟩

/-- One pixel of the search, vl/covdet.c:1106-1119 and 1173-1185. -/
def scanPixel (junk : Nat → Int) (offs : List Int) (map : List K) (thr : K) (cs : List Int) (st : Scan) : Option Scan := do
  let v ← rdI map st.pt
  let e ← isExtremum offs map thr st.pt v
  if e then do
    let st ← record junk cs st
    pure { st with pt := st.pt + 1 }
  else pure { st with pt := st.pt + 1 }

/-- `vl_find_local_extrema_3`, vl/covdet.c:1056-1126. -/
def findExtrema3 (junk : Nat → Int) (buf : Option (List Int)) (size : Nat) (map : List K) (w h depth : Nat) (thr : K) : Option Scan :=
  iter (depth - 2) (fun zz st => do
    let st ← iter (h - 2) (fun yy st => do
      let st ← iter (w - 2) (fun xx st => scanPixel junk (offsets3 1 w (w * h)) map thr [1 + xx, 1 + yy, 1 + zz] st) st
      pure { st with pt := st.pt + 2 * 1 }) st
    pure { st with pt := st.pt + 2 * w }) ⟨1 + w + w * h, buf, size, 0, 0⟩

/-- `vl_find_local_extrema_2`, vl/covdet.c:1146-1190. -/
def findExtrema2 (junk : Nat → Int) (buf : Option (List Int)) (size : Nat) (map : List K) (w h : Nat) (thr : K) : Option Scan :=
  iter (h - 2) (fun yy st => do
    let st ← iter (w - 2) (fun xx st => scanPixel junk (offsets2 1 w) map thr [1 + xx, 1 + yy] st) st
    pure { st with pt := st.pt + 2 * 1 }) ⟨1 + w, buf, size, 0, 0⟩

/-- The derivatives at a point and the value there, vl/covdet.c:1238-1250 and 1361-1368 (where `dz`, `dzz`, `dxz` and `dyz` are not used). -/
structure Derivs (K : Type) where
  v : K
  dx : K
  dy : K
  dz : K
  dxx : K
  dyy : K
  dzz : K
  dxy : K
  dxz : K
  dyz : K

/-- vl/covdet.c:1238-1250. -/
def derivs3 (map : List K) (w h : Nat) (pt : Int) : Option (Derivs K) := do
  let at' (dx dy dz : Int) : Option K := rdI map (pt + dx * 1 + dy * w + dz * (w * h))
  let c ← at' 0 0 0
  let xp ← at' 1 0 0
  let xm ← at' (-1) 0 0
  let yp ← at' 0 1 0
  let ym ← at' 0 (-1) 0
  let zp ← at' 0 0 1
  let zm ← at' 0 0 (-1)
  let xpyp ← at' 1 1 0
  let xmym ← at' (-1) (-1) 0
  let xmyp ← at' (-1) 1 0
  let xpym ← at' 1 (-1) 0
  let xpzp ← at' 1 0 1
  let xmzm ← at' (-1) 0 (-1)
  let xmzp ← at' (-1) 0 1
  let xpzm ← at' 1 0 (-1)
  let ypzp ← at' 0 1 1
  let ymzm ← at' 0 (-1) (-1)
  let ymzp ← at' 0 (-1) 1
  let ypzm ← at' 0 1 (-1)
  some ⟨c, 1 / 2 * (xp - xm), 1 / 2 * (yp - ym), 1 / 2 * (zp - zm), xp + xm - 2 * c, yp + ym - 2 * c, zp + zm - 2 * c,
    1 / 4 * (xpyp + xmym - xmyp - xpym), 1 / 4 * (xpzp + xmzm - xmzp - xpzm), 1 / 4 * (ypzp + ymzm - ymzp - ypzm)⟩

/-- vl/covdet.c:1361-1368. -/
def derivs2 (map : List K) (w : Nat) (pt : Int) : Option (Derivs K) := do
  let at' (dx dy : Int) : Option K := rdI map (pt + dx * 1 + dy * w)
  let c ← at' 0 0
  let xp ← at' 1 0
  let xm ← at' (-1) 0
  let yp ← at' 0 1
  let ym ← at' 0 (-1)
  let xpyp ← at' 1 1
  let xmym ← at' (-1) (-1)
  let xmyp ← at' (-1) 1
  let xpym ← at' 1 (-1)
  some ⟨c, 1 / 2 * (xp - xm), 1 / 2 * (yp - ym), 0, xp + xm - 2 * c, yp + ym - 2 * c, 0, 1 / 4 * (xpyp + xmym - xmyp - xpym), 0, 0⟩

/-- The linear system and its solution, vl/covdet.c:1252-1264; `tau` is the threshold of the solver. -/
def solveAt3 (tau : K) (d : Derivs K) : Option (Bool × List K) :=
  Linear.solve3 tau [d.dxx, d.dxy, d.dxz, d.dxy, d.dyy, d.dyz, d.dxz, d.dyz, d.dzz] [- d.dx, - d.dy, - d.dz]

/-- vl/covdet.c:1370-1378. -/
def solveAt2 (tau : K) (d : Derivs K) : Option (Bool × List K) :=
  Linear.solve2 tau [d.dxx, d.dxy, d.dxy, d.dyy] [- d.dx, - d.dy]

/-- The point where the refinement stops, the derivatives there, `b` and whether `err` is not `VL_ERR_OK`. -/
structure Stop (K : Type) where
  x : Int
  y : Int
  d : Derivs K
  b : List K
  err : Bool

/-- The rounds of the refinement, vl/covdet.c:1233-1282 and 1356-1395, with a number of rounds left; `ders` gives the derivatives at a point, `solve` the solution of the system. -/
def refineLoop (ders : Int → Int → Option (Derivs K)) (solve : Derivs K → Option (Bool × List K)) (dim w h : Nat) : Nat → Int → Int → Option (Stop K)
  | 0, _, _ => none
  | k + 1, x, y => do
    let d ← ders x y
    let r ← solve d
    if r.1 then some ⟨x, y, d, List.replicate dim 0, true⟩
    else do
      let b0 ← rd r.2 0
      let b1 ← rd r.2 1
      let dx : Int := (if b0 > 6 / 10 ∧ x < (w : Int) - 2 then 1 else 0) + (if b0 < - (6 / 10) ∧ x > 1 then -1 else 0)
      let dy : Int := (if b1 > 6 / 10 ∧ y < (h : Int) - 2 then 1 else 0) + (if b1 < - (6 / 10) ∧ y > 1 then -1 else 0)
      if (dx = 0 ∧ dy = 0) ∨ k = 0 then some ⟨x, y, d, r.2, false⟩ else refineLoop ders solve dim w h k (x + dx) (y + dy)

/-- The edge score, vl/covdet.c:1288-1296 and 1400-1408.  When the determinant is zero `alpha` is infinite or undefined, and the score fails the test that follows, as an infinite one does. -/
def edgeScore (sqrt : K → K) (d : Derivs K) : WithTop K :=
  let det := d.dxx * d.dyy - d.dxy * d.dxy
  if det = 0 then ⊤
  else
    let alpha := (d.dxx + d.dyy) * (d.dxx + d.dyy) / det
    if alpha < 0 then ⊤ else (((1 / 2 * alpha - 1) + sqrt (max (1 / 4 * alpha - 1) 0 * alpha) : K) : WithTop K)

/-- `VlCovDetExtremum3` and `VlCovDetExtremum2` (without `zi` and `z`), vl/covdet.c:997-1017, with the value returned by the function. -/
structure Refined (K : Type) where
  xi : Int
  yi : Int
  zi : Int
  x : K
  y : K
  z : K
  peakScore : K
  edgeScore : WithTop K
  ok : Bool

/-- `vl_refine_local_extreum_3`, vl/covdet.c:1205-1318. -/
def refine3 (tau : K) (sqrt : K → K) (map : List K) (w h depth : Nat) (x y z : Int) : Option (Refined K) := do
  let _ ← assert' (decide (1 ≤ x ∧ x ≤ (w : Int) - 2))
  let _ ← assert' (decide (1 ≤ y ∧ y ≤ (h : Int) - 2))
  let _ ← assert' (decide (1 ≤ z ∧ z ≤ (depth : Int) - 2))
  let s ← refineLoop (fun x y => derivs3 map w h (x * 1 + y * w + z * (w * h))) (solveAt3 tau) 3 w h 5 x y
  let b0 ← rd s.b 0
  let b1 ← rd s.b 1
  let b2 ← rd s.b 2
  let rx := s.x + b0
  let ry := s.y + b1
  let rz := z + b2
  some ⟨s.x, s.y, z, rx, ry, rz, s.d.v + 1 / 2 * (s.d.dx * b0 + s.d.dy * b1 + s.d.dz * b2), edgeScore sqrt s.d,
    !s.err && decide (|b0| < 3 / 2) && decide (|b1| < 3 / 2) && decide (|b2| < 3 / 2) && decide (0 ≤ rx) && decide (rx ≤ (w : K) - 1) && decide (0 ≤ ry) && decide (ry ≤ (h : K) - 1) && decide (0 ≤ rz) && decide (rz ≤ (depth : K) - 1)⟩

/-- `vl_refine_local_extreum_2`, vl/covdet.c:1331-1426. -/
def refine2 (tau : K) (sqrt : K → K) (map : List K) (w h : Nat) (x y : Int) : Option (Refined K) := do
  let _ ← assert' (decide (1 ≤ x ∧ x ≤ (w : Int) - 2))
  let _ ← assert' (decide (1 ≤ y ∧ y ≤ (h : Int) - 2))
  let s ← refineLoop (fun x y => derivs2 map w (x * 1 + y * w)) (solveAt2 tau) 2 w h 5 x y
  let b0 ← rd s.b 0
  let b1 ← rd s.b 1
  let rx := s.x + b0
  let ry := s.y + b1
  some ⟨s.x, s.y, 0, rx, ry, 0, s.d.v + 1 / 2 * (s.d.dx * b0 + s.d.dy * b1), edgeScore sqrt s.d,
    !s.err && decide (|b0| < 3 / 2) && decide (|b1| < 3 / 2) && decide (0 ≤ rx) && decide (rx ≤ (w : K) - 1) && decide (0 ≤ ry) && decide (ry ≤ (h : K) - 1)⟩

/-- The tests on a refined extremum and the feature, vl/covdet.c:2038-2052 and 2076-2089; `sig` gives the scale, `pow` of vl/covdet.c:2041-2043 or 2079-2080. -/
def makeFeature (peak edge step : K) (sig : K → K) (r : Refined K) : Option (Feature K) :=
  if r.ok && decide (|r.peakScore| > peak) && decide (r.edgeScore < (edge : WithTop K)) then
    some ⟨⟨r.x * step, r.y * step, sig r.z, 0, 0, sig r.z⟩, r.peakScore, r.edgeScore.untopD 0, 0, 0⟩
  else none

/-- The loop over the extrema, vl/covdet.c:2028-2054 and 2067-2091; `refine` is the refinement of the extremum at an index.  The addition of a feature succeeds: a failure of the memory manager is ignored by the code. -/
def addAll (sz : Nat) (junk : Nat → Feature K) (refine : Nat → Option (Refined K)) (peak edge step : K) (sig : K → K) (n : Nat) (s : Feats (Feature K)) : Option (Feats (Feature K)) :=
  iter n (fun i s => do
    let r ← refine i
    match makeFeature peak edge step sig r with
    | some f => (append sz true junk s f).map Prod.fst
    | none => pure s) s

/-- One octave of a scale space: its levels one after the other, its size, its sampling step, and the scale of a level. -/
structure Octave (K : Type) where
  data : List K
  w : Nat
  h : Nat
  step : K
  sig : K → K

/-- The state of the detection: the features, and the buffer of the extrema with its size. -/
structure Det (K : Type) where
  feats : Feats (Feature K)
  buf : Option (List Int)
  size : Nat

/-- The extrema in space and scale of one octave, vl/covdet.c:2019-2056. -/
def detectOctave3 (sz : Nat) (junkI : Nat → Int) (junk : Nat → Feature K) (tau : K) (sqrt : K → K) (depth : Nat) (peak edge : K) (o : Octave K) (s : Det K) : Option (Det K) := do
  let st ← findExtrema3 junkI s.buf s.size o.data o.w o.h depth (8 / 10 * peak)
  let ext i := do
    let l ← st.buf
    rd l i
  let f ← addAll sz junk (fun i => do
    let x ← ext (3 * i + 0)
    let y ← ext (3 * i + 1)
    let z ← ext (3 * i + 2)
    refine3 tau sqrt o.data o.w o.h depth x y z) peak edge o.step o.sig st.num s.feats
  pure ⟨f, st.buf, st.size⟩

/-- The extrema in space of the levels of one octave, vl/covdet.c:2058-2094; level `t` has `sig t` as scale. -/
def detectOctave2 (sz : Nat) (junkI : Nat → Int) (junk : Nat → Feature K) (tau : K) (sqrt : K → K) (depth : Nat) (peak edge : K) (o : Octave K) (s : Det K) : Option (Det K) :=
  iter (depth - 1) (fun t s => do
    let level := o.data.drop (t * (o.w * o.h))
    let st ← findExtrema2 junkI s.buf s.size level o.w o.h (8 / 10 * peak)
    let ext i := do
      let l ← st.buf
      rd l i
    let f ← addAll sz junk (fun i => do
      let x ← ext (2 * i + 0)
      let y ← ext (2 * i + 1)
      refine2 tau sqrt level o.w o.h x y) peak edge o.step (fun _ => o.sig t) st.num s.feats
    pure ⟨f, st.buf, st.size⟩) s

/-- The loop over the octaves, vl/covdet.c:2005-2099, for the methods that search in space and scale (`joint`) and for the others. -/
def detectOctaves (sz : Nat) (junkI : Nat → Int) (junk : Nat → Feature K) (tau : K) (sqrt : K → K) (joint : Bool) (depth : Nat) (peak edge : K) (os : List (Octave K)) (feats : Feats (Feature K)) : Option (Feats (Feature K)) := do
  let s ← os.foldlM (fun s o => if joint then detectOctave3 sz junkI junk tau sqrt depth peak edge o s else detectOctave2 sz junkI junk tau sqrt depth peak edge o s) (⟨clear feats, none, 0⟩ : Det K)
  pure s.feats

end Verif.Covdet
