import Verif.Accum
import Mathlib.Algebra.Order.Floor.Ring
import Mathlib.Data.Rat.Floor
import Mathlib.Analysis.Real.Sqrt

/-!
# Model of `vl/lbp.c`

Pixels and weights are rational numbers (no rounding).
-/

namespace Verif.Lbp

/-- One iteration of the double loop, vl/lbp.c:191-204: the string of bits. -/
def runString (transposed : Bool) (i j : Nat) : Nat :=
  let ip : Nat := if transposed then ((-(i : Int) + 2 - ((j : Int) - 1) + 16).tmod 8).toNat else i
  let s := (1 <<< j) - 1
  let s := s <<< ip
  (s ||| (s >>> 8)) &&& 0xff

/-- The pairs `(i, j)` in loop order, vl/lbp.c:189-190. -/
def runs : List (Nat × Nat) := (List.range 8).flatMap (fun i => (List.range 7).map (fun j => (i, j + 1)))

/-- `_vl_lbp_init_uniform`, vl/lbp.c:171-207: the 256-entry table. -/
def initUniform (transposed : Bool) : Option (List Nat) := do
  let t := List.replicate 256 57
  let t ← wr t 0x00 56
  let t ← wr t 0xff 56
  runs.foldlM (fun t p => wr t (runString transposed p.1 p.2) (p.1 * 7 + (p.2 - 1))) t

/-- `vl_lbp_get_dimension`, vl/lbp.c:177 and 248-251. -/
def dimension : Nat := 58

/-- `at(u,v)`, vl/lbp.c:281. -/
def at' (image : List ℚ) (width u v : Nat) : Option ℚ := rd image (width * v + u)

/-- The bit string of the pixel `(x, y)`, vl/lbp.c:305-314. -/
def bitString (image : List ℚ) (width x y : Nat) : Option Nat := do
  let center ← at' image width x y
  let e ← at' image width (x + 1) y
  let se ← at' image width (x + 1) (y + 1)
  let s ← at' image width x (y + 1)
  let sw ← at' image width (x - 1) (y + 1)
  let w ← at' image width (x - 1) y
  let nw ← at' image width (x - 1) (y - 1)
  let n ← at' image width x (y - 1)
  let ne ← at' image width (x + 1) (y - 1)
  let b := 0
  let b := if e > center then b ||| (1 <<< 0) else b
  let b := if se > center then b ||| (1 <<< 1) else b
  let b := if s > center then b ||| (1 <<< 2) else b
  let b := if sw > center then b ||| (1 <<< 3) else b
  let b := if w > center then b ||| (1 <<< 4) else b
  let b := if nw > center then b ||| (1 <<< 5) else b
  let b := if n > center then b ||| (1 <<< 6) else b
  let b := if ne > center then b ||| (1 <<< 7) else b
  pure b

/-- `to(u,v,w) += a`, vl/lbp.c:282; a negative offset is out of bounds. -/
def addTo (features : List ℚ) (cwidth cstride : Nat) (u v : Int) (w : Nat) (a : ℚ) : Option (List ℚ) :=
  let idx : Int := cstride * w + cwidth * v + u
  if idx < 0 then none else addAt features idx.toNat a

/-- The body of the pixel loops, vl/lbp.c:289-329. -/
def pixel (table : List Nat) (image : List ℚ) (width cwidth cheight cellSize : Nat) (features : List ℚ) (y x : Nat) :
    Option (List ℚ) :=
  let wy : ℚ := ((y : ℚ) + 1 / 2) / cellSize - 1 / 2
  let cy1 : Int := ⌊wy⌋
  let cy2 : Int := cy1 + 1
  let wy2 : ℚ := wy - cy1
  let wy1 : ℚ := 1 - wy2
  let wx : ℚ := ((x : ℚ) + 1 / 2) / cellSize - 1 / 2
  let cx1 : Int := ⌊wx⌋
  let cx2 : Int := cx1 + 1
  let wx2 : ℚ := wx - cx1
  let wx1 : ℚ := 1 - wx2
  let cstride := cwidth * cheight
  if cy1 ≥ cheight then some features
  else if cx1 ≥ cwidth then some features
  else do
    let b ← bitString image width x y
    let bin ← rd table b
    let features ← (if cx1 ≥ 0 ∧ cy1 ≥ 0 then addTo features cwidth cstride cx1 cy1 bin (wx1 * wy1) else some features)
    let features ← (if cx2 < cwidth ∧ cy1 ≥ 0 then addTo features cwidth cstride cx2 cy1 bin (wx2 * wy1) else some features)
    let features ← (if cx1 ≥ 0 ∧ cy2 < cheight then addTo features cwidth cstride cx1 cy2 bin (wx1 * wy2) else some features)
    (if cx2 < cwidth ∧ cy2 < cheight then addTo features cwidth cstride cx2 cy2 bin (wx2 * wy2) else some features)

/-- `1, 2, ..., n - 2`: the values taken by `for (y = 1 ; y < (signed)n - 1 ; ++y)`. -/
def interior (n : Nat) : List Nat := (List.range (n - 2)).map (· + 1)

/-- The accumulation part of `vl_lbp_process`, vl/lbp.c:275-331. -/
def accumulate (table : List Nat) (image : List ℚ) (width height cellSize : Nat) : Option (List ℚ) :=
  let cwidth := width / cellSize
  let cheight := height / cellSize
  let features : List ℚ := List.replicate (dimension * (cwidth * cheight)) 0
  (interior height).foldlM (fun f y =>
    (interior width).foldlM (fun f x => pixel table image width cwidth cheight cellSize f y x) f) features

/-- The normalisation of the histogram of one cell, vl/lbp.c:336-343, in exact real arithmetic. -/
noncomputable def normalizeCell (h : List ℝ) : List ℝ :=
  let norm := Real.sqrt h.sum + 1e-10
  h.map (fun v => Real.sqrt v / norm)

end Verif.Lbp
