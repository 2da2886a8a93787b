import Verif.Loop
import Mathlib.Algebra.Field.Defs
import Mathlib.Order.Defs.LinearOrder

/-!
# `vl_imwbackward`: model

toolbox/imop/vl_imwbackwardmx.c:32-266.  Numbers are the elements of an ordered field; a result that is the NaN is `none`, inside the
`Option` whose `none` stands for an access outside an array or a division by zero.  Images are stored by columns.
-/

namespace Verif.Toolbox

variable {K : Type} [Field K] [LinearOrder K]

/-- The bisection of `findNeighbor`, toolbox/imop/vl_imwbackwardmx.c:41-50. -/
def bisectCell (x : K) (X : List K) : Nat → Nat → Nat → Option Nat
  | 0, _, _ => none
  | fuel + 1, i, j =>
    if i + 1 < j then do
      let pivot := (i + j) / 2
      let y ← rd X pivot
      if x < y then bisectCell x X fuel i pivot else bisectCell x X fuel pivot j
    else some i

/-- `findNeighbor`, toolbox/imop/vl_imwbackwardmx.c:32-52. -/
def findNeighbor (x : K) (X : List K) : Option Int := do
  let a ← rd X 0
  if x < a then some (-1)
  else do
    let b ← rd X (X.length - 1)
    if x ≥ b then some ((X.length : Int) - 1)
    else (bisectCell x X (X.length + 1) 0 (X.length - 1)).map Int.ofNat

/-- A read that is guarded by a test: `if (c) z = *pt` with `z` zero initially. -/
def guarded (c : Bool) (I : List K) (pt : Int) : Option K := if c then rdI I pt else some 0

/-- The four neighbours `z00, z10, z01, z11`, toolbox/imop/vl_imwbackwardmx.c:164-184 and 224-244.  The pointer moves one element down before
the second and the fourth read, and `M - 1` elements between them. -/
def corners (I : List K) (M N : Nat) (i j : Int) : Option (K × K × K × K) := do
  let pt := j * (M : Int) + i
  let z00 ← guarded (decide (j > -1) && decide (i > -1)) I pt
  let pt := pt + 1
  let z10 ← guarded (decide (j > -1) && decide (i < (M : Int) - 1)) I pt
  let pt := pt + ((M : Int) - 1)
  let z01 ← guarded (decide (j < (N : Int) - 1) && decide (i > -1)) I pt
  let pt := pt + 1
  let z11 ← guarded (decide (j < (N : Int) - 1) && decide (i < (M : Int) - 1)) I pt
  some (z00, z10, z01, z11)

/-- `x / y`; a null divisor gives no number. -/
def ratio (x y : K) : Option K := if y = 0 then none else some (x / y)

/-- The second coordinate of the cell, toolbox/imop/vl_imwbackwardmx.c:158 and 160. -/
def cellEnd (X : List K) (j : Int) (x0 : K) : Option K := if j < (X.length : Int) - 1 then rdI X (j + 1) else some (x0 + 1)

/-- The weight along one dimension without derivatives, toolbox/imop/vl_imwbackwardmx.c:156-162. -/
def weight (x : K) (X : List K) (j : Int) : Option K := do
  let x0 ← rdI X j
  let x1 ← cellEnd X j x0
  ratio (x - x0) (x1 - x0)

/-- The weight along one dimension with derivatives, toolbox/imop/vl_imwbackwardmx.c:216-222. -/
def weightD (x : K) (X : List K) (j : Int) : Option K := do
  let x0 ← rdI X j
  let x1 ← rdI X (j + 1)
  ratio (x - x0) (x1 - x0)

/-- The bilinear interpolation, toolbox/imop/vl_imwbackwardmx.c:186-189 and 246-249. -/
def blend (wx wy : K) (z : K × K × K × K) : K :=
  (1 - wy) * ((1 - wx) * z.1 + wx * z.2.2.1) + wy * ((1 - wx) * z.2.1 + wx * z.2.2.2)

/-- Is the point in the image?  toolbox/imop/vl_imwbackwardmx.c:133-136 and 150-151, 210-211 -/
def inGrid (X Y : List K) (x y : K) : Option Bool := do
  let Xmin ← rd X 0
  let Xmax ← rd X (X.length - 1)
  let Ymin ← rd Y 0
  let Ymax ← rd Y (Y.length - 1)
  some (decide (x ≥ Xmin) && decide (x ≤ Xmax) && decide (y ≥ Ymin) && decide (y ≤ Ymax))

/-- The value at a point, toolbox/imop/vl_imwbackwardmx.c:144-190. -/
def warpPoint (X Y I : List K) (x y : K) : Option (Option K) := do
  let b ← inGrid X Y x y
  if b then do
    let j ← findNeighbor x X
    let i ← findNeighbor y Y
    let wx ← weight x X j
    let wy ← weight y Y i
    let z ← corners I Y.length X.length i j
    some (some (blend wx wy z))
  else some none

/-- The value and the derivatives at a point, toolbox/imop/vl_imwbackwardmx.c:204-258. -/
def warpPointD (X Y I : List K) (x y : K) : Option (Option (K × K × K)) := do
  let b ← inGrid X Y x y
  if b then do
    let j ← findNeighbor x X
    let i ← findNeighbor y Y
    let wx ← weightD x X j
    let wy ← weightD y Y i
    let z ← corners I Y.length X.length i j
    let zx := (1 - wy) * (z.2.2.1 - z.1) + wy * (z.2.2.2 - z.2.1)
    let zy := (1 - wx) * (z.2.1 - z.1) + wx * (z.2.2.2 - z.2.2.1)
    some (some (blend wx wy z, zx, zy))
  else some none

/-- One step of the inner loop, toolbox/imop/vl_imwbackwardmx.c:144-192: the coordinates are read by two pointers that advance, here the second
component of the state. -/
def warpStep (X Y I PX PY : List K) (Mp : Nat) (jp ip : Nat) (s : List (Option K) × Nat) : Option (List (Option K) × Nat) := do
  let x ← rd PX s.2
  let y ← rd PY s.2
  let z ← warpPoint X Y I x y
  let out ← wr s.1 (jp * Mp + ip) z
  some (out, s.2 + 1)

/-- The warped image, toolbox/imop/vl_imwbackwardmx.c:138-195; `out` is the new array. -/
def warp (X Y I PX PY : List K) (Mp Np : Nat) (out : List (Option K)) : Option (List (Option K) × Nat) :=
  iter Np (fun jp => iter Mp (fun ip => warpStep X Y I PX PY Mp jp ip)) (out, 0)

/-- One step of the inner loop with derivatives, toolbox/imop/vl_imwbackwardmx.c:204-262; the three arrays are one array of triples. -/
def warpStepD (X Y I PX PY : List K) (Mp : Nat) (jp ip : Nat) (s : List (Option (K × K × K)) × Nat) : Option (List (Option (K × K × K)) × Nat) := do
  let x ← rd PX s.2
  let y ← rd PY s.2
  let z ← warpPointD X Y I x y
  let out ← wr s.1 (jp * Mp + ip) z
  some (out, s.2 + 1)

/-- The warped image and derivatives, toolbox/imop/vl_imwbackwardmx.c:198-266. -/
def warpD (X Y I PX PY : List K) (Mp Np : Nat) (out : List (Option (K × K × K))) : Option (List (Option (K × K × K)) × Nat) :=
  iter Np (fun jp => iter Mp (fun ip => warpStepD X Y I PX PY Mp jp ip)) (out, 0)

end Verif.Toolbox
