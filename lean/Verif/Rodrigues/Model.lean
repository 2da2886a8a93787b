import Verif.Loop
import Mathlib.Algebra.Field.Defs
import Mathlib.Algebra.Order.Ring.Defs
import Mathlib.Algebra.Order.Group.Abs

/-!
# Model of Rodrigues' formulas, vl/rodrigues.c

`K` stands for `double`; rounding is not modelled.  The functions of the C library are the fields of `Fns`.
A division by zero, the square root of a negative number and the arc cosine of a number outside `[-1, 1]` give `none`.
The arrays of the caller do not overlap.
-/

namespace Verif.Rodrigues

variable {K : Type} [Field K] [LinearOrder K]

/-- The functions of the C library. -/
structure Fns (K : Type) where
  sqrt : K → K
  sin : K → K
  cos : K → K
  acos : K → K

/-- `x / y` -/
def divv (x y : K) : Option K := if y = 0 then none else some (x / y)

/-- `sqrt(x)` -/
def sqrtv (F : Fns K) (x : K) : Option K := if x < 0 then none else some (F.sqrt x)

/-- `acos(x)` -/
def acosv (F : Fns K) (x : K) : Option K := if -1 ≤ x ∧ x ≤ 1 then some (F.acos x) else none

/-- A sequence of assignments `a[i] = x`. -/
def store (a : List K) : List (Nat × K) → Option (List K)
  | [] => some a
  | (i, x) :: s => (wr a i x).bind fun a => store a s

/-- The constant `small`, vl/rodrigues.c:58 and 200. -/
def small : K := 1 / 1000000

/-- The assignments to the matrix, vl/rodrigues.c:105-115. -/
def assignR (x y z sth mcth : K) : List (Nat × K) :=
  let xx := x * x
  let xy := x * y
  let xz := x * z
  let yy := y * y
  let yz := y * z
  let zz := z * z
  let yx := xy
  [(0 + 3 * 0, 1 - mcth * (yy + zz)), (1 + 3 * 0, sth * z + mcth * xy), (2 + 3 * 0, - sth * y + mcth * xz),
   (0 + 3 * 1, - sth * z + mcth * yx), (1 + 3 * 1, 1 - mcth * (zz + xx)), (2 + 3 * 1, sth * x + mcth * yz),
   (0 + 3 * 2, sth * y + mcth * xz), (1 + 3 * 2, - sth * x + mcth * yz), (2 + 3 * 2, 1 - mcth * (xx + yy))]

/-- The assignments to the derivative, vl/rodrigues.c:123-157. -/
def assignD (x y z a b c d : K) : List (Nat × K) :=
  let xx := x * x
  let xy := x * y
  let xz := x * z
  let yy := y * y
  let yz := y * z
  let zz := z * z
  let yx := xy
  let zx := xz
  let zy := yz
  [(0 + 9 * 0, - d * (yy + zz) * x), (1 + 9 * 0, b * y + c * zx + d * xy * x), (2 + 9 * 0, b * z - c * yx + d * xz * x),
   (3 + 9 * 0, b * y - c * zx + d * xy * x), (4 + 9 * 0, -2 * b * x - d * (zz + xx) * x), (5 + 9 * 0, a + c * xx + d * yz * x),
   (6 + 9 * 0, b * z + c * yx + d * zx * x), (7 + 9 * 0, - a - c * xx + d * zy * x), (8 + 9 * 0, -2 * b * x - d * (yy + xx) * x),
   (0 + 9 * 1, -2 * b * y - d * (yy + zz) * y), (1 + 9 * 1, b * x + c * zy + d * xy * y), (2 + 9 * 1, - a - c * yy + d * xz * y),
   (3 + 9 * 1, b * x - c * zy + d * xy * y), (4 + 9 * 1, - d * (zz + xx) * y), (5 + 9 * 1, b * z + c * xy + d * yz * y),
   (6 + 9 * 1, a + c * yy + d * zx * y), (7 + 9 * 1, b * z - c * xy + d * zy * y), (8 + 9 * 1, -2 * b * y - d * (yy + xx) * y),
   (0 + 9 * 2, -2 * b * z - d * (yy + zz) * z), (1 + 9 * 2, a + c * zz + d * xy * z), (2 + 9 * 2, b * x - c * yz + d * xz * z),
   (3 + 9 * 2, - a - c * zz + d * xy * z), (4 + 9 * 2, -2 * b * z - d * (zz + xx) * z), (5 + 9 * 2, b * y + c * xz + d * yz * z),
   (6 + 9 * 2, b * x + c * yz + d * zx * z), (7 + 9 * 2, b * y - c * xz + d * zy * z), (8 + 9 * 2, - d * (yy + xx) * z)]

/-- The assignments to the matrix for a small vector, vl/rodrigues.c:65-67. -/
def assignR0 : List (Nat × K) :=
  [(0 + 3 * 0, 1), (0 + 3 * 1, 0), (0 + 3 * 2, 0),
   (1 + 3 * 0, 0), (1 + 3 * 1, 1), (1 + 3 * 2, 0),
   (2 + 3 * 0, 0), (2 + 3 * 1, 0), (2 + 3 * 2, 1)]

/-- The assignments to the derivative for a small vector, vl/rodrigues.c:70-80. -/
def assignD0 : List (Nat × K) :=
  [(0 + 9 * 0, 0), (0 + 9 * 1, 0), (0 + 9 * 2, 0),
   (1 + 9 * 0, 0), (1 + 9 * 1, 0), (1 + 9 * 2, 1),
   (2 + 9 * 0, 0), (2 + 9 * 1, -1), (2 + 9 * 2, 0),
   (3 + 9 * 0, 0), (3 + 9 * 1, 0), (3 + 9 * 2, -1),
   (4 + 9 * 0, 0), (4 + 9 * 1, 0), (4 + 9 * 2, 0),
   (5 + 9 * 0, 1), (5 + 9 * 1, 0), (5 + 9 * 2, 0),
   (6 + 9 * 0, 0), (6 + 9 * 1, 1), (6 + 9 * 2, 0),
   (7 + 9 * 0, -1), (7 + 9 * 1, 0), (7 + 9 * 2, 0),
   (8 + 9 * 0, 0), (8 + 9 * 1, 0), (8 + 9 * 2, 0)]

/-- `if (dR_pt) …`: the assignments are done only if the pointer is not null. -/
def storeIf (a : Option (List K)) (s : List (Nat × K)) : Option (Option (List K)) :=
  match a with
  | none => some none
  | some a => (store a s).map some

/-- `vl_rodrigues`, vl/rodrigues.c:26-165: the contents of `R_pt` and `dR_pt` (`none` is the null pointer). -/
def rodrigues (F : Fns K) (R : List K) (dR : Option (List K)) (om : List K) : Option (List K × Option (List K)) := do
  let o0 ← rd om 0
  let o1 ← rd om 1
  let o2 ← rd om 2
  let th ← sqrtv F (o0 * o0 + o1 * o1 + o2 * o2)
  if th < small then do
    let R ← store R assignR0
    let dR ← storeIf dR assignD0
    pure (R, dR)
  else do
    let x ← divv o0 th
    let y ← divv o1 th
    let z ← divv o2 th
    let sth := F.sin th
    let cth := F.cos th
    let mcth := 1 - cth
    let R ← store R (assignR x y z sth mcth)
    let a ← divv sth th
    let b ← divv mcth th
    let c := cth - a
    let d := sth - 2 * b
    let dR ← storeIf dR (assignD x y z a b c d)
    pure (R, dR)

/-- The signs, vl/rodrigues.c:243-252; `W10`, `W20` and `W21` are the entries of the matrix `W`. -/
def signs (W10 W20 W21 x y z : K) : K × K × K :=
  if x ≥ y ∧ x ≥ z then (x, if W10 ≥ 0 then y else - y, if W20 ≥ 0 then z else - z)
  else if y ≥ x ∧ y ≥ z then (if W10 ≥ 0 then x else - x, y, if W21 ≥ 0 then z else - z)
  else (if W20 ≥ 0 then x else - x, if W21 ≥ 0 then y else - y, z)

/-- The rotation about pi, vl/rodrigues.c:222-261. -/
def irodriguesPi (F : Fns K) (om : List K) (r : Nat → K) (th cth : K) : Option (List K) := do
  let W00 := 1 / 2 * (r 0 + r 0) - 1
  let W10 := 1 / 2 * (r 1 + r 3)
  let W20 := 1 / 2 * (r 2 + r 6)
  let W11 := 1 / 2 * (r 4 + r 4) - 1
  let W21 := 1 / 2 * (r 5 + r 7)
  let W22 := 1 / 2 * (r 8 + r 8) - 1
  let x ← sqrtv F (1 / 2 * (W00 - W11 - W22))
  let y ← sqrtv F (1 / 2 * (W11 - W22 - W00))
  let z ← sqrtv F (1 / 2 * (W22 - W00 - W11))
  let s := signs W10 W20 W21 x y z
  let q ← sqrtv F (1 - cth)
  let scale ← divv th q
  store om [(0, scale * s.1), (1, scale * s.2.1), (2, scale * s.2.2)]

/-- The two factors of the derivative, vl/rodrigues.c:279-285. -/
def factors (th sth cth : K) : Option (K × K) :=
  if |sth| < small then some (1 / 2, 0)
  else do
    let a ← divv th (2 * sth)
    let b ← divv (th * cth - sth) (2 * sth * sth)
    let b ← divv b th
    pure (a, b)

/-- The assignments to the derivative, vl/rodrigues.c:287-321. -/
def assignDom (a b o0 o1 o2 : K) : List (Nat × K) :=
  [(0 + 3 * 0, b * o0), (1 + 3 * 0, b * o1), (2 + 3 * 0, b * o2),
   (0 + 3 * 1, 0), (1 + 3 * 1, 0), (2 + 3 * 1, a),
   (0 + 3 * 2, 0), (1 + 3 * 2, - a), (2 + 3 * 2, 0),
   (0 + 3 * 3, 0), (1 + 3 * 3, 0), (2 + 3 * 3, - a),
   (0 + 3 * 4, b * o0), (1 + 3 * 4, b * o1), (2 + 3 * 4, b * o2),
   (0 + 3 * 5, a), (1 + 3 * 5, 0), (2 + 3 * 5, 0),
   (0 + 3 * 6, 0), (1 + 3 * 6, a), (2 + 3 * 6, 0),
   (0 + 3 * 7, - a), (1 + 3 * 7, 0), (2 + 3 * 7, 0),
   (0 + 3 * 8, b * o0), (1 + 3 * 8, b * o1), (2 + 3 * 8, b * o2)]

/-- The derivative left by `vl_irodrigues`: not wanted, filled with NaN, or a matrix. -/
inductive Dom (K : Type)
  | null
  | nan (n : Nat)
  | mat (l : List K)

/-- `th / sin(th)`, or 1 if the sine is small, vl/rodrigues.c:272. -/
def ratio (F : Fns K) (th sth : K) : Option K := if |sth| < small then some 1 else divv th (F.sin th)

/-- The derivative, vl/rodrigues.c:278-322. -/
def irodriguesD (dom : Option (List K)) (th sth cth o0 o1 o2 : K) : Option (Dom K) :=
  match dom with
  | none => some .null
  | some dom => do
    let f ← factors th sth cth
    let dom ← store dom (assignDom f.1 f.2 o0 o1 o2)
    pure (.mat dom)

/-- `vl_irodrigues`, vl/rodrigues.c:178-329: the contents of `om_pt` and `dom_pt` (`none` is the null pointer).  The array `dom_pt` has 27 entries. -/
def irodrigues (F : Fns K) (om : List K) (dom : Option (List K)) (R : List K) : Option (List K × Dom K) := do
  let r ← (List.range 9).mapM fun i => rd R i
  let r := fun i => r.getD i 0
  let th ← acosv F (1 / 2 * (max (r 0 + r 4 + r 8) (-1) - 1))
  let sth := F.sin th
  let cth := F.cos th
  if |sth| < small ∧ cth < 0 then do
    let om ← irodriguesPi F om r th cth
    pure (om, match dom with | none => .null | some _ => .nan 27)
  else do
    let a ← ratio F th sth
    let o0 := 1 / 2 * a * (r 5 - r 7)
    let o1 := 1 / 2 * a * (r 6 - r 2)
    let o2 := 1 / 2 * a * (r 1 - r 3)
    let om ← store om [(0, o0), (1, o1), (2, o2)]
    let d ← irodriguesD dom th sth cth o0 o1 o2
    pure (om, d)

end Verif.Rodrigues
