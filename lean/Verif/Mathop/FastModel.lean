import Verif.Mathop.CompareModel
import Mathlib.Algebra.Order.Floor.Defs
import Mathlib.Algebra.Field.Rat

/-!
# Model of the inline elementary functions (vl/mathop.h:95-558)

The float and double instances are one generic model.  Rounding is modelled only in `mod2pi`, where it decides whether the
loops end; elsewhere the arithmetic is exact.
-/

namespace Verif.Mathop

variable {K : Type} [Field K] [LinearOrder K]

/-! ### Angles -/

/-- `while (x > 2 * VL_PI) x -= 2 * VL_PI`, vl/mathop.h:112; `rnd` rounds the difference and the first number bounds the iterations. -/
def modDown (rnd : K → K) (c : K) : Nat → K → Option K
  | 0, x => if x > c then none else some x
  | fuel + 1, x => if x > c then modDown rnd c fuel (rnd (x - c)) else some x

/-- `while (x < 0) x += 2 * VL_PI`, vl/mathop.h:113. -/
def modUp (rnd : K → K) (c : K) : Nat → K → Option K
  | 0, x => if x < 0 then none else some x
  | fuel + 1, x => if x < 0 then modUp rnd c fuel (rnd (x + c)) else some x

/-- `vl_mod_2pi_{f,d}`, vl/mathop.h:109-127, with at most `fuel` iterations of each loop; `c` is `2 * VL_PI` rounded. -/
def mod2pi (rnd : K → K) (c : K) (fuel : Nat) (x : K) : Option K := do
  let x ← modDown rnd c fuel x
  modUp rnd c fuel x

/-- `vl_fast_atan2_{f,d}`, vl/mathop.h:407-447; `pi` is `VL_PI` and `eps` is `VL_EPSILON_F` or `VL_EPSILON_D`. -/
def fastAtan2 (pi eps y x : K) : Option K := do
  let c3 : K := 1821 / 10000
  let c1 : K := 9675 / 10000
  let absY := |y| + eps
  let (r, angle) ← (if x ≥ 0 then do
      let r ← quot (x - absY) (x + absY)
      some (r, pi / 4)
    else do
      let r ← quot (x + absY) (absY - x)
      some (r, 3 * pi / 4))
  let angle := angle + (c3 * r * r - c1) * r
  some (if y < 0 then -angle else angle)

/-! ### Conversions to integers -/

/-- `(long int) x`: truncation towards zero, undefined when the result does not fit in 64 bits. -/
def toLong [FloorRing K] (x : K) : Option Int :=
  let n := if x ≥ 0 then ⌊x⌋ else ⌈x⌉
  if -2 ^ 63 ≤ n ∧ n < 2 ^ 63 then some n else none

/-- `vl_floor_{f,d}`, vl/mathop.h:134-152. -/
def floorL [FloorRing K] (x : K) : Option Int := do
  let xi ← toLong x
  if x ≥ 0 || decide ((xi : K) = x) then some xi else some (xi - 1)

/-- `vl_ceil_{f,d}`, vl/mathop.h:159-181: `ceil` and conversion. -/
def ceilL [FloorRing K] (x : K) : Option Int := toLong ((⌈x⌉ : Int) : K)

/-- `vl_round_{f,d}`, vl/mathop.h:189-225, the branch without `lround`. -/
def roundL [FloorRing K] (x : K) : Option Int := if x ≥ 0 then floorL (x + 1 / 2) else ceilL (x - 1 / 2)

/-! ### Square roots -/

/-- A binary floating point format: number of bits of the mantissa and bias of the exponent. -/
structure Format where
  bits : Nat
  bias : Nat
  magic : Nat

/-- 32 bits, with the constant of vl/mathop.h:494. -/
def binary32 : Format := ⟨23, 127, 0x5f3759df⟩

/-- 64 bits, with the constant of vl/mathop.h:525. -/
def binary64 : Format := ⟨52, 1023, 0x5fe6ec85e7de30da⟩

/-- The value of a nonnegative number from its representation as an integer (normal numbers, then zero and subnormal
numbers); `none` for infinities and NaN (exponent `2 * bias + 1`) and for negative numbers. -/
def Format.value (F : Format) (i : Int) : Option K :=
  let e := i / 2 ^ F.bits
  let m := i % 2 ^ F.bits
  if 0 < e ∧ e < 2 * F.bias + 1 then some (2 ^ (e - F.bias) * (1 + (m : K) / 2 ^ F.bits))
  else if e = 0 then some (2 ^ (1 - F.bias : Int) * ((m : K) / 2 ^ F.bits)) else none

/-- `vl_fast_resqrt_{f,d}`, vl/mathop.h:479-532, for the number with representation `i`. -/
def fastResqrt (F : Format) (i : Int) : Option K := do
  let x : K ← F.value i
  let xhalf := 1 / 2 * x
  let u : K ← F.value (F.magic - i / 2)
  let u := u * (3 / 2 - xhalf * u * u)
  let u := u * (3 / 2 - xhalf * u * u)
  some u

/-- `vl_fast_sqrt_f`, vl/mathop.h:544-548. -/
def fastSqrt (F : Format) (i : Int) : Option K := do
  let x : K ← F.value i
  if x < 1 / 10 ^ 8 then some 0 else
    let r : K ← fastResqrt F i
    some (x * r)

/-- `vl_fast_sqrt_d`, vl/mathop.h:554-558.  The argument is declared `float`: a double is converted by the caller, with
`conv` (from the representation in 64 bits to that in 32 bits; `none` when the number is too large), and back to `double`
with `widen` in the call of `vl_fast_resqrt_d`. -/
def fastSqrtD (conv widen : Int → Option Int) (i : Int) : Option K := do
  let j ← conv i
  let x : K ← binary32.value j
  if x < 1 / 10 ^ 8 then some 0 else
    let k ← widen j
    let r : K ← fastResqrt binary64 k
    some (x * r)

end Verif.Mathop
