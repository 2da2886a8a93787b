import Verif.Base

/-!
# Model of the integer square root (`VL_FAST_SQRT_UI`, vl/mathop.h:580-602)
-/

namespace Verif.Isqrt

/-- The loop of `vl_fast_sqrt_uiN`, vl/mathop.h:587-595, for `twice_k = 2 * (k - 1), ..., 2, 0`.  `T` is an unsigned integer
of `w` bits; all operations wrap modulo `2 ^ w` (for 8 and 16 bits C computes in `int` and truncates on assignment, which is
the same modulo `2 ^ w`). -/
def loop (w : Nat) : Nat → BitVec w → BitVec w → BitVec w
  | 0, _, y => y
  | k + 1, x, y =>
    let y := y <<< 1
    let tmp := (2 * y + 1) <<< (2 * k)
    if tmp ≤ x then loop w k (x - tmp) (y + 1) else loop w k x y

/-- `vl_fast_sqrt_uiN`, vl/mathop.h:580-597; `twice_k` starts from `8 * sizeof(T) - 2 = w - 2`. -/
def fastSqrt (w : Nat) (x : BitVec w) : BitVec w := loop w (w / 2) x 0

/-- `vl_fast_sqrt_ui8`, vl/mathop.h:602. -/
def sqrtUi8 (x : BitVec 8) : BitVec 8 := fastSqrt 8 x
/-- `vl_fast_sqrt_ui16`, vl/mathop.h:601. -/
def sqrtUi16 (x : BitVec 16) : BitVec 16 := fastSqrt 16 x
/-- `vl_fast_sqrt_ui32`, vl/mathop.h:600. -/
def sqrtUi32 (x : BitVec 32) : BitVec 32 := fastSqrt 32 x
/-- `vl_fast_sqrt_ui64`, vl/mathop.h:599. -/
def sqrtUi64 (x : BitVec 64) : BitVec 64 := fastSqrt 64 x

/-- The same loop over unbounded naturals, returning the largest value that any variable or intermediate takes; used to state
that no operation wraps. -/
def peak : Nat → Nat → Nat → Nat
  | 0, x, y => max x y
  | k + 1, x, y =>
    let y := 2 * y
    let tmp := (2 * y + 1) * 2 ^ (2 * k)
    max (max x y) (max tmp (if tmp ≤ x then peak k (x - tmp) (y + 1) else peak k x y))

end Verif.Isqrt
