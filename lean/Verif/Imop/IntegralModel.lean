import Verif.Loop
import Mathlib.Algebra.Ring.Defs

/-!
# Model of the integral image (vl/imopv.c:1041-1069, `vl_imintegral_{f,d,ui32,i32}`)

The pixel type is an arbitrary commutative ring: the ring of integers modulo `2 ^ 32` gives the `ui32` instance, and the
real instances ignore rounding.
-/

namespace Verif.Imop

variable {R : Type} [CommRing R]

/-- Local variables of the function: the moving pointers `image` and `integral` (as offsets), `temp`, and the destination. -/
structure IntSt (R : Type) where
  image : Int
  integral : Int
  temp : R
  mem : List R

/-- Loop body of the first row, vl/imopv.c:1050-1053. -/
def integralFirst (src : List R) (_x : Nat) (s : IntSt R) : Option (IntSt R) := do
  let v ← rdI src s.image
  let temp := s.temp + v
  let mem ← wrI s.mem s.integral temp
  some { image := s.image + 1, integral := s.integral + 1, temp := temp, mem := mem }

/-- Loop body of the other rows, vl/imopv.c:1063-1066.  `integralPrev` always is `integral - integralStride`
(vl/imopv.c:1060, both are incremented together). -/
def integralNext (src : List R) (integralStride : Nat) (_x : Nat) (s : IntSt R) : Option (IntSt R) := do
  let v ← rdI src s.image
  let temp := s.temp + v
  let p ← rdI s.mem (s.integral - integralStride)
  let mem ← wrI s.mem s.integral (p + temp)
  some { image := s.image + 1, integral := s.integral + 1, temp := temp, mem := mem }

/-- One iteration of the row loop, vl/imopv.c:1056-1067 (`y` here counts from 0). -/
def integralRow (src : List R) (integralStride w imageStride : Nat) (_y : Nat) (s : IntSt R) : Option (IntSt R) :=
  iter w (integralNext src integralStride)
    { s with integral := s.integral + ((integralStride : Int) - w), image := s.image + ((imageStride : Int) - w), temp := 0 }

/-- `vl_imintegral_*`, vl/imopv.c:1041-1069. -/
def imintegral (dst : List R) (integralStride : Nat) (src : List R) (w h imageStride : Nat) : Option (List R) := do
  let s : IntSt R := { image := 0, integral := 0, temp := 0, mem := dst }
  let s ← (if h > 0 then iter w (integralFirst src) s else some s)
  let s ← iter (h - 1) (integralRow src integralStride w imageStride) s
  some s.mem

end Verif.Imop
