import Verif.Dsift.Model
import Verif.Imop.GradProps
import Verif.Imop.ConvProps
import Mathlib.Data.Rat.Floor

/-!
# What a dense SIFT descriptor should be

An image is a function `I y x` of the row and the column.
-/

namespace Verif.Dsift

open Finset

/-- The share of the orientation bin `t` among `T` in a direction at `n` bins from the first: linear between the two nearest bins, around the circle. -/
def share (T : Nat) (n : ℚ) (t : Nat) : ℚ :=
  if (t : Int) = ⌊n⌋ % T then 1 - Int.fract n else if (t : Int) = (⌊n⌋ + 1) % T then Int.fract n else 0

/-- The modulus of the gradient of a pixel that goes to the orientation bin `t`; `turn gy gx` is the direction in bins. -/
def oriented (sqrt : ℚ → ℚ) (turn : ℚ → ℚ → ℚ) (T w h : Nat) (I : Nat → Nat → ℚ) (t y x : Nat) : ℚ :=
  sqrt (Imop.gradX w I y x ^ 2 + Imop.gradY h I y x ^ 2) * share T (turn (Imop.gradY h I y x) (Imop.gradX w I y x)) t

/-- The weight of a pixel at distance `d` from the centre of a bin of size `b`: bilinear interpolation. -/
def tent (b : Nat) (d : Int) : ℚ := 1 - |(d : ℚ)| / b

/-- The window of the descriptor at distance `d` from its centre -/
def bell (exp : ℚ → ℚ) (sigma d : ℚ) : ℚ := exp (- (1 / 2) * (d / sigma) ^ 2)

/-- The pixels that a bin of size `b` centred at `p` takes. -/
def around (b : Nat) (p : Int) : List Int := (List.range (2 * b - 1)).map fun (i : Nat) => p - ((b : Int) - 1) + i

/-- The value of the bin centred at `(py, px)` of a descriptor centred at `(cy, cx)`: the sum of the image `G`, that is continued by its border, weighted by the interpolation and by the window. -/
def binValue (exp : ℚ → ℚ) (ws : ℚ) (bx bY w h : Nat) (G : Nat → Nat → ℚ) (cy cx : ℚ) (py px : Int) : ℚ :=
  ((around bx px).map fun (qx : Int) => tent bx (qx - px) * bell exp (bx * ws) (qx - cx) * ((around bY py).map fun (qy : Int) => tent bY (qy - py) * bell exp (bY * ws) (qy - cy) * G (Imop.clampTo h qy) (Imop.clampTo w qx)).sum).sum

/-- The mean of the window over the pixels of a bin -/
def meanBell (exp : ℚ → ℚ) (ws : ℚ) (b : Nat) (c : ℚ) (p : Int) : ℚ := ((around b p).map fun (q : Int) => bell exp (b * ws) (q - c)).sum / (2 * b - 1)

/-- The value of a bin with the flat window: the means of the window over the bin replace the window. -/
def flatValue (exp : ℚ → ℚ) (ws : ℚ) (bx bY w h : Nat) (G : Nat → Nat → ℚ) (cy cx : ℚ) (py px : Int) : ℚ :=
  meanBell exp ws bx cx px * meanBell exp ws bY cy py * ((around bx px).map fun (qx : Int) => tent bx (qx - px) * ((around bY py).map fun (qy : Int) => tent bY (qy - py) * G (Imop.clampTo h qy) (Imop.clampTo w qx)).sum).sum

/-- The value of the bin of orientation `t` centred at `(py, px)` of the descriptor of the image `I` centred at `(cy, cx)`, before the normalisation. -/
def siftValue (flat : Bool) (sqrt exp : ℚ → ℚ) (turn : ℚ → ℚ → ℚ) (ws : ℚ) (T bx bY w h : Nat) (I : Nat → Nat → ℚ) (cy cx : ℚ) (t : Nat) (py px : Int) : ℚ :=
  if flat then flatValue exp ws bx bY w h (oriented sqrt turn T w h I t) cy cx py px else binValue exp ws bx bY w h (oriented sqrt turn T w h I t) cy cx py px

end Verif.Dsift
