import Verif.Covdet.ExtremaSpec
import Verif.Imop.GradProps
import Verif.Imop.ConvProps

set_option linter.unusedSectionVars false

/-!
# What the responses should be

An image is a function `I y x` of the row and the column.
-/

namespace Verif.Covdet

open Finset

variable {K : Type} [Field K] [LinearOrder K]

/-- The image as a map in the plane -/
def plane (I : Nat → Nat → K) (_ y x : Int) : K := I y.toNat x.toNat

/-- The nearest index that is not the first nor the last of `n`. -/
def inner (n i : Nat) : Nat := max 1 (min i (n - 2))

/-- The determinant of the second differences at the nearest point off the border -/
def detVal (factor : K) (I : Nat → Nat → K) (w h y x : Nat) : K := factor * det2 (plane I) 0 (inner h y : Nat) (inner w x : Nat)

/-- The convolution, along the columns and along the rows, with the filter `filt` of `2 * n + 1` samples; the image is continued by its border. -/
def smooth (filt : List K) (n w h : Nat) (I : Nat → Nat → K) (y x : Nat) : K :=
  ∑ i ∈ range (2 * n + 1), filt.getD i 0 * ∑ k ∈ range (2 * n + 1), filt.getD k 0 * I (Imop.clampTo h ((y : Int) - ((k : Int) - n))) (Imop.clampTo w ((x : Int) - ((i : Int) - n)))

/-- The score of Harris: determinant minus `alpha` times the square of the trace of the smoothed products of the differences. -/
def harrisVal (factor alpha : K) (filt : List K) (n : Nat) (I : Nat → Nat → K) (w h y x : Nat) : K :=
  let a := smooth filt n w h (fun y x => Imop.gradX w I y x ^ 2) y x
  let b := smooth filt n w h (fun y x => Imop.gradY h I y x ^ 2) y x
  let c := smooth filt n w h (fun y x => Imop.gradX w I y x * Imop.gradY h I y x) y x
  factor * (a * b - c ^ 2 - alpha * (a + b) ^ 2)

/-- The image of level `s` in an octave whose levels have `h` rows of `w` pixels -/
def imageAt (data : List K) (w h s y x : Nat) : K := data.getD (s * (w * h) + (y * w + x)) 0

end Verif.Covdet
