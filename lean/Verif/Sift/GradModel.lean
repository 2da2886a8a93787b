import Verif.Loop
import Mathlib.Algebra.Field.Rat
import Mathlib.Algebra.Order.Ring.Rat

/-!
# Model of the computation of the gradients in SIFT

`update_gradient`, vl/sift.c:1446-1531, without the test of the cache, which is in the model of the octaves.  The modulus and the angle of a vector are parameters.
-/

namespace Verif.Sift

/-- The three differences used: `src[+o] - src[0]`, `0.5 * (src[+o] - src[-o])` and `src[0] - src[-o]`. -/
inductive Kind
  | fwd
  | mid
  | bwd

/-- A difference at `src` with stride `o`. -/
def diff (octave : List ℚ) (src : Int) (o : Int) : Kind → Option ℚ
  | .fwd => do
    let a ← rdI octave (src + o)
    let b ← rdI octave src
    some (a - b)
  | .mid => do
    let a ← rdI octave (src + o)
    let b ← rdI octave (src - o)
    some (1 / 2 * (a - b))
  | .bwd => do
    let a ← rdI octave src
    let b ← rdI octave (src - o)
    some (a - b)

/-- The block of gradients and the offsets of the pointers `grad` and `src`. -/
structure GSt where
  out : List ℚ
  g : Nat
  s : Nat

/-- One pixel: `gx`, `gy` and `SAVE_BACK`, vl/sift.c:1465-1468. -/
def gradPixel (mag ang : ℚ → ℚ → ℚ) (octave : List ℚ) (w : Nat) (kx ky : Kind) (st : GSt) : Option GSt := do
  let gx ← diff octave st.s 1 kx
  let gy ← diff octave st.s w ky
  let out ← wr st.out st.g (mag gx gy)
  let out ← wr out (st.g + 1) (ang gx gy)
  some { out := out, g := st.g + 2, s := st.s + 1 }

/-- One row: the first pixel, the pixels up to `end = (src - 1) + w - 1` and the last pixel, vl/sift.c:1473-1489, 1493-1509, 1512-1528. -/
def gradRow (mag ang : ℚ → ℚ → ℚ) (octave : List ℚ) (w : Nat) (ky : Kind) (st : GSt) : Option GSt := do
  let st ← gradPixel mag ang octave w .fwd ky st
  let last := st.s - 1 + w - 1
  let st ← iter (last - st.s) (fun _ st => gradPixel mag ang octave w .mid ky st) st
  gradPixel mag ang octave w .bwd ky st

/-- `update_gradient`, vl/sift.c:1460-1529; `levels` is the number of values of `s` and `k` is `s - s_min - 1`. -/
def gradients (mag ang : ℚ → ℚ → ℚ) (octave : List ℚ) (w h levels : Nat) (out : List ℚ) : Option (List ℚ) :=
  iter levels (fun k out => do
    let st : GSt := { out := out, g := 2 * (h * w) * k, s := w * h * (k + 1) }
    let st ← gradRow mag ang octave w .fwd st
    let st ← iter (h - 2) (fun _ st => gradRow mag ang octave w .mid st) st
    let st ← gradRow mag ang octave w .bwd st
    some st.out) out

end Verif.Sift
