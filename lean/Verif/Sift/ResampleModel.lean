import Verif.Loop
import Mathlib.Algebra.Field.Rat
import Mathlib.Algebra.Order.Ring.Rat

/-!
# Model of the resampling of images in SIFT

vl/sift.c:738-758, 835-851 and 1017-1037.  Pixels are elements of a field.
-/

namespace Verif.Sift

variable {K : Type} [Field K]

/-- The variables of `copy_and_upsample_rows`: the output block, the offsets of the pointers `dst` and `src`, `a` and `b`. -/
structure Up (K : Type) where
  out : List K
  d : Int
  s : Nat
  a : K
  b : K

/-- `copy_and_upsample_rows`, vl/sift.c:738-758. -/
def upsampleRows (dst src : List K) (width height : Nat) : Option (List K) := do
  let r ← iter height (fun _ (st : Up K) => do
    let a ← rd src st.s
    let st := { st with a := a, b := a, s := st.s + 1 }
    let st ← iter (width - 1) (fun _ (st : Up K) => do
      let b ← rd src st.s
      let out ← wrI st.out st.d st.a
      let d := st.d + height
      let out ← wrI out d (1 / 2 * (st.a + b))
      let d := d + height
      some { out := out, d := d, s := st.s + 1, a := b, b := b }) st
    let out ← wrI st.out st.d st.b
    let d := st.d + height
    let out ← wrI out d st.b
    let d := d + height
    some { st with out := out, d := d + (1 - (width : Int) * 2 * height) }) ⟨dst, 0, 0, 0, 0⟩
  some r.out

/-- The loop over the columns of `copy_and_downsample`, vl/sift.c:846-849, `k` bounds the number of rounds; the state is the output block, the offset of `dst` and `srcrowp`. -/
def downCols (src : List K) (width d : Nat) : Nat → Nat → List K × Nat × Nat → Option (List K × Nat × Nat)
  | 0, _, _ => none
  | k + 1, x, (out, p, q) =>
    if (x : Int) < (width : Int) - ((d : Int) - 1) then do
      let v ← rd src q
      let out ← wr out p v
      downCols src width d k (x + d) (out, p + 1, q + d)
    else some (out, p, q)

/-- The loop over the rows, vl/sift.c:844-850. -/
def downRows (src : List K) (width height d : Nat) : Nat → Nat → List K × Nat → Option (List K × Nat)
  | 0, _, _ => none
  | k + 1, y, (out, p) =>
    if y < height then do
      let (out, p, _) ← downCols src width d (width + 1) 0 (out, p, y * width)
      downRows src width height d k (y + d) (out, p)
    else some (out, p)

/-- `copy_and_downsample`, vl/sift.c:835-851.  The result has the number of pixels written. -/
def downsample (dst src : List K) (width height o : Nat) : Option (List K × Nat) :=
  downRows src width height (2 ^ o) (height + 1) 0 (dst, 0)

/-- The upsampling of the image for a first octave `- n` below zero, vl/sift.c:1017-1029: the blocks `temp` and `octave` after it. -/
def upsampleImage (temp octave im : List K) (width height : Nat) (n : Nat) : Option (List K × List K) := do
  let temp ← upsampleRows temp im width height
  let octave ← upsampleRows octave temp height (2 * width)
  iter (n - 1) (fun i (temp, octave) => do
    let o := i + 1
    let temp ← upsampleRows temp octave (width * 2 ^ o) (height * 2 ^ o)
    let octave ← upsampleRows octave temp (width * 2 ^ o) (2 * (height * 2 ^ o))
    some (temp, octave)) (temp, octave)

end Verif.Sift
