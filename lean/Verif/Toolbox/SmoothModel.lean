import Verif.Imop.ConvModel
import Verif.Imop.TriModel
import Mathlib.Data.Rat.Floor
import Mathlib.Algebra.Order.Floor.Ring

/-!
# The MATLAB driver of image smoothing

Model of toolbox/imop/vl_imsmooth.c.  Arithmetic is in a field.  The values of the exponential are given by the function `g` of the offset from the centre.  `mem n` is the content of a freshly allocated
block of `n` elements.  The driver calls the variants of the convolution that may use SSE2; that they agree with the plain ones is C119.
-/

namespace Verif.Toolbox

open Verif Verif.Imop

variable {K : Type} [Field K]

/-- The two kernels, toolbox/imop/vl_imsmooth.c:161, with their half size. -/
inductive Kern (K : Type)
  | gaussian (g : Int → K) (W : Nat)
  | triangular (W : Nat)

/-- The filter, toolbox/imop/vl_imsmooth.c:69-78. -/
def drvFilter (g : Int → K) (W : Nat) (block : List K) : Option (List K) := do
  let (filter, acc) ← iter (2 * W + 1) (fun j (s : List K × K) => do
    let f ← wr s.1 j (g ((j : Int) - W))
    let v ← rd f j
    some (f, s.2 + v)) (block, 0)
  iter (2 * W + 1) (fun j f => do
    let v ← rd f j
    wr f j (v / acc)) filter

/-- One convolution with transposition; the kernel has been prepared, toolbox/imop/vl_imsmooth.c:82-88 and 102-108.  `filter` is not used by the triangular kernel. -/
def drvPass (k : Kern K) (filter : List K) (mem : Nat → List K) (dst : List K) (dstStride : Nat) (src : List K) (w h stride step : Nat) (zeropad : Bool) : Option (List K) :=
  match k with
  | .gaussian _ W => imconvcol dst dstStride src w h stride filter (-(W : Int)) W step true zeropad
  | .triangular W => imconvcoltri dst dstStride src w h stride W step true zeropad (mem (h + W))

/-- The block of the filter. -/
def drvPrepare (k : Kern K) (mem : Nat → List K) : Option (List K) :=
  match k with
  | .gaussian g W => drvFilter g W (mem (2 * W + 1))
  | .triangular _ => some []

/-- One channel, toolbox/imop/vl_imsmooth.c:82-91 and 102-111.  The state is the temporary image and the output.  The pointers into the input and the output that the loop advances are the suffixes of the
blocks. -/
def drvChannel (k : Kern K) (filter : List K) (mem : Nat → List K) (image : List K) (M N M' N' step : Nat) (zeropad : Bool) (c : Nat) (s : List K × List K) : Option (List K × List K) := do
  let t ← drvPass k filter mem s.1 N' (image.drop (M * N * c)) M N M step zeropad
  let o ← drvPass k filter mem (s.2.drop (M' * N' * c)) M' t N' M N' step zeropad
  some (t, s.2.take (M' * N' * c) ++ o)

/-- `_vl_imsmooth_smooth_*`, toolbox/imop/vl_imsmooth.c:28-119. -/
def drvSmooth (k : Kern K) (mem : Nat → List K) (out : List K) (M' N' : Nat) (image : List K) (M N C step : Nat) (zeropad : Bool) : Option (List K) := do
  let filter ← drvPrepare k mem
  let s ← iter C (drvChannel k filter mem image M N M' N' step zeropad) (mem (M * N'), out)
  some s.2

/-- Conversion of a `double` to an unsigned integer of 64 or 32 bits: towards zero, undefined when the result does not fit. -/
def toUnsigned (bits : Nat) (x : ℚ) : Option Nat :=
  if x ≤ -1 ∨ 2 ^ bits ≤ x then none else some ⌊x⌋.toNat

/-- `ceil (4.0 * sigma)` as a `vl_size`, toolbox/imop/vl_imsmooth.c:68, and `VL_MAX((unsigned int) sigma, 1)`, line 99.  `gs` is the family of Gaussians. -/
def drvKernel (gaussian : Bool) (gs : ℚ → Int → K) (sigma : ℚ) : Option (Kern K) :=
  if gaussian then (toUnsigned 64 (⌈4 * sigma⌉ : ℚ)).map (Kern.gaussian (gs sigma)) else (toUnsigned 32 sigma).map fun W => Kern.triangular (max W 1)

/-- The `vl_size` `step` passed as an `int` and converted to `vl_size` again by the convolutions, toolbox/imop/vl_imsmooth.c:37, 82-88 and 346: modulo 2^32, then extended with its sign. -/
def throughInt (step : Nat) : Nat := if step % 2 ^ 32 < 2 ^ 31 then step % 2 ^ 32 else 2 ^ 64 - 2 ^ 32 + step % 2 ^ 32

/-- `mexFunction`, toolbox/imop/vl_imsmooth.c:172-358, for an image of `M` rows, `N` columns and `C` channels.  `subsample` is the option; the inner `none` is the error that it is less than one.  The result
is the size of a channel and the array, which MATLAB fills with zeros.  Simplification: the sizes of an image without pixels are not modelled. -/
def imsmoothMex (gaussian : Bool) (gs : ℚ → Int → K) (mem : Nat → List K) (image : List K) (M N C : Nat) (sigma : ℚ) (subsample : Option ℚ) (zeropad : Bool) : Option (Option (Nat × Nat × List K)) := do
  let step ← toUnsigned 64 (subsample.getD 1)
  if step < 1 then some none
  else if sigma < 1 / 100 ∧ step = 1 then some (some (M, N, image))
  else do
    let M' := (M - 1) / step + 1
    let N' := (N - 1) / step + 1
    if throughInt step = 0 then none
    else do
      let k ← drvKernel gaussian gs sigma
      let r ← drvSmooth k mem (List.replicate (M' * N' * C) 0) M' N' image M N C (throughInt step) zeropad
      some (some (M', N', r))

end Verif.Toolbox
