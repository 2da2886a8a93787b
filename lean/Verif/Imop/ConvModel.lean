import Verif.Loop
import Mathlib.Algebra.Field.Defs

/-!
# Model of the column convolution (vl/imopv.c:119-212, `vl_imconvcol_v{f,d}`) and of the separable Gaussian smoothing
(vl/imopv.c:644-679)

Pointers are offsets from the beginning of their block, so an access before or after the block is visible as `none`; forming
a pointer outside a block without accessing it is not an error in the model.  The pixel type is a commutative ring (rounding
is not modelled).  The accelerated SSE2 version (vl/imopv_sse2.c) is modelled in `Verif.Imop.ConvSimdModel`.
-/

namespace Verif.Imop

variable {R : Type} [CommRing R]

/-- Variables `filti`, `srci`, `acc`, `v` of the inner loops. -/
structure ConvSt (R : Type) where
  filti : Int
  srci : Int
  acc : R
  v : R

/-- Body of the first inner loop, vl/imopv.c:172-176. -/
def convA (filt : List R) (srcStride : Nat) (_ : Nat) (s : ConvSt R) : Option (ConvSt R) := do
  let c ← rdI filt s.filti
  some { s with filti := s.filti - 1, acc := s.acc + s.v * c, srci := s.srci + srcStride }

/-- Body of the second inner loop, vl/imopv.c:180-185. -/
def convB (filt src : List R) (srcStride : Nat) (_ : Nat) (s : ConvSt R) : Option (ConvSt R) := do
  let v ← rdI src s.srci
  let c ← rdI filt s.filti
  some { filti := s.filti - 1, acc := s.acc + v * c, srci := s.srci + srcStride, v := v }

/-- Body of the third inner loop, vl/imopv.c:190-193. -/
def convC (filt : List R) (_ : Nat) (s : ConvSt R) : Option (ConvSt R) := do
  let c ← rdI filt s.filti
  some { s with filti := s.filti - 1, acc := s.acc + s.v * c }

/-- Number of iterations of `while (filti > filt - stop)` when the body decrements `filti`. -/
def steps (filti last stop : Int) : Nat := (filti - (last - stop)).toNat

/-- The value `acc` computed for the destination pixel, vl/imopv.c:155-193. -/
def convPixel (src : List R) (h srcStride : Nat) (filt : List R) (fb fe : Int) (zeropad : Bool) (x y : Nat) :
    Option R := do
  let last := fe - fb
  let stop := fe - y
  let s : ConvSt R := { filti := last, srci := (x : Int) - stop * srcStride, acc := 0, v := 0 }
  let s ← (if stop > 0 then do
      let v ← (if zeropad then some 0 else rd src x)
      iter (steps s.filti last stop) (convA filt srcStride) { s with v := v }
    else some s)
  let stop := fe - max fb ((y : Int) - h + 1) + 1
  let s ← iter (steps s.filti last stop) (convB filt src srcStride) s
  let s := if zeropad then { s with v := 0 } else s
  let stop := fe - fb + 1
  let s ← iter (steps s.filti last stop) (convC filt) s
  some s.acc

/-- `dheight`, vl/imopv.c:128 (for `src_height = 0` the C expression wraps around, but then nothing is stored). -/
def dheight (h step : Nat) : Nat := (h - 1) / step + 1

/-- Number of iterations of `for (y = 0 ; y < src_height ; y += step)`. -/
def numRows (h step : Nat) : Nat := (h + step - 1) / step

/-- Destination block and the moving pointer `dst`. -/
structure DstSt (R : Type) where
  dst : Int
  mem : List R

/-- Store one value and advance, vl/imopv.c:195-199. -/
def convStore (transp : Bool) (dstStride : Nat) (s : DstSt R) (acc : R) : Option (DstSt R) := do
  let mem ← wrI s.mem s.dst acc
  some { dst := if transp then s.dst + 1 else s.dst + dstStride, mem := mem }

/-- One column, vl/imopv.c:141-208. -/
def convColumn (src : List R) (h srcStride : Nat) (filt : List R) (fb fe : Int) (step : Nat) (transp zeropad : Bool)
    (dstStride : Nat) (x : Nat) (s : DstSt R) : Option (DstSt R) := do
  let s ← iter (numRows h step) (fun j s => do
    let acc ← convPixel src h srcStride filt fb fe zeropad x (j * step)
    convStore transp dstStride s acc) s
  some { s with dst := if transp then s.dst + ((dstStride : Int) - dheight h step)
                       else s.dst + (1 - (dheight h step : Int) * dstStride) }

/-- `vl_imconvcol_v*`, vl/imopv.c:119-212, without the SSE2 dispatch. -/
def imconvcol (dst : List R) (dstStride : Nat) (src : List R) (w h srcStride : Nat) (filt : List R) (fb fe : Int)
    (step : Nat) (transp zeropad : Bool) : Option (List R) := do
  let s ← iter w (convColumn src h srcStride filt fb fe step transp zeropad dstStride) { dst := 0, mem := dst }
  some s.mem

/-- `_vl_new_gaussian_fitler_*`, vl/imopv.c:619-641.  `width` is `ceil(3 sigma)` and `g i` stands for
`exp (-0.5 (i/sigma)^2)`; the content of the freshly allocated block is `block` (of `2 * width + 1` elements). -/
def gaussFilter {K : Type} [Field K] (width : Nat) (g : Nat → K) (block : List K) : Option (List K) := do
  let filter ← wr block width 1
  let (filter, mass) ← iter width (fun i (s : List K × K) => do
    let g := g (i + 1)
    let f ← wr s.1 (width - (i + 1)) g
    let f ← wr f (width + (i + 1)) g
    some (f, s.2 + (g + g))) (filter, 1)
  iter (2 * width + 1) (fun i f => do
    let v ← rd f i
    wr f i (v / mass)) filter

/-- `vl_imsmooth_{f,d}`, vl/imopv.c:643-679, for the filters `filterx` and `filtery` of `2 * widthx + 1` and
`2 * widthy + 1` samples; `buffer` is the temporary block of `width * height` elements. -/
def imsmooth (smoothed : List R) (smoothedStride : Nat) (image : List R) (w h stride : Nat)
    (filterx : List R) (widthx : Nat) (filtery : List R) (widthy : Nat) (buffer : List R) : Option (List R) := do
  let buffer ← imconvcol buffer h image w h stride filtery (-(widthy : Int)) widthy 1 true false
  imconvcol smoothed smoothedStride buffer h w h filterx (-(widthx : Int)) widthx 1 true false

end Verif.Imop
