import Verif.Imop.ConvModel
import Verif.Mathop.SimdModel

/-!
# Model of the accelerated column convolution (vl/imopv_sse2.c:42-201, `_vl_imconvcol_v{f,d}_sse2`)

The source image is a block with an address in bytes, and a register is the list of its lanes (see
`Verif.Mathop.SimdModel`), so that the alignment tests are those of the code and a load of a register from a badly aligned
address is visible as `none`.  Columns that are not processed by blocks use the code of the plain version, that is copied
in the file and is the same (`convColumn`).
-/

namespace Verif.Imop

open Verif.Mathop

variable {K : Type} [Field K] [LinearOrder K]

/-- `*(VTYPE*)(src + i)` for an index that may be negative: the address has to be aligned. -/
def loadAI (T : Flt) (src : Blk K) (i : Int) : Option (List K) := if 0 ≤ i then loadA .sse2 T src i.toNat else none

/-- `VLD1(filt + i)`: one number copied to all lanes. -/
def load1 (T : Flt) (filt : List K) (i : Int) : Option (List K) := do
  let c ← rdI filt i
  some (List.replicate (lanes .sse2 T) c)

/-- Body of the first inner loop, vl/imopv_sse2.c:97-101. -/
def convAV (T : Flt) (filt : List K) (srcStride : Nat) (_ : Nat) (s : ConvSt (List K)) : Option (ConvSt (List K)) := do
  let c ← load1 T filt s.filti
  some { s with filti := s.filti - 1, acc := vadd s.acc (vmul s.v c), srci := s.srci + srcStride }

/-- Body of the second inner loop, vl/imopv_sse2.c:105-110. -/
def convBV (T : Flt) (filt : List K) (src : Blk K) (srcStride : Nat) (_ : Nat) (s : ConvSt (List K)) : Option (ConvSt (List K)) := do
  let v ← loadAI T src s.srci
  let c ← load1 T filt s.filti
  some { filti := s.filti - 1, acc := vadd s.acc (vmul v c), srci := s.srci + srcStride, v := v }

/-- Body of the third inner loop, vl/imopv_sse2.c:115-118. -/
def convCV (T : Flt) (filt : List K) (_ : Nat) (s : ConvSt (List K)) : Option (ConvSt (List K)) := do
  let c ← load1 T filt s.filti
  some { s with filti := s.filti - 1, acc := vadd s.acc (vmul s.v c) }

/-- The register `acc` computed for the pixels `x, …, x + VSIZE - 1` of row `y`, vl/imopv_sse2.c:81-118. -/
def convPixelV (T : Flt) (src : Blk K) (h srcStride : Nat) (filt : List K) (fb fe : Int) (zeropad : Bool) (x y : Nat) :
    Option (List K) := do
  let V := lanes .sse2 T
  let last := fe - fb
  let stop := fe - y
  let s : ConvSt (List K) := { filti := last, srci := (x : Int) - stop * srcStride, acc := List.replicate V 0, v := List.replicate V 0 }
  let s ← (if stop > 0 then do
      let v ← (if zeropad then some (List.replicate V 0) else loadAI T src x)
      iter (steps s.filti last stop) (convAV T filt srcStride) { s with v := v }
    else some s)
  let stop := fe - max fb ((y : Int) - h + 1) + 1
  let s ← iter (steps s.filti last stop) (convBV T filt src srcStride) s
  let s := if zeropad then { s with v := List.replicate V 0 } else s
  let stop := fe - fb + 1
  let s ← iter (steps s.filti last stop) (convCV T filt) s
  some s.acc

/-- Store of the lanes and advance to the next row, vl/imopv_sse2.c:120-136.  The stores of the lanes, that are unrolled in
the code, are a loop here. -/
def convStoreV (T : Flt) (transp : Bool) (dstStride : Nat) (s : DstSt K) (acc : List K) : Option (DstSt K) := do
  let V := lanes .sse2 T
  let s ← iter V (fun k (s : DstSt K) => do
    let a ← rd acc k
    let mem ← wrI s.mem s.dst a
    some { dst := if transp then s.dst + dstStride else s.dst + 1, mem := mem }) s
  some { s with dst := if transp then s.dst + (1 - (V : Int) * dstStride) else s.dst + ((dstStride : Int) - V) }

/-- A block of `VSIZE` columns, vl/imopv_sse2.c:80-142. -/
def convColumnV (T : Flt) (src : Blk K) (h srcStride : Nat) (filt : List K) (fb fe : Int) (step : Nat) (transp zeropad : Bool)
    (dstStride : Nat) (x : Nat) (s : DstSt K) : Option (DstSt K) := do
  let V := lanes .sse2 T
  let s ← iter (numRows h step) (fun j s => do
    let acc ← convPixelV T src h srcStride filt fb fe zeropad x (j * step)
    convStoreV T transp dstStride s acc) s
  some { s with dst := if transp then s.dst + ((V : Int) * dstStride - dheight h step)
                       else s.dst + ((V : Int) - (dheight h step : Int) * dstStride) }

/-- The condition for processing a block of columns, vl/imopv_sse2.c:53 and 76-77.  `VALIGNED(src_stride)` tests the
stride, that is a number of pixels and not of bytes, as if it were an address. -/
def useSimd (T : Flt) (src : Blk K) (w srcStride x : Nat) : Bool :=
  decide (x + lanes .sse2 T < w) && decide ((src.addr + T.size * x) % 16 = 0) && decide (srcStride % 16 = 0)

/-- `while (x < src_width)`, vl/imopv_sse2.c:62-199; the first argument bounds the number of iterations. -/
def convLoopV (T : Flt) (src : Blk K) (w h srcStride : Nat) (filt : List K) (fb fe : Int) (step : Nat) (transp zeropad : Bool)
    (dstStride : Nat) : Nat → Nat → DstSt K → Option (DstSt K)
  | 0, x, s => if x < w then none else some s
  | fuel + 1, x, s =>
    if x < w then
      if useSimd T src w srcStride x then
        (convColumnV T src h srcStride filt fb fe step transp zeropad dstStride x s).bind
          (convLoopV T src w h srcStride filt fb fe step transp zeropad dstStride fuel (x + lanes .sse2 T))
      else
        (convColumn src.data h srcStride filt fb fe step transp zeropad dstStride x s).bind
          (convLoopV T src w h srcStride filt fb fe step transp zeropad dstStride fuel (x + 1))
    else some s

/-- `_vl_imconvcol_v{f,d}_sse2`, vl/imopv_sse2.c:42-201. -/
def imconvcolV (T : Flt) (dst : List K) (dstStride : Nat) (src : Blk K) (w h srcStride : Nat) (filt : List K) (fb fe : Int)
    (step : Nat) (transp zeropad : Bool) : Option (List K) := do
  let s ← convLoopV T src w h srcStride filt fb fe step transp zeropad dstStride w 0 { dst := 0, mem := dst }
  some s.mem

/-- `vl_imconvcol_v{f,d}`, vl/imopv.c:119-212, with the dispatch of vl/imopv.c:133-144. -/
def imconvcolAny (cpu : Cpu) (T : Flt) (dst : List K) (dstStride : Nat) (src : Blk K) (w h srcStride : Nat) (filt : List K)
    (fb fe : Int) (step : Nat) (transp zeropad : Bool) : Option (List K) :=
  if cpu.hasSse2 && cpu.simdEnabled then imconvcolV T dst dstStride src w h srcStride filt fb fe step transp zeropad
  else imconvcol dst dstStride src.data w h srcStride filt fb fe step transp zeropad

end Verif.Imop
