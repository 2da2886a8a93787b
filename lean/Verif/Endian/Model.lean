import Verif.Base

/-!
# Model of the byte-order functions of `vl/host.h`

Memory is one list of bytes; `dst` and `src` are offsets in it, so that the two buffers may overlap.
-/

namespace Verif.Endian

/-- A sequence of byte assignments `dst_[i] = src_[j]`, executed in order. -/
def assign (mem : List UInt8) (dst src : Nat) : List (Nat × Nat) → Option (List UInt8)
  | [] => some mem
  | (i, j) :: ps => do
    let b ← rd mem (src + j)
    let mem ← wr mem (dst + i) b
    assign mem dst src ps

/-- `vl_swap_host_big_endianness_8`, vl/host.h:587-611; `big` tells whether `VL_ARCH_BIG_ENDIAN` is defined. -/
def swap8 (big : Bool) (mem : List UInt8) (dst src : Nat) : Option (List UInt8) :=
  if big then assign mem dst src [(0, 0), (1, 1), (2, 2), (3, 3), (4, 4), (5, 5), (6, 6), (7, 7)]
  else assign mem dst src [(0, 7), (1, 6), (2, 5), (3, 4), (4, 3), (5, 2), (6, 1), (7, 0)]

/-- `vl_swap_host_big_endianness_4`, vl/host.h:621-637. -/
def swap4 (big : Bool) (mem : List UInt8) (dst src : Nat) : Option (List UInt8) :=
  if big then assign mem dst src [(0, 0), (1, 1), (2, 2), (3, 3)]
  else assign mem dst src [(0, 3), (1, 2), (2, 1), (3, 0)]

/-- `vl_swap_host_big_endianness_2`, vl/host.h:647-659. -/
def swap2 (big : Bool) (mem : List UInt8) (dst src : Nat) : Option (List UInt8) :=
  if big then assign mem dst src [(0, 0), (1, 1)]
  else assign mem dst src [(0, 1), (1, 0)]

end Verif.Endian
