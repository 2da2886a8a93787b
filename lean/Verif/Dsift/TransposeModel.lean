import Verif.Loop

/-!
# Model of the transposition of a dense SIFT descriptor

vl/dsift.h.  `int` offsets are natural numbers; `numBinT / 4 - t + numBinT` is positive because `t < numBinT`.
-/

namespace Verif.Dsift

variable {α : Type}

/-- `vl_dsift_transpose_descriptor`, vl/dsift.h:306-326; `T`, `X` and `Y` are the numbers of bins. -/
def transpose (src : List α) (T X Y : Nat) (dst : List α) : Option (List α) :=
  iter Y (fun y dst => iter X (fun x dst => iter T (fun t dst => do
    let v ← rd src (T * (x + y * X) + t)
    wr dst (T * (y + x * Y) + (T / 4 + T - t) % T) v) dst) dst) dst

end Verif.Dsift
