import Verif.Loop
import Mathlib.Algebra.Field.Defs
import Mathlib.Algebra.Order.Group.Unbundled.Abs
import Mathlib.Order.Lattice

/-!
# Model of the functions that compare vectors (vl/mathop.c:294-468)

Numbers are elements of a linearly ordered field; rounding is not modelled.  The square root and the base two logarithm are
parameters that give `none` where the C functions give a NaN or an infinity.  A vector is a list of at least `n` numbers.
-/

namespace Verif.Mathop

variable {K : Type} [Field K] [LinearOrder K]

/-- `sqrtf`, `sqrt` and `vl_log2_{f,d}` (vl/mathop.h:261-284); `none` outside of the domain. -/
structure Libm (K : Type) where
  sqrt : K → Option K
  log2 : K → Option K

/-- A division; `none` where the C expression gives a NaN or an infinity. -/
def quot (a b : K) : Option K := if b = 0 then none else some (a / b)

/-- `_vl_distance_l2_{f,d}`, vl/mathop.c:296-307. -/
def distL2 (n : Nat) (X Y : List K) : Option K :=
  iter n (fun i acc => do
    let a ← rd X i
    let b ← rd Y i
    let d := a - b
    some (acc + d * d)) 0

/-- `_vl_distance_l1_{f,d}`, vl/mathop.c:309-320. -/
def distL1 (n : Nat) (X Y : List K) : Option K :=
  iter n (fun i acc => do
    let a ← rd X i
    let b ← rd Y i
    let d := a - b
    some (acc + max d (-d))) 0

/-- `_vl_distance_chi2_{f,d}`, vl/mathop.c:322-340. -/
def distChi2 (n : Nat) (X Y : List K) : Option K :=
  iter n (fun i acc => do
    let a ← rd X i
    let b ← rd Y i
    let delta := a - b
    let denom := a + b
    let numer := delta * delta
    if denom ≠ 0 then (quot numer denom).map (fun ratio => acc + ratio) else some acc) 0

/-- `_vl_distance_hellinger_{f,d}`, vl/mathop.c:342-358. -/
def distHellinger (M : Libm K) (n : Nat) (X Y : List K) : Option K :=
  iter n (fun i acc => do
    let a ← rd X i
    let b ← rd Y i
    let r ← M.sqrt (a * b)
    some (acc + (a + b - 2 * r))) 0

/-- `_vl_distance_js_{f,d}`, vl/mathop.c:360-373. -/
def distJS (M : Libm K) (n : Nat) (X Y : List K) : Option K :=
  iter n (fun i acc => do
    let x ← rd X i
    let y ← rd Y i
    let acc ← if x ≠ 0 then ((quot y x).bind (fun r => M.log2 (1 + r))).map (fun l => acc + (x - x * l)) else some acc
    if y ≠ 0 then ((quot x y).bind (fun r => M.log2 (1 + r))).map (fun l => acc + (y - y * l)) else some acc) 0

/-- `_vl_kernel_l2_{f,d}`, vl/mathop.c:375-387. -/
def kernL2 (n : Nat) (X Y : List K) : Option K :=
  iter n (fun i acc => do
    let a ← rd X i
    let b ← rd Y i
    some (acc + a * b)) 0

/-- `_vl_kernel_l1_{f,d}`, vl/mathop.c:389-403. -/
def kernL1 (n : Nat) (X Y : List K) : Option K := do
  let acc ← iter n (fun i acc => do
    let a ← rd X i
    let b ← rd Y i
    some (acc + (|a| + |b| - |a - b|))) 0
  some (acc / 2)

/-- `_vl_kernel_chi2_{f,d}`, vl/mathop.c:405-422. -/
def kernChi2 (n : Nat) (X Y : List K) : Option K :=
  iter n (fun i acc => do
    let a ← rd X i
    let b ← rd Y i
    let denom := a + b
    if denom ≠ 0 then
      let numer := 2 * a * b
      (quot numer denom).map (fun ratio => acc + ratio)
    else some acc) 0

/-- `_vl_kernel_hellinger_{f,d}`, vl/mathop.c:424-440. -/
def kernHellinger (M : Libm K) (n : Nat) (X Y : List K) : Option K :=
  iter n (fun i acc => do
    let a ← rd X i
    let b ← rd Y i
    let r ← M.sqrt (a * b)
    some (acc + r)) 0

/-- `_vl_kernel_js_{f,d}`, vl/mathop.c:442-455. -/
def kernJS (M : Libm K) (n : Nat) (X Y : List K) : Option K := do
  let acc ← iter n (fun i acc => do
    let x ← rd X i
    let y ← rd Y i
    let acc ← if x ≠ 0 then ((quot y x).bind (fun r => M.log2 (1 + r))).map (fun l => acc + x * l) else some acc
    if y ≠ 0 then ((quot x y).bind (fun r => M.log2 (1 + r))).map (fun l => acc + y * l) else some acc) 0
  some (1 / 2 * acc)

/-- `_vl_distance_mahalanobis_sq_{f,d}`, vl/mathop.c:457-468. -/
def mahalanobis (n : Nat) (X MU S : List K) : Option K :=
  iter n (fun i acc => do
    let a ← rd X i
    let b ← rd MU i
    let d := a - b
    let s ← rd S i
    some (acc + d * d * s)) 0

/-- The comparisons of pairs of vectors, `VlVectorComparisonType` at vl/mathop.h:591-603 without the Mahalanobis distance. -/
inductive Cmp where
  | distL1 | distL2 | distChi2 | distHellinger | distJS | kernL1 | kernL2 | kernChi2 | kernHellinger | kernJS
  deriving DecidableEq

/-- `vl_get_vector_comparison_function_{f,d}` without the accelerated versions, vl/mathop.c:472-488. -/
def comparison (M : Libm K) : Cmp → Nat → List K → List K → Option K
  | .distL2 => distL2
  | .distL1 => distL1
  | .distChi2 => distChi2
  | .distHellinger => distHellinger M
  | .distJS => distJS M
  | .kernL2 => kernL2
  | .kernL1 => kernL1
  | .kernChi2 => kernChi2
  | .kernHellinger => kernHellinger M
  | .kernJS => kernJS M

end Verif.Mathop
