import Verif.Host.Model

/-!
# Which instructions the library executes

The functions that have versions for SSE2 and AVX choose one when they are called
(vl/mathop.c, vl/gmm.c, vl/imopv.c).  What the versions compute is in C117-C119.
-/

namespace Verif.Host

/-- The instructions of a version of a function. -/
inductive Code
  | plain
  | sse2
  | avx
deriving DecidableEq

/-- `VlVectorComparisonType`, vl/mathop.h:628-640. -/
inductive Cmp
  | dL1 | dL2 | dChi2 | dHellinger | dJS | dMahalanobis | kL1 | kL2 | kChi2 | kHellinger | kJS
deriving DecidableEq

/-- The state of the library that matters here, vl/generic.c:837-858. -/
structure Lib where
  cpu : CpuInfo
  simd : Bool

/-- `vl_constructor`, vl/generic.c:1618-1645, on x86. -/
def libInit (cpuid : Nat → Regs) : Lib := ⟨infoInit cpuid CpuInfo.zero, true⟩

/-- `vl_set_simd_enabled`, vl/generic.c:1071-1075. -/
def setSimd (s : Lib) (x : Bool) : Lib := { s with simd := x }

/-- `vl_cpu_has_sse2`, vl/generic.c:1121-1129. -/
def hasSse2 (s : Lib) : Bool := s.cpu.hasSSE2 ≠ 0

/-- `vl_cpu_has_avx`, vl/generic.c:1093-1101. -/
def hasAvx (s : Lib) : Bool := s.cpu.hasAVX ≠ 0

/-- `vl_get_vector_comparison_function`, vl/mathop.c:472-516; `none` is `abort`. -/
def select2 (s : Lib) (t : Cmp) : Option Code :=
  if t = .dMahalanobis then none else
  let f := Code.plain
  let f := if hasSse2 s && s.simd then
      match t with
      | .dL2 | .dL1 | .dChi2 | .kL2 | .kL1 | .kChi2 => .sse2
      | _ => f
    else f
  let f := if hasAvx s && s.simd then
      match t with
      | .dL2 => .avx
      | _ => f
    else f
  some f

/-- `vl_get_vector_3_comparison_function`, vl/mathop.c:520-550. -/
def select3 (s : Lib) (t : Cmp) : Option Code :=
  if t ≠ .dMahalanobis then none else
  let f := Code.plain
  let f := if hasSse2 s && s.simd then .sse2 else f
  let f := if hasAvx s && s.simd then .avx else f
  some f

/-- The updates of a mean and a variance that the maximisation makes for a point, in their
order, vl/gmm.c:1096-1146. -/
def gmmUpdates (s : Lib) : List Code :=
  let a := s.simd && hasAvx s
  let l := if a then [Code.avx] else []
  let b := s.simd && hasSse2 s && !a
  let l := if b then l ++ [Code.sse2] else l
  if !(a || b) then l ++ [Code.plain] else l

/-- `vl_imconvcol`, vl/imopv.c:133-143. -/
def convCode (s : Lib) : Code := if hasSse2 s && s.simd then .sse2 else .plain

/-- Calls that change the state, and calls that execute code. -/
inductive LibOp
  | setSimd (x : Bool)
  | compare (t : Cmp)
  | compare3
  | update
  | convolve

/-- The code that a sequence of calls executes. -/
def libRun : List LibOp → Lib → Option (List Code)
  | [], _ => some []
  | .setSimd x :: ops, s => libRun ops (setSimd s x)
  | .compare t :: ops, s => do
    let c ← select2 s t
    let l ← libRun ops s
    some (c :: l)
  | .compare3 :: ops, s => do
    let c ← select3 s .dMahalanobis
    let l ← libRun ops s
    some (c :: l)
  | .update :: ops, s => do
    let l ← libRun ops s
    some (gmmUpdates s ++ l)
  | .convolve :: ops, s => do
    let l ← libRun ops s
    some (convCode s :: l)

end Verif.Host
