import Verif.Mathop.CompareModel

/-!
# Model of the accelerated comparisons of vectors (vl/mathop_sse2.c, vl/mathop_avx.c)

A register is the list of its lanes.  A block has an address in bytes, so that the alignment tests are those of the code
and a load from a badly aligned address is visible as `none`.  Rounding is not modelled.  In every function of these files
the loop for aligned data and the loop for other data only differ by the instruction that loads the registers, so the model has one
loop with the load as a parameter.  Pointers are indexes; the pointer before the block that `X_end - VSIZE + 1` forms for
short vectors is a negative index.
-/

namespace Verif.Mathop

variable {K : Type} [Field K] [LinearOrder K]

/-- `FLT` -/
inductive Flt where
  | float | double

/-- The instruction sets. -/
inductive Isa where
  | sse2 | avx

/-- `sizeof(T)` -/
def Flt.size : Flt → Nat
  | .float => 4
  | .double => 8

/-- `VSIZE` and `VSIZEavx`, vl/float.th:48-54 and vl/float.th:85-91. -/
def lanes : Isa → Flt → Nat
  | .sse2, .float => 4
  | .sse2, .double => 2
  | .avx, .float => 8
  | .avx, .double => 4

/-- The multiple required of the address of aligned data, 16 or 32 bytes. -/
def alignment : Isa → Nat
  | .sse2 => 16
  | .avx => 32

/-- A block of numbers with its address. -/
structure Blk (K : Type) where
  addr : Nat
  data : List K

/-- `VALIGNED` and `VALIGNEDavx`, vl/float.th:95 and vl/float.th:58. -/
def aligned (I : Isa) (X : Blk K) : Bool := X.addr % alignment I = 0

/-- `VLDU(X + i)`: a load that accepts any address. -/
def loadU (V : Nat) (X : Blk K) (i : Nat) : Option (List K) := (List.range V).mapM (fun k => rd X.data (i + k))

/-- `*(VTYPE*)(X + i)`: the address has to be aligned. -/
def loadA (I : Isa) (T : Flt) (X : Blk K) (i : Nat) : Option (List K) :=
  if (X.addr + T.size * i) % alignment I = 0 then loadU (lanes I T) X i else none

/-- The load of the loop that is selected by `dataAligned`. -/
def load (I : Isa) (T : Flt) (dataAligned : Bool) (X : Blk K) (i : Nat) : Option (List K) :=
  if dataAligned then loadA I T X i else loadU (lanes I T) X i

/-- `VADD` -/
def vadd (a b : List K) : List K := List.zipWith (fun x y => x + y) a b

/-- `VSUB` -/
def vsub (a b : List K) : List K := List.zipWith (fun x y => x - y) a b

/-- `VMUL` -/
def vmul (a b : List K) : List K := List.zipWith (fun x y => x * y) a b

/-- `VANDN` with the sign bit: the absolute value. -/
def vabs (a : List K) : List K := a.map (fun x => |x|)

/-- `VDIV`; a lane that is a NaN or an infinity is `none`. -/
def vdiv (a b : List K) : List (Option K) := List.zipWith quot a b

/-- `VAND` with `VNEQ(denom, 0)`: the lanes whose denominator is zero become zero. -/
def vmask (r : List (Option K)) (denom : List K) : List (Option K) := List.zipWith (fun r d => if d ≠ 0 then r else some 0) r denom

/-- `while (X < end) { body ; X += V ; }` from the index `i`; the result has the index at the end. -/
def vloop {σ : Type} (vend : Int) (V : Nat) (f : Nat → σ → Option σ) : Nat → Nat → σ → Option (Nat × σ)
  | 0, i, s => if (i : Int) < vend then none else some (i, s)
  | fuel + 1, i, s => if (i : Int) < vend then (f i s).bind (vloop vend V f fuel (i + V)) else some (i, s)

/-- `VSHU(x, x, ...)` and the permutations of AVX: the lanes of the result are the lanes `idx` of the register. -/
def shuffle (x : List K) (idx : List Nat) : Option (List K) := idx.mapM (fun k => rd x k)

/-- `_mm_hadd_p` and `_mm256_hadd_p` of a register with itself: sums of neighbours in each half of 128 bits, given by the lanes `idx`. -/
def hadd (x : List K) (idx : List (Nat × Nat)) : Option (List K) := idx.mapM (fun p => do
  let a ← rd x p.1
  let b ← rd x p.2
  some (a + b))

/-- `_vl_vhsum_sse2_{f,d}`, vl/mathop_sse2.c:43-72, and `_vl_vhsum_avx_{f,d}`, vl/mathop_avx.c:43-66. -/
def hsum : Isa → Flt → List K → Option K
  | .sse2, .float, x => do
    let s ← shuffle x [2, 3, 0, 1]
    let sum := vadd x s
    let s ← shuffle sum [1, 0, 3, 2]
    let x := vadd sum s
    rd x 0
  | .sse2, .double, x => do
    let s ← shuffle x [1, 0]
    let x := vadd x s
    rd x 0
  | .avx, .float, x => do
    let h ← hadd x [(0, 1), (2, 3), (0, 1), (2, 3), (4, 5), (6, 7), (4, 5), (6, 7)]
    let s ← shuffle h [4, 5, 6, 7, 0, 1, 2, 3]
    let h := vadd h s
    let r ← hadd h [(0, 1), (2, 3), (0, 1), (2, 3)]
    rd r 0
  | .avx, .double, x => do
    let s ← shuffle x [2, 3, 0, 1]
    let h := vadd x s
    let r ← hadd h [(0, 1), (0, 1)]
    rd r 0

/-- `_vl_distance_l2_sse2_{f,d}`, vl/mathop_sse2.c:117-159, and `_vl_distance_l2_avx_{f,d}`, vl/mathop_avx.c:68-111. -/
def distL2V (I : Isa) (T : Flt) (n : Nat) (X Y : Blk K) : Option K := do
  let V := lanes I T
  let dataAligned := aligned I X && aligned I Y
  let r ← vloop ((n : Int) - V + 1) V (fun i vacc => do
    let a ← load I T dataAligned X i
    let b ← load I T dataAligned Y i
    let delta := vsub a b
    let delta2 := vmul delta delta
    some (vadd vacc delta2)) n 0 (List.replicate V 0)
  let acc ← hsum I T r.2
  let r ← vloop n 1 (fun i acc => do
    let a ← rd X.data i
    let b ← rd Y.data i
    let delta := a - b
    some (acc + delta * delta)) n r.1 acc
  some r.2

/-- `_vl_distance_mahalanobis_sq_sse2_{f,d}`, vl/mathop_sse2.c:161-217, and `_vl_distance_mahalanobis_sq_avx_{f,d}`, vl/mathop_avx.c:113-169. -/
def mahalanobisV (I : Isa) (T : Flt) (n : Nat) (X MU S : Blk K) : Option K := do
  let V := lanes I T
  let dataAligned := aligned I X && aligned I MU && aligned I S
  let r ← vloop ((n : Int) - V + 1) V (fun i vacc => do
    let a ← load I T dataAligned X i
    let b ← load I T dataAligned MU i
    let c ← load I T dataAligned S i
    let delta := vsub a b
    let delta2 := vmul delta delta
    let delta2div := vmul delta2 c
    some (vadd vacc delta2div)) n 0 (List.replicate V 0)
  let acc ← hsum I T r.2
  let r ← vloop n 1 (fun i acc => do
    let a ← rd X.data i
    let b ← rd MU.data i
    let c ← rd S.data i
    let delta := a - b
    some (acc + delta * delta * c)) n r.1 acc
  some r.2

/-- `_vl_distance_l1_sse2_{f,d}`, vl/mathop_sse2.c:221-262; the vector loop ends one step earlier than in the other functions. -/
def distL1V (T : Flt) (n : Nat) (X Y : Blk K) : Option K := do
  let V := lanes .sse2 T
  let dataAligned := aligned .sse2 X && aligned .sse2 Y
  let r ← vloop ((n : Int) - V) V (fun i vacc => do
    let a ← load .sse2 T dataAligned X i
    let b ← load .sse2 T dataAligned Y i
    let delta := vsub a b
    some (vadd vacc (vabs delta))) n 0 (List.replicate V 0)
  let acc ← hsum .sse2 T r.2
  let r ← vloop n 1 (fun i acc => do
    let a ← rd X.data i
    let b ← rd Y.data i
    let delta := a - b
    some (acc + max delta (-delta))) n r.1 acc
  some r.2

/-- `_vl_distance_chi2_sse2_{f,d}`, vl/mathop_sse2.c:264-316. -/
def distChi2V (T : Flt) (n : Nat) (X Y : Blk K) : Option K := do
  let V := lanes .sse2 T
  let dataAligned := aligned .sse2 X && aligned .sse2 Y
  let r ← vloop ((n : Int) - V) V (fun i vacc => do
    let a ← load .sse2 T dataAligned X i
    let b ← load .sse2 T dataAligned Y i
    let delta := vsub a b
    let denom := vadd a b
    let numer := vmul delta delta
    let ratio := vdiv numer denom
    let ratio ← (vmask ratio denom).mapM (fun r => r)
    some (vadd vacc ratio)) n 0 (List.replicate V 0)
  let acc ← hsum .sse2 T r.2
  let r ← vloop n 1 (fun i acc => do
    let a ← rd X.data i
    let b ← rd Y.data i
    let delta := a - b
    let denom := a + b
    let numer := delta * delta
    if denom ≠ 0 then (quot numer denom).map (fun ratio => acc + ratio) else some acc) n r.1 acc
  some r.2

/-- `_vl_kernel_l2_sse2_{f,d}`, vl/mathop_sse2.c:319-355; `_vl_dot_sse2_{f,d}`, vl/mathop_sse2.c:76-115, has the same text. -/
def kernL2V (T : Flt) (n : Nat) (X Y : Blk K) : Option K := do
  let V := lanes .sse2 T
  let dataAligned := aligned .sse2 X && aligned .sse2 Y
  let r ← vloop ((n : Int) - V + 1) V (fun i vacc => do
    let a ← load .sse2 T dataAligned X i
    let b ← load .sse2 T dataAligned Y i
    some (vadd vacc (vmul a b))) n 0 (List.replicate V 0)
  let acc ← hsum .sse2 T r.2
  let r ← vloop n 1 (fun i acc => do
    let a ← rd X.data i
    let b ← rd Y.data i
    some (acc + a * b)) n r.1 acc
  some r.2

/-- `_vl_kernel_l1_sse2_{f,d}`, vl/mathop_sse2.c:357-407. -/
def kernL1V (T : Flt) (n : Nat) (X Y : Blk K) : Option K := do
  let V := lanes .sse2 T
  let dataAligned := aligned .sse2 X && aligned .sse2 Y
  let r ← vloop ((n : Int) - V + 1) V (fun i vacc => do
    let a ← load .sse2 T dataAligned X i
    let b ← load .sse2 T dataAligned Y i
    let sum := vadd (vabs a) (vabs b)
    let diff := vsub a b
    some (vadd vacc (vsub sum (vabs diff)))) n 0 (List.replicate V 0)
  let acc ← hsum .sse2 T r.2
  let r ← vloop n 1 (fun i acc => do
    let a ← rd X.data i
    let b ← rd Y.data i
    some (acc + (|a| + |b| - |a - b|))) n r.1 acc
  some (r.2 / 2)

/-- `_vl_kernel_chi2_sse2_{f,d}`, vl/mathop_sse2.c:409-457. -/
def kernChi2V (T : Flt) (n : Nat) (X Y : Blk K) : Option K := do
  let V := lanes .sse2 T
  let dataAligned := aligned .sse2 X && aligned .sse2 Y
  let r ← vloop ((n : Int) - V) V (fun i vacc => do
    let a ← load .sse2 T dataAligned X i
    let b ← load .sse2 T dataAligned Y i
    let denom := vadd a b
    let numer := vmul a b
    let ratio := vdiv numer denom
    let ratio ← (vmask ratio denom).mapM (fun r => r)
    some (vadd vacc ratio)) n 0 (List.replicate V 0)
  let acc ← hsum .sse2 T r.2
  let r ← vloop n 1 (fun i acc => do
    let a ← rd X.data i
    let b ← rd Y.data i
    let denom := a + b
    if denom ≠ 0 then (quot (a * b) denom).map (fun ratio => acc + ratio) else some acc) n r.1 acc
  some (2 * r.2)

/-- What the processor has and what the user enabled, vl/mathop.c:490-513. -/
structure Cpu where
  simdEnabled : Bool
  hasSse2 : Bool
  hasAvx : Bool

/-- `vl_get_vector_comparison_function_{f,d}`, vl/mathop.c:472-516, and a call of the function that it returns. -/
def dispatch (M : Libm K) (cpu : Cpu) (T : Flt) (c : Cmp) (n : Nat) (X Y : Blk K) : Option K :=
  let function := comparison M c n X.data Y.data
  let function := if cpu.hasSse2 && cpu.simdEnabled then
      match c with
      | .distL2 => distL2V .sse2 T n X Y
      | .distL1 => distL1V T n X Y
      | .distChi2 => distChi2V T n X Y
      | .kernL2 => kernL2V T n X Y
      | .kernL1 => kernL1V T n X Y
      | .kernChi2 => kernChi2V T n X Y
      | _ => function
    else function
  if cpu.hasAvx && cpu.simdEnabled then
    match c with
    | .distL2 => distL2V .avx T n X Y
    | _ => function
  else function

/-- `vl_get_vector_3_comparison_function_{f,d}`, vl/mathop.c:520-550, and a call of the function that it returns. -/
def dispatch3 (cpu : Cpu) (T : Flt) (n : Nat) (X MU S : Blk K) : Option K :=
  let function := mahalanobis n X.data MU.data S.data
  let function := if cpu.hasSse2 && cpu.simdEnabled then mahalanobisV .sse2 T n X MU S else function
  if cpu.hasAvx && cpu.simdEnabled then mahalanobisV .avx T n X MU S else function

/-- `VST2U(X + i, v)`: stores the lanes. -/
def storeU (X : Blk K) (i : Nat) (v : List K) : Option (Blk K) := do
  let data ← iter v.length (fun k mem => do
    let a ← rd v k
    wr mem (i + k) a) X.data
  some { X with data := data }

/-- `*(VTYPE*)(X + i) = v`, for an aligned address. -/
def storeA (I : Isa) (T : Flt) (X : Blk K) (i : Nat) (v : List K) : Option (Blk K) :=
  if (X.addr + T.size * i) % alignment I = 0 then storeU X i v else none

/-- The store of the loop that is selected by `dataAligned`. -/
def store (I : Isa) (T : Flt) (dataAligned : Bool) (X : Blk K) (i : Nat) (v : List K) : Option (Blk K) :=
  if dataAligned then storeA I T X i v else storeU X i v

/-- `_vl_weighted_sigma_sse2_{f,d}`, vl/mathop_sse2.c:459-514, and `_vl_weighted_sigma_avx_{f,d}`, vl/mathop_avx.c:216-270; the blocks do not overlap. -/
def weightedSigmaV (I : Isa) (T : Flt) (n : Nat) (S X Y : Blk K) (W : K) : Option (Blk K) := do
  let V := lanes I T
  let dataAligned := aligned I X && aligned I Y && aligned I S
  let w := List.replicate V W
  let r ← vloop ((n : Int) - V + 1) V (fun i S => do
    let a ← load I T dataAligned X i
    let b ← load I T dataAligned Y i
    let s ← load I T dataAligned S i
    let delta := vsub a b
    let delta2 := vmul delta delta
    let delta2w := vmul delta2 w
    let sigmaStore := vadd s delta2w
    store I T dataAligned S i sigmaStore) n 0 S
  let r ← vloop n 1 (fun i (S : Blk K) => do
    let a ← rd X.data i
    let b ← rd Y.data i
    let delta := a - b
    let s ← rd S.data i
    let data ← wr S.data i (s + delta * delta * W)
    some { S with data := data }) n r.1 r.2
  some r.2

/-- `_vl_weighted_mean_sse2_{f,d}`, vl/mathop_sse2.c:516-559, and `_vl_weighted_mean_avx_{f,d}`, vl/mathop_avx.c:171-214; the blocks do not overlap. -/
def weightedMeanV (I : Isa) (T : Flt) (n : Nat) (MU X : Blk K) (W : K) : Option (Blk K) := do
  let V := lanes I T
  let dataAligned := aligned I X && aligned I MU
  let w := List.replicate V W
  let r ← vloop ((n : Int) - V + 1) V (fun i MU => do
    let a ← load I T dataAligned X i
    let mu ← load I T dataAligned MU i
    let aw := vmul a w
    let meanStore := vadd aw mu
    store I T dataAligned MU i meanStore) n 0 MU
  let r ← vloop n 1 (fun i (MU : Blk K) => do
    let a ← rd X.data i
    let mu ← rd MU.data i
    let data ← wr MU.data i (mu + a * W)
    some { MU with data := data }) n r.1 r.2
  some r.2

end Verif.Mathop
