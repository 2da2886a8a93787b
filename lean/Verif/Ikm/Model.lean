import Verif.Loop

/-!
# Model of the integer k-means assignment

vl/ikmeans.c, vl/ikmeans_lloyd.tc, vl/ikmeans_elkan.tc.  Centres, distances and the table of the distances between the
centres are 32-bit signed integers (`vl_ikmacc_t`, vl/ikmeans.h:26): arithmetic is carried out on `Int` and a value out
of range (undefined behaviour in C) is `none`.
-/

namespace Verif.Ikm

/-- `VL_IKMACC_MAX`, vl/ikmeans.h:27. -/
def accMax : Int := 2147483647

/-- The result of a signed 32-bit operation; `none` on overflow. -/
def i32 (z : Int) : Option Int := if -2147483648 ≤ z ∧ z ≤ accMax then some z else none

/-- `delta = a - b ; dist += delta * delta`, e.g. vl/ikmeans.c:200-201. -/
def accStep (a b acc : Int) : Option Int := do
  let delta ← i32 (a - b)
  let sq ← i32 (delta * delta)
  i32 (acc + sq)

/-- Distance loop between the datum at `p` and centre `k`, vl/ikmeans.c:196-202, vl/ikmeans_elkan.tc:339-342. -/
def distLoop (centers : List Int) (data : List UInt8) (M p k : Nat) : Option Int :=
  iter M (fun i acc => do
    let a ← rd data (p + i)
    let b ← rd centers (k * M + i)
    accStep a.toNat b acc) 0

/-- State of the scan over the centres; `best = none` is the value `-1`. -/
structure Scan where
  best : Option Nat
  dist : Int

/-- Body of the loop over the centres, vl/ikmeans.c:195-209. -/
def scanStep (centers : List Int) (data : List UInt8) (M p k : Nat) (s : Scan) : Option Scan := do
  let d ← distLoop centers data M p k
  match s.best with
  | none => some { best := some k, dist := d }
  | some _ => if d < s.dist then some { best := some k, dist := d } else some s

/-- `vl_ikm_push_one`, vl/ikmeans.c:184-212, on the datum at offset `p`; the result is converted to 32 bits, so that `-1`
becomes `2^32-1`. -/
def pushOne (centers : List Int) (data : List UInt8) (M p K : Nat) : Option Nat := do
  let s ← iter K (scanStep centers data M p) { best := none, dist := 0 }
  match s.best with
  | none => some 4294967295
  | some k => some (k % 4294967296)

/-- `vl_ikm_push_lloyd`, vl/ikmeans_lloyd.tc:124-131. -/
def pushLloyd (centers : List Int) (asgn : List Nat) (data : List UInt8) (M K N : Nat) : Option (List Nat) :=
  iter N (fun j asgn => do
    let k ← pushOne centers data M (j * M) K
    wr asgn j k) asgn

/-- Distance loop between two centres, vl/ikmeans_elkan.tc:28-33. -/
def centerDist (centers : List Int) (M k kp : Nat) : Option Int :=
  if k ≠ kp then
    iter M (fun i acc => do
      let a ← rd centers (kp * M + i)
      let b ← rd centers (k * M + i)
      accStep a b acc) 0
  else some 0

/-- `vl_ikm_elkan_update_inter_dist`, vl/ikmeans_elkan.tc:20-38. -/
def updateInterDist (centers : List Int) (M K : Nat) (inter : List Int) : Option (List Int) :=
  iter K (fun k inter =>
    iter K (fun kp inter => do
      let d ← centerDist centers M k kp
      let inter ← wr inter (kp * K + k) (d >>> 2)
      wr inter (k * K + kp) (d >>> 2)) inter) inter

/-- Body of the loop over the centres, vl/ikmeans_elkan.tc:336-350. -/
def elkanStep (centers inter : List Int) (data : List UInt8) (M K p c : Nat) (s : Nat × Int) : Option (Nat × Int) := do
  let h ← rd inter (K * s.1 + c)
  if h < s.2 then do
    let d ← distLoop centers data M p c
    if d < s.2 then some (c, d) else some s
  else some s

/-- `vl_ikm_push_elkan`, vl/ikmeans_elkan.tc:323-353. -/
def pushElkan (centers inter : List Int) (asgn : List Nat) (data : List UInt8) (M K N : Nat) : Option (List Nat) :=
  iter N (fun x asgn => do
    let s ← iter K (elkanStep centers inter data M K (x * M)) (0, accMax)
    wr asgn x (s.1 % 4294967296)) asgn

end Verif.Ikm
