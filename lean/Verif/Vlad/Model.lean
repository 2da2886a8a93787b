import Verif.Rows
import Mathlib.Algebra.Field.Defs
import Mathlib.Order.Lattice

/-!
# Model of `vl_vlad_encode`

`K` stands for `float` or `double`; rounding is not modelled, and the square root is the parameter `sq`.
-/

namespace Verif.Vlad

variable {K : Type} [Field K] [LinearOrder K]

/-- The bits of `flags`, vl/vlad.h:23-26. -/
structure Flags where
  components : Bool
  root : Bool
  unnormalized : Bool
  mass : Bool

/-- Body of the loop over the data, vl/vlad.c:181-189; the state is `enc` and `clusterMass`. -/
def addDatum (D C : Nat) (data asg : List K) (k i : Nat) (s : List K × K) : Option (List K × K) := do
  let q ← rd asg (i * C + k)
  if q > 0 then do
    let enc ← iter D (fun d enc => do
      let e ← rd enc (k * D + d)
      let x ← rd data (i * D + d)
      wr enc (k * D + d) (e + q * x)) s.1
    pure (enc, s.2 + q)
  else pure s

/-- Subtract the mean, vl/vlad.c:191-202. -/
def center (F : Flags) (D : Nat) (means : List K) (k : Nat) (mass : K) (enc : List K) : Option (List K) :=
  if mass > 0 then
    if F.mass then
      iter D (fun d enc => do
        let e ← rd enc (k * D + d)
        let m ← rd means (k * D + d)
        wr enc (k * D + d) (e / mass - m)) enc
    else
      iter D (fun d enc => do
        let e ← rd enc (k * D + d)
        let m ← rd means (k * D + d)
        wr enc (k * D + d) (e - mass * m)) enc
  else some enc

/-- `z >= 0 ? sqrt(z) : - sqrt(- z)`, vl/vlad.c:207-211. -/
def signedRoot (sq : K → K) (z : K) : K := if z ≥ 0 then sq z else - sq (- z)

/-- vl/vlad.c:205-212 -/
def rootRow (sq : K → K) (D k : Nat) (enc : List K) : Option (List K) :=
  iter D (fun d enc => do
    let z ← rd enc (k * D + d)
    wr enc (k * D + d) (signedRoot sq z)) enc

/-- Divide `enc[off], ..., enc[off+n-1]` by their norm, vl/vlad.c:216-226 and 231-240. -/
def normalize (sq : K → K) (off n : Nat) (enc : List K) : Option (List K) := do
  let s ← iter n (fun d s => do
    let z ← rd enc (off + d)
    pure (s + z * z)) 0
  let m := max (sq s) (1 / 10 ^ 12)
  iter n (fun d enc => do
    let z ← rd enc (off + d)
    wr enc (off + d) (z / m)) enc

/-- Body of the loop over the clusters, vl/vlad.c:180-227. -/
def cluster (F : Flags) (sq : K → K) (D C N : Nat) (means data asg : List K) (k : Nat) (enc : List K) : Option (List K) := do
  let s ← iter N (addDatum D C data asg k) (enc, 0)
  let enc ← center F D means k s.2 s.1
  let enc ← whenB F.root (rootRow sq D k) enc
  whenB F.components (normalize sq (k * D) D) enc

/-- `_vl_vlad_encode`, vl/vlad.c:163-242.  The loop over the clusters runs in parallel; it is modelled as running in the order `order`, an arbitrary one.  (Each iteration only
writes in its own row of `enc`, which the others do not read.)  The block `enc` has exactly `dimension * numClusters` elements; after the `memset` they are all zero. -/
def encode (F : Flags) (sq : K → K) (order : List Nat) (D C N : Nat) (means data asg : List K) : Option (List K) := do
  let enc ← order.foldlM (fun enc k => cluster F sq D C N means data asg k enc) (List.replicate (C * D) 0)
  whenB (!F.unnormalized) (normalize sq 0 (D * C)) enc

end Verif.Vlad
