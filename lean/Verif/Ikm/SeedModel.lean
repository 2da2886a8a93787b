import Verif.Ikm.TrainModel

/-!
# Model of the random order of the data and of random centres

vl/ikmeans_init.tc.
-/

namespace Verif.Ikm

/-- `pair_t`, vl/ikmeans_init.tc:17-21: signed 64-bit integers. -/
structure SeedPair where
  w : Int
  j : Int
  deriving DecidableEq

/-- Conversion to `int`: the low 32 bits, with sign. -/
def toInt (z : Int) : Int := Int.bmod z 4294967296

/-- `cmp_pair`, vl/ikmeans_init.tc:23-31; 64-bit overflow is `none`. -/
def cmpPair (a b : SeedPair) : Option Int :=
  let dw := a.w - b.w
  let dj := a.j - b.j
  if -9223372036854775808 ≤ dw ∧ dw < 9223372036854775808 then
    if toInt dw ≠ 0 then some (toInt dw)
    else if -9223372036854775808 ≤ dj ∧ dj < 9223372036854775808 then some (toInt dj)
    else none
  else none

/-- `pairs[j].w = ((vl_int32) vl_rand_uint32 (rand)) >> 2 ; pairs[j].j = j`, vl/ikmeans_init.tc:131-134, the shift keeping the sign.
`rand` is the sequence of the random numbers. -/
def seedPairs (rand : Nat → UInt32) (N : Nat) : List SeedPair :=
  (List.range N).map fun j => ⟨toInt (rand j).toNat >>> 2, j⟩

/-- The order of the data, `pairs[·].j` after the sort, vl/ikmeans_init.tc:136; `sorted` is what `qsort` leaves. -/
def seedOrder (sorted : List SeedPair) : List Nat := sorted.map fun p => p.j.toNat

/-- `vl_ikm_init_rand`, vl/ikmeans_init.tc:94-110, with the table of `vl_ikm_init_elkan` if `elkan` is set; `gc` and `gi` are what the new
blocks contain. -/
def initRand (elkan : Bool) (rand : Nat → UInt32) (M K : Nat) (gc gi : List Int) : Option (List Int × List Int) := do
  let c ← iter K (fun k c => iter M (fun i c => wr c (k * M + i) (toInt (rand (k * M + i)).toNat)) c) gc
  if elkan then do
    let t ← updateInterDist c M K gi
    some (c, t)
  else some (c, [])

end Verif.Ikm
