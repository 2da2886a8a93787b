import Verif.Kmeans.Model
import Verif.Random.ShuffleModel

/-!
# Seeding of k-means: `vl_kmeans_init_centers_with_rand_data` and `vl_kmeans_init_centers_plus_plus`

The wrappers (vl/kmeans.c:1841-1904) reset the object and dispatch on the data type; the object and its blocks are in
`Verif.Kmeans.ClusterModel`.  Exact arithmetic; the comparison functions are the `l^1` and the squared Euclidean ones.
-/

namespace Verif.Kmeans

variable {K ρ : Type} [Field K] [LinearOrder K]

/-! ## Random data points -/

/-- Comparison of a point with the first `k` centres, vl/kmeans.c:563-571.  Simplification: each distance is tested as it is
computed, instead of after the loop from a buffer of `numCenters` distances. -/
def duplicate (m : Metric) (dim : Nat) (v cs : List K) (k : Nat) : Option Bool :=
  iter k (fun j b => do
    let c ← AllPairs.slice cs ((j * dim : Nat) : Int) dim
    some (b || decide (m.dist v c = 0))) false

/-- The loop over the permutation from position `i` with `k` centres collected so far, vl/kmeans.c:557-580.  The first argument
bounds the number of iterations; `none` when it is exhausted, and when `perm[i]` is out of bounds.  Simplification:
`numData - i` does not wrap, because `perm[i]` has been read out of bounds before `i` exceeds `numData`. -/
def randLoop (m : Metric) (dim nC N : Nat) (data : List K) (perm : List Nat) : Nat → Nat → Nat → List K → Option (List K)
  | 0, _, _, _ => none
  | fuel + 1, i, k, cs =>
    if k < nC then do
      let x ← rd perm i
      let v ← AllPairs.slice data ((x * dim : Nat) : Int) dim
      let dup ← if nC - k < N - i then duplicate m dim v cs k else some false
      if dup then randLoop m dim nC N data perm fuel (i + 1) k cs
      else do
        let cs ← copyPoint dim data x k cs
        randLoop m dim nC N data perm fuel (i + 1) (k + 1) cs
    else some cs

/-- `_vl_kmeans_init_centers_with_rand_data`, vl/kmeans.c:527-582; `g` is what the block of the centres contains when
allocated. -/
def randSeed (m : Metric) (dim nC N : Nat) (data g : List K) (uindex : ρ → Nat → Option (Nat × ρ)) (r : ρ) :
    Option (List K × ρ) := do
  let p ← Random.shuffle uindex r (List.range N) N
  let cs ← randLoop m dim nC N data p.1 (N + 1) 0 0 g
  some (cs, p.2)

/-! ## k-means++ -/

/-- `VL_MIN(minDistances[x], distances[x])`, where `none` is infinite. -/
def ppMin (a : Option K) (d : K) : K :=
  match a with
  | none => d
  | some a => if a < d then a else d

/-- Distances of the points to the last centre, update of the least distances and of the energy, vl/kmeans.c:624-635.
Simplification: each distance is used as it is computed, instead of after the loop from a buffer. -/
def ppUpdate (m : Metric) (dim N : Nat) (data : List K) (v : List K) (md : List (Option K)) : Option (List (Option K) × K) :=
  iter N (fun x s => do
    let w ← AllPairs.slice data ((x * dim : Nat) : Int) dim
    let a ← rd s.1 x
    let d := ppMin a (m.dist v w)
    let md ← wr s.1 x (some d)
    some (md, s.2 + d)) (md, 0)

/-- Selection of the next point, vl/kmeans.c:637-640, from point `x`, with `n` iterations left; an infinite entry is not
expected here. -/
def ppSelect (md : List (Option K)) (thr : K) : Nat → Nat → K → Option Nat
  | 0, x, _ => some x
  | n + 1, x, acc => do
    let a ← rd md x
    match a with
    | none => none
    | some a => if acc + a ≥ thr then some x else ppSelect md thr n (x + 1) (acc + a)

/-- The loop of the seeding, vl/kmeans.c:616-641, with `n` centres left after this one; `real1` is the generator of thresholds,
called before the last break too. -/
def ppLoop (m : Metric) (dim N : Nat) (data : List K) (real1 : ρ → K × ρ) :
    Nat → Nat → Nat → List K → List (Option K) → ρ → Option (List K × ρ)
  | 0, c, x, cs, _, r => do
    let cs ← copyPoint dim data x c cs
    some (cs, (real1 r).2)
  | n + 1, c, x, cs, md, r => do
    let cs ← copyPoint dim data x c cs
    let v ← AllPairs.slice cs ((c * dim : Nat) : Int) dim
    let s ← ppUpdate m dim N data v md
    let x ← ppSelect s.1 ((real1 r).1 * s.2) (N - 1) 0 0
    ppLoop m dim N data real1 n (c + 1) x cs s.1 (real1 r).2

/-- `_vl_kmeans_init_centers_plus_plus`, vl/kmeans.c:588-645.  No centres: `c == numCenters` never holds, the loop writes
beyond the block. -/
def ppSeed (m : Metric) (dim nC N : Nat) (data g : List K) (u : ρ → Nat → Nat × ρ) (real1 : ρ → K × ρ) (r : ρ) :
    Option (List K × ρ) :=
  match nC with
  | 0 => none
  | n + 1 => ppLoop m dim N data real1 n 0 (u r N).1 g (List.replicate N none) (u r N).2

end Verif.Kmeans
