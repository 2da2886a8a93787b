import Verif.Kmeans.Model
import Verif.KdTree.BuildModel

/-!
# Model of k-means with approximate nearest neighbours (vl/kmeans.c)

As in `Verif.Kmeans.Model`, and in addition: the kd-tree forest of the centres is the one of `Verif.KdTree`.  What the construction of the
forest depends on (generator, memory, `qsort`) is a parameter `build`, and the order in which the threads process the points is a
parameter `order`: a list of pairs of a thread and a point.  The iterations of the parallel loop only share data that they do not
write, so that an interleaving is an order of the iterations.
-/

namespace Verif.Kmeans

open Verif.KdTree (Forest Searcher Neighbor Tree SearchState)

variable {K ρ : Type} [Field K] [LinearOrder K]

/-- The private variables `searcher` and `neighbor` of a thread, vl/kmeans.c:733-735. -/
structure AnnThread (K : Type) where
  searcher : Searcher K
  nb : List (Neighbor K)

/-- Threads, assignments and distances; `dists = none` is the null pointer. -/
structure Ann (K : Type) where
  threads : List (AnnThread K)
  asgn : List Nat
  dists : Option (List K)

/-- The forest, vl/kmeans.c:723-726 with `vl_kdforest_new`, vl/kdtree.c:332-370: `build` constructs the trees of the centres and returns the number of nodes. -/
def annForest (build : ρ → List K → Option ((List (Tree K) × Nat) × ρ)) (m : Metric) (dim nC numTrees maxComparisons : Nat) (centers : List K) (rng : ρ) : Option (Forest K × ρ) := do
  assert' (dim ≥ 1)
  assert' (numTrees ≥ 1)
  let r ← build rng centers
  some ({ dim := dim, data := centers, numData := nC, trees := r.1.1, distFn := m.dist, maxComparisons := maxComparisons, maxNumNodes := r.1.2 }, r.2)

/-- `vl_kdforest_build` on the centres with the median, vl/kmeans.c:725-726; `rand` is the stream of the generator, which is read from a position on, and `blks`, `heapArr` are the memory. -/
def annBuild (rand : Nat → Nat) (sort : List (KdTree.Entry K) → List (KdTree.Entry K)) (dim nC : Nat) (blks : List (List (KdTree.Node K) × List (KdTree.Entry K))) (heapArr : List (KdTree.SplitDim K))
    (pos : Nat) (centers : List K) : Option ((List (Tree K) × Nat) × Nat) := do
  let r ← KdTree.forestBuild { dim := dim, data := centers, method := .median, choose := KdTree.chooseSplit dim centers rand (min blks.length 5), sort := sort } nC blks { pos := pos, heapArr := heapArr }
  some (r.2, r.1.pos)

/-- `prevDist > neighbor.distance`, where the latter may be NaN. -/
def worse (prev : K) : Option K → Bool
  | none => false
  | some d => decide (d < prev)

/-- The distance of the neighbour as a number; NaN is not modelled (`none`). -/
def annStore (asgn : List Nat) (dists : List K) (x : Nat) (y : Neighbor K) : Option (List Nat × List K) := do
  let d ← y.distance
  let dists ← wr dists x d
  let asgn ← wr asgn x (y.index % 2 ^ 32).toNat
  some (asgn, dists)

/-- What an iteration does with the neighbour found, vl/kmeans.c:749-768. -/
def annAssign (m : Metric) (dim : Nat) (centers v : List K) (update : Bool) (x : Nat) (y : Neighbor K) (asgn : List Nat) : Option (List K) → Option (List Nat × Option (List K))
  | none => do
    let asgn ← wr asgn x (y.index % 2 ^ 32).toNat
    some (asgn, none)
  | some dists =>
    if update then do
      let a ← rd asgn x
      let w ← AllPairs.slice centers ((a * dim : Nat) : Int) dim
      if worse (m.dist v w) y.distance then do
        let r ← annStore asgn dists x y
        some (r.1, some r.2)
      else do
        let dists ← wr dists x (m.dist v w)
        some (asgn, some dists)
    else do
      let r ← annStore asgn dists x y
      some (r.1, some r.2)

/-- An iteration of the loop over the points, vl/kmeans.c:746-769, for point `p.2` by thread `p.1`. -/
def annStep (F : Forest K) (m : Metric) (dim : Nat) (centers data : List K) (update : Bool) (s : Ann K) (p : Nat × Nat) : Option (Ann K) := do
  let th ← rd s.threads p.1
  let v ← AllPairs.slice data ((p.2 * dim : Nat) : Int) dim
  let r ← KdTree.query F th.searcher th.nb 1 v
  let threads ← wr s.threads p.1 { searcher := r.1, nb := r.2.1 }
  let y ← rd r.2.1 0
  let o ← annAssign m dim centers v update p.2 y s.asgn s.dists
  some { threads := threads, asgn := o.1, dists := o.2 }

/-- The threads at the beginning, vl/kmeans.c:733-741; a thread has a new searcher and an undefined neighbour: the contents are those of `blks`. -/
def annThreads (F : Forest K) (blks : List (List (SearchState K) × Neighbor K)) : List (AnnThread K) :=
  blks.map fun b => { searcher := KdTree.newSearcher F (b.1.take F.maxNumNodes ++ List.replicate (F.maxNumNodes - b.1.length) { tree := 0, nodeIndex := 0, lowerBound := 0 }), nb := [b.2] }

/-- `_vl_kmeans_quantize_ann`, vl/kmeans.c:709-772. -/
def quantizeAnn (build : ρ → List K → Option ((List (Tree K) × Nat) × ρ)) (m : Metric) (dim nC numTrees maxComparisons : Nat) (centers data : List K) (update : Bool)
    (blks : List (List (SearchState K) × Neighbor K)) (order : List (Nat × Nat)) (asgn : List Nat) (dists : Option (List K)) (rng : ρ) : Option ((List Nat × Option (List K)) × ρ) := do
  let f ← annForest build m dim nC numTrees maxComparisons centers rng
  let s ← order.foldlM (annStep f.1 m dim centers data update) { threads := annThreads f.1 blks, asgn := asgn, dists := dists }
  some ((s.asgn, s.dists), f.2)

/-- What the run of the parallel regions depends on: memory of the threads and order of the iterations, for each call. -/
structure AnnEnv (K ρ : Type) where
  build : Nat → ρ → List K → Option ((List (Tree K) × Nat) × ρ)
  blks : Nat → List (List (SearchState K) × Neighbor K)
  order : Nat → List (Nat × Nat)

/-- State of the refinement. -/
structure AState (K ρ : Type) where
  centers : List K
  asgn : List Nat
  dists : List K
  rng : ρ

/-- The update of the centres, vl/kmeans.c:1069-1131, which is that of Lloyd. -/
def annUpdate (u : ρ → Nat → Nat × ρ) (m : Metric) (dim nC N : Nat) (data : List K) (perms : List (List Nat)) (s : AState K ρ) : Option (AState K ρ) := do
  let r ← lloydUpdate u m dim nC N data perms { centers := s.centers, q := { asgn := s.asgn, dists := s.dists, tmp := [] }, rng := s.rng }
  some { s with centers := r.centers, rng := r.rng }

/-- The loop of `_vl_kmeans_refine_centers_ann`, vl/kmeans.c:1032-1136, from iteration `it` on; `rem` is the number of iterations left.  Returns the energies, the last one and the state. -/
def annLoop (env : AnnEnv K ρ) (u : ρ → Nat → Nat × ρ) (m : Metric) (dim nC N numTrees maxComparisons : Nat) (data : List K) (perms : List (List Nat)) (minVar : K) :
    Nat → Nat → Option K → Option K → AState K ρ → Option (List K × K × AState K ρ)
  | it, rem, init, prev, s => do
    let q ← quantizeAnn (env.build it) m dim nC numTrees maxComparisons s.centers data (decide (it > 0)) (env.blks it) (env.order it) s.asgn (some s.dists) s.rng
    let d ← q.1.2
    let s := { s with asgn := q.1.1, dists := d, rng := q.2 }
    let e ← energy N d
    match rem with
    | 0 => some ([e], e, s)
    | rem + 1 =>
      if lloydStop minVar init prev e then some ([e], e, s)
      else do
        let s ← annUpdate u m dim nC N data perms s
        let r ← annLoop env u m dim nC N numTrees maxComparisons data perms minVar (it + 1) rem (init.or (some e)) (some e) s
        some (e :: r.1, r.2)

/-- `_vl_kmeans_refine_centers_ann`, vl/kmeans.c:1003-1154. -/
def ann (env : AnnEnv K ρ) (u : ρ → Nat → Nat × ρ) (m : Metric) (dim nC N numTrees maxComparisons : Nat) (data : List K) (minVar : K) (maxIt : Nat) (s : AState K ρ) :
    Option (List K × K × AState K ρ) := do
  let perms ← (match m with | .l1 => sortData data dim N dim | .l2 => some [])
  annLoop env u m dim nC N numTrees maxComparisons data perms minVar 0 maxIt none none s

end Verif.Kmeans
