import Verif.KdTree.QueryModel

/-!
# Model of the batch interface of kd-trees (vl/kdtree.c)

The OpenMP threads of `vl_kdforest_query_with_array` are modelled by a list of threads, each with the searcher and the neighbour
array it allocates, the queries assigned to it by the `omp for` and the query whose result it is copying; a schedule is the list of
the threads in the order in which they take steps.  A step is a call to `vl_kdforestsearcher_query`, which only changes data of the
thread, or the copy of one neighbour to the output.
Simplifications: the arrays `indexes` and `distances` are modelled as one array of pairs; `numComparisons` is the sum of the
counters of the threads (the additions are in a critical section).
-/

namespace Verif.KdTree

variable {K : Type}

/-- One thread of the parallel region, vl/kdtree.c:884-897. -/
structure Thread (K : Type) where
  searcher : Searcher K
  nbs : List (Neighbor K)
  todo : List Nat
  cur : Option (Nat × Nat)
  comps : Nat

/-- The threads and the output. -/
structure Batch (K : Type) where
  threads : List (Thread K)
  out : List (Nat × Option K)

/-- The conversion `(vl_uint32) neighbors[ni].index`, vl/kdtree.c:908. -/
def cell (y : Neighbor K) : Nat × Option K := ((y.index % 2 ^ 32).toNat, y.distance)

section
variable [Field K] [LinearOrder K]

/-- One step of the thread `t`, vl/kdtree.c:902-932. -/
def threadStep (F : Forest K) (k : Nat) (queries : List K) (t : Nat) (st : Batch K) : Option (Batch K) := do
  let th ← rd st.threads t
  match th.cur with
  | some (qi, ni) =>
    if ni < k then do
      let y ← rd th.nbs ni
      let out ← wr st.out (qi * k + ni) (cell y)
      let threads ← wr st.threads t { th with cur := some (qi, ni + 1) }
      some { threads := threads, out := out }
    else do
      let threads ← wr st.threads t { th with cur := none }
      some { st with threads := threads }
  | none =>
    match th.todo with
    | [] => some st
    | qi :: rest => do
      let q ← AllPairs.slice queries (qi * F.dim : Nat) F.dim
      let r ← query F th.searcher th.nbs k q
      let threads ← wr st.threads t
        { searcher := r.1, nbs := r.2.1, todo := rest, cur := some (qi, 0), comps := th.comps + r.2.2 }
      some { st with threads := threads }

/-- A run under a schedule. -/
def runBatch (F : Forest K) (k : Nat) (queries : List K) : List Nat → Batch K → Option (Batch K)
  | [], st => some st
  | t :: ts, st => do
    let st ← threadStep F k queries t st
    runBatch F k queries ts st

/-- All the threads have reached the end of the parallel region. -/
def Batch.finished (st : Batch K) : Prop := ∀ th ∈ st.threads, th.todo = [] ∧ th.cur = none

/-- The number of comparisons returned, vl/kdtree.c:939. -/
def Batch.total (st : Batch K) : Nat := (st.threads.map Thread.comps).sum

/-- The beginning of the parallel region: `assign` lists the queries assigned to each thread and `blks` the blocks allocated by
the threads, vl/kdtree.c:893-897. -/
def startBatch (F : Forest K) (assign : List (List Nat)) (blks : List (List (SearchState K) × List (Neighbor K)))
    (out : List (Nat × Option K)) : Batch K :=
  { threads := (assign.zip blks).map (fun p => { searcher := newSearcher F p.2.1, nbs := p.2.2, todo := p.1, cur := none, comps := 0 })
    out := out }

/-- A sequence of queries answered by one searcher; each query has its own number of neighbours and output block. -/
def runQueries (F : Forest K) : List (Nat × List K × List (Neighbor K)) → Searcher K → Option (Searcher K × List (List (Neighbor K)))
  | [], S => some (S, [])
  | (k, q, blk) :: l, S => do
    let r ← query F S blk k q
    let r' ← runQueries F l r.1
    some (r'.1, r.2.1 :: r'.2)

end

end Verif.KdTree
