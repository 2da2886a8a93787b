import Verif.KdTree.BuildModel
import Verif.AllPairs.Model

/-!
# Model of kd-tree queries (vl/kdtree.c, vl/kdtree.h)

Real numbers are elements of a linearly ordered field; rounding is not modelled.  The counters `searchNumRecursions` and
`searchNumSimplifications` are not modelled.  `searchId` does not wrap around.
-/

namespace Verif.KdTree

variable {K : Type}

/-- The part of `VlKDForest` used by queries, vl/kdtree.h:84-112: dimension, data, trees, distance function,
`searchMaxNumComparisons` (zero: unlimited) and `maxNumNodes`. -/
structure Forest (K : Type) where
  dim : Nat
  data : List K
  numData : Nat
  trees : List (Tree K)
  distFn : List K → List K → K
  maxComparisons : Nat
  maxNumNodes : Nat

/-- `VlKDForestSearchState`, vl/kdtree.h:74-79; the tree is given by its index. -/
structure SearchState (K : Type) where
  tree : Nat
  nodeIndex : Nat
  lowerBound : K
deriving DecidableEq

/-- `VlKDForestNeighbor`, vl/kdtree.h:60-63; a distance `none` is NaN. -/
structure Neighbor (K : Type) where
  distance : Option K
  index : Int
deriving DecidableEq

/-- Working state of a query: search heap, heap of neighbours with the number of neighbours, `searchIdBook`,
`searchNumComparisons`. -/
structure QState (K : Type) where
  heap : Heap.State (SearchState K)
  nb : Heap.State (Neighbor K)
  book : List Nat
  numComparisons : Nat

/-- `VlKDForestSearcher`, vl/kdtree.h:117-135, between queries. -/
structure Searcher (K : Type) where
  heapArray : List (SearchState K)
  book : List Nat
  searchId : Nat

section
variable [Field K] [LinearOrder K]

/-- `vl_distance_l2`: `acc += delta * delta` over the coordinates, vl/mathop.c:296-307. -/
def distL2 (x y : List K) : K := (x.zip y).foldl (fun acc p => acc + (p.1 - p.2) * (p.1 - p.2)) 0

/-- `vl_distance_l1`: `acc += |delta|`, vl/mathop.c:309-320. -/
def distL1 (x y : List K) : K := (x.zip y).foldl (fun acc p => acc + max (p.1 - p.2) (-(p.1 - p.2))) 0

/-- Comparison of the search heap, vl/kdtree.c:99-102. -/
def cmpSearch (x y : SearchState K) : Int :=
  if x.lowerBound < y.lowerBound then -1 else if y.lowerBound < x.lowerBound then 1 else 0

/-- Comparison of the heap of neighbours (largest distance first), vl/kdtree.c:109-112.  Only entries with a distance are ever
compared. -/
def cmpNeighbor (x y : Neighbor K) : Int :=
  if y.distance.getD 0 < x.distance.getD 0 then -1 else if x.distance.getD 0 < y.distance.getD 0 then 1 else 0

/-- `a > b` where `a` may be NaN. -/
def gtNan (a : Option K) (b : K) : Bool := match a with
  | none => false
  | some a => decide (b < a)

/-- `a < b` where `a` may be NaN. -/
def ltNan (a : Option K) (b : K) : Bool := match a with
  | none => false
  | some a => decide (a < b)

/-- Add a data point to the neighbours, vl/kdtree.c:657-670. -/
def addNeighbor (k : Nat) (di : Nat) (dist : K) (nb : Heap.State (Neighbor K)) : Option (Heap.State (Neighbor K)) :=
  if nb.size < k then Heap.step cmpNeighbor nb (.push { index := di, distance := some dist })
  else do
    let largest ← rd nb.arr 0
    if gtNan largest.distance dist then Heap.step cmpNeighbor nb (.update 0 { index := di, distance := some dist }) else some nb

/-- Body of the loop over the points of a leaf, vl/kdtree.c:625-671; when the number of comparisons is exhausted, the remaining
iterations do nothing (the C loop ends). -/
def leafStep (F : Forest K) (id : Nat) (q : List K) (k : Nat) (idx : List (Entry K)) (b i : Nat) (s : QState K) : Option (QState K) :=
  if F.maxComparisons = 0 ∨ s.numComparisons < F.maxComparisons then do
    let en ← rd idx (b + i)
    let di := en.index
    let seen ← rd s.book di
    if seen = id then some s
    else do
      let book ← wr s.book di id
      let x ← AllPairs.slice F.data (di * F.dim : Nat) F.dim
      let nb ← addNeighbor k di (F.distFn q x) s.nb
      some { s with book := book, nb := nb, numComparisons := s.numComparisons + 1 }
  else some s

/-- `saveDist`, vl/kdtree.c:691-707, for the query coordinate `x` and the bounds `x1`, `x2`, `x3` of the node; a bound
`none` is infinite. -/
def saveDist (dist x : K) (x1 : Option K) (x2 : K) (x3 : Option K) : K :=
  let s := dist + (x - x2) * (x - x2)
  if x ≤ x2 then
    match x1 with
    | some x1 => if x ≤ x1 then s - (x - x1) * (x - x1) else s
    | none => s
  else
    match x3 with
    | some x3 => if x3 < x then s - (x - x3) * (x - x3) else s
    | none => s

/-- Is a subtree with this lower bound worth visiting, vl/kdtree.c:710. -/
def worth (k : Nat) (nb : Heap.State (Neighbor K)) (sd : K) : Option Bool :=
  if nb.size < k then some true
  else do
    let top ← rd nb.arr 0
    some (gtNan top.distance sd)

/-- `vl_kdforest_query_recursively`, vl/kdtree.c:584-727; the fuel bounds the depth. -/
def queryRec (F : Forest K) (id : Nat) (q : List K) (k : Nat) : Nat → Nat → Nat → K → QState K → Option (QState K)
  | 0, _, _, _, _ => none
  | fuel + 1, ti, ni, dist, s => do
    let tree ← rd F.trees ti
    let node ← rd tree.nodes ni
    let x ← rd q node.splitDimension
    if node.lowerChild < 0 then
      let b := (-node.lowerChild - 1).toNat
      let e := (-node.upperChild - 1).toNat
      iter (e - b) (leafStep F id q k tree.dataIndex b) s
    else
      let sd := saveDist dist x node.lowerBound node.splitThreshold node.upperBound
      let next := if x ≤ node.splitThreshold then node.lowerChild else node.upperChild
      let save := if x ≤ node.splitThreshold then node.upperChild else node.lowerChild
      let w ← worth k s.nb sd
      let heap ← (if w then Heap.step cmpSearch s.heap (.push { tree := ti, nodeIndex := save.toNat, lowerBound := sd })
        else some s.heap)
      queryRec F id q k fuel ti next.toNat dist { s with heap := heap }

/-- The test "no better solution may exist", vl/kdtree.c:821-822. -/
def finished (k : Nat) (nb : Heap.State (Neighbor K)) (lb : K) : Option Bool :=
  if nb.size = k then do
    let top ← rd nb.arr 0
    some (ltNan top.distance lb)
  else some false

/-- The branch and bound loop, vl/kdtree.c:809-834; the fuel bounds the number of iterations. -/
def mainLoop (F : Forest K) (id : Nat) (q : List K) (k : Nat) (depth : Nat) : Nat → QState K → Option (QState K)
  | 0, _ => none
  | fuel + 1, s =>
    if F.maxComparisons = 0 ∨ s.numComparisons < F.maxComparisons then
      if s.heap.size = 0 then some s
      else do
        let heap ← Heap.step cmpSearch s.heap .pop
        let st ← rd heap.arr heap.size
        let fin ← finished k s.nb st.lowerBound
        if fin then some { s with heap := heap }
        else do
          let s ← queryRec F id q k depth st.tree st.nodeIndex st.lowerBound { s with heap := heap }
          mainLoop F id q k depth fuel s
    else some s

/-- Mark the missing neighbours, vl/kdtree.c:837-840. -/
def fillMissing (k : Nat) (nb : Heap.State (Neighbor K)) : Option (List (Neighbor K)) :=
  iter (k - nb.size) (fun i a => wr a (nb.size + i) { index := -1, distance := none }) nb.arr

/-- `vl_kdforestsearcher_query`, vl/kdtree.c:773-847: returns the searcher, the neighbours and the number of comparisons.
`nbBlk` is the caller's array of neighbours, with arbitrary contents. -/
def query (F : Forest K) (S : Searcher K) (nbBlk : List (Neighbor K)) (k : Nat) (q : List K) :
    Option (Searcher K × List (Neighbor K) × Nat) := do
  assert' (k > 0)
  let id := S.searchId + 1
  let heap ← iter F.trees.length (fun ti h => Heap.step cmpSearch h (.push { tree := ti, nodeIndex := 0, lowerBound := (0 : K) }))
    ⟨S.heapArray, 0⟩
  let s ← mainLoop F id q k (F.maxNumNodes + 1) (F.maxNumNodes + 1) { heap := heap, nb := ⟨nbBlk, 0⟩, book := S.book, numComparisons := 0 }
  let a ← fillMissing k s.nb
  let a ← Heap.popAll cmpNeighbor a s.nb.size
  some ({ heapArray := s.heap.arr, book := s.book, searchId := id }, a, s.numComparisons)

/-- `vl_kdforest_new_searcher`, vl/kdtree.c:387-417 (the list of searchers is not modelled); `blk` is the block returned by
`malloc`. -/
def newSearcher (F : Forest K) (blk : List (SearchState K)) : Searcher K :=
  { heapArray := blk, book := List.replicate F.numData 0, searchId := 0 }

end

end Verif.KdTree
