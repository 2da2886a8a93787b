import Verif.Loop
import Verif.Heap.Model
import Mathlib.Algebra.Field.Defs
import Mathlib.Order.Defs.LinearOrder

/-!
# Model of the construction of kd-trees (vl/kdtree.c, vl/kdtree.h)

Real numbers are elements of an arbitrary linearly ordered field `K`; rounding is not modelled in the arithmetic.  The part of
the construction that computes statistics (`choose`) is however a parameter of the recursion, so that the theorems can also be
stated for arbitrary (rounded or random) statistics; `chooseSplit` is its exact model.  `qsort` of the C library is a parameter
`sort`, about which only the contract of `qsort` is assumed.
-/

namespace Verif.KdTree

variable {K σ : Type}

/-- `struct _VlKDTreeNode`, vl/kdtree.h:28-37.  A bound `none` is an infinite one. -/
structure Node (K : Type) where
  parent : Nat
  lowerChild : Int
  upperChild : Int
  splitDimension : Nat
  splitThreshold : K
  lowerBound : Option K
  upperBound : Option K
deriving DecidableEq

/-- `struct _VlKDTreeDataIndexEntry`, vl/kdtree.h:46-50. -/
structure Entry (K : Type) where
  index : Nat
  value : K
deriving DecidableEq

/-- `VlKDTree`, vl/kdtree.h:65-72; `numAllocatedNodes` is the length of the block `nodes`. -/
structure Tree (K : Type) where
  nodes : List (Node K)
  numUsedNodes : Nat
  dataIndex : List (Entry K)
  depth : Nat
deriving DecidableEq

/-- `VlKDTreeThresholdingMethod`, vl/kdtree.h:53-57. -/
inductive Method
  | median
  | mean
deriving DecidableEq

/-- The part of `VlKDTreeSplitDimension` that the recursion uses, vl/kdtree.h:39-44. -/
structure Split (K : Type) where
  dimension : Nat
  mean : K
deriving DecidableEq

/-- A way to choose the dimension to split (or not to split) for the entries `begin ≤ i < end`, with a state (generator, heap). -/
abbrev Chooser (σ K : Type) := σ → List (Entry K) → Nat → Nat → Option (Option (Split K) × σ)

/-- What a build depends on: dimension of the data, data, thresholding method, split chooser, sorting function. -/
structure Cfg (σ K : Type) where
  dim : Nat
  data : List K
  method : Method
  choose : Chooser σ K
  sort : List (Entry K) → List (Entry K)

/-- `x + 1` on `vl_uindex` (64 bits). -/
def succ64 (x : Nat) : Nat := (x + 1) % 2 ^ 64

/-- `x - 1` on `vl_uindex` (64 bits): wraps around at zero. -/
def pred64 (x : Nat) : Nat := (x + (2 ^ 64 - 1)) % 2 ^ 64

section
variable [Field K] [LinearOrder K]

/-- `vl_kdtree_node_new`, vl/kdtree.c:119-136. -/
def nodeNew (t : Tree K) (parentIndex : Nat) : Option (Nat × Tree K) := do
  let nodeIndex := t.numUsedNodes
  assert' (t.numUsedNodes + 1 ≤ t.nodes.length)
  let old ← rd t.nodes nodeIndex
  let nodes ← wr t.nodes nodeIndex
    { old with parent := parentIndex, lowerChild := 0, upperChild := 0, splitDimension := 0, splitThreshold := 0 }
  some (nodeIndex, { t with nodes := nodes, numUsedNodes := t.numUsedNodes + 1 })

/-- A write to some fields of a node. -/
def modNode (nodes : List (Node K)) (i : Nat) (f : Node K → Node K) : Option (List (Node K)) := do
  let nd ← rd nodes i
  wr nodes i (f nd)

/-- Fill the values of the entries of a range, vl/kdtree.c:265-279. -/
def fillValues (dim : Nat) (data : List K) (sd b e : Nat) (idx : List (Entry K)) : Option (List (Entry K)) :=
  iter (e - b) (fun j idx => do
    let en ← rd idx (b + j)
    let datum ← rd data (en.index * dim + sd)
    wr idx (b + j) { en with value := datum }) idx

/-- `qsort` of the entries of a range, vl/kdtree.c:280-283. -/
def sortRange (sort : List (Entry K) → List (Entry K)) (b e : Nat) (idx : List (Entry K)) : List (Entry K) :=
  idx.take b ++ sort ((idx.drop b).take (e - b)) ++ idx.drop e

/-- The scan `for (splitIndex = dataBegin ; splitIndex < dataEnd && value <= threshold ; ++ splitIndex)`, vl/kdtree.c:289-291. -/
def scanMean (idx : List (Entry K)) (t : K) (i e : Nat) : Option Nat :=
  if i < e then do
    let en ← rd idx i
    if en.value ≤ t then scanMean idx t (i + 1) e else some i
  else some i
termination_by e - i

/-- The median case, vl/kdtree.c:301-304; returns `(splitIndex, splitThreshold)`. -/
def thresholdMedian (idx : List (Entry K)) (b e : Nat) : Option (Nat × K) := do
  let medianIndex := (b + e - 1) / 2
  let en ← rd idx medianIndex
  some (medianIndex, en.value)

/-- Choice of the threshold, vl/kdtree.c:286-309.  `splitIndex` is an unsigned 64-bit number. -/
def threshold (m : Method) (idx : List (Entry K)) (mean : K) (b e : Nat) : Option (Nat × K) :=
  match m with
  | .median => thresholdMedian idx b e
  | .mean => do
    let i ← scanMean idx mean b e
    let splitIndex := pred64 i
    if b ≤ splitIndex ∧ succ64 splitIndex < e then some (splitIndex, mean) else thresholdMedian idx b e

/-- Make a node a leaf, vl/kdtree.c:177-182 and 252-256. -/
def mkLeaf (t : Tree K) (nodeIndex b e : Nat) : Option (Tree K) := do
  let nodes ← modNode t.nodes nodeIndex (fun nd => { nd with lowerChild := -(b : Int) - 1, upperChild := -(e : Int) - 1 })
  some { t with nodes := nodes }

/-- Split the range of a node, vl/kdtree.c:262-309; returns `splitIndex`. -/
def splitNode (C : Cfg σ K) (t : Tree K) (nodeIndex b e : Nat) (sp : Split K) : Option (Nat × Tree K) := do
  let nodes ← modNode t.nodes nodeIndex (fun nd => { nd with splitDimension := sp.dimension })
  let idx ← fillValues C.dim C.data sp.dimension b e t.dataIndex
  let idx := sortRange C.sort b e idx
  let r ← threshold C.method idx sp.mean b e
  let nodes ← modNode nodes nodeIndex (fun nd => { nd with splitThreshold := r.2 })
  some (r.1, { t with nodes := nodes, dataIndex := idx })

/-- `vl_kdtree_build_recursively`, vl/kdtree.c:165-317.  The fuel bounds the depth of the recursion: every level allocates a
node, so that running out of `fuel = numAllocatedNodes` only happens when the assertion of `nodeNew` fails.  Simplification:
a range with `dataEnd < dataBegin` is a failure. -/
def buildRec (C : Cfg σ K) : Nat → σ → Tree K → Nat → Nat → Nat → Nat → Option (σ × Tree K)
  | 0, _, _, _, _, _, _ => none
  | fuel + 1, s, t, nodeIndex, b, e, depth =>
    if e < b then none
    else if e - b ≤ 1 then do
      let t ← mkLeaf { t with depth := max t.depth depth } nodeIndex b e
      some (s, t)
    else do
      let c ← C.choose s t.dataIndex b e
      match c.1 with
      | none => do
        let t ← mkLeaf t nodeIndex b e
        some (c.2, t)
      | some sp => do
        let r ← splitNode C t nodeIndex b e sp
        let n ← nodeNew r.2 nodeIndex
        let nodes ← modNode n.2.nodes nodeIndex (fun nd => { nd with lowerChild := n.1 })
        let l ← buildRec C fuel c.2 { n.2 with nodes := nodes } n.1 b (succ64 r.1) (depth + 1)
        let n ← nodeNew l.2 nodeIndex
        let nodes ← modNode n.2.nodes nodeIndex (fun nd => { nd with upperChild := n.1 })
        buildRec C fuel l.1 { n.2 with nodes := nodes } n.1 (succ64 r.1) e (depth + 1)

/-- `vl_kdtree_calc_bounds_recursively`, vl/kdtree.c:490-513; the fuel bounds the depth of the recursion. -/
def calcBounds : Nat → List (Node K) → Nat → List (Option K) → Option (List (Node K) × List (Option K))
  | 0, _, _, _ => none
  | fuel + 1, nodes, nodeIndex, sb => do
    let node ← rd nodes nodeIndex
    let i := node.splitDimension
    let t := node.splitThreshold
    let lo ← rd sb (2 * i + 0)
    let hi ← rd sb (2 * i + 1)
    let nodes ← modNode nodes nodeIndex (fun nd => { nd with lowerBound := lo, upperBound := hi })
    let r ← (if node.lowerChild > 0 then do
      let sb ← wr sb (2 * i + 1) (some t)
      let r ← calcBounds fuel nodes node.lowerChild.toNat sb
      let sb ← wr r.2 (2 * i + 1) hi
      some (r.1, sb)
      else some (nodes, sb))
    if node.upperChild > 0 then do
      let sb ← wr r.2 (2 * i + 0) (some t)
      let r ← calcBounds fuel r.1 node.upperChild.toNat sb
      let sb ← wr r.2 (2 * i + 0) lo
      some (r.1, sb)
      else some r

/-- The construction of one tree in `vl_kdforest_build`, vl/kdtree.c:546-558.  `nodesBlk` and `idxBlk` are the blocks returned
by `malloc`, with arbitrary contents. -/
def buildTree (C : Cfg σ K) (numData : Nat) (nodesBlk : List (Node K)) (idxBlk : List (Entry K)) (s : σ) :
    Option (σ × Tree K) := do
  let idx ← iter numData (fun di idx => do
    let en ← rd idx di
    wr idx di { en with index := di }) idxBlk
  let n ← nodeNew { nodes := nodesBlk, numUsedNodes := 0, dataIndex := idx, depth := 0 } 0
  buildRec C (2 * numData - 1) s n.2 n.1 0 numData 0

/-- The computation of the bounds of one tree in `vl_kdforest_build`, vl/kdtree.c:565-572; `none` is an infinite bound. -/
def boundTree (dim : Nat) (t : Tree K) : Option (Tree K) := do
  let r ← calcBounds t.nodes.length t.nodes 0 (List.replicate (2 * dim) none)
  some { t with nodes := r.1 }

/-- `vl_kdforest_build`, vl/kdtree.c:529-577: builds one tree for each pair of blocks, then computes the bounds; also returns
`maxNumNodes`. -/
def forestBuild (C : Cfg σ K) (numData : Nat) (blks : List (List (Node K) × List (Entry K))) (s : σ) :
    Option (σ × List (Tree K) × Nat) := do
  assert' (numData ≥ 1)
  let r ← blks.foldlM (fun (acc : σ × List (Tree K) × Nat) blk => do
    let r ← buildTree C numData blk.1 blk.2 acc.1
    some (r.1, acc.2.1 ++ [r.2], acc.2.2 + r.2.numUsedNodes)) (s, [], 0)
  let trees ← r.2.1.mapM (boundTree C.dim)
  some (r.1, trees, r.2.2)

/-! ### The statistics -/

/-- `VlKDTreeSplitDimension`, vl/kdtree.h:39-44. -/
structure SplitDim (K : Type) where
  dimension : Nat
  mean : K
  variance : K

/-- State used by the statistics: position in the stream of random numbers, and the block `splitHeapArray`. -/
structure ChooseState (K : Type) where
  pos : Nat
  heapArr : List (SplitDim K)

/-- `vl_kdtree_split_heap` comparison, vl/kdtree.c:104-107. -/
def cmpVar (x y : SplitDim K) : Int := if x.variance < y.variance then -1 else if y.variance < x.variance then 1 else 0

/-- State of the loop over the samples. -/
structure SampleState (K : Type) where
  pos : Nat
  mean : K
  secondMoment : K

/-- Body of the loop over the samples, vl/kdtree.c:198-226. -/
def sampleStep (dim : Nat) (data : List K) (rand : Nat → Nat) (idx : List (Entry K)) (b d : Nat) (useAll : Bool) (i : Nat)
    (s : SampleState K) : Option (SampleState K) := do
  let sampleIndex := (if useAll then i else rand s.pos % 1024) + b
  let en ← rd idx sampleIndex
  let datum ← rd data (en.index * dim + d)
  some { pos := if useAll then s.pos else s.pos + 1, mean := s.mean + datum, secondMoment := s.secondMoment + datum * datum }

/-- Body of the loop over the dimensions, vl/kdtree.c:186-249. -/
def dimStep (dim : Nat) (data : List K) (rand : Nat → Nat) (splitHeapSize : Nat) (idx : List (Entry K)) (b e d : Nat)
    (s : Nat × Heap.State (SplitDim K)) : Option (Nat × Heap.State (SplitDim K)) := do
  let useAll : Bool := e - b ≤ 1024
  let numSamples := if useAll then e - b else 1024
  let r ← iter numSamples (sampleStep dim data rand idx b d useAll) { pos := s.1, mean := 0, secondMoment := 0 }
  let mean := r.mean / (numSamples : K)
  let secondMoment := r.secondMoment / (numSamples : K)
  let variance := secondMoment - mean * mean
  if variance ≤ 0 then some (r.pos, s.2)
  else
    let item : SplitDim K := { dimension := d, mean := mean, variance := variance }
    if s.2.size < splitHeapSize then do
      let h ← Heap.step cmpVar s.2 (.push item)
      some (r.pos, h)
    else do
      let top ← rd s.2.arr 0
      if top.variance < variance then do
        let h ← Heap.step cmpVar s.2 (.update 0 item)
        some (r.pos, h)
      else some (r.pos, s.2)

/-- Choice of the dimension to split, vl/kdtree.c:185-260; `rand` is the stream of outputs of the random generator. -/
def chooseSplit (dim : Nat) (data : List K) (rand : Nat → Nat) (splitHeapSize : Nat) : Chooser (ChooseState K) K :=
  fun s idx b e => do
    let r ← iter dim (fun d => dimStep dim data rand splitHeapSize idx b e d) (s.pos, ⟨s.heapArr, 0⟩)
    if r.2.size = 0 then some (none, { pos := r.1, heapArr := r.2.arr })
    else do
      let sd ← rd r.2.arr (rand r.1 % min splitHeapSize r.2.size)
      some (some { dimension := sd.dimension, mean := sd.mean }, { pos := r.1 + 1, heapArr := r.2.arr })

end

end Verif.KdTree
