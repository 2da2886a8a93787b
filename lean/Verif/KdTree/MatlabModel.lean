import Verif.KdTree.BatchModel

/-!
# kd-tree forests as structures of MATLAB

Model of toolbox/misc/kdtree.h, which `vl_kdtreebuild` and `vl_kdtreequery` use.  An infinite bound is `none`, as in the model of the library.  The outer `none` is undefined behaviour, the inner `none` an error
that is reported.  Not modelled: the classes and the presence of the fields, which are checked, and the field `distance`.
-/

namespace Verif.KdTree

open Verif

variable {K : Type}

/-- Conversion to `int` or `vl_int32`. -/
def toInt32 (x : Int) : Int := (x + 2 ^ 31) % 2 ^ 32 - 2 ^ 31

/-- Conversion to `vl_uint32`. -/
def toUInt32 (x : Int) : Nat := (x % 2 ^ 32).toNat

/-- One element of `FOREST.TREES`. -/
structure MTree (K : Type) where
  lowerChild : List Int
  upperChild : List Int
  splitDimension : List Nat
  splitThreshold : List K
  lowerBound : List (Option K)
  upperBound : List (Option K)
  dataIndex : List Nat

/-- A child, toolbox/misc/kdtree.h:149-152: `(a>=0) ? a + 1 : a` for the `int` `a`. -/
def saveChild (c : Int) : Int := if toInt32 c ≥ 0 then toInt32 c + 1 else toInt32 c

/-- One tree, toolbox/misc/kdtree.h:116-176: each array has an element for each used node, and the index one for each datum. -/
def saveTree (numData : Nat) (t : Tree K) : Option (MTree K) := do
  let nodes ← (List.range t.numUsedNodes).mapM (rd t.nodes)
  let idx ← (List.range numData).mapM (rd t.dataIndex)
  some {
    lowerChild := nodes.map fun nd => toInt32 (saveChild nd.lowerChild)
    upperChild := nodes.map fun nd => toInt32 (saveChild nd.upperChild)
    splitDimension := nodes.map fun nd => toUInt32 (nd.splitDimension + 1)
    splitThreshold := nodes.map fun nd => nd.splitThreshold
    lowerBound := nodes.map fun nd => nd.lowerBound
    upperBound := nodes.map fun nd => nd.upperBound
    dataIndex := idx.map fun en => toUInt32 (en.index + 1) }

/-- One node, toolbox/misc/kdtree.h:367-397. -/
def loadNode (dim numData used : Nat) (m : MTree K) (ni : Nat) : Option (Option (Node K)) := do
  let lc ← rd m.lowerChild ni
  let uc ← rd m.upperChild ni
  let d ← rd m.splitDimension ni
  if uc < -(numData : Int) - 1 ∨ uc > used then some none
  else if lc < -(numData : Int) ∨ lc > used then some none
  else if d > dim then some none
  else do
    let thr ← rd m.splitThreshold ni
    let lb ← rd m.lowerBound ni
    let ub ← rd m.upperBound ni
    some (some {
      parent := 0
      upperChild := if uc ≥ 1 then uc - 1 else uc
      lowerChild := if lc ≥ 1 then lc - 1 else lc
      splitDimension := toUInt32 ((d : Int) - 1)
      splitThreshold := thr
      lowerBound := lb
      upperBound := ub })

/-- A loop that stops at the first error. -/
def mapE {α β : Type} (f : α → Option (Option β)) : List α → Option (Option (List β))
  | [] => some (some [])
  | a :: l => do
    match ← f a with
    | none => some none
    | some b => do
      match ← mapE f l with
      | none => some none
      | some bs => some (some (b :: bs))

/-- The visit of a child, toolbox/misc/kdtree.h:40-49; `go` is the recursive call. -/
def visitChild (go : List (Node K) → Nat → Nat → Option (Option (List (Node K) × Nat))) (parent : Nat) (child : Int) (nodes : List (Node K)) (left : Nat) : Option (Option (List (Node K) × Nat)) :=
  if child ≥ 0 then do
    let nd ← rd nodes child.toNat
    let nodes ← wr nodes child.toNat { nd with parent := parent }
    go nodes child.toNat left
  else some (some (nodes, left))

/-- `restore_parent_recursively`, toolbox/misc/kdtree.h:26-50; `left` is `*numNodesToVisit`.  The first argument bounds the depth: every call lowers `left`. -/
def restore : Nat → List (Node K) → Nat → Nat → Option (Option (List (Node K) × Nat))
  | 0, _, _, _ => none
  | fuel + 1, nodes, i, left => do
    let node ← rd nodes i
    if left = 0 then some none
    else do
      match ← visitChild (restore fuel) i node.lowerChild nodes (left - 1) with
      | none => some none
      | some r => visitChild (restore fuel) i node.upperChild r.1 r.2

/-- One tree, toolbox/misc/kdtree.h:278-418.  `junk` is the content of the fields of the index that are not set. -/
def loadTree (dim numData : Nat) (junk : K) (m : MTree K) : Option (Option (Tree K)) := do
  let used := m.lowerChild.length
  if m.upperChild.length ≠ used ∨ m.splitDimension.length ≠ used ∨ m.splitThreshold.length ≠ used ∨ m.lowerBound.length ≠ used ∨ m.upperBound.length ≠ used ∨ m.dataIndex.length ≠ numData then some none
  else do
    match ← mapE (loadNode dim numData used m) (List.range used) with
    | none => some none
    | some nodes => do
      let idx := m.dataIndex.map fun (di : Nat) => ({ index := toUInt32 ((di : Int) - 1), value := junk } : Entry K)
      match ← restore (used + 1) nodes 0 used with
      | none => some none
      | some r => if r.2 ≠ 0 then some none else some (some { nodes := r.1, numUsedNodes := used, dataIndex := idx, depth := 0 })

/-- A forest as a structure of MATLAB. -/
structure MForest (K : Type) where
  dimension : Nat
  numData : Nat
  trees : List (MTree K)

/-- `new_array_from_kdforest`, toolbox/misc/kdtree.h:62-180. -/
def saveForest (F : Forest K) : Option (MForest K) := do
  let trees ← F.trees.mapM (saveTree F.numData)
  some { dimension := F.dim, numData := F.numData, trees := trees }

/-- `new_kdforest_from_array`, toolbox/misc/kdtree.h:194-424, for data of `rows` rows and `cols` columns; the limit on the comparisons is set by `vl_kdtreequery`. -/
def loadForest (m : MForest K) (rows cols : Nat) (data : List K) (distFn : List K → List K → K) (maxComparisons : Nat) (junk : K) : Option (Option (Forest K)) := do
  if m.dimension < 1 ∨ m.numData < 1 ∨ m.trees.length < 1 ∨ rows ≠ m.dimension ∨ cols ≠ m.numData then some none
  else do
    match ← mapE (loadTree m.dimension m.numData junk) m.trees with
    | none => some none
    | some trees => some (some {
        dim := m.dimension, data := data, numData := m.numData, trees := trees, distFn := distFn, maxComparisons := maxComparisons,
        maxNumNodes := (m.trees.map fun t => t.lowerChild.length).sum })

/-- The adjustment of the indices, toolbox/misc/vl_kdtreequery.c:143: `index[i] ++` on `vl_uint32`. -/
def matlabIndex (c : Nat × Option K) : Nat × Option K := ((c.1 + 1) % 2 ^ 32, c.2)

end Verif.KdTree
