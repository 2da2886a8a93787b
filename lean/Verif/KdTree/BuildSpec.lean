import Verif.KdTree.BuildModel
import Mathlib.Logic.Function.Basic

/-! # What a kd-tree has to be (specification for C23 and C24) -/

namespace Verif.KdTree

variable {K : Type}

/-- The data points listed by the entries `b ≤ j < e` of an index. -/
def ptsIn (idx : List (Entry K)) (b e : Nat) : List Nat := ((idx.drop b).take (e - b)).map Entry.index

/-- Coordinate `d` of the data point `p`. -/
def coord [Zero K] (dim : Nat) (data : List K) (p d : Nat) : K := data.getD (p * dim + d) 0

/-- The shape of a binary tree. -/
inductive Shape
  | leaf
  | node (l r : Shape)

/-- Number of nodes. -/
def Shape.size : Shape → Nat
  | leaf => 1
  | node l r => 1 + l.size + r.size

section
variable [Field K] [LinearOrder K]

/-- The node `i` is the root of a tree that represents the non-empty range `b ≤ j < e` of the index: a leaf holds the range
(encoded by negative numbers); an internal node cuts the range in two, so that the points of the lower part do not exceed the
threshold in the split dimension and those of the upper part are not below it.  The nodes are numbered in preorder. -/
def IsTree (dim : Nat) (data : List K) (nodes : List (Node K)) (idx : List (Entry K)) : Shape → Nat → Nat → Nat → Prop
  | .leaf, i, b, e => ∃ nd, nodes[i]? = some nd ∧ nd.lowerChild = -(b : Int) - 1 ∧ nd.upperChild = -(e : Int) - 1 ∧
      nd.splitDimension = 0 ∧ b < e
  | .node l r, i, b, e => ∃ (nd : Node K) (m c1 c2 : Nat), nodes[i]? = some nd ∧ nd.lowerChild = (c1 : Int) ∧
      nd.upperChild = (c2 : Int) ∧ c1 = i + 1 ∧ c2 = i + 1 + l.size ∧ nd.splitDimension < dim ∧
      (∀ p ∈ ptsIn idx b m, coord dim data p nd.splitDimension ≤ nd.splitThreshold) ∧
      (∀ p ∈ ptsIn idx m e, nd.splitThreshold ≤ coord dim data p nd.splitDimension) ∧
      IsTree dim data nodes idx l c1 b m ∧ IsTree dim data nodes idx r c2 m e

/-- The bounds stored in the nodes are those of the box of the node: the box of the root is given, and a split at threshold
`t` replaces the upper bound of the box of the lower child and the lower bound of the box of the upper child by `t`. -/
def Bounded (nodes : List (Node K)) : Shape → Nat → (Nat → Option K) → (Nat → Option K) → Prop
  | .leaf, _, _, _ => True
  | .node l r, i, lo, hi => ∃ (nd : Node K), nodes[i]? = some nd ∧
      nd.lowerBound = lo nd.splitDimension ∧ nd.upperBound = hi nd.splitDimension ∧
      Bounded nodes l nd.lowerChild.toNat lo (Function.update hi nd.splitDimension (some nd.splitThreshold)) ∧
      Bounded nodes r nd.upperChild.toNat (Function.update lo nd.splitDimension (some nd.splitThreshold)) hi

/-- The leaves below node `i`, from left to right, as ranges of the index. -/
def leafRanges (nodes : List (Node K)) : Nat → Nat → Option (List (Nat × Nat))
  | 0, _ => none
  | fuel + 1, i => do
    let nd ← nodes[i]?
    if nd.lowerChild < 0 then some [((-nd.lowerChild - 1).toNat, (-nd.upperChild - 1).toNat)]
    else do
      let l ← leafRanges nodes fuel nd.lowerChild.toNat
      let r ← leafRanges nodes fuel nd.upperChild.toNat
      some (l ++ r)

/-- The node `i` is the root of a tree for the range `b ≤ j < e` of the index, the points of every leaf satisfy `P` and the
dimension split at every internal node and its points satisfy `Q`. -/
def Marked (P : List Nat → Prop) (Q : Nat → List Nat → Prop) (nodes : List (Node K)) (idx : List (Entry K)) :
    Shape → Nat → Nat → Nat → Prop
  | .leaf, i, b, e => ∃ nd, nodes[i]? = some nd ∧ nd.lowerChild = -(b : Int) - 1 ∧ nd.upperChild = -(e : Int) - 1 ∧
      P (ptsIn idx b e)
  | .node l r, i, b, e => ∃ (nd : Node K) (m c1 c2 : Nat), nodes[i]? = some nd ∧ nd.lowerChild = (c1 : Int) ∧
      nd.upperChild = (c2 : Int) ∧ Q nd.splitDimension (ptsIn idx b e) ∧
      Marked P Q nodes idx l c1 b m ∧ Marked P Q nodes idx r c2 m e

/-- The contract of the C function `qsort`. -/
def SortOk (sort : List (Entry K) → List (Entry K)) : Prop :=
  ∀ l, (sort l).Perm l ∧ (sort l).Pairwise (fun x y => x.value ≤ y.value)

end

/-- What is needed of the statistics: they do not fail, the dimension exists, and when thresholding at the mean on a range that
begins at entry zero some value of the range does not exceed the mean (without the last condition the test of vl/kdtree.c:299 is
defeated by the wrap-around of `splitIndex -= 1`).  `Inv` is an invariant of the state of the statistics. -/
def ChooserOk {σ : Type} [Field K] [LinearOrder K] (C : Cfg σ K) (n : Nat) (Inv : σ → Prop) : Prop :=
  ∀ s idx b e, Inv s → b + 2 ≤ e → e ≤ idx.length → (∀ p ∈ ptsIn idx b e, p < n) →
    ∃ c s', C.choose s idx b e = some (c, s') ∧ Inv s' ∧
      ∀ sp, c = some sp → sp.dimension < C.dim ∧
        (C.method = .mean → b = 0 → ∃ p ∈ ptsIn idx b e, coord C.dim C.data p sp.dimension ≤ sp.mean)

/-- The statistics leave a range whole only when its points satisfy `P`, and otherwise choose a dimension that satisfies `Q`
with them; both do not depend on the order of the points, and `P` holds for single points. -/
structure ChooserMarks {σ : Type} [Field K] [LinearOrder K] (C : Cfg σ K) (n : Nat) (Inv : σ → Prop) (P : List Nat → Prop)
    (Q : Nat → List Nat → Prop) : Prop where
  single : ∀ p, P [p]
  permP : ∀ l l', l.Perm l' → P l → P l'
  permQ : ∀ d l l', l.Perm l' → Q d l → Q d l'
  choose : ∀ s idx b e c s', Inv s → b + 2 ≤ e → e ≤ idx.length → (∀ p ∈ ptsIn idx b e, p < n) →
    C.choose s idx b e = some (c, s') → (c = none → P (ptsIn idx b e)) ∧ ∀ sp, c = some sp → Q sp.dimension (ptsIn idx b e)

end Verif.KdTree
