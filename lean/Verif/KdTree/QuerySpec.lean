import Verif.KdTree.BoundProps
import Verif.KdTree.QueryModel
import Verif.AllPairs.Props

/-! # What a nearest neighbour query has to return (specification for C24) -/

namespace Verif.KdTree

variable {K : Type}

/-- Distance from the query to the data point `p`, which consists of the `dim` numbers from position `p * dim` of the data. -/
def ptDist (F : Forest K) (q : List K) (p : Nat) : K := F.distFn q (AllPairs.vec F.data F.dim p)

/-- The neighbour entry of a data point. -/
def nbOf (F : Forest K) (q : List K) (p : Nat) : Neighbor K := { index := p, distance := some (ptDist F q p) }

/-- The entry of a missing neighbour: index -1 and distance NaN. -/
def missing : Neighbor K := { index := -1, distance := none }

/-- The result lists distinct data points with their distances, by non-decreasing distance, followed by missing entries. -/
def Answer [LE K] (F : Forest K) (q : List K) (k : Nat) (pts : List Nat) (out : List (Neighbor K)) : Prop :=
  out = pts.map (nbOf F q) ++ List.replicate (k - pts.length) missing ∧ pts.length ≤ k ∧ pts.Nodup ∧ (∀ p ∈ pts, p < F.numData) ∧
    pts.Pairwise (fun p p' => ptDist F q p ≤ ptDist F q p')

/-- The points are nearest neighbours: there are `k` of them, or as many as there are data points if these are fewer, and no
other data point is closer than any of them. -/
def Nearest [LE K] (F : Forest K) (q : List K) (k : Nat) (pts : List Nat) : Prop :=
  pts.length = min k F.numData ∧ ∀ p < F.numData, p ∈ pts ∨ ∀ p' ∈ pts, ptDist F q p' ≤ ptDist F q p

/-- A forest as left by the construction. -/
structure Forest.Built [Field K] [LinearOrder K] (F : Forest K) : Prop where
  dim : 0 < F.dim
  data : F.data.length = F.numData * F.dim
  ne : F.trees ≠ []
  built : ∀ t ∈ F.trees, BuiltTree F.dim F.data F.numData t
  nodes : F.maxNumNodes = (F.trees.map Tree.numUsedNodes).sum

/-- A searcher of the forest, new or used. -/
structure Searcher.Ok (F : Forest K) (S : Searcher K) : Prop where
  heap : S.heapArray.length = F.maxNumNodes
  book : S.book.length = F.numData
  ids : ∀ v ∈ S.book, v ≤ S.searchId

end Verif.KdTree
