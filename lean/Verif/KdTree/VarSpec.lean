import Verif.KdTree.BuildSpec
import Mathlib.Data.Finset.Card
import Mathlib.Data.Finset.Range

/-! # What a split of a kd-tree has to be (specification for C223) -/

namespace Verif.KdTree

variable {K : Type} [Field K] [LinearOrder K]

/-- Average of the coordinate `d` of the points. -/
def average (dim : Nat) (data : List K) (pts : List Nat) (d : Nat) : K :=
  (pts.map (fun p => coord dim data p d)).sum / (pts.length : K)

/-- Variance of the coordinate `d` of the points: the average of the squares of the deviations from the average. -/
def spread (dim : Nat) (data : List K) (pts : List Nat) (d : Nat) : K :=
  (pts.map (fun p => (coord dim data p d - average dim data pts d) ^ 2)).sum / (pts.length : K)

/-- The points have the same coordinates. -/
def Coincide (dim : Nat) (data : List K) (pts : List Nat) : Prop :=
  ∀ p ∈ pts, ∀ q ∈ pts, ∀ d < dim, coord dim data p d = coord dim data q d

/-- The points vary along `d`, and there are less than `k` dimensions along which they vary more. -/
def AmongTop (dim : Nat) (data : List K) (k : Nat) (pts : List Nat) (d : Nat) : Prop :=
  d < dim ∧ 0 < spread dim data pts d ∧
    ((Finset.range dim).filter (fun d' => spread dim data pts d < spread dim data pts d')).card < k

end Verif.KdTree
