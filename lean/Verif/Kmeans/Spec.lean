import Verif.Kmeans.Model
import Mathlib.Algebra.BigOperators.Group.Finset.Basic
import Mathlib.Algebra.Order.Group.Abs

/-!
# Specification of k-means
-/

namespace Verif.Kmeans

variable {K : Type} [Field K] [LinearOrder K]

/-- Component `j` of vector `i` of a flat block of vectors of dimension `dim`. -/
def comp (l : List K) (dim i j : Nat) : K := l.getD (i * dim + j) 0

/-- `l^1` distance, or squared Euclidean distance, of two vectors of dimension `dim`. -/
def vdist (m : Metric) (dim : Nat) (a b : Nat → K) : K :=
  match m with
  | .l1 => ∑ j ∈ Finset.range dim, |a j - b j|
  | .l2 => ∑ j ∈ Finset.range dim, (a j - b j) ^ 2

/-- Distance of data point `x` and centre `c`. -/
def pc (m : Metric) (dim : Nat) (data centers : List K) (x c : Nat) : K := vdist m dim (comp data dim x) (comp centers dim c)

/-- `c` is one of the centres nearest to data point `x`. -/
def Nearest (m : Metric) (dim nC : Nat) (data centers : List K) (x c : Nat) : Prop :=
  c < nC ∧ ∀ c' < nC, pc m dim data centers x c ≤ pc m dim data centers x c'

/-- Sum of the distances of the points to the centres assigned to them. -/
def cost (m : Metric) (dim N : Nat) (data centers : List K) (a : Nat → Nat) : K :=
  ∑ x ∈ Finset.range N, pc m dim data centers x (a x)

/-- `e` is the k-means energy of the centres: the sum of the distances of the points to their nearest centres. -/
def IsEnergy (m : Metric) (dim nC N : Nat) (data centers : List K) (e : K) : Prop :=
  ∃ a : Nat → Nat, (∀ x < N, Nearest m dim nC data centers x (a x)) ∧ e = cost m dim N data centers a

end Verif.Kmeans
