import Mathlib.Algebra.BigOperators.Group.Finset.Basic
import Mathlib.Algebra.Order.Field.Basic

/-!
# What the agglomerative information bottleneck returns

The feature has the values `0 .. n - 1` and there are `L` labels; `P v c` is the joint probability.  A clustering is a map from the values to cluster names.
A tree over the nodes `0 .. 2 n - 2` is given by the parent of each node.
-/

namespace Verif.Aib.Spec

variable {K : Type} [Field K] [LinearOrder K] [IsStrictOrderedRing K]

/-- The logarithm of a product of positive numbers is the sum of their logarithms. -/
def IsLog (log : K → K) : Prop := ∀ x y, 0 < x → 0 < y → log (x * y) = log x + log y

/-- The probability of the label `c` together with the cluster `u`. -/
def joint (n : Nat) (P : Nat → Nat → K) (f : Nat → Nat) (u c : Nat) : K := ∑ v ∈ (Finset.range n).filter (fun v => f v = u), P v c

/-- The probability of the label `c`. -/
def label (n : Nat) (P : Nat → Nat → K) (c : Nat) : K := ∑ v ∈ Finset.range n, P v c

/-- The probability of the value `v`. -/
def value (L : Nat) (P : Nat → Nat → K) (v : Nat) : K := ∑ c ∈ Finset.range L, P v c

/-- The mutual information of the cluster and the label: the sum of `p(u,c) log (p(u,c) / (p(u) p(c)))` where a term with `p(u,c) = 0` is zero. -/
def info (log : K → K) (n L : Nat) (P : Nat → Nat → K) (f : Nat → Nat) : K :=
  ∑ u ∈ (Finset.range n).image f, ∑ c ∈ Finset.range L,
    if joint n P f u c = 0 then 0
    else joint n P f u c * log (joint n P f u c / ((∑ d ∈ Finset.range L, joint n P f u d) * label n P c))

/-- Merge the clusters `u` and `u'` into one named `w`. -/
def merge (f : Nat → Nat) (u u' w : Nat) : Nat → Nat := fun v => if f v = u ∨ f v = u' then w else f v

/-- The clustering of the values after the first `t` merges recorded in the tree: the merge `t` replaces the nodes whose parent is `n + t` with this node. -/
def clustering (n : Nat) (p : Nat → Nat) : Nat → Nat → Nat
  | 0, v => v
  | t + 1, v => if p (clustering n p t v) = n + t then n + t else clustering n p t v

/-- The tree of `m` merges.  `null v` are the values that are ignored. -/
structure IsTree (n m : Nat) (null : Nat → Prop) (p : Nat → Nat) : Prop where
  /-- each merge creates a node with exactly two children, which come before it -/
  two : ∀ t < m, ∃ x y, x < y ∧ y < n + t ∧ ∀ v < 2 * n - 1, p v = n + t ↔ v = x ∨ v = y
  /-- the node created last is the root, and the only node with a null parent -/
  root : 0 < m → ∀ v < 2 * n - 1, p v = 0 ↔ v = n + m - 1
  /-- the other nodes that take part in the tree have a parent created later -/
  inner : 0 < m → ∀ v < n + m - 1, ¬ (v < n ∧ null v) → v < p v ∧ n ≤ p v ∧ p v < n + m
  /-- the ignored values and the nodes that were not created have the parent `2 n` -/
  ignored : ∀ v < 2 * n - 1, v < n ∧ null v ∨ n + m ≤ v → p v = 2 * n
  /-- all the values that are not ignored are merged into one -/
  count : ∀ [DecidablePred null], m + 1 = ((Finset.range n).filter (fun v => ¬ null v)).card

end Verif.Aib.Spec
