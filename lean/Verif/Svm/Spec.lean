import Mathlib.Algebra.BigOperators.Group.Finset.Basic
import Mathlib.Algebra.Order.BigOperators.Group.Finset
import Mathlib.Algebra.Order.Field.Basic
import Mathlib.Order.Bounds.Basic
import Mathlib.Order.WithBot

/-!
# Support vector machines

The definitions here do not refer to the model of the code.
-/

namespace Verif.Svm.Spec

variable {K : Type} [Field K] [LinearOrder K] [IsStrictOrderedRing K]

/-- The hinge loss of the score `z` for a sample whose label is `y`. -/
def hinge (z y : K) : K := max 0 (1 - y * z)

/-- The square of the hinge loss -/
def hinge2 (z y : K) : K := max 0 (1 - y * z) ^ 2

/-- The absolute value of the error -/
def l1 (z y : K) : K := |y - z|

/-- The square of the error -/
def l2 (z y : K) : K := (y - z) ^ 2

/-- The value at `u` of the convex conjugate of `l` is `c`. -/
def IsConj (l : K → K) (u c : K) : Prop := IsLUB (Set.range fun z => u * z - l z) c

/-- A learning problem: `n` samples `x i` of dimension `d` with labels `y i` and weights `p i`; the samples have an additional component `B`, used for the bias. -/
structure Problem (K : Type) where
  n : Nat
  d : Nat
  x : Nat → Nat → K
  B : K
  y : Nat → K
  p : Nat → K
  lambda : K
  loss : K → K → K

variable (P : Problem K)

/-- The score of sample `i` for the model `w` with the bias `b` (a user sees the bias `b * B`). -/
def Problem.score (w : Nat → K) (b : K) (i : Nat) : K := (∑ k ∈ Finset.range P.d, P.x i k * w k) + b * P.B

/-- The square of the norm of the model -/
def Problem.sq (w : Nat → K) (b : K) : K := (∑ k ∈ Finset.range P.d, w k ^ 2) + b ^ 2

/-- The objective function that is minimised: samples whose weight is not positive do not count. -/
def Problem.objective (w : Nat → K) (b : K) : K :=
  P.lambda / 2 * P.sq w b + (∑ i ∈ Finset.range P.n, max 0 (P.p i) * P.loss (P.score w b i) (P.y i)) / P.n

/-- The model is the combination of the samples with coefficients `a i / (lambda n)`. -/
def Problem.IsComb (a : Nat → K) (w : Nat → K) (b : K) : Prop :=
  (∀ k < P.d, w k = (∑ i ∈ Finset.range P.n, a i * P.x i k) / (P.lambda * P.n)) ∧ b = (∑ i ∈ Finset.range P.n, a i * P.B) / (P.lambda * P.n)

/-- The value at `a` of the dual objective function is `v`: there `a` is feasible, and vanishes for the samples that do not count. -/
def Problem.IsDual (a : Nat → K) (v : K) : Prop :=
  ∃ (w : Nat → K) (b : K) (c : Nat → K), P.IsComb a w b ∧ (∀ i < P.n, P.p i ≤ 0 → a i = 0) ∧
    (∀ i < P.n, 0 < P.p i → IsConj (fun z => P.loss z (P.y i)) (- (a i / P.p i)) (c i)) ∧
    v = - (P.lambda / 2 * P.sq w b) - (∑ i ∈ Finset.range P.n, max 0 (P.p i) * c i) / P.n

/-- `a'` is obtained from `a` by maximising the dual objective function along the coordinate `i`. -/
def Problem.IsAscent (i : Nat) (a a' : Nat → K) : Prop :=
  (∀ j < P.n, j ≠ i → a' j = a j) ∧ ∃ v', P.IsDual a' v' ∧ ∀ a2 v2, (∀ j < P.n, j ≠ i → a2 j = a j) → P.IsDual a2 v2 → v2 ≤ v'

/-- The sequence `v` visits each of the `n` samples once in each epoch, that is in each block of `n` iterations. -/
def Epochs (n : Nat) (v : Nat → Nat) : Prop := ∀ e, ((List.range n).map fun j => v (e * n + j)).Perm (List.range n)

/-- `g` is a subgradient of `l` at `z`. -/
def IsSubgradient (l : K → K) (z g : K) : Prop := ∀ z', l z + g * (z' - z) ≤ l z'

/-- Stochastic gradient descent, `t` iterations from the model `w`, `b`: iteration `t` visits sample `v t` and subtracts from the model the gradient of `lambda / 2 |w|² + max (p, 0) loss`, times the rate `1 / (lambda (t + t0))`; the rate of the bias is `r` times as large.  `der` is the derivative of the loss. -/
def Problem.sgd (der : K → K → K) (t0 : Nat) (r : K) (v : Nat → Nat) (w : Nat → K) (b : K) : Nat → (Nat → K) × K
  | 0 => (w, b)
  | t + 1 =>
    let q := Problem.sgd der t0 r v w b t
    let g := max 0 (P.p (v t)) * der (P.score q.1 q.2 (v t)) (P.y (v t))
    let rate := 1 / (P.lambda * ((t : K) + (t0 : K)))
    (fun k => q.1 k - rate * (P.lambda * q.1 k + g * P.x (v t) k), q.2 - r * rate * (P.lambda * q.2 + g * P.B))

/-- The value `z t` is recorded for sample `v t`: the last value recorded before iteration `t` for each sample (zero if there is none), and the last one but one (zero if there is only one, minus infinity if there is none). -/
def history (v : Nat → Nat) (z : Nat → K) : Nat → (Nat → K) × (Nat → WithBot K)
  | 0 => (fun _ => 0, fun _ => ⊥)
  | t + 1 => (fun i => if i = v t then z t else (history v z t).1 i, fun i => if i = v t then ((history v z t).1 i : WithBot K) else (history v z t).2 i)

end Verif.Svm.Spec
