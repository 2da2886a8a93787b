import Verif.Gmm.Model

/-!
# Specification of Gaussian mixtures (vl/gmm.c:63-186)
-/

namespace Verif.Gmm

open Finset

variable {K : Type} [Field K] [LinearOrder K]

/-- What is needed of the exponential and the logarithm. -/
structure IsExpLog (E : Fns K) : Prop where
  exp_add : ∀ a b, E.exp (a + b) = E.exp a * E.exp b
  exp_zero : E.exp 0 = 1
  exp_pos : ∀ a, 0 < E.exp a
  exp_log : ∀ a, 0 < a → E.exp (E.log a) = a
  log_exp : ∀ a, E.log (E.exp a) = a

/-- Logarithm of the density of a Gaussian of mean `mu` and diagonal covariance `s2`. -/
def logDensity (E : Fns K) (D : Nat) (mu s2 x : Nat → K) : K :=
  - (D / 2 * E.log2pi) - 1 / 2 * ∑ d ∈ range D, E.log (s2 d) - 1 / 2 * ∑ d ∈ range D, (x d - mu d) ^ 2 / s2 d

/-- A component of weight less than `1e-6` counts as absent. -/
def usedPrior (w : K) : K := if w < 1 / 10 ^ 6 then 0 else w

/-- Joint density of the point and the component. -/
def joint (E : Fns K) (D : Nat) (w : Nat → K) (mu s2 : Nat → Nat → K) (x : Nat → K) (k : Nat) : K := usedPrior (w k) * E.exp (logDensity E D (mu k) (s2 k) x)

/-- Density of the mixture. -/
def density (E : Fns K) (D C : Nat) (w : Nat → K) (mu s2 : Nat → Nat → K) (x : Nat → K) : K := ∑ k ∈ range C, joint E D w mu s2 x k

/-- Posterior probability of a component. -/
def posterior (E : Fns K) (D C : Nat) (w : Nat → K) (mu s2 : Nat → Nat → K) (x : Nat → K) (k : Nat) : K := joint E D w mu s2 x k / density E D C w mu s2 x

/-- Association of the data with component `k`; those less than `0.01 / C` do not count. -/
def assoc (C : Nat) (q : Nat → Nat → K) (i k : Nat) : K := if q i k < 1 / 100 / C then 0 else q i k

/-- Mass of a component. -/
def massOf (C N : Nat) (q : Nat → Nat → K) (k : Nat) : K := ∑ i ∈ range N, assoc C q i k

/-- Weighted mean. -/
def meanOf (C N : Nat) (q x : Nat → Nat → K) (k d : Nat) : K := (∑ i ∈ range N, assoc C q i k * x i d) / massOf C N q k

/-- Weighted variance. -/
def varOf (C N : Nat) (q x : Nat → Nat → K) (k d : Nat) : K := (∑ i ∈ range N, assoc C q i k * (x i d - meanOf C N q x k d) ^ 2) / massOf C N q k

end Verif.Gmm
