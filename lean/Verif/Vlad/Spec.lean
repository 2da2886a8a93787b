import Verif.Vlad.Model

/-!
# Specification of the VLAD encoding (vl/vlad.c:97-148)
-/

namespace Verif.Vlad

variable {K : Type} [Field K] [LinearOrder K]

/-- The weight of datum `i` for cluster `k`; associations are not negative, and those that are count as zero. -/
def weight (q : Nat → Nat → K) (i k : Nat) : K := max 0 (q i k)

/-- Mass of the features associated to cluster `k`. -/
def massOf (q : Nat → Nat → K) (N k : Nat) : K := ∑ i ∈ Finset.range N, weight q i k

/-- Residuals: the weighted sum of the differences from the mean of the cluster. -/
def residual (q x mu : Nat → Nat → K) (N k d : Nat) : K := ∑ i ∈ Finset.range N, weight q i k * (x i d - mu k d)

/-- Residuals, divided by the mass if requested; without mass there are none. -/
def pooled (F : Flags) (q x mu : Nat → Nat → K) (N k d : Nat) : K :=
  if F.mass then (if massOf q N k = 0 then 0 else residual q x mu N k d / massOf q N k) else residual q x mu N k d

/-- `sign(z) sqrt |z|` -/
def rooted (sq : K → K) (z : K) : K := if z < 0 then - sq |z| else sq |z|

/-- Norm of a vector of `n` components, not less than `1e-12`. -/
def safeNorm (sq : K → K) (n : Nat) (v : Nat → K) : K := max (sq (∑ i ∈ Finset.range n, v i ^ 2)) (1 / 10 ^ 12)

/-- Square-rooting and normalisation of each component. -/
def component (F : Flags) (sq : K → K) (q x mu : Nat → Nat → K) (D N k d : Nat) : K :=
  let v := fun d => if F.root then rooted sq (pooled F q x mu N k d) else pooled F q x mu N k d
  if F.components then v d / safeNorm sq D v else v d

/-- Norm of a matrix. -/
def safeNorm2 (sq : K → K) (C D : Nat) (v : Nat → Nat → K) : K := max (sq (∑ k ∈ Finset.range C, ∑ d ∈ Finset.range D, v k d ^ 2)) (1 / 10 ^ 12)

/-- The VLAD descriptor. -/
def vlad (F : Flags) (sq : K → K) (q x mu : Nat → Nat → K) (D C N k d : Nat) : K :=
  let v := component F sq q x mu D N
  if F.unnormalized then v k d else v k d / safeNorm2 sq C D v

end Verif.Vlad
