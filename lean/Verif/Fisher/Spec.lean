import Verif.Gmm.Spec
import Verif.Vlad.Spec
import Verif.Fisher.Model

/-!
# Specification of the Fisher vector (vl/fisher.c:50-190)
-/

namespace Verif.Fisher

open Finset

variable {K : Type} [Field K] [LinearOrder K]

/-- With `VL_FISHER_FLAG_FAST`, all the weight is given to the most likely component, the first one if several are equally likely. -/
def hard (C : Nat) (q : Nat → Nat → K) (i k : Nat) : K := if (∀ j < C, q i j ≤ q i k) ∧ ∀ j < k, q i j < q i k then 1 else 0

/-- Weight of component `k` for point `i`. -/
def weights (F : Flags) (C : Nat) (q : Nat → Nat → K) (i k : Nat) : K := if F.fast then hard C q i k else q i k

/-- Point `i` takes part in the average of component `k`; the others are neglected. -/
def Counts (w : Nat → K) (q : Nat → Nat → K) (i k : Nat) : Prop := 1 / 10 ^ 6 ≤ w k ∧ 1 / 10 ^ 6 ≤ q i k

instance (w : Nat → K) (q : Nat → Nat → K) (i k : Nat) : Decidable (Counts w q i k) := inferInstanceAs (Decidable (_ ∧ _))

/-- Average of the deviations from the mean of component `k`. -/
def meanDev (sq : K → K) (N : Nat) (w : Nat → K) (mu s2 x q : Nat → Nat → K) (k d : Nat) : K :=
  1 / (N * sq (w k)) * ∑ i ∈ range N, if Counts w q i k then q i k * ((x i d - mu k d) / sq (s2 k d)) else 0

/-- Average of the deviations from the variance of component `k`. -/
def varDev (sq : K → K) (N : Nat) (w : Nat → K) (mu s2 x q : Nat → Nat → K) (k d : Nat) : K :=
  1 / (N * sq (2 * w k)) * ∑ i ∈ range N, if Counts w q i k then q i k * (((x i d - mu k d) / sq (s2 k d)) ^ 2 - 1) else 0

/-- The rows of the Fisher vector: first those of the means, then those of the variances. -/
def stats (sq : K → K) (C N : Nat) (w : Nat → K) (mu s2 x q : Nat → Nat → K) (a d : Nat) : K := if a < C then meanDev sq N w mu s2 x q a d else varDev sq N w mu s2 x q (a - C) d

/-- With square rooting, `sign(z) sqrt |z|`. -/
def rooted (F : Flags) (sq : K → K) (z : K) : K := if F.root then Vlad.rooted sq z else z

/-- The Fisher vector as a matrix with `2 * C` rows. -/
def fisher (F : Flags) (sq : K → K) (D C N : Nat) (w : Nat → K) (mu s2 x q : Nat → Nat → K) (a d : Nat) : K :=
  let v := fun a d => rooted F sq (stats sq C N w mu s2 x (weights F C q) a d)
  if F.normalized then v a d / Vlad.safeNorm2 sq (2 * C) D v else v a d

/-- Number of terms of the averages. -/
def terms (C N : Nat) (w : Nat → K) (q : Nat → Nat → K) : Nat := ((range C ×ˢ range N).filter (fun p => Counts w q p.2 p.1)).card

end Verif.Fisher
