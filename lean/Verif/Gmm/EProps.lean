import Verif.Gmm.ELemmas
import Mathlib.Analysis.SpecialFunctions.Gaussian.GaussianIntegral
import Mathlib.Analysis.SpecialFunctions.Log.Basic

/-!
# Posterior probabilities of the components of a Gaussian mixture
-/

namespace Verif.Gmm

open Finset

set_option linter.unusedSectionVars false

variable {K : Type} [Field K] [LinearOrder K] [IsStrictOrderedRing K]

/-- For every mixture with positive covariances and a component of weight at least `1e-6`, every data and every order of the parallel loops, the function accesses nothing out of bounds, divides by no
zero, and returns the posterior probabilities and the log-likelihood of the data. -/
theorem posteriors_correct (E : Fns K) (hE : IsExpLog E) (orderC orderN : List Nat) {D C N : Nat} {priors means cov data : List K} {w : Nat → K} {mu s2 x : Nat → Nat → K}
    (hw : Arr priors C w) (hm : Flat means C D mu) (hs : Flat cov C D s2) (hx : Flat data N D x) (hpos : ∀ k < C, ∀ d < D, 0 < s2 k d) (hpr : ∃ k < C, 1 / 10 ^ 6 ≤ w k)
    (hoC : orderC.Perm (List.range C)) (hoN : orderN.Perm (List.range N)) (s : Prep K) (post : List (WithBot K))
    (hs1 : s.logCov.length = C) (hs2 : s.invCov.length = C * D) (hs3 : s.logW.length = C) (hpost : post.length = N * C) :
    ∃ p, posteriors E orderC orderN D C priors means cov data s post = some (p, ∑ i ∈ range N, E.log (density E D C w mu s2 (x i))) ∧
      Flat p N C (fun i k => posterior E D C w mu s2 (x i) k) := by
  obtain ⟨s', a1, a2⟩ := foldlM_list (Prepared E D C w s2) (body := fun s k => prepCluster E D priors cov k s) orderC [] s
    ⟨_, _, _, Arr.of_len' hs1 0, Flat.of_len hs2 0, Arr.of_len' hs3 ⊥, by simp⟩ (by
      intro done k s hk h
      exact prepCluster_spec E hw hs hpos (List.mem_range.1 (hoC.mem_iff.1 hk)) h)
  rw [List.nil_append] at a2
  obtain ⟨⟨q, LL⟩, b1, ⟨f, b2, b3⟩, b4⟩ := foldlM_list
    (fun done (t : List (WithBot K) × K) => (∃ f, Flat t.1 N C f ∧ ∀ i ∈ done, ∀ k < C, f i k = ((posterior E D C w mu s2 (x i) k : K) : WithBot K)) ∧ t.2 = (done.map (fun i => E.log (density E D C w mu s2 (x i)))).sum)
    (body := fun t i => datum E D C means data s' i t) orderN [] (post, 0) ⟨⟨_, Flat.of_len hpost ⊥, by simp⟩, by simp⟩ (by
      rintro done i ⟨q, LL⟩ hi ⟨⟨f, c1, c2⟩, c3⟩
      obtain ⟨p', d1, d2⟩ := datum_spec E hE hm hx hpr (fun k hk => hoC.mem_iff.2 (List.mem_range.2 hk)) a2 (List.mem_range.1 (hoN.mem_iff.1 hi)) c1 LL
      refine ⟨_, d1, ⟨_, d2, ?_⟩, ?_⟩
      · intro j hj k hk
        by_cases h : j = i
        · rw [if_pos h, h]
        · rw [if_neg h]
          rw [List.mem_append, List.mem_singleton] at hj
          exact c2 j (hj.resolve_right h) k hk
      · simp only at c3 ⊢
        rw [c3, List.map_append, List.sum_append]
        simp)
  rw [List.nil_append] at b3 b4
  simp only at b2 b3 b4
  have h1 : Flat q N C (fun i k => ((posterior E D C w mu s2 (x i) k : K) : WithBot K)) := b2.congr (fun i hi k hk => b3 i (hoN.mem_iff.2 (List.mem_range.2 hi)) k hk)
  have h2 : q = (List.range (N * C)).map (fun j => (some (posterior E D C w mu s2 (x (j / C)) (j % C)) : Option K)) := h1.arr.eq_map
  have h3 : LL = ∑ i ∈ range N, E.log (density E D C w mu s2 (x i)) := by
    rw [b4, sum_flat' N]
    exact (hoN.map _).sum_eq
  refine ⟨(List.range (N * C)).map (fun j => posterior E D C w mu s2 (x (j / C)) (j % C)), ?_, Arr.flat (f := fun i k => posterior E D C w mu s2 (x i) k) (Arr.of_map (N * C) _)⟩
  unfold posteriors
  rw [a1]
  simp only [Option.bind_eq_bind, Option.bind_some]
  rw [b1, Option.bind_some, h2]
  simp only
  rw [mapM_some, h3]
  rfl

/-- The posterior probabilities of a point are not negative and their sum is one. -/
theorem posterior_distribution (E : Fns K) (hE : IsExpLog E) (D C : Nat) (w : Nat → K) (mu s2 : Nat → Nat → K) (x : Nat → K) (hpr : ∃ k < C, 1 / 10 ^ 6 ≤ w k) :
    (∀ k, 0 ≤ posterior E D C w mu s2 x k) ∧ ∑ k ∈ range C, posterior E D C w mu s2 x k = 1 := by
  have hd := density_pos E hE D C w mu s2 x hpr
  refine ⟨fun k => div_nonneg (joint_nonneg E hE D w mu s2 x k) hd.le, ?_⟩
  unfold posterior
  rw [← sum_div]
  exact div_self hd.ne'

/-! ### Real numbers -/

/-- The functions of real numbers. -/
noncomputable def realFns : Fns ℝ := { log := Real.log, exp := Real.exp, log2pi := Real.log (2 * Real.pi) }

theorem real_isExpLog : IsExpLog realFns :=
  { exp_add := Real.exp_add, exp_zero := Real.exp_zero, exp_pos := Real.exp_pos, exp_log := fun _ h => Real.exp_log h, log_exp := Real.log_exp }

/-- The density is that of the product of the normal distributions of the coordinates. -/
theorem exp_logDensity (D : Nat) (mu s2 x : Nat → ℝ) (hs : ∀ d < D, 0 < s2 d) :
    realFns.exp (logDensity realFns D mu s2 x) = ∏ d ∈ range D, 1 / Real.sqrt (2 * Real.pi * s2 d) * Real.exp (- (x d - mu d) ^ 2 / (2 * s2 d)) := by
  have h1 : ∀ d ∈ range D, 1 / Real.sqrt (2 * Real.pi * s2 d) * Real.exp (- (x d - mu d) ^ 2 / (2 * s2 d)) =
      Real.exp (- (1 / 2 * Real.log (2 * Real.pi)) - 1 / 2 * Real.log (s2 d) - 1 / 2 * ((x d - mu d) ^ 2 / s2 d)) := by
    intro d hd
    have hp := hs d (mem_range.1 hd)
    have h2 : 1 / Real.sqrt (2 * Real.pi * s2 d) = Real.exp (- (1 / 2 * Real.log (2 * Real.pi)) - 1 / 2 * Real.log (s2 d)) := by
      rw [show - (1 / 2 * Real.log (2 * Real.pi)) - 1 / 2 * Real.log (s2 d) = - (1 / 2 * (Real.log (2 * Real.pi) + Real.log (s2 d))) by ring,
        ← Real.log_mul (by positivity) hp.ne', Real.exp_neg, one_div, Real.sqrt_eq_rpow, Real.rpow_def_of_pos (by positivity), mul_comm (Real.log _)]
    rw [h2, ← Real.exp_add]
    congr 1
    field_simp
    ring
  rw [prod_congr rfl h1, ← Real.exp_sum]
  show Real.exp _ = _
  congr 1
  unfold logDensity
  rw [sum_sub_distrib, sum_sub_distrib, sum_const, card_range, mul_sum, mul_sum, nsmul_eq_mul]
  simp only [realFns]
  ring

/-- The posterior probabilities for real numbers: Bayes' rule with the densities of normal distributions. -/
theorem posteriors_real (orderC orderN : List Nat) {D C N : Nat} {priors means cov data : List ℝ} {w : Nat → ℝ} {mu s2 x : Nat → Nat → ℝ}
    (hw : Arr priors C w) (hm : Flat means C D mu) (hs : Flat cov C D s2) (hx : Flat data N D x) (hpos : ∀ k < C, ∀ d < D, 0 < s2 k d) (hpr : ∃ k < C, 1 / 10 ^ 6 ≤ w k) (hall : ∀ k < C, w k = 0 ∨ 1 / 10 ^ 6 ≤ w k)
    (hoC : orderC.Perm (List.range C)) (hoN : orderN.Perm (List.range N)) (s : Prep ℝ) (post : List (WithBot ℝ))
    (hs1 : s.logCov.length = C) (hs2 : s.invCov.length = C * D) (hs3 : s.logW.length = C) (hpost : post.length = N * C) :
    ∃ p, posteriors realFns orderC orderN D C priors means cov data s post =
        some (p, ∑ i ∈ range N, Real.log (∑ k ∈ range C, w k * ∏ d ∈ range D, 1 / Real.sqrt (2 * Real.pi * s2 k d) * Real.exp (- (x i d - mu k d) ^ 2 / (2 * s2 k d)))) ∧
      Flat p N C (fun i k => w k * (∏ d ∈ range D, 1 / Real.sqrt (2 * Real.pi * s2 k d) * Real.exp (- (x i d - mu k d) ^ 2 / (2 * s2 k d))) /
        ∑ j ∈ range C, w j * ∏ d ∈ range D, 1 / Real.sqrt (2 * Real.pi * s2 j d) * Real.exp (- (x i d - mu j d) ^ 2 / (2 * s2 j d))) := by
  obtain ⟨p, h1, h2⟩ := posteriors_correct realFns real_isExpLog orderC orderN hw hm hs hx hpos hpr hoC hoN s post hs1 hs2 hs3 hpost
  have hj : ∀ i, ∀ k < C, joint realFns D w mu s2 (x i) k = w k * ∏ d ∈ range D, 1 / Real.sqrt (2 * Real.pi * s2 k d) * Real.exp (- (x i d - mu k d) ^ 2 / (2 * s2 k d)) := by
    intro i k hk
    unfold joint usedPrior
    rw [exp_logDensity D _ _ _ (hpos k hk)]
    rcases hall k hk with h | h
    · rw [h, if_pos (by positivity)]
    · rw [if_neg (not_lt.2 h)]
  have hd : ∀ i, density realFns D C w mu s2 (x i) = ∑ k ∈ range C, w k * ∏ d ∈ range D, 1 / Real.sqrt (2 * Real.pi * s2 k d) * Real.exp (- (x i d - mu k d) ^ 2 / (2 * s2 k d)) := by
    intro i
    exact sum_congr rfl (fun k hk => hj i k (mem_range.1 hk))
  refine ⟨p, ?_, h2.congr ?_⟩
  · rw [h1]
    simp only [hd]
    rfl
  · intro i hi k hk
    unfold posterior
    rw [hd, hj i k hk]

end Verif.Gmm
