import Verif.Svm.LossProps
import Mathlib.Analysis.Convex.SpecificFunctions.Basic
import Mathlib.Analysis.SpecialFunctions.Log.Basic

/-!
# The logistic loss
-/

set_option linter.unusedSectionVars false

namespace Verif.Svm

open Spec

/-- The tangent of `log (1 + exp u)` is below the function. -/
theorem softplus_tangent (u v : ℝ) : Real.log (1 + Real.exp u) + Real.exp u / (1 + Real.exp u) * (v - u) ≤ Real.log (1 + Real.exp v) := by
  have hu := Real.exp_pos u
  have hv := Real.exp_pos v
  have h1 : 0 < 1 + Real.exp u := by linarith
  have h2 : 0 < 1 + Real.exp v := by linarith
  have hc := convexOn_exp.2 (Set.mem_univ (0 : ℝ)) (Set.mem_univ (v - u)) (show (0 : ℝ) ≤ 1 / (1 + Real.exp u) by positivity) (show 0 ≤ Real.exp u / (1 + Real.exp u) by positivity) (by field_simp)
  simp only [smul_eq_mul, mul_zero, zero_add, Real.exp_zero, mul_one] at hc
  have h3 : 1 / (1 + Real.exp u) + Real.exp u / (1 + Real.exp u) * Real.exp (v - u) = (1 + Real.exp v) / (1 + Real.exp u) := by
    rw [Real.exp_sub]
    field_simp
  rw [h3] at hc
  have h4 := Real.log_le_log (Real.exp_pos _) hc
  rw [Real.log_exp, Real.log_div h2.ne' h1.ne'] at h4
  linarith

/-- The functions of the standard library, on real numbers. -/
noncomputable def realFns (eps : ℝ) : Fns ℝ := ⟨Real.exp, Real.log, Real.sqrt, eps⟩

/-- **The logistic loss** is `log (1 + exp (- y z))`, and its derivative is a subgradient. -/
theorem logistic_isGrad (eps : ℝ) : IsGrad (setLoss (realFns eps) .logistic) (fun z y => Real.log (1 + Real.exp (- (y * z)))) (fun _ => True) where
  loss z y _ := by
    show logisticLoss (realFns eps) z y = _
    unfold logisticLoss
    show (if y * z ≥ 0 then Real.log (1 + Real.exp (- (y * z))) else - (y * z) + Real.log (Real.exp (y * z) + 1)) = _
    split
    · rfl
    · have h : 1 + Real.exp (- (y * z)) = Real.exp (- (y * z)) * (Real.exp (y * z) + 1) := by
        rw [mul_add, ← Real.exp_add, neg_add_cancel, Real.exp_zero, mul_one]
      rw [h, Real.log_mul (Real.exp_pos _).ne' (by have := Real.exp_pos (y * z); linarith), Real.log_exp]
  deriv z y _ z' := by
    show _ + logisticDeriv (realFns eps) z y * (z' - z) ≤ _
    unfold logisticDeriv
    show _ + y * (1 / (1 + Real.exp (- (y * z))) - 1) * (z' - z) ≤ _
    have := softplus_tangent (- (y * z)) (- (y * z'))
    refine le_trans (le_of_eq ?_) this
    have h1 : 1 + Real.exp (- (y * z)) ≠ 0 := by have := Real.exp_pos (- (y * z)); linarith
    have h2 : Real.exp (- (y * z)) / (1 + Real.exp (- (y * z))) = 1 - 1 / (1 + Real.exp (- (y * z))) := by
      field_simp
      ring
    rw [h2]
    ring

variable {K : Type} [Field K] [LinearOrder K] [IsStrictOrderedRing K]

theorem logisticDer_some (F : Fns K) (alpha inner norm2 label : K) {beta : K} (h0 : 0 < beta) (h1 : beta < 1) : ∃ d, logisticDer F alpha inner norm2 label beta = some d := by
  refine ⟨norm2 * beta + label * (inner - norm2 * alpha) + (F.log beta - F.log (1 - beta)), ?_⟩
  unfold logisticDer logv
  rw [if_pos h0, if_pos (by linarith)]
  rfl

/-- **The update of the dual variable for the logistic loss** never takes the logarithm of a number that is not positive, and the new dual variable is feasible, whatever the accuracy of the functions of the standard library. -/
theorem logisticDca_feasible (F : Fns K) (heps : 0 ≤ F.eps) (alpha inner norm2 : K) {label : K} (hy : label = 1 ∨ label = -1) (hn : 0 ≤ norm2) :
    ∃ d, (setLoss F .logistic).dca alpha inner norm2 label = some d ∧ 0 ≤ label * (alpha + d) ∧ label * (alpha + d) ≤ 1 := by
  obtain ⟨s, e1, h1⟩ := iter_inv (n := 5) (f := fun _ s => bisect F alpha inner norm2 label s) (s := ((0 : K), (1 : K), (1 / 2 : K)))
    (fun _ s => 0 ≤ s.1 ∧ s.1 < s.2.2 ∧ s.2.2 < s.2.1 ∧ s.2.1 ≤ 1) (by norm_num) (by
      rintro _ _ ⟨b1, b2, b⟩ ⟨h1, h2, h3, h4⟩
      dsimp only at h1 h2 h3 h4
      obtain ⟨d, e⟩ := logisticDer_some F alpha inner norm2 label (beta := b) (by linarith) (by linarith)
      show ∃ s', (logisticDer F alpha inner norm2 label b).bind _ = some s' ∧ _
      rw [e, Option.bind_some]
      by_cases hd : d ≥ 0
      · rw [if_pos hd]
        exact ⟨_, rfl, h1, by dsimp only; linarith, by dsimp only; linarith, by dsimp only; linarith⟩
      · rw [if_neg hd]
        exact ⟨_, rfl, by dsimp only; linarith, by dsimp only; linarith, by dsimp only; linarith, h4⟩)
  obtain ⟨beta, e2, h2⟩ := iter_inv (n := 2) (f := fun _ beta => newton F alpha inner norm2 label beta) (s := s.2.2)
    (fun _ b => 0 ≤ b ∧ b ≤ 1) ⟨by linarith [h1.1, h1.2.1], by linarith [h1.2.2.1, h1.2.2.2]⟩ (by
      intro _ _ b hb
      show ∃ b', newton F alpha inner norm2 label b = some b' ∧ _
      unfold newton
      by_cases hc : b > F.eps ∧ b < 1 - F.eps
      · rw [if_pos hc]
        have hb0 : 0 < b := by linarith [hc.1]
        have hb1 : b < 1 := by linarith [hc.2]
        have hbb : 0 < b * (1 - b) := mul_pos hb0 (by linarith)
        obtain ⟨d, e⟩ := logisticDer_some F alpha inner norm2 label hb0 hb1
        show ∃ b', (divv 1 (b * (1 - b))).bind _ = some b' ∧ _
        rw [divv, if_neg hbb.ne', Option.bind_some]
        show ∃ b', (logisticDer F alpha inner norm2 label b).bind _ = some b' ∧ _
        rw [e, Option.bind_some]
        have hne : norm2 + 1 / (b * (1 - b)) ≠ 0 := by
          have : 0 < 1 / (b * (1 - b)) := by positivity
          linarith
        show ∃ b', (divv d (norm2 + 1 / (b * (1 - b)))).bind _ = some b' ∧ _
        rw [divv, if_neg hne, Option.bind_some]
        exact ⟨_, rfl, le_max_left _ _, max_le (by norm_num) (min_le_left _ _)⟩
      · rw [if_neg hc]
        exact ⟨b, rfl, hb⟩)
  refine ⟨label * beta - alpha, ?_, ?_⟩
  · show (iter 5 (fun _ s => bisect F alpha inner norm2 label s) (0, 1, 1 / 2)).bind _ = _
    rw [e1, Option.bind_some]
    show (iter 2 _ s.2.2).bind _ = _
    rw [e2]
    rfl
  · have : label * (alpha + (label * beta - alpha)) = beta := by
      rcases hy with e | e <;> rw [e] <;> ring
    rw [this]
    exact h2

/-- The hypotheses hold in a case. -/
example : ∃ d, (setLoss (⟨fun _ => 1, fun x => x - 1, fun x => x, 0⟩ : Fns ℚ) .logistic).dca 0 1 2 (-1) = some d ∧ 0 ≤ -1 * (0 + d) ∧ -1 * (0 + d) ≤ 1 := logisticDca_feasible _ (le_refl _) 0 1 2 (Or.inr rfl) (by norm_num)

end Verif.Svm
