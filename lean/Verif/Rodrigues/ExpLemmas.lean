import Verif.Rodrigues.Spec
import Mathlib.Analysis.SpecialFunctions.Exponential
import Mathlib.Analysis.SpecialFunctions.Trigonometric.Deriv
import Mathlib.Analysis.Calculus.MeanValue
import Mathlib.Tactic.Ring
import Mathlib.Tactic.FieldSimp
import Mathlib.Tactic.LinearCombination
import Mathlib.Tactic.NoncommRing
import Mathlib.Tactic.Module

/-!
# The exponential of the matrix of a cross product
-/

namespace Verif.Rodrigues

open Spec NormedSpace

/-- Euler's formula in a Banach algebra -/
theorem exp_cube {A : Type} [NormedRing A] [NormedAlgebra ℝ A] [CompleteSpace A] {a : A} {t : ℝ} (ht : t ≠ 0) (h : a * (a * a) = - (t ^ 2) • a) :
    exp a = 1 + (Real.sin t / t) • a + ((1 - Real.cos t) / t ^ 2) • (a * a) := by
  let _ : NormedAlgebra ℚ A := NormedAlgebra.restrictScalars ℚ ℝ A
  let f : ℝ → A := fun u => 1 + (Real.sin (u * t) / t) • a + ((1 - Real.cos (u * t)) / t ^ 2) • (a * a)
  have hf : ∀ u, HasDerivAt f (a * f u) u := by
    intro u
    have hm : HasDerivAt (fun u : ℝ => u * t) t u := by simpa using (hasDerivAt_id u).mul_const t
    have h1 := ((hm.sin.div_const t).smul_const a)
    have h2 := (((hm.cos.const_sub 1).div_const (t ^ 2)).smul_const (a * a))
    have h3 := (h1.const_add 1).add h2
    refine h3.congr_deriv ?_
    simp only [f]
    rw [mul_add, mul_add, mul_one, mul_smul_comm, mul_smul_comm, h, smul_smul]
    have e1 : Real.cos (u * t) * t / t = Real.cos (u * t) := by field_simp
    have e2 : -(-Real.sin (u * t) * t) / t ^ 2 = Real.sin (u * t) / t := by field_simp
    have e3 : (1 - Real.cos (u * t)) / t ^ 2 * -t ^ 2 = Real.cos (u * t) - 1 := by field_simp; ring
    rw [e1, e2, e3]
    module
  let g : ℝ → A := fun u => exp (u • (-a)) * f u
  have hg : ∀ u, HasDerivAt g 0 u := by
    intro u
    have h1 := (hasDerivAt_exp_smul_const (-a) u).mul (hf u)
    refine h1.congr_deriv ?_
    noncomm_ring
  have hc : g 1 = g 0 := is_const_of_deriv_eq_zero (fun u => (hg u).differentiableAt) (fun u => (hg u).deriv) 1 0
  simp only [g, f, one_smul, zero_smul, exp_zero, one_mul, zero_mul, Real.sin_zero, Real.cos_zero, zero_div, sub_self, add_zero] at hc
  have h4 : exp a * exp (-a) = 1 := by
    rw [← exp_add_of_commute (Commute.neg_right (Commute.refl a)), add_neg_cancel, exp_zero]
  calc exp a = exp a * (exp (-a) * (1 + (Real.sin t / t) • a + ((1 - Real.cos t) / t ^ 2) • (a * a))) := by rw [hc, mul_one]
    _ = _ := by rw [← mul_assoc, h4, one_mul]

theorem len_sq (w : Fin 3 → ℝ) : len w ^ 2 = w 0 ^ 2 + w 1 ^ 2 + w 2 ^ 2 := Real.sq_sqrt (by positivity)

theorem hat_cube (w : Fin 3 → ℝ) : hat w * (hat w * hat w) = - (len w ^ 2) • hat w := by
  rw [len_sq]
  ext i j
  fin_cases i <;> fin_cases j <;> simp [hat, Matrix.mul_apply, Fin.sum_univ_three] <;> ring

open scoped Matrix.Norms.Operator in
/-- **Rodrigues' formula** -/
theorem rot_eq {w : Fin 3 → ℝ} (h : len w ≠ 0) : rot w = 1 + (Real.sin (len w) / len w) • hat w + ((1 - Real.cos (len w)) / len w ^ 2) • (hat w * hat w) :=
  exp_cube h (hat_cube w)

end Verif.Rodrigues
