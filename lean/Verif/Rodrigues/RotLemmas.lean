import Verif.Rodrigues.DerivLemmas
import Mathlib.Analysis.SpecialFunctions.Trigonometric.Bounds
import Mathlib.Topology.Algebra.Module.FiniteDimension
import Mathlib.Analysis.Real.Pi.Bounds
import Mathlib.LinearAlgebra.Matrix.ToLin

/-!
# Properties of the rotation about a vector
-/

namespace Verif.Rodrigues

open Spec NormedSpace

theorem len_nonneg (w : Fin 3 → ℝ) : 0 ≤ len w := Real.sqrt_nonneg _

theorem len_zero {w : Fin 3 → ℝ} (h : len w = 0) : w = 0 := by
  have h2 := len_sq w
  rw [h] at h2
  have a0 := sq_nonneg (w 0)
  have a1 := sq_nonneg (w 1)
  have a2 := sq_nonneg (w 2)
  funext k
  fin_cases k
  · exact pow_eq_zero_iff (two_ne_zero) |>.1 (by show w 0 ^ 2 = 0; linarith)
  · exact pow_eq_zero_iff (two_ne_zero) |>.1 (by show w 1 ^ 2 = 0; linarith)
  · exact pow_eq_zero_iff (two_ne_zero) |>.1 (by show w 2 ^ 2 = 0; linarith)

theorem hat_zero : hat 0 = 0 := by
  ext i j
  fin_cases i <;> fin_cases j <;> simp [hat]

theorem hat_transpose (w : Fin 3 → ℝ) : (hat w).transpose = - hat w := by
  ext i j
  fin_cases i <;> fin_cases j <;> simp [hat]

theorem hat_neg (w : Fin 3 → ℝ) : hat (-w) = - hat w := by
  ext i j
  fin_cases i <;> fin_cases j <;> simp [hat]

theorem rot_zero : rot 0 = 1 := by rw [rot, hat_zero, exp_zero]

theorem rot_neg (w : Fin 3 → ℝ) : rot (-w) = (rot w).transpose := by
  rw [rot, rot, ← Matrix.exp_transpose, hat_neg, hat_transpose]

theorem unit_sq {w : Fin 3 → ℝ} (h : len w ≠ 0) : (w 0 / len w) ^ 2 + (w 1 / len w) ^ 2 + (w 2 / len w) ^ 2 = 1 := by
  rw [div_pow, div_pow, div_pow, ← add_div, ← add_div, ← len_sq, div_self (pow_ne_zero 2 h)]

theorem rot_isRotation (w : Fin 3 → ℝ) : IsRotation (rot w) := by
  refine ⟨?_, ?_⟩
  · rw [rot, ← Matrix.exp_transpose, hat_transpose, ← Matrix.exp_add_of_commute _ _ (Commute.neg_left (Commute.refl (hat w))), neg_add_cancel, exp_zero]
  · by_cases h : len w = 0
    · rw [len_zero h, rot_zero, Matrix.det_one]
    · rw [Matrix.det_fin_three]
      simp only [rot_entry h]
      have hu := unit_sq h
      generalize w 0 / len w = x at *
      generalize w 1 / len w = y at *
      generalize w 2 / len w = z at *
      have hs := Real.sin_sq_add_cos_sq (len w)
      generalize Real.sin (len w) = s at *
      generalize Real.cos (len w) = c at *
      unfold assignR
      simp
      linear_combination (-(x ^ 2 + y ^ 2 + z ^ 2) * (2 * c - c ^ 2 - 1)) * hu + (x ^ 2 + y ^ 2 + z ^ 2) * hs

theorem rot_axis (w : Fin 3 → ℝ) : (rot w).mulVec w = w := by
  by_cases h : len w = 0
  · rw [len_zero h, rot_zero, Matrix.one_mulVec]
  · have h0 : (hat w).mulVec w = 0 := by
      funext i
      fin_cases i <;> simp [hat, Matrix.mulVec, dotProduct, Fin.sum_univ_three] <;> ring
    rw [rot_eq h, Matrix.add_mulVec, Matrix.add_mulVec, Matrix.one_mulVec, Matrix.smul_mulVec, Matrix.smul_mulVec, ← Matrix.mulVec_mulVec, h0, Matrix.mulVec_zero, smul_zero, smul_zero, add_zero, add_zero]

theorem rot_trace (w : Fin 3 → ℝ) : rot w 0 0 + rot w 1 1 + rot w 2 2 = 1 + 2 * Real.cos (len w) := by
  by_cases h : len w = 0
  · rw [h, len_zero h, rot_zero, Real.cos_zero]
    simp
    norm_num
  · have hu := unit_sq h
    simp only [rot_entry h]
    unfold assignR
    simp
    linear_combination (-2 * (1 - Real.cos (len w))) * hu

/-- The derivative at zero -/
noncomputable def der0 : Fin 3 → Fin 3 → Fin 3 → ℝ := fun i j k =>
  ([0, 0, 0, 0, 0, 1, 0, -1, 0, 0, 0, -1, 0, 0, 0, 1, 0, 0, 0, 1, 0, -1, 0, 0, 0, 0, 0] : List ℝ).getD ((i.val + 3 * j.val) + 9 * k.val) 0

/-- `hat` is linear. -/
def hatL : (Fin 3 → ℝ) →ₗ[ℝ] Matrix (Fin 3) (Fin 3) ℝ where
  toFun := hat
  map_add' := fun v w => by
    ext i j
    fin_cases i <;> fin_cases j <;> simp [hat] <;> ring
  map_smul' := fun c w => by
    ext i j
    fin_cases i <;> fin_cases j <;> simp [hat]

open scoped Matrix.Norms.Operator in
theorem rot_hasDer_zero (i j : Fin 3) : HasFDerivAt (fun w => rot w i j) (lin (der0 i j)) 0 := by
  have h1 : HasFDerivAt (fun w => hatL w) (LinearMap.toContinuousLinearMap hatL) 0 := (LinearMap.toContinuousLinearMap hatL).hasFDerivAt
  have h2 : HasFDerivAt (exp : Matrix (Fin 3) (Fin 3) ℝ → Matrix (Fin 3) (Fin 3) ℝ) (1 : Matrix (Fin 3) (Fin 3) ℝ →L[ℝ] Matrix (Fin 3) (Fin 3) ℝ) (hatL 0) := by
    rw [map_zero]
    exact hasFDerivAt_exp_zero
  have h3 := h2.comp 0 h1
  have h4 := (LinearMap.toContinuousLinearMap (Matrix.entryLinearMap ℝ ℝ i j)).hasFDerivAt.comp 0 h3
  refine HasFDerivAt.congr_fderiv h4 ?_
  ext1 v
  rw [lin_apply, Fin.sum_univ_three]
  show hat v i j = _
  fin_cases i <;> fin_cases j <;> simp [hat, der0]

/-- The coefficients for a small angle -/
theorem small_bounds {t : ℝ} (h0 : 0 < t) (h1 : t < 1 / 1000000) :
    |1 - Real.sin t / t| ≤ t ∧ |(1 - Real.cos t) / t| ≤ t / 2 ∧ |Real.cos t - Real.sin t / t| ≤ t ∧ |Real.sin t - 2 * ((1 - Real.cos t) / t)| ≤ t := by
  have hs1 : Real.sin t ≤ t := Real.sin_le h0.le
  have hs2 := Real.sin_gt_sub_cube h0
  have hc1 := Real.cos_le_one t
  have hc2 := Real.one_sub_sq_div_two_le_cos (x := t)
  have a1 : Real.sin t / t ≤ 1 := (div_le_one h0).2 hs1
  have a2 : 1 - t ^ 2 / 4 ≤ Real.sin t / t := by
    rw [le_div_iff₀ h0]
    nlinarith
  have b1 : 0 ≤ (1 - Real.cos t) / t := div_nonneg (by linarith) h0.le
  have b2 : (1 - Real.cos t) / t ≤ t / 2 := by
    rw [div_le_iff₀ h0]
    nlinarith
  have s0 : 0 ≤ Real.sin t := by nlinarith
  have ht : t ^ 2 ≤ t := by nlinarith
  refine ⟨abs_le.2 ⟨by linarith, by linarith⟩, abs_le.2 ⟨by linarith, by linarith⟩, abs_le.2 ⟨by linarith, by linarith⟩, abs_le.2 ⟨by linarith, by linarith⟩⟩

theorem abs_comb {a' a b c d p q r t : ℝ} (ha : |a' - a| ≤ t) (hb : |b| ≤ t / 2) (hc : |c| ≤ t) (hd : |d| ≤ t) (hp : |p| ≤ 2) (hq : |q| ≤ 1) (hr : |r| ≤ 1) :
    |a' - (a + p * b + q * c + r * d)| ≤ 4 * t := by
  have h1 : |p * b| ≤ 2 * (t / 2) := by
    rw [abs_mul]
    exact mul_le_mul hp hb (abs_nonneg _) zero_le_two
  have h2 : |q * c| ≤ 1 * t := by
    rw [abs_mul]
    exact mul_le_mul hq hc (abs_nonneg _) zero_le_one
  have h3 : |r * d| ≤ 1 * t := by
    rw [abs_mul]
    exact mul_le_mul hr hd (abs_nonneg _) zero_le_one
  rw [abs_le] at *
  constructor <;> linarith [h1.1, h1.2, h2.1, h2.2, h3.1, h3.2, ha.1, ha.2]

theorem mul_le_one' {u v : ℝ} (hu : |u| ≤ 1) (hv : |v| ≤ 1) : |u * v| ≤ 1 := by
  rw [abs_mul]
  exact mul_le_one₀ hu (abs_nonneg _) hv

theorem der_close {x y z a b c d t : ℝ} (h : x ^ 2 + y ^ 2 + z ^ 2 = 1) (ha : |1 - a| ≤ t) (hb : |b| ≤ t / 2) (hc : |c| ≤ t) (hd : |d| ≤ t) (i j k : Fin 3) :
    |der0 i j k - der x y z a b c d i j k| ≤ 4 * t := by
  have hx2 := sq_nonneg x
  have hy2 := sq_nonneg y
  have hz2 := sq_nonneg z
  have hx : |x| ≤ 1 := abs_le_one_iff_mul_self_le_one.2 (by nlinarith)
  have hy : |y| ≤ 1 := abs_le_one_iff_mul_self_le_one.2 (by nlinarith)
  have hz : |z| ≤ 1 := abs_le_one_iff_mul_self_le_one.2 (by nlinarith)
  have hyz : |y * y + z * z| ≤ 1 := abs_le.2 ⟨by nlinarith, by nlinarith⟩
  have hzx : |z * z + x * x| ≤ 1 := abs_le.2 ⟨by nlinarith, by nlinarith⟩
  have hyx : |y * y + x * x| ≤ 1 := abs_le.2 ⟨by nlinarith, by nlinarith⟩
  have ht : 0 ≤ t := le_trans (abs_nonneg _) hd
  have h0 : |(0 : ℝ) - 0| ≤ t := by simpa using ht
  have ha' : |(-1 : ℝ) - -a| ≤ t := by
    rw [← abs_neg]
    convert ha using 2
    ring
  have n2 : ∀ {u : ℝ}, |u| ≤ 1 → |-2 * u| ≤ 2 := fun hu => by
    rw [abs_mul, abs_neg, abs_two]
    linarith
  have l2 : ∀ {u : ℝ}, |u| ≤ 1 → |u| ≤ 2 := fun hu => by linarith
  have ng : ∀ {u : ℝ}, |u| ≤ 1 → |-u| ≤ 1 := fun hu => by rwa [abs_neg]
  have z1 : |(0 : ℝ)| ≤ 1 := by simp
  have z2 : |(0 : ℝ)| ≤ 2 := by simp
  have key : ∀ {a' a p q r e : ℝ}, |a' - a| ≤ t → |p| ≤ 2 → |q| ≤ 1 → |r| ≤ 1 → e = a + p * b + q * c + r * d → |a' - e| ≤ 4 * t := by
    intro a' a p q r e h1 h2 h3 h4 h5
    rw [h5]
    exact abs_comb h1 hb hc hd h2 h3 h4
  fin_cases i <;> fin_cases j <;> fin_cases k
  · exact key h0 z2 z1 (ng (mul_le_one' hyz hx)) (by simp [der, assignD]; ring)
  · exact key h0 (n2 hy) z1 (ng (mul_le_one' hyz hy)) (by simp [der, assignD]; ring)
  · exact key h0 (n2 hz) z1 (ng (mul_le_one' hyz hz)) (by simp [der, assignD]; ring)
  · exact key h0 (l2 hy) (ng (mul_le_one' hx hz)) (mul_le_one' (mul_le_one' hx hy) hx) (by simp [der, assignD]; ring)
  · exact key h0 (l2 hx) (ng (mul_le_one' hy hz)) (mul_le_one' (mul_le_one' hx hy) hy) (by simp [der, assignD]; ring)
  · exact key ha' z2 (ng (mul_le_one' hz hz)) (mul_le_one' (mul_le_one' hx hy) hz) (by simp [der, assignD]; ring)
  · exact key h0 (l2 hz) (mul_le_one' hx hy) (mul_le_one' (mul_le_one' hx hz) hx) (by simp [der, assignD]; ring)
  · exact key ha z2 (mul_le_one' hy hy) (mul_le_one' (mul_le_one' hx hz) hy) (by simp [der, assignD]; ring)
  · exact key h0 (l2 hx) (mul_le_one' hy hz) (mul_le_one' (mul_le_one' hx hz) hz) (by simp [der, assignD]; ring)
  · exact key h0 (l2 hy) (mul_le_one' hx hz) (mul_le_one' (mul_le_one' hx hy) hx) (by simp [der, assignD]; ring)
  · exact key h0 (l2 hx) (mul_le_one' hy hz) (mul_le_one' (mul_le_one' hx hy) hy) (by simp [der, assignD]; ring)
  · exact key ha z2 (mul_le_one' hz hz) (mul_le_one' (mul_le_one' hx hy) hz) (by simp [der, assignD]; ring)
  · exact key h0 (n2 hx) z1 (ng (mul_le_one' hzx hx)) (by simp [der, assignD]; ring)
  · exact key h0 z2 z1 (ng (mul_le_one' hzx hy)) (by simp [der, assignD]; ring)
  · exact key h0 (n2 hz) z1 (ng (mul_le_one' hzx hz)) (by simp [der, assignD]; ring)
  · exact key ha' z2 (ng (mul_le_one' hx hx)) (mul_le_one' (mul_le_one' hy hz) hx) (by simp [der, assignD]; ring)
  · exact key h0 (l2 hz) (ng (mul_le_one' hx hy)) (mul_le_one' (mul_le_one' hy hz) hy) (by simp [der, assignD]; ring)
  · exact key h0 (l2 hy) (ng (mul_le_one' hx hz)) (mul_le_one' (mul_le_one' hy hz) hz) (by simp [der, assignD]; ring)
  · exact key h0 (l2 hz) (ng (mul_le_one' hx hy)) (mul_le_one' (mul_le_one' hx hz) hx) (by simp [der, assignD]; ring)
  · exact key ha' z2 (ng (mul_le_one' hy hy)) (mul_le_one' (mul_le_one' hx hz) hy) (by simp [der, assignD]; ring)
  · exact key h0 (l2 hx) (ng (mul_le_one' hy hz)) (mul_le_one' (mul_le_one' hx hz) hz) (by simp [der, assignD]; ring)
  · exact key ha z2 (mul_le_one' hx hx) (mul_le_one' (mul_le_one' hy hz) hx) (by simp [der, assignD]; ring)
  · exact key h0 (l2 hz) (mul_le_one' hx hy) (mul_le_one' (mul_le_one' hy hz) hy) (by simp [der, assignD]; ring)
  · exact key h0 (l2 hy) (mul_le_one' hx hz) (mul_le_one' (mul_le_one' hy hz) hz) (by simp [der, assignD]; ring)
  · exact key h0 (n2 hx) z1 (ng (mul_le_one' hyx hx)) (by simp [der, assignD]; ring)
  · exact key h0 (n2 hy) z1 (ng (mul_le_one' hyx hy)) (by simp [der, assignD]; ring)
  · exact key h0 z2 z1 (ng (mul_le_one' hyx hz)) (by simp [der, assignD]; ring)

theorem rot_close {w : Fin 3 → ℝ} (h : len w < 1 / 1000000) (i j : Fin 3) : |(1 : Matrix (Fin 3) (Fin 3) ℝ) i j - rot w i j| ≤ 2 / 1000000 := by
  by_cases h0 : len w = 0
  · rw [len_zero h0, rot_zero, sub_self, abs_zero]
    norm_num
  · have hp := lt_of_le_of_ne (len_nonneg w) (Ne.symm h0)
    have hu := unit_sq h0
    rw [rot_entry h0]
    have s1 : |Real.sin (len w)| ≤ 1 / 1000000 := by
      rw [abs_le]
      have := Real.sin_le hp.le
      have := Real.sin_nonneg_of_nonneg_of_le_pi hp.le (by linarith [Real.pi_gt_three])
      constructor <;> linarith
    have c1 : |1 - Real.cos (len w)| ≤ 1 / 1000000 := by
      rw [abs_le]
      have := Real.cos_le_one (len w)
      have := Real.one_sub_sq_div_two_le_cos (x := len w)
      constructor <;> nlinarith
    generalize w 0 / len w = x at *
    generalize w 1 / len w = y at *
    generalize w 2 / len w = z at *
    generalize Real.sin (len w) = s at *
    generalize 1 - Real.cos (len w) = m at *
    have hx2 := sq_nonneg x
    have hy2 := sq_nonneg y
    have hz2 := sq_nonneg z
    have hx : |x| ≤ 1 := abs_le_one_iff_mul_self_le_one.2 (by nlinarith)
    have hy : |y| ≤ 1 := abs_le_one_iff_mul_self_le_one.2 (by nlinarith)
    have hz : |z| ≤ 1 := abs_le_one_iff_mul_self_le_one.2 (by nlinarith)
    have hyz : |y * y + z * z| ≤ 1 := abs_le.2 ⟨by nlinarith, by nlinarith⟩
    have hzx : |z * z + x * x| ≤ 1 := abs_le.2 ⟨by nlinarith, by nlinarith⟩
    have hxy : |x * x + y * y| ≤ 1 := abs_le.2 ⟨by nlinarith, by nlinarith⟩
    have key : ∀ {a p q e : ℝ}, |p| ≤ 1 → |q| ≤ 1 → e = a + p * s + q * m → |a - e| ≤ 2 / 1000000 := by
      intro a p q e hp hq he
      have h1 : |p * s| ≤ 1 * (1 / 1000000) := by
        rw [abs_mul]
        exact mul_le_mul hp s1 (abs_nonneg _) zero_le_one
      have h2 : |q * m| ≤ 1 * (1 / 1000000) := by
        rw [abs_mul]
        exact mul_le_mul hq c1 (abs_nonneg _) zero_le_one
      rw [abs_le] at *
      rw [he]
      constructor <;> linarith [h1.1, h1.2, h2.1, h2.2]
    have ng : ∀ {u : ℝ}, |u| ≤ 1 → |-u| ≤ 1 := fun hu => by rwa [abs_neg]
    have z1 : |(0 : ℝ)| ≤ 1 := by simp
    fin_cases i <;> fin_cases j
    · exact key z1 (ng hyz) (by simp [assignR]; ring)
    · exact key (ng hz) (mul_le_one' hx hy) (by simp [assignR]; ring)
    · exact key hy (mul_le_one' hx hz) (by simp [assignR]; ring)
    · exact key hz (mul_le_one' hx hy) (by simp [assignR]; ring)
    · exact key z1 (ng hzx) (by simp [assignR]; ring)
    · exact key (ng hx) (mul_le_one' hy hz) (by simp [assignR]; ring)
    · exact key (ng hy) (mul_le_one' hx hz) (by simp [assignR]; ring)
    · exact key hx (mul_le_one' hy hz) (by simp [assignR]; ring)
    · exact key z1 (ng hxy) (by simp [assignR]; ring)

end Verif.Rodrigues
