import Verif.Rodrigues.RotLemmas
import Mathlib.LinearAlgebra.Matrix.Adjugate
import Mathlib.LinearAlgebra.Matrix.NonsingularInverse

/-!
# Every rotation is a rotation about a vector
-/

namespace Verif.Rodrigues

open Spec

/-- The entries of a rotation -/
structure Entries (a b c d e f g h i : ℝ) : Prop where
  c00 : a * a + d * d + g * g = 1
  c11 : b * b + e * e + h * h = 1
  c22 : c * c + f * f + i * i = 1
  c01 : a * b + d * e + g * h = 0
  c02 : a * c + d * f + g * i = 0
  c12 : b * c + e * f + h * i = 0
  r00 : a * a + b * b + c * c = 1
  r11 : d * d + e * e + f * f = 1
  r22 : g * g + h * h + i * i = 1
  r01 : a * d + b * e + c * f = 0
  r02 : a * g + b * h + c * i = 0
  r12 : d * g + e * h + f * i = 0
  a00 : e * i - f * h = a
  a01 : -(b * i) + c * h = d
  a02 : b * f - c * e = g
  a10 : -(d * i) + f * g = b
  a11 : a * i - c * g = e
  a12 : -(a * f) + c * d = h
  a20 : d * h - e * g = c
  a21 : -(a * h) + b * g = f
  a22 : a * e - b * d = i

theorem entries {M : Matrix (Fin 3) (Fin 3) ℝ} (h : IsRotation M) : Entries (M 0 0) (M 0 1) (M 0 2) (M 1 0) (M 1 1) (M 1 2) (M 2 0) (M 2 1) (M 2 2) := by
  obtain ⟨h1, h2⟩ := h
  have h3 : M * M.transpose = 1 := mul_eq_one_comm.1 h1
  have h4 : M.adjugate = M.transpose := by
    have : M.adjugate * M = 1 := by rw [Matrix.adjugate_mul, h2, one_smul]
    calc M.adjugate = M.adjugate * (M * M.transpose) := by rw [h3, mul_one]
      _ = M.transpose := by rw [← mul_assoc, this, one_mul]
  have e1 := fun i j => congrFun (congrFun h1 i) j
  have e3 := fun i j => congrFun (congrFun h3 i) j
  rw [Matrix.adjugate_fin_three] at h4
  have e4 := fun i j => congrFun (congrFun h4 i) j
  simp only [Matrix.mul_apply, Matrix.transpose_apply, Fin.sum_univ_three] at e1 e3
  refine ⟨e1 0 0, e1 1 1, e1 2 2, e1 0 1, e1 0 2, e1 1 2, e3 0 0, e3 1 1, e3 2 2, e3 0 1, e3 0 2, e3 1 2, e4 0 0, e4 0 1, e4 0 2, e4 1 0, e4 1 1, e4 1 2, e4 2 0, e4 2 1, e4 2 2⟩

/-- The rotation by `t` about a unit vector -/
theorem rot_smul {x y z t : ℝ} (ht : 0 < t) (h : x ^ 2 + y ^ 2 + z ^ 2 = 1) : len ![t * x, t * y, t * z] = t ∧ ∀ i j : Fin 3,
    rot ![t * x, t * y, t * z] i j = ((assignR x y z (Real.sin t) (1 - Real.cos t)).map Prod.snd).getD (i.val + 3 * j.val) 0 := by
  have hl : len ![t * x, t * y, t * z] = t := by
    unfold len
    simp only [Matrix.cons_val_zero, Matrix.cons_val_one, Matrix.cons_val]
    rw [show (t * x) ^ 2 + (t * y) ^ 2 + (t * z) ^ 2 = t ^ 2 * (x ^ 2 + y ^ 2 + z ^ 2) by ring, h, mul_one, Real.sqrt_sq ht.le]
  refine ⟨hl, fun i j => ?_⟩
  rw [rot_entry (by rw [hl]; exact ht.ne'), hl]
  simp only [Matrix.cons_val_zero, Matrix.cons_val_one, Matrix.cons_val]
  rw [mul_div_cancel_left₀ _ ht.ne', mul_div_cancel_left₀ _ ht.ne', mul_div_cancel_left₀ _ ht.ne']

theorem dq {p q r s : ℝ} (hq : q ≠ 0) (h : p * r = s * (q * q)) : p / q * (r / q) = s := by
  rw [div_mul_div_comm, h, mul_div_assoc, div_self (mul_ne_zero hq hq), mul_one]

/-- The axis of a half turn -/
theorem half_turn {a b c e f i : ℝ} {Q : Prop} (H : Entries a b c b e f c f i) (h4 : a + e + i = -1)
    (key : ∀ x y z : ℝ, x * x = (a + 1) / 2 → y * y = (e + 1) / 2 → z * z = (i + 1) / 2 → x * y = b / 2 → x * z = c / 2 → y * z = f / 2 → Q) : Q := by
  have hpos : 0 < (a + 1) / 2 ∨ 0 < (e + 1) / 2 ∨ 0 < (i + 1) / 2 := by
    by_contra hc
    push Not at hc
    linarith [hc.1, hc.2.1, hc.2.2]
  rcases hpos with hp | hp | hp
  · have hs := Real.mul_self_sqrt hp.le
    have hn : Real.sqrt ((a + 1) / 2) ≠ 0 := (Real.sqrt_pos.2 hp).ne'
    generalize Real.sqrt ((a + 1) / 2) = q at *
    refine key q (b / 2 / q) (c / 2 / q) hs (dq hn ?_) (dq hn ?_) (mul_div_cancel₀ _ hn) (mul_div_cancel₀ _ hn) (dq hn ?_) <;> rw [hs]
    · linear_combination (-1 / 4) * H.a22 - (1 / 4) * h4
    · linear_combination (-1 / 4) * H.a11 - (1 / 4) * h4
    · linear_combination (1 / 4) * H.a12
  · have hs := Real.mul_self_sqrt hp.le
    have hn : Real.sqrt ((e + 1) / 2) ≠ 0 := (Real.sqrt_pos.2 hp).ne'
    generalize Real.sqrt ((e + 1) / 2) = q at *
    refine key (b / 2 / q) q (f / 2 / q) (dq hn ?_) hs (dq hn ?_) (div_mul_cancel₀ _ hn) (dq hn ?_) (mul_div_cancel₀ _ hn) <;> rw [hs]
    · linear_combination (-1 / 4) * H.a22 - (1 / 4) * h4
    · linear_combination (-1 / 4) * H.a00 - (1 / 4) * h4
    · linear_combination (1 / 4) * H.a20
  · have hs := Real.mul_self_sqrt hp.le
    have hn : Real.sqrt ((i + 1) / 2) ≠ 0 := (Real.sqrt_pos.2 hp).ne'
    generalize Real.sqrt ((i + 1) / 2) = q at *
    refine key (c / 2 / q) (f / 2 / q) q (dq hn ?_) (dq hn ?_) hs (dq hn ?_) (div_mul_cancel₀ _ hn) (div_mul_cancel₀ _ hn) <;> rw [hs]
    · linear_combination (-1 / 4) * H.a11 - (1 / 4) * h4
    · linear_combination (-1 / 4) * H.a00 - (1 / 4) * h4
    · linear_combination (1 / 4) * H.a01

set_option maxHeartbeats 1000000 in
/-- **Every rotation is the rotation about a vector of length at most pi.** -/
theorem exists_axis {M : Matrix (Fin 3) (Fin 3) ℝ} (hM : IsRotation M) : ∃ w, len w ≤ Real.pi ∧ rot w = M := by
  have H := entries hM
  have hext : ∀ A : Matrix (Fin 3) (Fin 3) ℝ, A 0 0 = M 0 0 → A 0 1 = M 0 1 → A 0 2 = M 0 2 → A 1 0 = M 1 0 → A 1 1 = M 1 1 → A 1 2 = M 1 2 → A 2 0 = M 2 0 → A 2 1 = M 2 1 → A 2 2 = M 2 2 → A = M := by
    intro A h0 h1 h2 h3 h4 h5 h6 h7 h8
    ext i j
    fin_cases i <;> fin_cases j <;> assumption
  generalize M 0 0 = a at *
  generalize M 0 1 = b at *
  generalize M 0 2 = c at *
  generalize M 1 0 = d at *
  generalize M 1 1 = e at *
  generalize M 1 2 = f at *
  generalize M 2 0 = g at *
  generalize M 2 1 = h at *
  generalize M 2 2 = i at *
  have v00 : (h - f) ^ 2 = (1 + (a + e + i)) * (1 + a - e - i) := by linear_combination H.c11 + H.c22 - H.r00 + 2 * H.a00
  have v11 : (c - g) ^ 2 = (1 + (a + e + i)) * (1 + e - a - i) := by linear_combination H.c00 + H.c22 - H.r11 + 2 * H.a11
  have v22 : (d - b) ^ 2 = (1 + (a + e + i)) * (1 + i - a - e) := by linear_combination H.c00 + H.c11 - H.r22 + 2 * H.a22
  have v01 : (h - f) * (c - g) = (1 + (a + e + i)) * (b + d) := by linear_combination H.a01 + H.a10 - H.c01 - H.r01
  have v02 : (h - f) * (d - b) = (1 + (a + e + i)) * (c + g) := by linear_combination H.a02 + H.a20 - H.c02 - H.r02
  have v12 : (c - g) * (d - b) = (1 + (a + e + i)) * (f + h) := by linear_combination H.a12 + H.a21 - H.c12 - H.r12
  have hsum : (h - f) ^ 2 + (c - g) ^ 2 + (d - b) ^ 2 = (1 + (a + e + i)) * (3 - (a + e + i)) := by linear_combination v00 + v11 + v22
  have q0 := sq_nonneg (h - f)
  have q1 := sq_nonneg (c - g)
  have q2 := sq_nonneg (d - b)
  have t1 : -1 ≤ a + e + i := by
    by_contra hc
    nlinarith only [hc, q0, q1, q2, hsum]
  have t2 : a + e + i ≤ 3 := by
    by_contra hc
    nlinarith only [hc, q0, q1, q2, hsum]
  have la : a ≤ 1 ∧ -1 ≤ a := abs_le.1 (abs_le_one_iff_mul_self_le_one.2 (by nlinarith [H.c00, mul_self_nonneg d, mul_self_nonneg g])) |>.symm
  have le : e ≤ 1 ∧ -1 ≤ e := abs_le.1 (abs_le_one_iff_mul_self_le_one.2 (by nlinarith [H.c11, mul_self_nonneg b, mul_self_nonneg h])) |>.symm
  have li : i ≤ 1 ∧ -1 ≤ i := abs_le.1 (abs_le_one_iff_mul_self_le_one.2 (by nlinarith [H.c22, mul_self_nonneg c, mul_self_nonneg f])) |>.symm
  by_cases h3 : a + e + i = 3
  · refine ⟨0, by unfold len; simp [Real.pi_nonneg], ?_⟩
    have ea : a = 1 := by linarith
    have ee : e = 1 := by linarith
    have ei : i = 1 := by linarith
    subst ea ee ei
    have z : ∀ u v : ℝ, 1 * 1 + u * u + v * v = 1 → u = 0 ∧ v = 0 := fun u v huv => ⟨mul_self_eq_zero.1 (by nlinarith [mul_self_nonneg u, mul_self_nonneg v]), mul_self_eq_zero.1 (by nlinarith [mul_self_nonneg u, mul_self_nonneg v])⟩
    obtain ⟨rfl, rfl⟩ := z _ _ H.c00
    obtain ⟨rfl, rfl⟩ := z b h (by linarith [H.c11])
    obtain ⟨rfl, rfl⟩ := z c f (by linarith [H.c22])
    rw [rot_zero]
    exact hext _ rfl rfl rfl rfl rfl rfl rfl rfl rfl
  by_cases h4 : a + e + i = -1
  · have hz : (h - f) ^ 2 + (c - g) ^ 2 + (d - b) ^ 2 = 0 := by rw [hsum, h4]; ring
    have e1 : h = f := sub_eq_zero.1 (pow_eq_zero_iff two_ne_zero |>.1 (by linarith only [hz, q0, q1, q2]))
    have e2 : c = g := sub_eq_zero.1 (pow_eq_zero_iff two_ne_zero |>.1 (by linarith only [hz, q0, q1, q2]))
    have e3 : d = b := sub_eq_zero.1 (pow_eq_zero_iff two_ne_zero |>.1 (by linarith only [hz, q0, q1, q2]))
    subst e1 e2 e3
    have key : ∀ x y z : ℝ, x * x = (a + 1) / 2 → y * y = (e + 1) / 2 → z * z = (i + 1) / 2 → x * y = d / 2 → x * z = c / 2 → y * z = h / 2 → ∃ w, len w ≤ Real.pi ∧ rot w = M := by
      intro x y z hxx hyy hzz hxy hxz hyz
      obtain ⟨hl, hr⟩ := rot_smul (x := x) (y := y) (z := z) Real.pi_pos (by linarith)
      refine ⟨_, hl.le, hext _ ?_ ?_ ?_ ?_ ?_ ?_ ?_ ?_ ?_⟩ <;> rw [hr, Real.sin_pi, Real.cos_pi] <;> simp [assignR] <;> linarith only [hxx, hyy, hzz, hxy, hxz, hyz, h4]
    exact half_turn H h4 key
  · have t1' : -1 < a + e + i := lt_of_le_of_ne t1 (Ne.symm h4)
    have t2' : a + e + i < 3 := lt_of_le_of_ne t2 h3
    have hcos : Real.cos (Real.arccos ((a + e + i - 1) / 2)) = (a + e + i - 1) / 2 := Real.cos_arccos (by linarith) (by linarith)
    have hth : 0 < Real.arccos ((a + e + i - 1) / 2) := Real.arccos_pos.2 (by linarith)
    have hpi := Real.arccos_le_pi ((a + e + i - 1) / 2)
    have hs2 := Real.sin_sq_add_cos_sq (Real.arccos ((a + e + i - 1) / 2))
    have hltpi : Real.arccos ((a + e + i - 1) / 2) < Real.pi := by
      refine lt_of_le_of_ne hpi fun he => ?_
      rw [he, Real.cos_pi] at hcos
      linarith
    have hspos := Real.sin_pos_of_pos_of_lt_pi hth hltpi
    generalize Real.arccos ((a + e + i - 1) / 2) = t at *
    rw [hcos] at hs2
    have h4s : 4 * Real.sin t ^ 2 = (1 + (a + e + i)) * (3 - (a + e + i)) := by linear_combination 4 * hs2
    generalize hS : Real.sin t = s at *
    have hne : (3 - (a + e + i)) ≠ 0 := by linarith
    have hne' : (1 + (a + e + i)) ≠ 0 := by linarith
    have sq : ∀ {p q r : ℝ}, p * q = (1 + (a + e + i)) * r → p / (2 * s) * (q / (2 * s)) = r / (3 - (a + e + i)) := by
      intro p q r hpq
      rw [div_mul_div_comm, hpq, show 2 * s * (2 * s) = 4 * s ^ 2 by ring, h4s, mul_div_mul_left _ _ hne']
    have u00 := sq ((pow_two _).symm.trans v00)
    have u11 := sq ((pow_two _).symm.trans v11)
    have u22 := sq ((pow_two _).symm.trans v22)
    have u01 := sq v01
    have u02 := sq v02
    have u12 := sq v12
    have lx : 2 * s * ((h - f) / (2 * s)) = h - f := by field_simp
    have ly : 2 * s * ((c - g) / (2 * s)) = c - g := by field_simp
    have lz : 2 * s * ((d - b) / (2 * s)) = d - b := by field_simp
    generalize (h - f) / (2 * s) = x at *
    generalize (c - g) / (2 * s) = y at *
    generalize (d - b) / (2 * s) = z at *
    have w00 : (3 - (a + e + i)) * (x * x) = 1 + a - e - i := by rw [u00]; field_simp
    have w11 : (3 - (a + e + i)) * (y * y) = 1 + e - a - i := by rw [u11]; field_simp
    have w22 : (3 - (a + e + i)) * (z * z) = 1 + i - a - e := by rw [u22]; field_simp
    have w01 : (3 - (a + e + i)) * (x * y) = b + d := by rw [u01]; field_simp
    have w02 : (3 - (a + e + i)) * (x * z) = c + g := by rw [u02]; field_simp
    have w12 : (3 - (a + e + i)) * (y * z) = f + h := by rw [u12]; field_simp
    obtain ⟨hl, hr⟩ := rot_smul (x := x) (y := y) (z := z) hth (by
      have : (3 - (a + e + i)) * (x ^ 2 + y ^ 2 + z ^ 2) = (3 - (a + e + i)) * 1 := by linear_combination w00 + w11 + w22
      exact mul_left_cancel₀ hne this)
    refine ⟨_, hl.le.trans hpi, hext _ ?_ ?_ ?_ ?_ ?_ ?_ ?_ ?_ ?_⟩ <;> rw [hr, hcos, hS] <;> simp [assignR] <;> linarith only [w00, w11, w22, w01, w02, w12, lx, ly, lz]

end Verif.Rodrigues
