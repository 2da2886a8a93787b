import Verif.Rodrigues.RotLemmas

/-!
# Properties of Rodrigues' formula
-/

namespace Verif.Rodrigues

open Spec

theorem len_eq (w : Fin 3 → ℝ) : Real.sqrt (w 0 * w 0 + w 1 * w 1 + w 2 * w 2) = len w := by
  unfold len
  ring_nf

theorem run_big {w : Fin 3 → ℝ} {R : List ℝ} (hR : R.length = 9) (h : 1 / 1000000 ≤ len w) (dR : Option (List ℝ)) :
    rodrigues real R dR [w 0, w 1, w 2] =
      ((storeIf dR (assignD (w 0 / len w) (w 1 / len w) (w 2 / len w) (Real.sin (len w) / len w) ((1 - Real.cos (len w)) / len w) (Real.cos (len w) - Real.sin (len w) / len w)
        (Real.sin (len w) - 2 * ((1 - Real.cos (len w)) / len w)))).map fun d => ((assignR (w 0 / len w) (w 1 / len w) (w 2 / len w) (Real.sin (len w)) (1 - Real.cos (len w))).map Prod.snd, d)) := by
  have h0 : len w ≠ 0 := by
    intro h'
    rw [h'] at h
    norm_num at h
  have hs : ¬ len w < (small : ℝ) := not_lt.2 h
  show (sqrtv real (w 0 * w 0 + w 1 * w 1 + w 2 * w 2)).bind _ = _
  rw [sqrtv_of (add_nonneg (add_nonneg (mul_self_nonneg _) (mul_self_nonneg _)) (mul_self_nonneg _)), len_eq, Option.bind_some]
  rw [if_neg hs, divv_of h0, divv_of h0, divv_of h0]
  simp only [Option.bind_eq_bind, Option.bind_some, store9 hR, divv_of h0, Option.pure_def, Option.map_eq_bind]
  rfl

theorem run_small {w : Fin 3 → ℝ} {R : List ℝ} (hR : R.length = 9) (h : len w < 1 / 1000000) (dR : Option (List ℝ)) :
    rodrigues real R dR [w 0, w 1, w 2] = (storeIf dR assignD0).map fun d => ([1, 0, 0, 0, 1, 0, 0, 0, 1], d) := by
  have hs : len w < (small : ℝ) := h
  show (sqrtv real (w 0 * w 0 + w 1 * w 1 + w 2 * w 2)).bind _ = _
  rw [sqrtv_of (add_nonneg (add_nonneg (mul_self_nonneg _) (mul_self_nonneg _)) (mul_self_nonneg _)), len_eq, Option.bind_some]
  rw [if_pos hs]
  simp only [Option.bind_eq_bind, Option.bind_some, store9' hR, Option.pure_def, Option.map_eq_bind]
  rfl

/-- **For a vector that is not tiny the result is the rotation about the vector, by an angle equal to its length, and the derivative of the rotation with respect to the vector.** -/
theorem rodrigues_exact {w : Fin 3 → ℝ} {om R dR : List ℝ} (hw : IsVec om w) (hR : R.length = 9) (hD : dR.length = 27) (h : 1 / 1000000 ≤ len w) :
    ∃ R' D' D, rodrigues real R (some dR) om = some (R', some D') ∧ IsMat R' (rot w) ∧ IsDer D' D ∧ ∀ i j, HasFDerivAt (fun v => rot v i j) (lin (D i j)) w := by
  have h0 : len w ≠ 0 := by
    intro h'
    rw [h'] at h
    norm_num at h
  rw [IsVec] at hw
  rw [hw, run_big hR h, storeIf, store27 hD]
  exact ⟨_, _, derRot w, rfl, rot_list h0, isDer_der _ _ _ _ _ _ _, rot_hasDer h0⟩

/-- **For a tiny vector the result is the identity and the derivative at zero**, which are close to the rotation and to its derivative; they are equal to them if the vector is null. -/
theorem rodrigues_small {w : Fin 3 → ℝ} {om R dR : List ℝ} (hw : IsVec om w) (hR : R.length = 9) (hD : dR.length = 27) (h : len w < 1 / 1000000) :
    ∃ R' D' D E, rodrigues real R (some dR) om = some (R', some D') ∧ IsMat R' 1 ∧ (∀ i j, |(1 : Matrix (Fin 3) (Fin 3) ℝ) i j - rot w i j| ≤ 2 / 1000000) ∧ IsDer D' D ∧
      (∀ i j, HasFDerivAt (fun v => rot v i j) (lin (E i j)) w) ∧ (∀ i j k, |D i j k - E i j k| ≤ 4 / 1000000) ∧ (w = 0 → D = E) := by
  rw [IsVec] at hw
  rw [hw, run_small hR h, storeIf, store27' hD]
  have h1 : IsMat [1, 0, 0, 0, 1, 0, 0, 0, 1] 1 := by
    unfold IsMat
    simp
  have h2 : IsDer [0, 0, 0, 0, 0, 1, 0, -1, 0, 0, 0, -1, 0, 0, 0, 1, 0, 0, 0, 1, 0, -1, 0, 0, 0, 0, 0] der0 := by
    refine ⟨rfl, fun i j k => ?_⟩
    fin_cases i <;> fin_cases j <;> fin_cases k <;> rfl
  by_cases h0 : len w = 0
  · obtain rfl := len_zero h0
    refine ⟨_, _, der0, der0, rfl, h1, rot_close h, h2, rot_hasDer_zero, fun i j k => ?_, fun _ => rfl⟩
    rw [sub_self, abs_zero]
    norm_num
  · have hp := lt_of_le_of_ne (len_nonneg w) (Ne.symm h0)
    obtain ⟨ha, hb, hc, hd⟩ := small_bounds hp h
    refine ⟨_, _, der0, derRot w, rfl, h1, rot_close h, h2, rot_hasDer h0, fun i j k => le_trans (der_close (unit_sq h0) ha hb hc hd i j k) (by linarith), fun hw => ?_⟩
    exact absurd (by rw [hw, len]; simp) h0

/-- **The result is always a rotation, and fixes the axis.**  It does not depend on whether the derivative is wanted. -/
theorem rodrigues_rotation {w : Fin 3 → ℝ} {om R : List ℝ} (hw : IsVec om w) (hR : R.length = 9) :
    ∃ R' M, rodrigues real R none om = some (R', none) ∧ IsMat R' M ∧ IsRotation M ∧ M.mulVec w = w ∧
      ∀ dR : List ℝ, dR.length = 27 → ∃ D', rodrigues real R (some dR) om = some (R', some D') := by
  rw [IsVec] at hw
  rw [hw]
  by_cases h : len w < 1 / 1000000
  · rw [run_small hR h]
    refine ⟨_, 1, rfl, ?_, by simp [IsRotation], Matrix.one_mulVec w, fun dR hd => ?_⟩
    · unfold IsMat
      simp
    · rw [run_small hR h, storeIf, store27' hd]
      exact ⟨_, rfl⟩
  · have h := not_lt.1 h
    have h0 : len w ≠ 0 := by
      intro h'
      rw [h'] at h
      norm_num at h
    rw [run_big hR h]
    refine ⟨_, rot w, rfl, rot_list h0, rot_isRotation w, rot_axis w, fun dR hd => ?_⟩
    rw [run_big hR h, storeIf, store27 hd]
    exact ⟨_, rfl⟩

/-- A quarter turn about the third axis -/
example : (1 / 1000000 ≤ len ![0, 0, Real.pi / 2]) ∧ rodrigues real [9, 9, 9, 9, 9, 9, 9, 9, 9] none [0, 0, Real.pi / 2] = some ([0, 1, 0, -1, 0, 0, 0, 0, 1], none) := by
  have hp := Real.pi_gt_three
  have hl : len ![0, 0, Real.pi / 2] = Real.pi / 2 := by
    unfold len
    simp
    exact Real.sqrt_sq (by positivity)
  refine ⟨by rw [hl]; linarith, ?_⟩
  have := run_big (w := ![0, 0, Real.pi / 2]) (R := [9, 9, 9, 9, 9, 9, 9, 9, 9]) rfl (by rw [hl]; linarith) none
  rw [hl] at this
  have hz : Real.pi / 2 / (Real.pi / 2) = 1 := div_self (by positivity)
  simpa [assignR, storeIf, hz] using this

end Verif.Rodrigues
