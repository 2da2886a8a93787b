import Verif.Rodrigues.InvLemmas
import Verif.Rodrigues.Props

/-!
# Properties of the inverse of Rodrigues' formula
-/

namespace Verif.Rodrigues

open Spec

/-- The list of the entries of the rotation about a vector -/
noncomputable def rotL (w : Fin 3 → ℝ) : List ℝ := (assignR (w 0 / len w) (w 1 / len w) (w 2 / len w) (Real.sin (len w)) (1 - Real.cos (len w))).map Prod.snd

theorem inv_run {w : Fin 3 → ℝ} {R : List ℝ} (hR : IsMat R (rot w)) (h0 : len w ≠ 0) (hpi : len w ≤ Real.pi) (om : List ℝ) (dom : Option (List ℝ)) :
    irodrigues real om dom R = afterAcos om dom (fun i => (rotL w).getD i 0) (len w) := by
  have e : R = rotL w := hR.trans (rot_list h0).symm
  have ht := rot_trace w
  have h1 := Real.neg_one_le_cos (len w)
  have h2 := Real.cos_le_one (len w)
  have hm : R = [rot w 0 0, rot w 1 0, rot w 2 0, rot w 0 1, rot w 1 1, rot w 2 1, rot w 0 2, rot w 1 2, rot w 2 2] := hR
  rw [irodrigues_eq om dom (R := R) (r := fun i => R.getD i 0) (by rw [hm]; rfl) (by rw [hm]; show _ ≤ rot w 0 0 + rot w 1 1 + rot w 2 2; linarith) (by rw [hm]; show rot w 0 0 + rot w 1 1 + rot w 2 2 ≤ _; linarith)]
  have et : (R.getD 0 0 + R.getD 4 0 + R.getD 8 0 - 1) / 2 = Real.cos (len w) := by
    rw [hm]
    show (rot w 0 0 + rot w 1 1 + rot w 2 2 - 1) / 2 = _
    linarith
  rw [et, Real.arccos_cos (len_nonneg w) hpi, e]

theorem diffs (w : Fin 3 → ℝ) : (rotL w).getD 5 0 - (rotL w).getD 7 0 = 2 * (Real.sin (len w) * (w 0 / len w)) ∧ (rotL w).getD 6 0 - (rotL w).getD 2 0 = 2 * (Real.sin (len w) * (w 1 / len w)) ∧
    (rotL w).getD 1 0 - (rotL w).getD 3 0 = 2 * (Real.sin (len w) * (w 2 / len w)) := by
  unfold rotL assignR
  simp
  refine ⟨?_, ?_, ?_⟩ <;> ring

/-- The vector found if the rotation is not about pi -/
theorem inv_main {w : Fin 3 → ℝ} {R om : List ℝ} (hR : IsMat R (rot w)) (ho : om.length = 3) (h0 : len w ≠ 0) (hpi : len w ≤ Real.pi) (hn : ¬ (|Real.sin (len w)| < small ∧ Real.cos (len w) < 0)) {a : ℝ} (ha : ratio real (len w) (Real.sin (len w)) = some a) (dom : Option (List ℝ)) :
    irodrigues real om dom R = (irodriguesD dom (len w) (Real.sin (len w)) (Real.cos (len w)) (a * Real.sin (len w) * (w 0 / len w)) (a * Real.sin (len w) * (w 1 / len w)) (a * Real.sin (len w) * (w 2 / len w))).map
      fun d => ([a * Real.sin (len w) * (w 0 / len w), a * Real.sin (len w) * (w 1 / len w), a * Real.sin (len w) * (w 2 / len w)], d) := by
  rw [inv_run hR h0 hpi]
  unfold afterAcos
  rw [if_neg hn, ha, Option.bind_some]
  obtain ⟨d0, d1, d2⟩ := diffs w
  rw [d0, d1, d2, store3 ho, Option.bind_some, Option.map_eq_bind]
  have e : ∀ x : ℝ, 1 / 2 * a * (2 * (Real.sin (len w) * x)) = a * Real.sin (len w) * x := fun x => by ring
  rw [e, e, e]
  rfl

/-- **The inverse finds the vector of a rotation**, unless the angle is very close to zero or to pi. -/
theorem irodrigues_inverse {w : Fin 3 → ℝ} {R om : List ℝ} (hR : IsMat R (rot w)) (ho : om.length = 3) (hpi : len w < Real.pi) (hs : 1 / 1000000 ≤ Real.sin (len w)) :
    ∃ om', irodrigues real om none R = some (om', .null) ∧ IsVec om' w := by
  have h0 : len w ≠ 0 := by
    intro h
    rw [h, Real.sin_zero] at hs
    norm_num at hs
  have hn : ¬ |Real.sin (len w)| < (small : ℝ) := not_lt.2 (le_trans hs (le_abs_self _))
  have hs0 : Real.sin (len w) ≠ 0 := by
    intro h
    rw [h] at hs
    norm_num at hs
  have ha : ratio real (len w) (Real.sin (len w)) = some (len w / Real.sin (len w)) := by
    rw [ratio, if_neg hn]
    exact divv_of hs0
  rw [inv_main hR ho h0 hpi.le (fun h => hn h.1) ha none]
  refine ⟨_, rfl, ?_⟩
  unfold IsVec
  have e : ∀ k, len w / Real.sin (len w) * Real.sin (len w) * (w k / len w) = w k := fun k => by field_simp
  rw [e, e, e]

/-- **Close to the identity** the inverse finds the vector with an error of at most `2 * 10^-18`. -/
theorem irodrigues_near_zero {w : Fin 3 → ℝ} {R om : List ℝ} (hR : IsMat R (rot w)) (ho : om.length = 3) (hpi : len w ≤ Real.pi / 2) (hs : Real.sin (len w) < 1 / 1000000) :
    ∃ om' u, irodrigues real om none R = some (om', .null) ∧ IsVec om' u ∧ ∀ k, |u k - w k| ≤ 2 / 10 ^ 18 := by
  have hp := Real.pi_pos
  by_cases h0 : len w = 0
  · obtain rfl := len_zero h0
    rw [rot_zero] at hR
    have hm : R = [1, 0, 0, 0, 1, 0, 0, 0, 1] := by
      rw [hR]
      simp
    have e := irodrigues_eq om none (R := R) (r := fun i => R.getD i 0) (by rw [hm]; rfl) (by rw [hm]; norm_num) (by rw [hm]; norm_num)
    have et : (R.getD 0 0 + R.getD 4 0 + R.getD 8 0 - 1) / 2 = 1 := by
      rw [hm]
      norm_num
    rw [e, et, Real.arccos_one, afterAcos, if_neg (by rw [Real.cos_zero]; norm_num), ratio, if_pos (by rw [Real.sin_zero, abs_zero]; norm_num [small]), Option.bind_some, store3 ho, hm]
    refine ⟨_, 0, rfl, ?_, fun k => by simp; norm_num⟩
    unfold IsVec
    simp
  · have hpos := lt_of_le_of_ne (len_nonneg w) (Ne.symm h0)
    have hs1 : 0 ≤ Real.sin (len w) := Real.sin_nonneg_of_nonneg_of_le_pi (len_nonneg w) (by linarith)
    have hc : 0 ≤ Real.cos (len w) := Real.cos_nonneg_of_neg_pi_div_two_le_of_le (by linarith) hpi
    have hsm : |Real.sin (len w)| < (small : ℝ) := by
      rw [abs_of_nonneg hs1]
      exact hs
    have ha : ratio real (len w) (Real.sin (len w)) = some 1 := if_pos hsm
    rw [inv_main hR ho h0 (by linarith) (fun h => absurd h.2 (not_lt.2 hc)) ha none]
    have hu := unit_sq h0
    refine ⟨_, fun k => 1 * Real.sin (len w) * (w k / len w), rfl, rfl, fun k => ?_⟩
    have hk : |w k / len w| ≤ 1 := by
      apply abs_le_one_iff_mul_self_le_one.2
      have q0 := sq_nonneg (w 0 / len w)
      have q1 := sq_nonneg (w 1 / len w)
      have q2 := sq_nonneg (w 2 / len w)
      rw [← pow_two]
      fin_cases k
      · show (w 0 / len w) ^ 2 ≤ 1
        linarith
      · show (w 1 / len w) ^ 2 ≤ 1
        linarith
      · show (w 2 / len w) ^ 2 ≤ 1
        linarith
    have e : 1 * Real.sin (len w) * (w k / len w) - w k = (Real.sin (len w) - len w) * (w k / len w) := by
      field_simp
    rw [e, abs_mul]
    have hle := Real.sin_le hpos.le
    have hcube := Real.sin_gt_sub_cube hpos
    have hj := Real.mul_le_sin hpos.le hpi
    have htheta : len w < 2 / 1000000 := by
      have h4 : 2 / Real.pi ≥ 1 / 2 := by
        rw [ge_iff_le, le_div_iff₀ hp]
        linarith [Real.pi_le_four]
      nlinarith
    have hc3 : len w ^ 3 ≤ (2 / 1000000) ^ 3 := pow_le_pow_left₀ hpos.le htheta.le 3
    have habs : |Real.sin (len w) - len w| ≤ (2 / 1000000) ^ 3 / 6 := by
      rw [abs_le]
      constructor <;> linarith
    calc |Real.sin (len w) - len w| * |w k / len w| ≤ (2 / 1000000) ^ 3 / 6 * 1 := mul_le_mul habs hk (abs_nonneg _) (by norm_num)
      _ ≤ _ := by norm_num

/-- **Close to a half turn** the inverse finds the vector up to its sign: the sign is such that the component of largest absolute value is positive. -/
theorem irodrigues_near_pi {w : Fin 3 → ℝ} {R om : List ℝ} (hR : IsMat R (rot w)) (ho : om.length = 3) (hpi : len w ≤ Real.pi) (hs : Real.sin (len w) < 1 / 1000000) (hc : Real.cos (len w) < 0) :
    ∃ om' u, irodrigues real om none R = some (om', .null) ∧ IsVec om' u ∧ (u = w ∨ u = -w) ∧ ∃ k, 0 < u k ∧ ∀ j, |u j| ≤ |u k| := by
  have h0 : len w ≠ 0 := by
    intro h
    rw [h, Real.cos_zero] at hc
    linarith
  have hpos := lt_of_le_of_ne (len_nonneg w) (Ne.symm h0)
  have hs1 : 0 ≤ Real.sin (len w) := Real.sin_nonneg_of_nonneg_of_le_pi (len_nonneg w) hpi
  have hsm : |Real.sin (len w)| < (small : ℝ) := by
    rw [abs_of_nonneg hs1]
    exact hs
  rw [inv_run hR h0 hpi]
  unfold afterAcos
  rw [if_pos ⟨hsm, hc⟩]
  have hu := unit_sq h0
  have hm : 0 < 1 - Real.cos (len w) := by linarith
  have hq : 0 < Real.sqrt (1 - Real.cos (len w)) := Real.sqrt_pos.2 hm
  have hw : ∀ k, w k = len w * (w k / len w) := fun k => by field_simp
  have e : irodriguesPi real om (fun i => (rotL w).getD i 0) (len w) (Real.cos (len w)) =
      some [len w / Real.sqrt (1 - Real.cos (len w)) * (signs ((1 - Real.cos (len w)) * (w 0 / len w * (w 1 / len w))) ((1 - Real.cos (len w)) * (w 0 / len w * (w 2 / len w))) ((1 - Real.cos (len w)) * (w 1 / len w * (w 2 / len w)))
          (Real.sqrt (1 - Real.cos (len w)) * |w 0 / len w|) (Real.sqrt (1 - Real.cos (len w)) * |w 1 / len w|) (Real.sqrt (1 - Real.cos (len w)) * |w 2 / len w|)).1,
        len w / Real.sqrt (1 - Real.cos (len w)) * (signs ((1 - Real.cos (len w)) * (w 0 / len w * (w 1 / len w))) ((1 - Real.cos (len w)) * (w 0 / len w * (w 2 / len w))) ((1 - Real.cos (len w)) * (w 1 / len w * (w 2 / len w)))
          (Real.sqrt (1 - Real.cos (len w)) * |w 0 / len w|) (Real.sqrt (1 - Real.cos (len w)) * |w 1 / len w|) (Real.sqrt (1 - Real.cos (len w)) * |w 2 / len w|)).2.1,
        len w / Real.sqrt (1 - Real.cos (len w)) * (signs ((1 - Real.cos (len w)) * (w 0 / len w * (w 1 / len w))) ((1 - Real.cos (len w)) * (w 0 / len w * (w 2 / len w))) ((1 - Real.cos (len w)) * (w 1 / len w * (w 2 / len w)))
          (Real.sqrt (1 - Real.cos (len w)) * |w 0 / len w|) (Real.sqrt (1 - Real.cos (len w)) * |w 1 / len w|) (Real.sqrt (1 - Real.cos (len w)) * |w 2 / len w|)).2.2] := by
    unfold irodriguesPi rotL assignR
    generalize w 0 / len w = x at *
    generalize w 1 / len w = y at *
    generalize w 2 / len w = z at *
    generalize hcc : 1 - Real.cos (len w) = m at *
    simp only [List.map_cons, List.map_nil, List.getD_cons_zero, List.getD_cons_succ]
    rw [sqrt_abs (x := x) rfl hm.le _ (by ring), sqrt_abs (x := y) rfl hm.le _ (by ring), sqrt_abs (x := z) rfl hm.le _ (by ring)]
    simp only [Option.bind_eq_bind, Option.bind_some]
    rw [sqrtv_of hm.le, Option.bind_some, divv_of hq.ne', Option.bind_some, store3 ho]
    have w10 : 1 / 2 * (Real.sin (len w) * z + m * (x * y) + (-Real.sin (len w) * z + m * (x * y))) = m * (x * y) := by ring
    have w20 : 1 / 2 * (-Real.sin (len w) * y + m * (x * z) + (Real.sin (len w) * y + m * (x * z))) = m * (x * z) := by ring
    have w21 : 1 / 2 * (Real.sin (len w) * x + m * (y * z) + (-Real.sin (len w) * x + m * (y * z))) = m * (y * z) := by ring
    rw [w10, w20, w21]
  rw [e, Option.bind_some]
  have hsc : ∀ k, len w / Real.sqrt (1 - Real.cos (len w)) * (Real.sqrt (1 - Real.cos (len w)) * (w k / len w)) = w k := fun k => by field_simp
  have hab : ∀ i j, |w i / len w| ≤ |w j / len w| → |w i| ≤ |w j| := by
    intro i j h
    rw [abs_div, abs_div, abs_of_pos hpos] at h
    exact (div_le_div_iff_of_pos_right hpos).1 h
  have hall : ∀ {a b c : Fin 3}, (a = 0 ∧ b = 1 ∧ c = 2) ∨ (b = 0 ∧ a = 1 ∧ c = 2) ∨ (b = 0 ∧ c = 1 ∧ a = 2) → |w b / len w| ≤ |w a / len w| → |w c / len w| ≤ |w a / len w| → ∀ j, |w j| ≤ |w a| := by
    intro a b c h hb hc j
    rcases h with ⟨rfl, rfl, rfl⟩ | ⟨rfl, rfl, rfl⟩ | ⟨rfl, rfl, rfl⟩ <;> fin_cases j <;> first | exact le_refl _ | exact hab _ _ hb | exact hab _ _ hc
  rcases signs_eq hm hq hu with ⟨es, hk⟩ | ⟨es, hk⟩
  · rw [es]
    refine ⟨_, w, rfl, ?_, Or.inl rfl, ?_⟩
    · unfold IsVec
      rw [hsc, hsc, hsc]
    · rcases hk with ⟨h1, h2, h3⟩ | ⟨h1, h2, h3⟩ | ⟨h1, h2, h3⟩
      · exact ⟨0, by rw [hw]; exact mul_pos hpos h1, hall (by simp) h2 h3⟩
      · exact ⟨1, by rw [hw]; exact mul_pos hpos h1, hall (by simp) h2 h3⟩
      · exact ⟨2, by rw [hw]; exact mul_pos hpos h1, hall (by simp) h2 h3⟩
  · rw [es]
    refine ⟨_, -w, rfl, ?_, Or.inr rfl, ?_⟩
    · unfold IsVec
      rw [mul_neg, mul_neg, mul_neg, hsc, hsc, hsc]
      rfl
    · simp only [Pi.neg_apply, abs_neg]
      rcases hk with ⟨h1, h2, h3⟩ | ⟨h1, h2, h3⟩ | ⟨h1, h2, h3⟩
      · exact ⟨0, by rw [hw]; exact neg_pos.2 (mul_neg_of_pos_of_neg hpos h1), hall (by simp) h2 h3⟩
      · exact ⟨1, by rw [hw]; exact neg_pos.2 (mul_neg_of_pos_of_neg hpos h1), hall (by simp) h2 h3⟩
      · exact ⟨2, by rw [hw]; exact neg_pos.2 (mul_neg_of_pos_of_neg hpos h1), hall (by simp) h2 h3⟩

/-- The inverse finds the vector of every rotation by less than a half turn. -/
def InverseClaim : Prop := ∀ (w : Fin 3 → ℝ) (R om : List ℝ), IsMat R (rot w) → om.length = 3 → 0 < len w → len w < Real.pi → ∃ om', irodrigues real om none R = some (om', .null) ∧ IsVec om' w

/-- **The inverse does not find the vector of some rotations close to a half turn**: it finds the opposite one. -/
theorem inverse_claim_false : ¬ InverseClaim := by
  intro H
  have hp := Real.pi_gt_three
  have hl : len ![0, 0, -(Real.pi - 1 / 10000000)] = Real.pi - 1 / 10000000 := by
    unfold len
    simp only [Matrix.cons_val_zero, Matrix.cons_val_one, Matrix.cons_val]
    rw [show (0 : ℝ) ^ 2 + 0 ^ 2 + (-(Real.pi - 1 / 10000000)) ^ 2 = (Real.pi - 1 / 10000000) ^ 2 by ring, Real.sqrt_sq (by linarith)]
  obtain ⟨om1, e1, h1⟩ := H ![0, 0, -(Real.pi - 1 / 10000000)] _ [0, 0, 0] rfl rfl (by rw [hl]; linarith) (by rw [hl]; linarith)
  obtain ⟨om2, u, e2, h2, h3, k, hk, hj⟩ := irodrigues_near_pi (w := ![0, 0, -(Real.pi - 1 / 10000000)]) (om := [0, 0, 0]) rfl rfl (by rw [hl]; linarith)
    (by rw [hl, Real.sin_pi_sub]; exact lt_of_le_of_lt (Real.sin_le (by norm_num)) (by norm_num))
    (by
      rw [hl, Real.cos_pi_sub]
      have := Real.one_sub_sq_div_two_le_cos (x := 1 / 10000000)
      norm_num at this
      linarith)
  rw [e1] at e2
  simp only [Option.some.injEq, Prod.mk.injEq, and_true] at e2
  rw [← e2, h1] at h2
  unfold IsVec at h2
  simp only [List.cons.injEq, and_true] at h2
  obtain ⟨u0, u1, u2⟩ := h2
  fin_cases k
  · have : 0 < u 0 := hk
    rw [← u0] at this
    exact lt_irrefl _ this
  · have : 0 < u 1 := hk
    rw [← u1] at this
    exact lt_irrefl _ this
  · have : 0 < u 2 := hk
    rw [← u2] at this
    have : 0 < -(Real.pi - 1 / 10000000) := this
    linarith

/-- **Every rotation matrix is recovered from its vector**: the matrix itself, if the angle is not very close to zero or to pi; close to the identity, up to an error; close to a half turn, the matrix or its inverse. -/
theorem roundtrip {M : Matrix (Fin 3) (Fin 3) ℝ} (hM : IsRotation M) {R om : List ℝ} (hR : IsMat R M) (ho : om.length = 3) :
    ∃ om' u, irodrigues real om none R = some (om', .null) ∧ IsVec om' u ∧
      (rot u = M ∨ (Real.cos (len u) < 0 ∧ Real.sin (len u) < 1 / 1000000 ∧ rot u = M.transpose) ∨ ∃ w, rot w = M ∧ Real.sin (len w) < 1 / 1000000 ∧ ∀ k, |u k - w k| ≤ 2 / 10 ^ 18) := by
  obtain ⟨w, hw, rfl⟩ := exists_axis hM
  have hs0 := Real.sin_nonneg_of_nonneg_of_le_pi (len_nonneg w) hw
  by_cases hs : Real.sin (len w) < 1 / 1000000
  · by_cases hc : Real.cos (len w) < 0
    · obtain ⟨om', u, e, h1, h2, _⟩ := irodrigues_near_pi hR ho hw hs hc
      refine ⟨om', u, e, h1, ?_⟩
      rcases h2 with rfl | rfl
      · exact Or.inl rfl
      · refine Or.inr (Or.inl ?_)
        have : len (-w) = len w := by
          unfold len
          simp
        rw [this]
        exact ⟨hc, hs, rot_neg w⟩
    · have hle : len w ≤ Real.pi / 2 := by
        by_contra h
        exact hc (Real.cos_neg_of_pi_div_two_lt_of_lt (not_le.1 h) (by linarith [Real.pi_pos]))
      obtain ⟨om', u, e, h1, h2⟩ := irodrigues_near_zero hR ho hle hs
      exact ⟨om', u, e, h1, Or.inr (Or.inr ⟨w, rfl, hs, h2⟩)⟩
  · have hs := not_lt.1 hs
    obtain ⟨om', e, h1⟩ := irodrigues_inverse hR ho (lt_of_le_of_ne hw (by
      intro h
      rw [h, Real.sin_pi] at hs
      norm_num at hs)) hs
    exact ⟨om', w, e, h1, Or.inl rfl⟩

/-- A quarter turn about the first axis is recovered exactly. -/
example : ∃ om', irodrigues real [0, 0, 0] none [1, 0, 0, 0, 0, 1, 0, -1, 0] = some (om', .null) ∧ IsVec om' ![Real.pi / 2, 0, 0] := by
  have hl : len ![Real.pi / 2, 0, 0] = Real.pi / 2 := by
    unfold len
    simp only [Matrix.cons_val_zero, Matrix.cons_val_one, Matrix.cons_val]
    rw [show (Real.pi / 2) ^ 2 + 0 ^ 2 + 0 ^ 2 = (Real.pi / 2) ^ 2 by ring]
    exact Real.sqrt_sq (by positivity)
  have h0 : Real.pi / 2 ≠ 0 := by positivity
  refine irodrigues_inverse ?_ rfl (by rw [hl]; linarith [Real.pi_pos]) (by rw [hl, Real.sin_pi_div_two]; norm_num)
  unfold IsMat
  rw [rot_eq (by rw [hl]; exact h0), hl]
  simp [hat, pow_two]
  field_simp
  simp

end Verif.Rodrigues
