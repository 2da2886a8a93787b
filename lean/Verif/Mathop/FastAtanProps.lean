import Verif.Mathop.FastModel
import Mathlib.Analysis.SpecialFunctions.Trigonometric.ArctanDeriv
import Mathlib.Analysis.SpecialFunctions.Complex.Arg
import Mathlib.Analysis.Calculus.Deriv.MeanValue
import Mathlib.Analysis.Real.Pi.Bounds
import Mathlib.Tactic.Ring
import Mathlib.Tactic.Linarith
import Mathlib.Tactic.FieldSimp
import Mathlib.Tactic.NormNum

/-!
# Error of the fast approximation of the direction of a vector

The direction is `Complex.arg`, the principal argument of `x + i y`.
-/

namespace Verif.Mathop

open Real Set

/-! ### The polynomial -/

/-- Difference between the arc tangent and the polynomial. -/
noncomputable def gap (r : ℝ) : ℝ := arctan r - (9675 / 10000 - 1821 / 10000 * r * r) * r

theorem gap_deriv (r : ℝ) : HasDerivAt gap (1 / (1 + r ^ 2) - 9675 / 10000 + 5463 / 10000 * r ^ 2) r := by
  have h1 := hasDerivAt_arctan r
  have h2 : HasDerivAt (fun r : ℝ => 9675 / 10000 * r - 1821 / 10000 * r ^ 3) (9675 / 10000 * 1 - 1821 / 10000 * (3 * r ^ 2)) r := by
    have h3 : HasDerivAt (fun r : ℝ => r ^ 3) (3 * r ^ 2) r := by simpa using hasDerivAt_pow 3 r
    exact ((hasDerivAt_id r).const_mul _).sub (h3.const_mul _)
  have h := h1.sub h2
  have e : gap = (arctan - fun r : ℝ => 9675 / 10000 * r - 1821 / 10000 * r ^ 3) := by
    funext r
    simp only [gap, Pi.sub_apply]; ring
  rw [e]
  exact h.congr_deriv (by ring)

theorem gap_le {a b C : ℝ} (hab : a ≤ b) (h : ∀ t, a ≤ t → t ≤ b → 1 ≤ (1 + t ^ 2) * (C + 9675 / 10000 - 5463 / 10000 * t ^ 2)) : gap b - gap a ≤ C * (b - a) := by
  refine Convex.image_sub_le_mul_sub_of_deriv_le (convex_Icc a b) (fun t _ => (gap_deriv t).continuousAt.continuousWithinAt)
    (fun t _ => (gap_deriv t).differentiableAt.differentiableWithinAt) ?_ a ⟨le_rfl, hab⟩ b ⟨hab, le_rfl⟩ hab
  intro t ht
  have ht' := interior_subset ht
  rw [(gap_deriv t).deriv]
  have hp : (0 : ℝ) < 1 + t ^ 2 := by positivity
  have := h t ht'.1 ht'.2
  have : 1 / (1 + t ^ 2) ≤ C + 9675 / 10000 - 5463 / 10000 * t ^ 2 := by rw [div_le_iff₀ hp]; linarith
  linarith

theorem le_gap {a b C : ℝ} (hab : a ≤ b) (h : ∀ t, a ≤ t → t ≤ b → (1 + t ^ 2) * (C + 9675 / 10000 - 5463 / 10000 * t ^ 2) ≤ 1) : C * (b - a) ≤ gap b - gap a := by
  refine Convex.mul_sub_le_image_sub_of_le_deriv (convex_Icc a b) (fun t _ => (gap_deriv t).continuousAt.continuousWithinAt)
    (fun t _ => (gap_deriv t).differentiableAt.differentiableWithinAt) ?_ a ⟨le_rfl, hab⟩ b ⟨hab, le_rfl⟩ hab
  intro t ht
  have ht' := interior_subset ht
  rw [(gap_deriv t).deriv]
  have hp : (0 : ℝ) < 1 + t ^ 2 := by positivity
  have := h t ht'.1 ht'.2
  have : C + 9675 / 10000 - 5463 / 10000 * t ^ 2 ≤ 1 / (1 + t ^ 2) := by rw [le_div_iff₀ hp]; linarith
  linarith

/-- Upper bound of the arc tangent. -/
theorem arctan_le_poly {x : ℝ} (hx : 0 ≤ x) : arctan x ≤ x - x ^ 3 / 3 + x ^ 5 / 5 - x ^ 7 / 7 + x ^ 9 / 9 := by
  have hd : ∀ t : ℝ, HasDerivAt (fun x : ℝ => x - x ^ 3 / 3 + x ^ 5 / 5 - x ^ 7 / 7 + x ^ 9 / 9 - arctan x) (t ^ 10 / (1 + t ^ 2)) t := by
    intro t
    have p3 : HasDerivAt (fun r : ℝ => r ^ 3 / 3) (t ^ 2) t := by
      have := (hasDerivAt_pow 3 t).div_const 3; simpa using this
    have p5 : HasDerivAt (fun r : ℝ => r ^ 5 / 5) (t ^ 4) t := by
      have := (hasDerivAt_pow 5 t).div_const 5; simpa using this
    have p7 : HasDerivAt (fun r : ℝ => r ^ 7 / 7) (t ^ 6) t := by
      have := (hasDerivAt_pow 7 t).div_const 7; simpa using this
    have p9 : HasDerivAt (fun r : ℝ => r ^ 9 / 9) (t ^ 8) t := by
      have := (hasDerivAt_pow 9 t).div_const 9; simpa using this
    have := ((((hasDerivAt_id t).sub p3).add p5).sub p7).add p9 |>.sub (hasDerivAt_arctan t)
    refine HasDerivAt.congr_deriv (f' := 1 - t ^ 2 + t ^ 4 - t ^ 6 + t ^ 8 - 1 / (1 + t ^ 2)) this ?_
    have hp : (1 + t ^ 2 : ℝ) ≠ 0 := by positivity
    field_simp
    ring
  have := Convex.mul_sub_le_image_sub_of_le_deriv (convex_Icc 0 x) (fun t _ => (hd t).continuousAt.continuousWithinAt)
    (fun t _ => (hd t).differentiableAt.differentiableWithinAt) (C := 0) (fun t _ => by rw [(hd t).deriv]; positivity) 0 ⟨le_rfl, hx⟩ x ⟨hx, le_rfl⟩ hx
  simp at this
  linarith

theorem gap_zero : gap 0 = 0 := by simp [gap]

theorem gap_one_le : gap 1 ≤ 0 := by
  have := pi_lt_d4
  simp only [gap, arctan_one]
  norm_num
  linarith

theorem gap_a_le : gap (2949 / 10000) ≤ 6127 / 1000000 := by
  have := arctan_le_poly (x := 2949 / 10000) (by norm_num)
  simp only [gap]
  norm_num at this ⊢
  linarith

theorem gap_b_ge : -(6140 / 1000000) ≤ gap (82706 / 100000) := by
  have h1 := arctan_le_poly (x := 17294 / 182706) (by norm_num)
  have h2 := arctan_add (x := 82706 / 100000) (y := 17294 / 182706) (by norm_num)
  have h3 : ((82706 / 100000 + 17294 / 182706) / (1 - 82706 / 100000 * (17294 / 182706)) : ℝ) = 1 := by norm_num
  rw [h3, arctan_one] at h2
  have := pi_gt_d6
  simp only [gap]
  norm_num at h1 h2 this ⊢
  linarith

theorem gap_neg (r : ℝ) : gap (-r) = -gap r := by
  simp only [gap, arctan_neg]; ring

theorem gap_bound_pos {r : ℝ} (h0 : 0 ≤ r) (h1 : r ≤ 1) : |gap r| ≤ 615 / 100000 := by
  rw [abs_le]
  have ga := gap_a_le
  have gb := gap_b_ge
  have g1 := gap_one_le
  have g0 := gap_zero
  rcases le_total r (2949 / 10000) with ha | ha
  · have l0 := le_gap (C := 0) h0 (fun t t0 t1 => by nlinarith [mul_nonneg t0 t0, mul_nonneg t0 (sub_nonneg.mpr (t1.trans ha)), sq_nonneg (t ^ 2)])
    have l1 := le_gap (C := 0) ha (fun t t0 t1 => by
      have : t ^ 2 ≤ (2949 / 10000) ^ 2 := by nlinarith
      have : 0 ≤ t ^ 2 := sq_nonneg t
      nlinarith)
    constructor <;> linarith
  · rcases le_total r (82706 / 100000) with hb | hb
    · have l0 := gap_le (C := 2 / 1000000) ha (fun t t0 t1 => by
        have a1 : (2949 / 10000) ^ 2 ≤ t ^ 2 := by nlinarith
        have a2 : t ^ 2 ≤ (82706 / 100000) ^ 2 := by nlinarith
        nlinarith [mul_nonneg (sub_nonneg.mpr a1) (sub_nonneg.mpr a2)])
      have l1 := gap_le (C := 2 / 1000000) hb (fun t t0 t1 => by
        have a1 : (2949 / 10000) ^ 2 ≤ t ^ 2 := by nlinarith
        have a2 : t ^ 2 ≤ (82706 / 100000) ^ 2 := by nlinarith
        nlinarith [mul_nonneg (sub_nonneg.mpr a1) (sub_nonneg.mpr a2)])
      constructor <;> linarith
    · have l0 := le_gap (C := -(3 / 1000000)) hb (fun t t0 t1 => by
        have a1 : (82706 / 100000) ^ 2 ≤ t ^ 2 := by nlinarith
        nlinarith)
      have l1 := le_gap (C := -(3 / 1000000)) h1 (fun t t0 t1 => by
        have a1 : (82706 / 100000) ^ 2 ≤ t ^ 2 := by nlinarith
        nlinarith)
      constructor <;> linarith

theorem gap_bound {r : ℝ} (h0 : -1 ≤ r) (h1 : r ≤ 1) : |gap r| ≤ 615 / 100000 := by
  rcases le_total 0 r with h | h
  · exact gap_bound_pos h h1
  · rw [← abs_neg, ← gap_neg]; exact gap_bound_pos (by linarith) (by linarith)

/-! ### Directions -/

theorem arg_of {x y r θ : ℝ} (hr : 0 < r) (hx : x = r * cos θ) (hy : y = r * sin θ) (hθ : θ ∈ Ioc (-π) π) : Complex.arg ⟨x, y⟩ = θ := by
  have := Complex.arg_mul_cos_add_sin_mul_I hr hθ
  rw [← this]
  congr 1
  apply Complex.ext
  · simp [hx, ← Complex.ofReal_cos, ← Complex.ofReal_sin]
  · simp [hy, ← Complex.ofReal_cos, ← Complex.ofReal_sin]

theorem arg_upper {x a : ℝ} (ha : 0 < a) : Complex.arg ⟨x, a⟩ = π / 2 - arctan (x / a) := by
  have hs : 0 < √(1 + (x / a) ^ 2) := Real.sqrt_pos.mpr (by positivity)
  have h1 := arctan_lt_pi_div_two (x / a)
  have h2 := neg_pi_div_two_lt_arctan (x / a)
  refine arg_of (r := a * √(1 + (x / a) ^ 2)) (by positivity) ?_ ?_ ⟨by linarith [pi_pos], by linarith⟩
  · rw [cos_pi_div_two_sub, sin_arctan]; field_simp
  · rw [sin_pi_div_two_sub, cos_arctan]; field_simp

theorem arg_right {x y : ℝ} (hx : 0 < x) : Complex.arg ⟨x, y⟩ = arctan (y / x) := by
  have hs : 0 < √(1 + (y / x) ^ 2) := Real.sqrt_pos.mpr (by positivity)
  have h1 := arctan_lt_pi_div_two (y / x)
  have h2 := neg_pi_div_two_lt_arctan (y / x)
  refine arg_of (r := x * √(1 + (y / x) ^ 2)) (by positivity) ?_ ?_ ⟨by linarith [pi_pos], by linarith [pi_pos]⟩
  · rw [cos_arctan]; field_simp
  · rw [sin_arctan]; field_simp

theorem arg_left {x y : ℝ} (hx : x < 0) (hy : 0 ≤ y) : Complex.arg ⟨x, y⟩ = π - arctan (y / -x) := by
  have hx' : 0 < -x := by linarith
  have hs : 0 < √(1 + (y / -x) ^ 2) := Real.sqrt_pos.mpr (by positivity)
  have h1 := arctan_lt_pi_div_two (y / -x)
  have h2 : 0 ≤ arctan (y / -x) := by rw [← arctan_zero]; exact arctan_strictMono.monotone (by positivity)
  refine arg_of (r := -x * √(1 + (y / -x) ^ 2)) (by positivity) ?_ ?_ ⟨by linarith [pi_pos], by linarith⟩
  · rw [cos_pi_sub, cos_arctan]; field_simp
  · rw [sin_pi_sub, sin_arctan]; have := hx.ne; field_simp

theorem arctan_sub_le {u v : ℝ} (hv : 0 ≤ v) (huv : v ≤ u) : arctan u - arctan v ≤ (u - v) / (1 + v ^ 2) := by
  have hp : (0 : ℝ) < 1 + v ^ 2 := by positivity
  have := Convex.image_sub_le_mul_sub_of_deriv_le (convex_Icc v u) (f := arctan) continuous_arctan.continuousOn
    (differentiable_arctan.differentiableOn) (C := 1 / (1 + v ^ 2)) (fun t ht => by
      have ht' := (interior_subset ht).1
      rw [(hasDerivAt_arctan t).deriv]
      apply one_div_le_one_div_of_le hp
      nlinarith) v ⟨le_rfl, huv⟩ u ⟨huv, le_rfl⟩ huv
  rw [div_mul_eq_mul_div, one_mul] at this
  exact this

/-- Effect on the direction of the number added to `|y|`. -/
theorem arg_shift {x y eps : ℝ} (he : 0 < eps) (hy : 0 ≤ y) (hne : x ≠ 0 ∨ y ≠ 0) : |Complex.arg ⟨x, y + eps⟩ - Complex.arg ⟨x, y⟩| ≤ eps / √(x ^ 2 + y ^ 2) := by
  have hpos : 0 < x ^ 2 + y ^ 2 := by rcases hne with h | h <;> positivity
  have hs : 0 < √(x ^ 2 + y ^ 2) := Real.sqrt_pos.mpr hpos
  have main : ∀ z : ℝ, 0 < z → z ^ 2 = x ^ 2 → 0 ≤ arctan ((y + eps) / z) - arctan (y / z) ∧ arctan ((y + eps) / z) - arctan (y / z) ≤ eps / √(x ^ 2 + y ^ 2) := by
    intro z hz hzx
    have hle : y / z ≤ (y + eps) / z := div_le_div_of_nonneg_right (by linarith) hz.le
    refine ⟨sub_nonneg.mpr (arctan_strictMono.monotone hle), ?_⟩
    refine (arctan_sub_le (by positivity) hle).trans ?_
    have e : ((y + eps) / z - y / z) / (1 + (y / z) ^ 2) = eps * z / (z ^ 2 + y ^ 2) := by field_simp; ring
    rw [e, hzx, div_le_div_iff₀ hpos hs]
    have hzs : z ≤ √(x ^ 2 + y ^ 2) := Real.le_sqrt_of_sq_le (by rw [hzx]; nlinarith [sq_nonneg y])
    have hss := Real.mul_self_sqrt hpos.le
    calc eps * z * √(x ^ 2 + y ^ 2) ≤ eps * √(x ^ 2 + y ^ 2) * √(x ^ 2 + y ^ 2) := by gcongr
      _ = eps * (x ^ 2 + y ^ 2) := by rw [mul_assoc, hss]
  rcases lt_trichotomy x 0 with h | h | h
  · rw [arg_left h (by linarith), arg_left h hy]
    obtain ⟨m1, m2⟩ := main (-x) (by linarith) (by ring)
    rw [abs_le]; constructor <;> linarith
  · subst h
    have hy' : 0 < y := lt_of_le_of_ne hy (Ne.symm (hne.resolve_left (fun h => h rfl)))
    rw [arg_upper (by linarith), arg_upper hy']
    simp only [zero_div, sub_self, abs_zero]
    positivity
  · rw [arg_right h, arg_right h]
    obtain ⟨m1, m2⟩ := main x h rfl
    rw [abs_le]; constructor <;> linarith

/-- The value computed, before the sign is set, for `a = |y| + eps`. -/
theorem upper_error {x a : ℝ} (ha : 0 < a) : ∃ v, (if x ≥ 0 then (quot (x - a) (x + a)).bind (fun r => some (r, π / 4))
      else (quot (x + a) (a - x)).bind (fun r => some (r, 3 * π / 4))) = some v ∧
    |v.2 + (1821 / 10000 * v.1 * v.1 - 9675 / 10000) * v.1 - Complex.arg ⟨x, a⟩| ≤ 615 / 100000 := by
  rw [arg_upper ha]
  by_cases hx : x ≥ 0
  · have hne : x + a ≠ 0 := by linarith
    have hp : 0 < x + a := by linarith
    refine ⟨((x - a) / (x + a), π / 4), by rw [if_pos hx, quot, if_neg hne]; rfl, ?_⟩
    have hr : -1 ≤ (x - a) / (x + a) ∧ (x - a) / (x + a) ≤ 1 := ⟨by rw [le_div_iff₀ hp]; linarith, by rw [div_le_iff₀ hp]; linarith⟩
    have hadd := arctan_add (x := (x - a) / (x + a)) (y := 1) (by rw [mul_one, div_lt_iff₀ hp]; linarith)
    have e : ((x - a) / (x + a) + 1) / (1 - (x - a) / (x + a) * 1) = x / a := by
      have : x + a - (x - a) ≠ 0 := by linarith
      have h2 : (1 - (x - a) / (x + a) * 1) ≠ 0 := by rw [mul_one]; intro h; apply this; field_simp at h; linarith
      rw [div_eq_div_iff h2 ha.ne']
      field_simp; ring
    rw [e, arctan_one] at hadd
    have hg := gap_bound hr.1 hr.2
    rw [gap] at hg
    rw [← hadd]
    rw [abs_le] at hg ⊢
    constructor <;> linarith [hg.1, hg.2]
  · have hx' : x < 0 := not_le.mp hx
    have hp : 0 < a - x := by linarith
    refine ⟨((x + a) / (a - x), 3 * π / 4), by rw [if_neg hx, quot, if_neg hp.ne']; rfl, ?_⟩
    have hr : -1 ≤ (x + a) / (a - x) ∧ (x + a) / (a - x) ≤ 1 := ⟨by rw [le_div_iff₀ hp]; linarith, by rw [div_le_iff₀ hp]; linarith⟩
    have hadd := arctan_add (x := (x + a) / (a - x)) (y := -1) (by
      rw [mul_neg_one, neg_lt, lt_div_iff₀ hp]; linarith)
    have e : ((x + a) / (a - x) + -1) / (1 - (x + a) / (a - x) * -1) = x / a := by
      have h2 : (1 - (x + a) / (a - x) * -1) ≠ 0 := by
        have : 0 < 1 + (x + a) / (a - x) := by
          have : 1 + (x + a) / (a - x) = 2 * a / (a - x) := by field_simp; ring
          rw [this]; positivity
        intro h; linarith
      rw [div_eq_div_iff h2 ha.ne']
      field_simp; ring
    rw [e, arctan_neg, arctan_one] at hadd
    have hg := gap_bound hr.1 hr.2
    rw [gap] at hg
    rw [← hadd]
    rw [abs_le] at hg ⊢
    constructor <;> linarith [hg.1, hg.2]

/-- For every vector that is not null the function returns a number that differs from the direction of the vector by at
most 0.00615 radians plus `VL_EPSILON` divided by the norm of the vector. -/
theorem fastAtan2_error {eps : ℝ} (he : 0 < eps) (y x : ℝ) (hne : x ≠ 0 ∨ y ≠ 0) :
    ∃ v, fastAtan2 π eps y x = some v ∧ |v - Complex.arg ⟨x, y⟩| ≤ 615 / 100000 + eps / √(x ^ 2 + y ^ 2) := by
  have ha : 0 < |y| + eps := by positivity
  obtain ⟨v, ev, hv⟩ := upper_error (x := x) ha
  have hsh := arg_shift (x := x) he (abs_nonneg y) (by rcases hne with h | h; exact Or.inl h; exact Or.inr (abs_ne_zero.mpr h))
  rw [sq_abs] at hsh
  refine ⟨if y < 0 then -(v.2 + (1821 / 10000 * v.1 * v.1 - 9675 / 10000) * v.1) else v.2 + (1821 / 10000 * v.1 * v.1 - 9675 / 10000) * v.1, ?_, ?_⟩
  · rw [fastAtan2]
    show Option.bind _ _ = _
    have : (if x ≥ 0 then (do let r ← quot (x - (|y| + eps)) (x + (|y| + eps)); some (r, π / 4))
      else (do let r ← quot (x + (|y| + eps)) (|y| + eps - x); some (r, 3 * π / 4)) : Option (ℝ × ℝ)) = some v := ev
    rw [this]
    rfl
  · have key : |v.2 + (1821 / 10000 * v.1 * v.1 - 9675 / 10000) * v.1 - Complex.arg ⟨x, |y|⟩| ≤ 615 / 100000 + eps / √(x ^ 2 + y ^ 2) := by
      have := abs_add_le (v.2 + (1821 / 10000 * v.1 * v.1 - 9675 / 10000) * v.1 - Complex.arg ⟨x, |y| + eps⟩) (Complex.arg ⟨x, |y| + eps⟩ - Complex.arg ⟨x, |y|⟩)
      rw [sub_add_sub_cancel] at this
      linarith
    by_cases hy : y < 0
    · rw [if_pos hy]
      have hc : Complex.arg ⟨x, y⟩ = -Complex.arg ⟨x, |y|⟩ := by
        have h1 := Complex.arg_conj ⟨x, |y|⟩
        have h2 : (starRingEnd ℂ) ⟨x, |y|⟩ = ⟨x, y⟩ := by
          apply Complex.ext
          · simp
          · simp [abs_of_neg hy]
        rw [h2, if_neg] at h1
        · exact h1
        · rw [Complex.arg_eq_pi_iff]
          rintro ⟨-, h⟩
          exact (abs_pos.mpr hy.ne).ne' h
      rw [hc, show -(v.2 + (1821 / 10000 * v.1 * v.1 - 9675 / 10000) * v.1) - -Complex.arg ⟨x, |y|⟩
        = -(v.2 + (1821 / 10000 * v.1 * v.1 - 9675 / 10000) * v.1 - Complex.arg ⟨x, |y|⟩) by ring, abs_neg]
      exact key
    · rw [if_neg hy]
      rwa [abs_of_nonneg (not_lt.mp hy)] at key

/-- The null vector gets a number too: there is no division by zero. -/
theorem fastAtan2_null {eps : ℝ} (he : 0 < eps) : fastAtan2 π eps 0 0 = some (π / 4 + 7854 / 10000) := by
  simp [fastAtan2, quot, he.ne']
  norm_num [neg_div, he.ne']

/-- The claim of the documentation: the error is at most 0.0061 radians (to this number of digits) for every vector. -/
def AtanErrorClaim (eps : ℝ) : Prop := ∀ y x : ℝ, x ≠ 0 ∨ y ≠ 0 → ∃ v, fastAtan2 π eps y x = some v ∧ |v - Complex.arg ⟨x, y⟩| < 615 / 100000

/-- The claim fails, whatever `VL_EPSILON` is, for vectors of this size: the vector `(eps, 0)` has direction 0 and gets `π / 4`. -/
theorem atanError_claim_false {eps : ℝ} (he : 0 < eps) : ¬ AtanErrorClaim eps := by
  intro h
  obtain ⟨v, e, hv⟩ := h 0 eps (Or.inl he.ne')
  have e' : fastAtan2 π eps 0 eps = some (π / 4) := by
    simp [fastAtan2, quot, he.le, he.ne']
  rw [e'] at e
  have : v = π / 4 := (Option.some.inj e).symm
  rw [this, arg_right he] at hv
  simp at hv
  have := pi_gt_three
  rw [abs_of_pos (by positivity)] at hv
  linarith

/-- In single precision, for a vector of norm larger than one. -/
example : ∃ v, fastAtan2 π (1 / 2 ^ 23) (-2) 3 = some v ∧ |v - Complex.arg ⟨3, -2⟩| ≤ 62 / 10000 := by
  obtain ⟨v, e, h⟩ := fastAtan2_error (eps := 1 / 2 ^ 23) (by norm_num) (-2) 3 (Or.inl (by norm_num))
  refine ⟨v, e, h.trans ?_⟩
  have h1 : (1 : ℝ) ≤ √(3 ^ 2 + (-2) ^ 2) := Real.one_le_sqrt.mpr (by norm_num)
  have h2 : (1 / 2 ^ 23 : ℝ) / √(3 ^ 2 + (-2) ^ 2) ≤ 1 / 2 ^ 23 := div_le_self (by norm_num) h1
  norm_num at h2 ⊢
  linarith

end Verif.Mathop
