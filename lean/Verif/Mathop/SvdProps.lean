import Verif.Mathop.SvdModel
import Mathlib.Analysis.Real.Sqrt
import Mathlib.Tactic.Ring
import Mathlib.Tactic.Linarith
import Mathlib.Tactic.LinearCombination
import Mathlib.Tactic.FieldSimp
import Mathlib.Tactic.NormNum
import Mathlib.Tactic.FinCases
import Mathlib.Algebra.BigOperators.Fin

/-!
# Singular value decomposition of 2 × 2 matrices
-/

namespace Verif.Mathop

open Real

/-! ### Specification -/

/-- The 2 × 2 matrix `X` (a function of row and column) stored by columns in a list. -/
def Stores (L : List ℝ) (X : Fin 2 → Fin 2 → ℝ) : Prop := L = [X 0 0, X 1 0, X 0 1, X 1 1]

/-- `U` is a rotation. -/
def Rotation (U : Fin 2 → Fin 2 → ℝ) : Prop := ∃ c s : ℝ, c ^ 2 + s ^ 2 = 1 ∧ U 0 0 = c ∧ U 1 0 = s ∧ U 0 1 = -s ∧ U 1 1 = c

/-- `M = U S Vᵀ` -/
def IsProduct (M U S V : Fin 2 → Fin 2 → ℝ) : Prop := ∀ i j, M i j = ∑ k, ∑ l, U i k * S k l * V j l

/-! ### The normal case -/

theorem sgn_of_pos {x : ℝ} (h : 0 < x) : sgn x = 1 := by rw [sgn, if_neg (not_lt.mpr h.le)]
theorem sgn_of_neg {x : ℝ} (h : x < 0) : sgn x = -1 := by rw [sgn, if_pos h]
theorem sgn_mul_abs (x : ℝ) : sgn x * |x| = x := by
  rcases lt_or_ge x 0 with h | h
  · rw [sgn_of_neg h, abs_of_neg h]; ring
  · rw [sgn, if_neg (not_lt.mpr h), abs_of_nonneg h]; ring
theorem sgn_sq (x : ℝ) : sgn x * sgn x = 1 := by rw [sgn]; split <;> norm_num
theorem sgn_cases (x : ℝ) : sgn x = 1 ∨ sgn x = -1 := by rw [sgn]; split <;> simp
theorem sgn_sgn (x : ℝ) : sgn (sgn x) = sgn x := by
  rcases sgn_cases x with h | h
  · rw [h, sgn_of_pos one_pos]
  · rw [h, sgn_of_neg (by norm_num)]

theorem quot_of {a b : ℝ} (h : b ≠ 0) : quot a b = some (a / b) := by rw [quot, if_neg h]

/-- What the temporaries are for the matrix `[1, q; 0, η]`. -/
structure Core (q η a : ℝ) (t : Svd ℝ) : Prop where
  a1 : 1 < a
  cv : 0 < t.cv
  cu : 0 < t.cu
  sv : 0 < t.sv * q
  unitV : t.cv ^ 2 + t.sv ^ 2 = 1
  unitU : t.cu ^ 2 + t.su ^ 2 = 1
  e00 : t.cu * a * t.cv + t.su * (η / a) * t.sv = 1
  e01 : t.cu * a * t.sv - t.su * (η / a) * t.cv = q
  e10 : t.su * a * t.cv - t.cu * (η / a) * t.sv = 0
  e11 : t.su * a * t.sv + t.cu * (η / a) * t.cv = η

theorem core_of {q η a w : ℝ} (hq : q ≠ 0) (ha : 1 < a) (char : q ^ 2 * a ^ 2 = (a ^ 2 - 1) * (a ^ 2 - η ^ 2)) (hw : 0 < w)
    (hw2 : w ^ 2 * (1 + ((a ^ 2 - 1) / q) ^ 2) = 1) (smin smax : ℝ) :
    Core q η a ⟨smin, smax, (a ^ 2 - 1) / q * w, w, η * ((a ^ 2 - 1) / q * w) / a, a * w⟩ := by
  have ha0 : a ≠ 0 := by linarith
  have ha2 : 0 < a ^ 2 - 1 := by nlinarith
  set t := (a ^ 2 - 1) / q with ht
  have htq : t * q = a ^ 2 - 1 := by rw [ht]; field_simp
  -- the norm of the left vector
  have h1 : a ^ 2 + η ^ 2 * t ^ 2 / a ^ 2 = 1 + t ^ 2 := by
    have : (a ^ 2 - 1) * (a ^ 2 * (a ^ 2 - 1)) = (a ^ 2 - 1) * (t ^ 2 * (a ^ 2 - η ^ 2)) := by
      have e : t ^ 2 * q ^ 2 = (a ^ 2 - 1) ^ 2 := by rw [← mul_pow, htq]
      linear_combination (-1 * a ^ 2) * e + t ^ 2 * char
    have h := mul_left_cancel₀ ha2.ne' this
    field_simp
    linarith
  have h2 : t * (a ^ 2 - η ^ 2 / a ^ 2) = q * (1 + t ^ 2) := by
    have : q * (t * (a ^ 2 - η ^ 2 / a ^ 2)) = q * (q * (1 + t ^ 2)) := by
      have e : q * (q * (1 + t ^ 2)) = q ^ 2 + (t * q) ^ 2 := by ring
      rw [e, htq, ← mul_assoc, mul_comm q t, htq]
      have : q ^ 2 = (a ^ 2 - 1) * (a ^ 2 - η ^ 2) / a ^ 2 := by rw [eq_div_iff (by positivity)]; exact char
      rw [this]
      field_simp
      ring
    exact mul_left_cancel₀ hq this
  refine ⟨ha, hw, by positivity, ?_, ?_, ?_, ?_, ?_, ?_, ?_⟩
  · show 0 < t * w * q
    rw [mul_right_comm, htq]; positivity
  · show w ^ 2 + (t * w) ^ 2 = 1
    rw [← hw2]; ring
  · show (a * w) ^ 2 + (η * (t * w) / a) ^ 2 = 1
    rw [← hw2, ← h1]; field_simp
  · show a * w * a * w + η * (t * w) / a * (η / a) * (t * w) = 1
    rw [← hw2, ← h1]; field_simp
  · show a * w * a * (t * w) - η * (t * w) / a * (η / a) * w = q
    have : a * w * a * (t * w) - η * (t * w) / a * (η / a) * w = w ^ 2 * (t * (a ^ 2 - η ^ 2 / a ^ 2)) := by field_simp
    rw [this, h2]
    linear_combination q * hw2
  · show η * (t * w) / a * a * w - a * w * (η / a) * (t * w) = 0
    field_simp; ring
  · show η * (t * w) / a * a * (t * w) + a * w * (η / a) * w = η
    have : η * (t * w) / a * a * (t * w) + a * w * (η / a) * w = η * (w ^ 2 * (1 + t ^ 2)) := by field_simp; ring
    rw [this, hw2, mul_one]

/-- The arithmetic of the normal case. -/
theorem normal_arith {q η e spq dpq a x y tt : ℝ} (hq0 : q ≠ 0) (he0 : 0 ≤ e) (he1 : e ≤ 1) (hee : e ^ 2 = η ^ 2)
    (s2 : spq ^ 2 = (1 + e) ^ 2 + q ^ 2) (s0 : 0 ≤ spq) (d2 : dpq ^ 2 = (1 - e) ^ 2 + q ^ 2) (d0 : 0 ≤ dpq) (ha : a = 1 / 2 * (spq + dpq))
    (hx : x = q / (spq + (2 - (1 - e)))) (hy : y = q / (dpq + (1 - e)))
    (tt0 : 0 < tt) (tt2 : tt ^ 2 = (x + y) * (1 + a) * ((x + y) * (1 + a)) + 4) (smin smax : ℝ) :
    1 < a ∧ 0 < spq + (2 - (1 - e)) ∧ 0 < dpq + (1 - e) ∧
      Core q η a ⟨smin, smax, (x + y) * (1 + a) / tt, 2 / tt, η * ((x + y) * (1 + a) / tt) / a, (2 / tt + (x + y) * (1 + a) / tt * q) / a⟩ := by
  have hqq : 0 < q ^ 2 := by positivity
  have hs : 1 + e < spq := lt_of_pow_lt_pow_left₀ 2 s0 (by rw [s2]; linarith)
  have hdl : 1 - e < dpq := lt_of_pow_lt_pow_left₀ 2 d0 (by rw [d2]; linarith)
  have ha1 : 1 < a := by rw [ha]; linarith
  have ha0 : a ≠ 0 := by linarith
  have char : q ^ 2 * a ^ 2 = (a ^ 2 - 1) * (a ^ 2 - η ^ 2) := by
    have p1 : a * (1 / 2 * (spq - dpq)) = e := by rw [ha]; linear_combination (1 / 4) * s2 - (1 / 4) * d2
    have p2 : a ^ 2 + (1 / 2 * (spq - dpq)) ^ 2 = 1 + e ^ 2 + q ^ 2 := by rw [ha]; linear_combination (1 / 2) * s2 + (1 / 2) * d2
    rw [← hee]
    linear_combination (-a ^ 2) * p2 + (a * (1 / 2 * (spq - dpq)) + e) * p1
  have hdp : 0 < dpq + (1 - e) := by linarith
  have hsp : 0 < spq + (2 - (1 - e)) := by linarith
  have htmp : (x + y) * (1 + a) = 2 * ((a ^ 2 - 1) / q) := by
    have hx' : x = (spq - (1 + e)) / q := by
      rw [hx, div_eq_div_iff hsp.ne' hq0]; linear_combination -s2
    have hy' : y = (dpq - (1 - e)) / q := by
      rw [hy, div_eq_div_iff hdp.ne' hq0]; linear_combination -d2
    rw [hx', hy', ← add_div, show spq - (1 + e) + (dpq - (1 - e)) = 2 * (a - 1) by rw [ha]; ring]
    field_simp
    ring
  obtain ⟨T, hT⟩ : ∃ T, T = (a ^ 2 - 1) / q := ⟨_, rfl⟩
  have hTq : T * q = a ^ 2 - 1 := by rw [hT]; field_simp
  rw [htmp, ← hT] at tt2
  have hw2 : (2 / tt) ^ 2 * (1 + T ^ 2) = 1 := by
    rw [div_pow, tt2]
    have : (2 * T * (2 * T) + 4) ≠ 0 := by nlinarith [sq_nonneg T]
    field_simp; ring
  have ecv : (x + y) * (1 + a) / tt = T * (2 / tt) := by rw [htmp, ← hT]; ring
  have ecu : (2 / tt + (x + y) * (1 + a) / tt * q) / a = a * (2 / tt) := by
    rw [ecv, div_eq_iff ha0]
    linear_combination (2 / tt) * hTq
  have C := core_of hq0 ha1 char (show 0 < 2 / tt by positivity) (by rw [← hT]; exact hw2) smin smax
  rw [← hT] at C
  rw [ecu, ecv]
  exact ⟨ha1, hsp, hdp, C⟩

/-- The normal case computes the decomposition of the matrix divided by its largest diagonal entry. -/
theorem normal_spec {ft gt ht : ℝ} (hf : ft ≠ 0) (hg : gt ≠ 0) (hle : |ht| ≤ |ft|) : ∃ (t : Svd ℝ) (a : ℝ), normalCase Real.sqrt ft gt ht |ft| |ht| = some t ∧
    Core (gt / ft) (ht / ft) a t ∧ t.smin = |ht| / a ∧ t.smax = |ft| * a := by
  have hfa : 0 < |ft| := abs_pos.mpr hf
  obtain ⟨q, hq⟩ : ∃ q, q = gt / ft := ⟨_, rfl⟩
  have hq0 : q ≠ 0 := hq ▸ div_ne_zero hg hf
  obtain ⟨η, hη⟩ : ∃ η, η = ht / ft := ⟨_, rfl⟩
  obtain ⟨e, he⟩ : ∃ e, e = |η| := ⟨_, rfl⟩
  have he1 : e ≤ 1 := by rw [he, hη, abs_div]; exact (div_le_one hfa).mpr hle
  have he0 : 0 ≤ e := he ▸ abs_nonneg _
  have hee : e ^ 2 = η ^ 2 := he ▸ sq_abs η
  have hd : (if |ft| - |ht| = |ft| then some (1 : ℝ) else quot (|ft| - |ht|) |ft|) = some (1 - e) := by
    have h1 : (|ft| - |ht|) / |ft| = 1 - e := by rw [he, hη, abs_div]; field_simp
    split
    · rename_i h
      have : |ht| = 0 := by linarith
      rw [he, hη, abs_div, this]; simp
    · rw [quot_of hfa.ne', h1]
  obtain ⟨spq, hspq⟩ : ∃ s, s = √((2 - (1 - e)) * (2 - (1 - e)) + q * q) := ⟨_, rfl⟩
  obtain ⟨dpq, hdpq⟩ : ∃ s, s = √((1 - e) * (1 - e) + q * q) := ⟨_, rfl⟩
  have hqq : 0 < q * q := mul_self_pos.mpr hq0
  have hd2 : (if 1 - e = 0 then |q| else √((1 - e) * (1 - e) + q * q)) = dpq := by
    split
    · rename_i h
      rw [hdpq, h, mul_zero, zero_add, Real.sqrt_mul_self_eq_abs]
    · exact hdpq.symm
  have s2 : spq ^ 2 = (1 + e) ^ 2 + q ^ 2 := by
    rw [hspq, Real.sq_sqrt (add_nonneg (mul_self_nonneg _) (mul_self_nonneg _))]; ring
  have d2 : dpq ^ 2 = (1 - e) ^ 2 + q ^ 2 := by
    rw [hdpq, Real.sq_sqrt (add_nonneg (mul_self_nonneg _) (mul_self_nonneg _))]; ring
  have s0 : 0 ≤ spq := hspq ▸ Real.sqrt_nonneg _
  have d0 : 0 ≤ dpq := hdpq ▸ Real.sqrt_nonneg _
  obtain ⟨a, ha⟩ : ∃ a, a = 1 / 2 * (spq + dpq) := ⟨_, rfl⟩
  obtain ⟨x, hx⟩ : ∃ x, x = q / (spq + (2 - (1 - e))) := ⟨_, rfl⟩
  obtain ⟨y, hy⟩ : ∃ z, z = q / (dpq + (1 - e)) := ⟨_, rfl⟩
  obtain ⟨tt, htt⟩ : ∃ z, z = √((x + y) * (1 + a) * ((x + y) * (1 + a)) + 4) := ⟨_, rfl⟩
  have hp : 0 < (x + y) * (1 + a) * ((x + y) * (1 + a)) + 4 := add_pos_of_nonneg_of_pos (mul_self_nonneg _) (by norm_num)
  have tt0 : 0 < tt := htt ▸ Real.sqrt_pos.mpr hp
  have tt2 : tt ^ 2 = (x + y) * (1 + a) * ((x + y) * (1 + a)) + 4 := by rw [htt, Real.sq_sqrt hp.le]
  obtain ⟨ha1, hsp, hdp, C⟩ := normal_arith hq0 he0 he1 hee s2 s0 d2 d0 ha hx hy tt0 tt2 (|ht| / a) (|ft| * a)
  have ha0 : a ≠ 0 := by linarith
  rw [hη, hq] at C
  refine ⟨_, a, ?_, C, rfl, rfl⟩
  unfold normalCase
  simp only
  rw [hd]
  simp only [Option.bind_eq_bind, Option.bind_some]
  rw [quot_of hf]
  simp only [Option.bind_some]
  rw [← hq, ← hspq, hd2, ← ha, quot_of ha0, if_neg hqq.ne']
  simp only [Option.bind_some]
  rw [quot_of hsp.ne']
  simp only [Option.bind_some]
  rw [quot_of hdp.ne']
  simp only [Option.bind_some]
  rw [← hx, ← hy, ← htt, quot_of tt0.ne']
  simp only [Option.bind_some]
  rw [quot_of tt0.ne']
  simp only [Option.bind_some]
  rw [quot_of ha0]
  simp only [Option.bind_some]
  rw [quot_of hf]
  simp only [Option.bind_some]
  rw [quot_of ha0]
  simp only [Option.bind_some]

/-! ### Upper triangular matrices -/

/-- `[f, g; 0, h]` is the product of the rotation by `u`, of `diag(smax, smin)` and of the inverse of the rotation by `v`. -/
structure IsSvd (f g h : ℝ) (r : Svd ℝ) : Prop where
  unitU : r.cu ^ 2 + r.su ^ 2 = 1
  unitV : r.cv ^ 2 + r.sv ^ 2 = 1
  e00 : f = r.cu * r.smax * r.cv + r.su * r.smin * r.sv
  e01 : g = r.cu * r.smax * r.sv - r.su * r.smin * r.cv
  e10 : 0 = r.su * r.smax * r.cv - r.cu * r.smin * r.sv
  e11 : h = r.su * r.smax * r.sv + r.cu * r.smin * r.cv
  order : |r.smin| ≤ |r.smax|
  pos : 0 < f → 0 ≤ h → 0 < r.smax ∧ 0 ≤ r.smin

theorem sgn_mul (x y : ℝ) (hx : x ≠ 0) (hy : y ≠ 0) : sgn (x * y) = sgn x * sgn y := by
  rcases lt_or_gt_of_ne hx with h | h <;> rcases lt_or_gt_of_ne hy with h' | h'
  · rw [sgn_of_pos (mul_pos_of_neg_of_neg h h'), sgn_of_neg h, sgn_of_neg h']; norm_num
  · rw [sgn_of_neg (mul_neg_of_neg_of_pos h h'), sgn_of_neg h, sgn_of_pos h']; norm_num
  · rw [sgn_of_neg (mul_neg_of_pos_of_neg h h'), sgn_of_pos h, sgn_of_neg h']; norm_num
  · rw [sgn_of_pos (mul_pos h h'), sgn_of_pos h, sgn_of_pos h']; norm_num

theorem sgn_ne (x : ℝ) : sgn x ≠ 0 := by rcases sgn_cases x with h | h <;> rw [h] <;> norm_num

theorem order_of {x y a : ℝ} (h : |x| ≤ |y|) (ha : 1 < a) : |x / a| ≤ |y * a| := by
  rw [abs_div, abs_mul, abs_of_pos (by linarith : (0 : ℝ) < a), div_le_iff₀ (by linarith)]
  have : |y| ≤ |y| * a * a := by nlinarith [abs_nonneg y, mul_nonneg (abs_nonneg y) (by linarith : (0 : ℝ) ≤ a - 1)]
  linarith

theorem isSvd_keep {f g h a : ℝ} {t : Svd ℝ} (hf : f ≠ 0) (hle : |h| ≤ |f|) (C : Core (g / f) (h / f) a t) :
    IsSvd f g h ⟨h / a, f * a, t.sv, t.cv, t.su, t.cu⟩ := by
  have ha : a ≠ 0 := by linarith [C.a1]
  have ha0 : 0 < a := by linarith [C.a1]
  refine ⟨C.unitU, C.unitV, ?_, ?_, ?_, ?_, order_of hle C.a1, fun h1 h2 => ⟨mul_pos h1 ha0, div_nonneg h2 ha0.le⟩⟩
  · show f = t.cu * (f * a) * t.cv + t.su * (h / a) * t.sv
    have := C.e00; field_simp at this ⊢; linarith
  · show g = t.cu * (f * a) * t.sv - t.su * (h / a) * t.cv
    have := C.e01; field_simp at this ⊢; linarith
  · show 0 = t.su * (f * a) * t.cv - t.cu * (h / a) * t.sv
    have := C.e10; field_simp at this ⊢; linarith
  · show h = t.su * (f * a) * t.sv + t.cu * (h / a) * t.cv
    have := C.e11; field_simp at this ⊢; linarith

theorem isSvd_swap {f g h a : ℝ} {t : Svd ℝ} (hh : h ≠ 0) (hle : |f| ≤ |h|) (C : Core (g / h) (f / h) a t) :
    IsSvd f g h ⟨f / a, h * a, t.cu, t.su, t.cv, t.sv⟩ := by
  have ha : a ≠ 0 := by linarith [C.a1]
  have ha0 : 0 < a := by linarith [C.a1]
  refine ⟨?_, ?_, ?_, ?_, ?_, ?_, order_of hle C.a1, fun h1 h2 => ⟨mul_pos (lt_of_le_of_ne h2 (Ne.symm hh)) ha0, div_nonneg h1.le ha0.le⟩⟩
  · show t.sv ^ 2 + t.cv ^ 2 = 1
    linarith [C.unitV]
  · show t.su ^ 2 + t.cu ^ 2 = 1
    linarith [C.unitU]
  · show f = t.sv * (h * a) * t.su + t.cv * (f / a) * t.cu
    have := C.e11; field_simp at this ⊢; linarith
  · show g = t.sv * (h * a) * t.cu - t.cv * (f / a) * t.su
    have := C.e01; field_simp at this ⊢; linarith
  · show 0 = t.cv * (h * a) * t.su - t.sv * (f / a) * t.cu
    have := C.e10; field_simp at this ⊢; linarith
  · show h = t.cv * (h * a) * t.cu + t.sv * (f / a) * t.su
    have := C.e00; field_simp at this ⊢; linarith

theorem sgn_div {x y : ℝ} (hx : x ≠ 0) (hy : y ≠ 0) : sgn (x / y) = sgn x * sgn y := by
  have := sgn_mul (x / y) y (div_ne_zero hx hy) hy
  rw [div_mul_cancel₀ _ hy] at this
  rw [this, mul_assoc, sgn_sq, mul_one]

theorem sgn_of_mul_pos {x y : ℝ} (h : 0 < x * y) : sgn x = sgn y := by
  rcases pos_and_pos_or_neg_and_neg_of_mul_pos h with ⟨a, b⟩ | ⟨a, b⟩
  · rw [sgn_of_pos a, sgn_of_pos b]
  · rw [sgn_of_neg a, sgn_of_neg b]

theorem sign_min (x y a : ℝ) : sgn (sgn x * sgn x * sgn y) * (|y| / a) = y / a := by
  rw [sgn_sq, one_mul, sgn_sgn, ← mul_div_assoc, sgn_mul_abs]

theorem sign_max (x a : ℝ) : sgn (sgn x) * (|x| * a) = x * a := by rw [sgn_sgn, ← mul_assoc, sgn_mul_abs]

/-- The routine for upper triangular matrices is exact unless `g` exceeds the diagonal by more than `1 / eps`. -/
theorem dlasv2_spec {eps f g h : ℝ} (he : 0 < eps) (hs : eps * |g| ≤ max |f| |h|) : ∃ r, dlasv2 Real.sqrt eps f g h = some r ∧ IsSvd f g h r := by
  by_cases hg : g = 0
  · subst hg
    by_cases hsw : |f| < |h|
    · have hh : h ≠ 0 := by intro h0; rw [h0, abs_zero] at hsw; exact absurd hsw (not_lt.mpr (abs_nonneg _))
      refine ⟨⟨f, h, 1, 0, 1, 0⟩, ?_, ⟨by norm_num, by norm_num, by ring, by ring, by ring, by ring, hsw.le, fun h1 h2 => ⟨lt_of_le_of_ne h2 (Ne.symm hh), h1.le⟩⟩⟩
      unfold dlasv2
      have e1 : sgn (1 * 1 * sgn h * sgn f * sgn h) * |f| = f := by
        rw [show 1 * 1 * sgn h * sgn f * sgn h = sgn h * sgn h * sgn f by ring, sgn_sq, one_mul, sgn_sgn, sgn_mul_abs]
      simp [hsw, sgn_of_pos (one_pos : (0:ℝ) < 1), sgn_sgn, sgn_mul_abs] at e1 ⊢
      exact e1
    · refine ⟨⟨h, f, 0, 1, 0, 1⟩, ?_, ⟨by norm_num, by norm_num, by ring, by ring, by ring, by ring, not_lt.mp hsw, fun h1 h2 => ⟨h1, h2⟩⟩⟩
      unfold dlasv2
      simp [hsw, sgn_of_pos (one_pos : (0:ℝ) < 1), sgn_sgn, sgn_mul_abs, sgn_sq]
  · have hga : 0 < |g| := abs_pos.mpr hg
    have hgl (m : ℝ) (hm : eps * |g| ≤ m) : (if |g| > m then (quot m |g|).bind fun x => some (decide (x < eps)) else some false) = some false := by
      split
      · rw [quot_of hga.ne', Option.bind_some, decide_eq_false (not_lt.mpr ((le_div_iff₀ hga).mpr hm))]
      · rfl
    by_cases hsw : |f| < |h|
    · rw [max_eq_right hsw.le] at hs
      have hh : h ≠ 0 := abs_pos.mp (lt_of_lt_of_le (mul_pos he hga) hs)
      obtain ⟨t, a, e, C, e1, e2⟩ := normal_spec hh hg hsw.le
      refine ⟨⟨f / a, h * a, t.cu, t.su, t.cv, t.sv⟩, ?_, isSvd_swap hh hsw.le C⟩
      have hq : g / h ≠ 0 := div_ne_zero hg hh
      have sg : sgn t.sv = sgn g * sgn h := by rw [sgn_of_mul_pos C.sv, sgn_div hg hh]
      have ts : (if (if |g| > |h| then 2 else 3) = 1 then sgn t.su * sgn t.sv * sgn f
          else if (if |g| > |h| then 2 else 3) = 2 then sgn t.cu * sgn t.sv * sgn g else sgn t.cu * sgn t.cv * sgn h) = sgn h := by
        by_cases hp : |g| > |h|
        · simp only [hp, if_true]
          rw [if_neg (by norm_num), sgn_of_pos C.cu, sg, one_mul, mul_right_comm, sgn_sq, one_mul]
        · simp only [hp, if_false]
          rw [if_neg (by norm_num), if_neg (by norm_num), sgn_of_pos C.cu, sgn_of_pos C.cv, one_mul, one_mul]
      have hmin : sgn (sgn h * sgn f * sgn h) * (|f| / a) = f / a := by
        rw [show sgn h * sgn f * sgn h = sgn h * sgn h * sgn f by ring, sign_min]
      unfold dlasv2
      simp only [hsw, decide_true, if_true, if_neg hga.ne', Option.bind_eq_bind, hgl _ hs, Option.bind_some, e, Bool.false_eq_true, if_false, e1, e2]
      rw [ts, hmin, sign_max]
    · rw [max_eq_left (not_lt.mp hsw)] at hs
      have hf : f ≠ 0 := abs_pos.mp (lt_of_lt_of_le (mul_pos he hga) hs)
      obtain ⟨t, a, e, C, e1, e2⟩ := normal_spec hf hg (not_lt.mp hsw)
      refine ⟨⟨h / a, f * a, t.sv, t.cv, t.su, t.cu⟩, ?_, isSvd_keep hf (not_lt.mp hsw) C⟩
      have sg : sgn t.sv = sgn g * sgn f := by rw [sgn_of_mul_pos C.sv, sgn_div hg hf]
      have ts : (if (if |g| > |f| then 2 else 1) = 1 then sgn t.cv * sgn t.cu * sgn f
          else if (if |g| > |f| then 2 else 1) = 2 then sgn t.sv * sgn t.cu * sgn g else sgn t.sv * sgn t.su * sgn h) = sgn f := by
        by_cases hp : |g| > |f|
        · simp only [hp, if_true]
          rw [if_neg (by norm_num), sgn_of_pos C.cu, sg, mul_one, mul_right_comm, sgn_sq, one_mul]
        · simp only [hp, if_false]
          rw [if_pos trivial, sgn_of_pos C.cu, sgn_of_pos C.cv, one_mul, one_mul]
      unfold dlasv2
      simp only [hsw, decide_false, Bool.false_eq_true, if_false, if_neg hga.ne', Option.bind_eq_bind, hgl _ hs, Option.bind_some, e, e1, e2]
      rw [ts, sign_min, sign_max]

/-! ### The theorem -/

/-- If the first column of the matrix is not null and the product of its columns is not enormous, `vl_svd2` returns two rotations
and a diagonal matrix, the product of which is exactly the matrix; the first diagonal entry is the largest in absolute value.  If the
determinant is not negative then the diagonal holds the singular values in decreasing order. -/
theorem svd2_exact {eps : ℝ} (he : 0 < eps) (M : Fin 2 → Fin 2 → ℝ) (hc : M 0 0 ≠ 0 ∨ M 1 0 ≠ 0)
    (hb : eps * |M 0 0 * M 0 1 + M 1 0 * M 1 1| ≤ max (M 0 0 ^ 2 + M 1 0 ^ 2) |M 0 0 * M 1 1 - M 0 1 * M 1 0|) (L : List ℝ) (hL : Stores L M) :
    ∃ (S U V : List ℝ) (s u v : Fin 2 → Fin 2 → ℝ), svd2 Real.sqrt eps L = some (S, U, V) ∧ Stores S s ∧ Stores U u ∧ Stores V v ∧
      Rotation u ∧ Rotation v ∧ s 0 1 = 0 ∧ s 1 0 = 0 ∧ |s 1 1| ≤ |s 0 0| ∧ (0 ≤ M 0 0 * M 1 1 - M 0 1 * M 1 0 → 0 ≤ s 1 1 ∧ s 1 1 ≤ s 0 0) ∧ IsProduct M u s v := by
  obtain ⟨a, ha⟩ : ∃ a, a = M 0 0 := ⟨_, rfl⟩
  obtain ⟨b, hb'⟩ : ∃ a, a = M 1 0 := ⟨_, rfl⟩
  obtain ⟨c, hc'⟩ : ∃ a, a = M 0 1 := ⟨_, rfl⟩
  obtain ⟨d, hd⟩ : ∃ a, a = M 1 1 := ⟨_, rfl⟩
  rw [← ha, ← hb', ← hc', ← hd] at hb
  rw [← ha, ← hb'] at hc
  have hn : 0 < a * a + b * b := by
    rcases hc with h | h
    · exact add_pos_of_pos_of_nonneg (mul_self_pos.mpr h) (mul_self_nonneg _)
    · exact add_pos_of_nonneg_of_pos (mul_self_nonneg _) (mul_self_pos.mpr h)
  obtain ⟨n, en⟩ : ∃ n, n = √(a * a + b * b) := ⟨_, rfl⟩
  have n0 : 0 < n := en ▸ Real.sqrt_pos.mpr hn
  have n2 : n ^ 2 = a ^ 2 + b ^ 2 := by rw [en, Real.sq_sqrt hn.le]; ring
  obtain ⟨f, ef⟩ : ∃ f, f = a / n * a + b / n * b := ⟨_, rfl⟩
  obtain ⟨g, eg⟩ : ∃ g, g = a / n * c + b / n * d := ⟨_, rfl⟩
  obtain ⟨h, eh⟩ : ∃ h, h = -(b / n) * c + a / n * d := ⟨_, rfl⟩
  have hs : eps * |g| ≤ max |f| |h| := by
    have e1 : |g| = |a * c + b * d| / n := by rw [eg, ← abs_of_pos n0, ← abs_div, abs_of_pos n0]; congr 1; field_simp
    have e2 : |f| = (a ^ 2 + b ^ 2) / n := by
      rw [ef, show a / n * a + b / n * b = (a ^ 2 + b ^ 2) / n by field_simp]
      exact abs_of_nonneg (div_nonneg (add_nonneg (sq_nonneg a) (sq_nonneg b)) n0.le)
    have e3 : |h| = |a * d - c * b| / n := by rw [eh, ← abs_of_pos n0, ← abs_div, abs_of_pos n0]; congr 1; field_simp; ring
    rw [e1, e2, e3, ← mul_div_assoc, max_div_div_right n0.le]
    exact div_le_div_of_nonneg_right hb n0.le
  obtain ⟨r, er, I⟩ := dlasv2_spec he hs
  have hcol : (a / n) ^ 2 + (b / n) ^ 2 = 1 := by rw [div_pow, div_pow, ← add_div, n2, div_self]; rw [← n2]; positivity
  obtain ⟨p, hp⟩ : ∃ p, p = a / n := ⟨_, rfl⟩
  obtain ⟨w, hw⟩ : ∃ p, p = b / n := ⟨_, rfl⟩
  rw [← hp, ← hw] at hcol ef eg eh
  -- the first rotation brings the matrix to the triangular one
  have wa : w * a = p * b := by rw [hp, hw]; ring
  have ea : a = p * f := by rw [ef]; linear_combination (-a) * hcol + w * wa
  have eb : b = w * f := by rw [ef]; linear_combination (-b) * hcol - p * wa
  have ec : c = p * g - w * h := by rw [eg, eh]; linear_combination (-c) * hcol
  have ed : d = w * g + p * h := by rw [eg, eh]; linear_combination (-d) * hcol
  refine ⟨[r.smax, 0, 0, r.smin], [r.cu * p - r.su * w, r.su * p + r.cu * w, -r.cu * w - r.su * p, -r.su * w + r.cu * p], [r.cv, r.sv, -r.sv, r.cv],
    fun i j => if i = j then (if i = 0 then r.smax else r.smin) else 0,
    fun i j => if j = 0 then (if i = 0 then r.cu * p - r.su * w else r.su * p + r.cu * w) else (if i = 0 then -r.cu * w - r.su * p else -r.su * w + r.cu * p),
    fun i j => if j = 0 then (if i = 0 then r.cv else r.sv) else (if i = 0 then -r.sv else r.cv), ?_, ?_, ?_, ?_, ?_, ?_, ?_, ?_, ?_, ?_, ?_⟩
  · rw [hL, ← ha, ← hb', ← hc', ← hd]
    simp only [svd2, rd, Option.bind_eq_bind, List.getElem?_cons_zero, List.getElem?_cons_succ, Option.bind_some]
    rw [← en, quot_of n0.ne', quot_of n0.ne', ← hp, ← hw]
    simp only [Option.bind_some]
    rw [← ef, ← eg, ← eh, er, Option.bind_some]
  · simp [Stores]
  · simp [Stores]
  · simp [Stores]
  · refine ⟨r.cu * p - r.su * w, r.su * p + r.cu * w, ?_, ?_, ?_, ?_, ?_⟩
    · linear_combination hcol * (r.cu ^ 2 + r.su ^ 2) + I.unitU
    · simp
    · simp
    · simp; ring
    · simp; ring
  · exact ⟨r.cv, r.sv, I.unitV, by simp, by simp, by simp, by simp⟩
  · simp
  · simp
  · simpa using I.order
  · rw [← ha, ← hb', ← hc', ← hd]
    intro hdet
    have f0 : 0 < f := by
      rw [ef, hp, hw, show a / n * a + b / n * b = n ^ 2 / n by rw [n2]; ring]
      positivity
    have h0 : 0 ≤ h := by
      rw [eh, hp, hw, show -(b / n) * c + a / n * d = (a * d - c * b) / n by ring]
      exact div_nonneg hdet n0.le
    obtain ⟨p1, p2⟩ := I.pos f0 h0
    have := I.order
    rw [abs_of_pos p1, abs_of_nonneg p2] at this
    exact ⟨by simpa using p2, by simpa using this⟩
  · intro i j
    have g00 := I.e00
    have g01 := I.e01
    have g10 := I.e10
    have g11 := I.e11
    fin_cases i <;> fin_cases j
    · simp [Fin.sum_univ_two]
      rw [← ha]
      linear_combination ea + p * g00 - w * g10
    · simp [Fin.sum_univ_two]
      rw [← hc']
      linear_combination ec + p * g01 - w * g11
    · simp [Fin.sum_univ_two]
      rw [← hb']
      linear_combination eb + w * g00 + p * g10
    · simp [Fin.sum_univ_two]
      rw [← hd]
      linear_combination ed + w * g01 + p * g11

/-- A matrix to which `svd2_exact` applies. -/
example : ∃ (S U V : List ℝ) (s u v : Fin 2 → Fin 2 → ℝ), svd2 Real.sqrt (1 / 1000) [3, 4, 1, 2] = some (S, U, V) ∧ Stores S s ∧ Stores U u ∧ Stores V v ∧
    Rotation u ∧ Rotation v ∧ s 0 1 = 0 ∧ s 1 0 = 0 ∧ |s 1 1| ≤ |s 0 0| ∧ (0 ≤ (3 : ℝ) * 2 - 1 * 4 → 0 ≤ s 1 1 ∧ s 1 1 ≤ s 0 0) ∧ IsProduct (fun i j => if j = 0 then (if i = 0 then 3 else 4) else (if i = 0 then 1 else 2)) u s v := by
  have := svd2_exact (eps := 1 / 1000) (by norm_num) (fun i j => if j = 0 then (if i = 0 then 3 else 4) else (if i = 0 then 1 else 2)) (by norm_num) (by simp; left; rw [abs_of_pos] <;> norm_num) _ (by rw [Stores])
  simpa using this

/-! ### What does not hold -/

/-- A null first column makes the function divide by zero. -/
theorem svd2_null_column (eps c d : ℝ) : svd2 Real.sqrt eps [0, 0, c, d] = none := by
  simp [svd2, rd, quot]

/-- Every matrix with a first column that is not null is the product of the three factors returned. -/
def SvdExactClaim (eps : ℝ) : Prop := ∀ (M : Fin 2 → Fin 2 → ℝ) (L S U V : List ℝ) (s u v : Fin 2 → Fin 2 → ℝ), (M 0 0 ≠ 0 ∨ M 1 0 ≠ 0) → Stores L M →
  svd2 Real.sqrt eps L = some (S, U, V) → Stores S s → Stores U u → Stores V v → IsProduct M u s v

/-- It fails when the diagonal is very small: for `[eps / 2, 1; 0, 0]` the cosine and the sine of the right rotation are exchanged. -/
theorem svdExact_claim_false {eps : ℝ} (h0 : 0 < eps) (h1 : eps < 1) : ¬ SvdExactClaim eps := by
  intro H
  have e0 : 0 < eps / 2 := by linarith
  have hs : √(eps / 2 * (eps / 2)) = eps / 2 := Real.sqrt_mul_self e0.le
  have run : svd2 Real.sqrt eps [eps / 2, 0, 1, 0] = some ([1, 0, 0, 0], [1, 0, 0, 1], [1, eps / 2, -(eps / 2), 1]) := by
    have a1 : |eps / 2| = eps / 2 := abs_of_pos e0
    have D : dlasv2 Real.sqrt eps (eps / 2) 1 0 = some ⟨0, 1, eps / 2, 1, 0, 1⟩ := by
      unfold dlasv2 largeCase
      have b1 : ¬ (eps / 2 < 0) := not_lt.mpr e0.le
      have b2 : eps / 2 < 1 := by linarith
      have b3 : eps / 2 < eps := by linarith
      simp [a1, b1, b2, b3, quot, sgn]
      norm_num [b1]
    simp only [svd2, rd, Option.bind_eq_bind, List.getElem?_cons_zero, List.getElem?_cons_succ, Option.bind_some, mul_zero, add_zero]
    rw [hs, quot_of e0.ne', quot_of e0.ne']
    simp only [Option.bind_some, div_self e0.ne', zero_div, mul_zero, neg_zero, one_mul, mul_one, add_zero]
    rw [D]
    simp
  have := H (fun i j => if i = 0 then (if j = 0 then eps / 2 else 1) else 0) _ _ _ _
    (fun i j => if i = 0 ∧ j = 0 then 1 else 0) (fun i j => if i = j then 1 else 0)
    (fun i j => if i = j then 1 else if i = 0 then -(eps / 2) else eps / 2) (Or.inl (by simp; exact h0.ne')) (by simp [Stores]) run (by simp [Stores]) (by simp [Stores]) (by simp [Stores]) 0 0
  simp [Fin.sum_univ_two] at this
  linarith

/-- The diagonal holds the singular values: they are not negative and in decreasing order. -/
def SvdSortedClaim (eps : ℝ) : Prop := ∀ (L S U V : List ℝ) (s : Fin 2 → Fin 2 → ℝ), svd2 Real.sqrt eps L = some (S, U, V) → Stores S s →
  0 ≤ s 1 1 ∧ s 1 1 ≤ s 0 0

/-- For `diag(1, -2)` the diagonal returned is `(-2, 1)`. -/
theorem svdSorted_claim_false (eps : ℝ) : ¬ SvdSortedClaim eps := by
  intro H
  have run : svd2 Real.sqrt eps [1, 0, 0, -2] = some ([-2, 0, 0, 1], [0, 1, -1, 0], [0, 1, -1, 0]) := by
    have D : dlasv2 Real.sqrt eps 1 0 (-2) = some ⟨1, -2, 1, 0, 1, 0⟩ := by
      have h1 : sgn (1 : ℝ) = 1 := sgn_of_pos one_pos
      have h2 : sgn (-2 : ℝ) = -1 := sgn_of_neg (by norm_num)
      have h3 : sgn (-1 : ℝ) = -1 := sgn_of_neg (by norm_num)
      unfold dlasv2
      simp [h1, h2, h3]
    simp [svd2, rd, quot, D]
  have := H _ _ _ _ (fun i j => if i = j then (if i = 0 then -2 else 1) else 0) run (by simp [Stores])
  simp at this
  linarith [this]

end Verif.Mathop
