import Verif.Mathop.CompareSpec
import Verif.Rows
import Mathlib.Analysis.SpecialFunctions.Log.Deriv
import Mathlib.Analysis.SpecialFunctions.Pow.Deriv
import Mathlib.Analysis.Calculus.Deriv.MeanValue
import Mathlib.Analysis.SpecialFunctions.Log.Basic
import Mathlib.Tactic.LinearCombination
import Mathlib.Tactic.Ring
import Mathlib.Tactic.FieldSimp
import Mathlib.Tactic.Positivity

/-!
# The kernels are positive semidefinite
-/

open Finset

namespace Verif.Mathop

/-- All the quadratic forms with the values of `k` as coefficients are nonnegative, for points satisfying `P`. -/
def Psd (P : ℝ → Prop) (k : ℝ → ℝ → ℝ) : Prop :=
  ∀ (m : Nat) (x c : Nat → ℝ), (∀ i < m, P (x i)) → 0 ≤ ∑ i ∈ range m, ∑ j ∈ range m, c i * c j * k (x i) (x j)

theorem psd_prod (P : ℝ → Prop) (f : ℝ → ℝ) : Psd P (fun x y => f x * f y) := by
  intro m x c _
  have e : ∑ i ∈ range m, ∑ j ∈ range m, c i * c j * (f (x i) * f (x j)) = (∑ i ∈ range m, c i * f (x i)) * (∑ j ∈ range m, c j * f (x j)) := by
    rw [sum_mul_sum]
    exact sum_congr rfl fun i _ => sum_congr rfl fun j _ => by ring
  rw [e]
  exact mul_self_nonneg _

theorem Psd.congr {P : ℝ → Prop} {k k' : ℝ → ℝ → ℝ} (h : Psd P k) (e : ∀ x y, P x → P y → k' x y = k x y) : Psd P k' := by
  intro m x c hx
  have := h m x c hx
  rwa [sum_congr rfl fun i hi => sum_congr rfl fun j hj => by rw [e (x i) (x j) (hx i (mem_range.1 hi)) (hx j (mem_range.1 hj))]]

theorem Psd.scale {P : ℝ → Prop} {k : ℝ → ℝ → ℝ} (h : Psd P k) (f : ℝ → ℝ) : Psd P (fun x y => f x * f y * k x y) := by
  intro m x c hx
  have := h m x (fun i => c i * f (x i)) hx
  refine le_of_le_of_eq this ?_
  exact sum_congr rfl fun i _ => sum_congr rfl fun j _ => by ring

/-- The kernel `1 / (a + b)` is positive semidefinite on the positive numbers. -/
theorem psd_cauchy : Psd (fun a => 0 < a) (fun a b => 1 / (a + b)) := by
  intro m a c ha
  let h : ℝ → ℝ := fun t => ∑ i ∈ range m, ∑ j ∈ range m, c i * c j * (t ^ (a i + a j) / (a i + a j))
  have hder : ∀ t : ℝ, 0 < t → HasDerivAt h (∑ i ∈ range m, ∑ j ∈ range m, c i * c j * t ^ (a i + a j - 1)) t := by
    intro t ht
    refine HasDerivAt.fun_sum fun i hi => HasDerivAt.fun_sum fun j hj => ?_
    have hp : 0 < a i + a j := add_pos (ha i (mem_range.1 hi)) (ha j (mem_range.1 hj))
    have h1 := ((Real.hasDerivAt_rpow_const (x := t) (p := a i + a j) (Or.inl ht.ne')).div_const (a i + a j)).const_mul (c i * c j)
    rw [mul_div_cancel_left₀ _ hp.ne'] at h1
    exact h1
  have hcont : ContinuousOn h (Set.Icc 0 1) := by
    refine continuousOn_finsetSum _ fun i hi => continuousOn_finsetSum _ fun j hj => ?_
    have hp : 0 < a i + a j := add_pos (ha i (mem_range.1 hi)) (ha j (mem_range.1 hj))
    refine ContinuousOn.mul continuousOn_const (ContinuousOn.div_const ?_ _)
    exact (Real.continuous_rpow_const hp.le).continuousOn
  have hmono : MonotoneOn h (Set.Icc 0 1) := by
    refine monotoneOn_of_deriv_nonneg (convex_Icc 0 1) hcont ?_ ?_
    · intro t ht
      rw [interior_Icc] at ht
      exact (hder t ht.1).differentiableAt.differentiableWithinAt
    · intro t ht
      rw [interior_Icc] at ht
      rw [(hder t ht.1).deriv]
      have e : ∑ i ∈ range m, ∑ j ∈ range m, c i * c j * t ^ (a i + a j - 1) = (∑ i ∈ range m, c i * t ^ (a i)) * (∑ i ∈ range m, c i * t ^ (a i)) * t⁻¹ := by
        rw [sum_mul_sum, sum_mul]
        refine sum_congr rfl fun i _ => ?_
        rw [sum_mul]
        refine sum_congr rfl fun j _ => ?_
        rw [Real.rpow_sub ht.1, Real.rpow_add ht.1, Real.rpow_one]
        ring
      rw [e]
      exact mul_nonneg (mul_self_nonneg _) (inv_nonneg.2 ht.1.le)
  have h01 := hmono (Set.left_mem_Icc.2 zero_le_one) (Set.right_mem_Icc.2 zero_le_one) zero_le_one
  have e0 : h 0 = 0 := by
    refine sum_eq_zero fun i hi => sum_eq_zero fun j hj => ?_
    have hp : 0 < a i + a j := add_pos (ha i (mem_range.1 hi)) (ha j (mem_range.1 hj))
    rw [Real.zero_rpow hp.ne']; simp
  have e1 : h 1 = ∑ i ∈ range m, ∑ j ∈ range m, c i * c j * (1 / (a i + a j)) := by
    refine sum_congr rfl fun i hi => sum_congr rfl fun j hj => ?_
    rw [Real.one_rpow]
  rw [e0, e1] at h01
  exact h01

/-- The quadratic forms of the minimum are nonnegative on the nonnegative numbers. -/
theorem min_form (n : Nat) : ∀ (s : Finset Nat), s.card = n → ∀ (x c : Nat → ℝ), (∀ i ∈ s, 0 ≤ x i) → 0 ≤ ∑ i ∈ s, ∑ j ∈ s, c i * c j * min (x i) (x j) := by
  induction n with
  | zero => intro s hs x c _; rw [card_eq_zero.1 hs]; simp
  | succ n ih =>
    intro s hs x c hx
    obtain ⟨k, hk, hmin⟩ := exists_min_image s x (card_pos.1 (by omega))
    have h1 := ih (s.erase k) (by rw [card_erase_of_mem hk, hs]; omega) (fun i => x i - x k) c fun i hi => sub_nonneg.2 (hmin i (mem_of_mem_erase hi))
    have e1 : ∑ i ∈ s, ∑ j ∈ s, c i * c j * min (x i - x k) (x j - x k) = ∑ i ∈ s.erase k, ∑ j ∈ s.erase k, c i * c j * min (x i - x k) (x j - x k) := by
      rw [← add_sum_erase s _ hk]
      have z : ∑ j ∈ s, c k * c j * min (x k - x k) (x j - x k) = 0 := sum_eq_zero fun j hj => by
        rw [sub_self, min_eq_left (sub_nonneg.2 (hmin j hj)), mul_zero]
      rw [z, zero_add]
      refine sum_congr rfl fun i hi => ?_
      rw [← add_sum_erase s _ hk, sub_self, min_eq_right (sub_nonneg.2 (hmin i (mem_of_mem_erase hi))), mul_zero, zero_add]
    have e2 : ∑ i ∈ s, ∑ j ∈ s, c i * c j * min (x i) (x j) = x k * ((∑ i ∈ s, c i) * (∑ j ∈ s, c j)) + ∑ i ∈ s, ∑ j ∈ s, c i * c j * min (x i - x k) (x j - x k) := by
      rw [sum_mul_sum, mul_sum, ← sum_add_distrib]
      refine sum_congr rfl fun i _ => ?_
      rw [mul_sum, ← sum_add_distrib]
      refine sum_congr rfl fun j _ => ?_
      rw [min_sub_sub_right]
      ring
    rw [e2, e1]
    exact add_nonneg (mul_nonneg (hx k hk) (mul_self_nonneg _)) h1

theorem psd_min : Psd (fun a => 0 ≤ a) (fun x y => min x y) := fun m x c hx => min_form m (range m) (card_range m) x c fun i hi => hx i (mem_range.1 hi)

/-- Second differences of the kernel `1 / (a + b)`. -/
theorem psd_diff {N : ℝ} (hN : 0 < N) : Psd (fun a => 0 ≤ a) (fun x y => 1 / (x + y + N) - 1 / (x + N) - 1 / (y + N) + 1 / N) := by
  intro m x c hx
  have h := psd_cauchy (m + 1) (fun i => if i < m then x i + N / 2 else N / 2) (fun i => if i < m then c i else - ∑ i ∈ range m, c i) (by
    intro i _
    by_cases hi : i < m
    · have := hx i hi; simp only [hi, if_true]; linarith
    · simp only [hi, if_false]; linarith)
  rw [sum_range_succ, sum_range_succ] at h
  simp only [lt_irrefl, if_false] at h
  have e : ∀ i ∈ range m, ∑ j ∈ range (m + 1), (if i < m then c i else - ∑ i ∈ range m, c i) * (if j < m then c j else - ∑ i ∈ range m, c i) * (1 / ((if i < m then x i + N / 2 else N / 2) + if j < m then x j + N / 2 else N / 2)) =
      ∑ j ∈ range m, c i * c j * (1 / (x i + x j + N)) - ∑ j ∈ range m, c i * c j * (1 / (x i + N)) := by
    intro i hi
    rw [sum_range_succ]
    simp only [lt_irrefl, if_false, mem_range.1 hi, if_true]
    have e1 : ∑ j ∈ range m, c i * (if j < m then c j else - ∑ i ∈ range m, c i) * (1 / (x i + N / 2 + if j < m then x j + N / 2 else N / 2)) = ∑ j ∈ range m, c i * c j * (1 / (x i + x j + N)) :=
      sum_congr rfl fun j hj => by
        simp only [mem_range.1 hj, if_true]
        rw [show x i + N / 2 + (x j + N / 2) = x i + x j + N by ring]
    rw [e1, ← sum_mul, ← mul_sum, show x i + N / 2 + N / 2 = x i + N by ring]
    ring
  rw [sum_congr rfl e] at h
  have e2 : ∑ j ∈ range m, (- ∑ i ∈ range m, c i) * (if j < m then c j else - ∑ i ∈ range m, c i) * (1 / (N / 2 + if j < m then x j + N / 2 else N / 2)) = - ∑ i ∈ range m, ∑ j ∈ range m, c i * c j * (1 / (x j + N)) := by
    rw [sum_comm, eq_neg_iff_add_eq_zero, ← sum_add_distrib]
    refine sum_eq_zero fun j hj => ?_
    simp only [mem_range.1 hj, if_true]
    rw [← sum_mul, ← sum_mul, show N / 2 + (x j + N / 2) = x j + N by ring]
    ring
  have e3 : (- ∑ i ∈ range m, c i) * (- ∑ i ∈ range m, c i) * (1 / (N / 2 + N / 2)) = ∑ i ∈ range m, ∑ j ∈ range m, c i * c j * (1 / N) := by
    rw [add_halves, neg_mul_neg, sum_mul_sum, sum_mul]
    exact sum_congr rfl fun i _ => by rw [sum_mul]
  rw [e2, e3, sum_sub_distrib] at h
  refine le_of_le_of_eq h ?_
  rw [← add_assoc, ← sub_eq_add_neg, ← sum_sub_distrib, ← sum_sub_distrib, ← sum_add_distrib]
  refine sum_congr rfl fun i _ => ?_
  rw [← sum_sub_distrib, ← sum_sub_distrib, ← sum_add_distrib]
  exact sum_congr rfl fun j _ => by ring

/-- The entropy gained by mixing is positive semidefinite. -/
theorem psd_entropy : Psd (fun a => 0 ≤ a) (fun x y => (x + y) * Real.log (x + y) - x * Real.log x - y * Real.log y) := by
  intro m x c hx
  let g : ℝ → ℝ := fun N => ∑ i ∈ range m, ∑ j ∈ range m, c i * c j * (x i * Real.log (x i + N) + x j * Real.log (x j + N) - (x i + x j) * Real.log (x i + x j + N))
  have hder : ∀ N : ℝ, 0 < N → HasDerivAt g (∑ i ∈ range m, ∑ j ∈ range m, c i * c j * (x i * (1 / (x i + N)) + x j * (1 / (x j + N)) - (x i + x j) * (1 / (x i + x j + N)))) N := by
    intro N hN
    refine HasDerivAt.fun_sum fun i hi => HasDerivAt.fun_sum fun j hj => ?_
    have hi' := hx i (mem_range.1 hi)
    have hj' := hx j (mem_range.1 hj)
    have hl : ∀ a : ℝ, 0 ≤ a → HasDerivAt (fun N => a * Real.log (a + N)) (a * (1 / (a + N))) N := by
      intro a ha
      exact (((hasDerivAt_id N).const_add a).log (by simp only [id]; linarith)).const_mul a
    exact (((hl _ hi').add (hl _ hj')).sub (hl _ (add_nonneg hi' hj'))).const_mul (c i * c j)
  have hmono : MonotoneOn g (Set.Ioi 0) := by
    refine monotoneOn_of_deriv_nonneg (convex_Ioi 0) (fun N hN => (hder N hN).continuousAt.continuousWithinAt) ?_ ?_
    · intro N hN
      rw [interior_Ioi] at hN
      exact (hder N hN).differentiableAt.differentiableWithinAt
    · intro N hN
      rw [interior_Ioi] at hN
      have hN : 0 < N := hN
      rw [(hder N hN).deriv]
      refine le_of_le_of_eq (mul_nonneg hN.le (psd_diff hN m x c hx)) ?_
      rw [mul_sum]
      refine sum_congr rfl fun i hi => ?_
      rw [mul_sum]
      refine sum_congr rfl fun j hj => ?_
      have hi' := hx i (mem_range.1 hi)
      have hj' := hx j (mem_range.1 hj)
      have d1 : x i + N ≠ 0 := by positivity
      have d2 : x j + N ≠ 0 := by positivity
      have d3 : x i + x j + N ≠ 0 := by positivity
      field_simp
      ring
  have hlim : Filter.Tendsto g Filter.atTop (nhds 0) := by
    have z : (0 : ℝ) = ∑ i ∈ range m, ∑ j ∈ range m, c i * c j * (x i * (0 - 0) + x j * (0 - 0)) := by simp
    rw [z]
    have e : g = fun N => ∑ i ∈ range m, ∑ j ∈ range m, c i * c j * (x i * ((Real.log (N + x i) - Real.log N) - (Real.log (N + (x i + x j)) - Real.log N)) + x j * ((Real.log (N + x j) - Real.log N) - (Real.log (N + (x i + x j)) - Real.log N))) := by
      funext N
      refine sum_congr rfl fun i _ => sum_congr rfl fun j _ => ?_
      rw [add_comm N (x i), add_comm N (x j), add_comm N (x i + x j)]
      ring
    rw [e]
    have hl := fun y => Real.tendsto_log_comp_add_sub_log y
    refine tendsto_finsetSum _ fun i _ => tendsto_finsetSum _ fun j _ => ?_
    exact ((((hl (x i)).sub (hl (x i + x j))).const_mul (x i)).add (((hl (x j)).sub (hl (x i + x j))).const_mul (x j))).const_mul (c i * c j)
  have hneg : ∀ N : ℝ, 0 < N → g N ≤ 0 := by
    intro N hN
    refine ge_of_tendsto hlim ?_
    filter_upwards [Filter.eventually_ge_atTop N] with M hM
    exact hmono hN (lt_of_lt_of_le hN hM) hM
  have h0 : Filter.Tendsto g (nhdsWithin 0 (Set.Ioi 0)) (nhds (g 0)) := by
    refine Filter.Tendsto.mono_left ?_ nhdsWithin_le_nhds
    refine tendsto_finsetSum _ fun i hi => tendsto_finsetSum _ fun j hj => ?_
    have hi' := hx i (mem_range.1 hi)
    have hj' := hx j (mem_range.1 hj)
    have hl : ∀ a : ℝ, 0 ≤ a → Filter.Tendsto (fun N => a * Real.log (a + N)) (nhds 0) (nhds (a * Real.log (a + 0))) := by
      intro a ha
      rcases ha.eq_or_lt with rfl | ha
      · simp
      · exact (((continuousAt_const.add continuousAt_id).log (by show a + 0 ≠ 0; linarith)).tendsto).const_mul a
    exact (((hl _ hi').add (hl _ hj')).sub (hl _ (add_nonneg hi' hj'))).const_mul (c i * c j)
  have h1 : g 0 ≤ 0 := by
    refine le_of_tendsto h0 ?_
    filter_upwards [self_mem_nhdsWithin] with N hN
    exact hneg N hN
  have e : ∑ i ∈ range m, ∑ j ∈ range m, c i * c j * ((x i + x j) * Real.log (x i + x j) - x i * Real.log (x i) - x j * Real.log (x j)) = - g 0 := by
    rw [← sum_neg_distrib]
    refine sum_congr rfl fun i _ => ?_
    rw [← sum_neg_distrib]
    refine sum_congr rfl fun j _ => ?_
    simp only [add_zero]
    ring
  rw [e]
  linarith

end Verif.Mathop
