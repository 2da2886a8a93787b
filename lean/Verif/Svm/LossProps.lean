import Verif.Svm.LossModel
import Verif.Svm.Spec
import Mathlib.Tactic.Ring
import Mathlib.Tactic.Linarith
import Mathlib.Tactic.LinearCombination
import Mathlib.Tactic.FieldSimp
import Mathlib.Tactic.Positivity
import Mathlib.Tactic.NormNum

/-!
# The losses of the SVM solvers: derivatives, conjugates and coordinate updates
-/

set_option linter.unusedSectionVars false

namespace Verif.Svm

open Spec

variable {K : Type} [Field K] [LinearOrder K] [IsStrictOrderedRing K]

/-- The functions compute the loss `l` and one of its subgradients, for the labels that satisfy `ok`. -/
structure IsGrad (L : Loss K) (l : K → K → K) (ok : K → Prop) : Prop where
  loss : ∀ z y, ok y → L.loss z y = l z y
  deriv : ∀ z y, ok y → ∀ z', l z y + L.deriv z y * (z' - z) ≤ l z' y

/-- The four functions of a loss are what they should be, for the labels that satisfy `ok`: the loss itself, a subderivative, the convex conjugate (infinity where it is not bounded), and the increment of the dual variable that solves exactly the problem of one coordinate. -/
structure IsLoss (L : Loss K) (l : K → K → K) (ok : K → Prop) : Prop where
  loss : ∀ z y, ok y → L.loss z y = l z y
  nonneg : ∀ z y, 0 ≤ l z y
  deriv : ∀ z y, ok y → ∀ z', l z y + L.deriv z y * (z' - z) ≤ l z' y
  conj : ∀ u y, ok y → (∃ c : K, L.conj u y = c ∧ IsConj (fun z => l z y) u c) ∨ (L.conj u y = ⊤ ∧ ¬ BddAbove (Set.range fun z => u * z - l z y))
  zero : ∀ y, ok y → IsConj (fun z => l z y) 0 0
  dca : ∀ a B A y c, ok y → 0 < A → IsConj (fun z => l z y) (- a) c → ∃ d c', L.dca a B A y = some d ∧ IsConj (fun z => l z y) (- (a + d)) c' ∧
    ∀ d2 c2, IsConj (fun z => l z y) (- (a + d2)) c2 → A / 2 * d ^ 2 + B * d + c' ≤ A / 2 * d2 ^ 2 + B * d2 + c2

theorem IsLoss.grad {L : Loss K} {l : K → K → K} {ok : K → Prop} (h : IsLoss L l ok) : IsGrad L l ok := ⟨h.loss, h.deriv⟩

theorem conj_unique {l : K → K} {u c c' : K} (h : IsConj l u c) (h' : IsConj l u c') : c = c' := IsLUB.unique h h'

theorem conj_of {l : K → K} {u c : K} (h1 : ∀ z, u * z - l z ≤ c) (z0 : K) (h2 : u * z0 - l z0 = c) : IsConj l u c := by
  refine ⟨?_, fun b hb => ?_⟩
  · rintro _ ⟨z, rfl⟩
    exact h1 z
  · rw [← h2]
    exact hb ⟨z0, rfl⟩

/-- The closest point of an interval -/
theorem clamp_sq (lo hi m b : K) (h : lo ≤ hi) (h1 : lo ≤ b) (h2 : b ≤ hi) : (max lo (min hi m) - m) ^ 2 ≤ (b - m) ^ 2 := by
  rcases le_total m lo with h3 | h3
  · rw [min_eq_right (h3.trans h), max_eq_left h3]
    exact pow_le_pow_left₀ (by linarith) (by linarith) 2
  · rcases le_total hi m with h4 | h4
    · rw [min_eq_left h4, max_eq_right h]
      have := pow_le_pow_left₀ (show 0 ≤ m - hi by linarith) (show m - hi ≤ m - b by linarith) 2
      nlinarith [this]
    · rw [min_eq_right h4, max_eq_right h3]
      have : 0 ≤ (b - m) ^ 2 := sq_nonneg _
      simpa using this

theorem clampl_sq (lo m b : K) (h1 : lo ≤ b) : (max lo m - m) ^ 2 ≤ (b - m) ^ 2 := by
  rcases le_total m lo with h3 | h3
  · rw [max_eq_left h3]
    exact pow_le_pow_left₀ (by linarith) (by linarith) 2
  · rw [max_eq_right h3]
    have : 0 ≤ (b - m) ^ 2 := sq_nonneg _
    simpa using this

/-! ### Hinge loss -/

theorem hinge_conj_value {u y : K} (hy : y = 1 ∨ y = -1) (h : -1 ≤ y * u ∧ y * u ≤ 0) : IsConj (fun z => hinge z y) u (y * u) := by
  have hyy : y * y = 1 := by rcases hy with rfl | rfl <;> norm_num
  refine conj_of (fun z => ?_) y ?_
  · show u * z - max 0 (1 - y * z) ≤ y * u
    have e : u * z = (y * u) * (y * z) := by linear_combination (- u * z) * hyy
    rw [e]
    generalize y * u = v at h ⊢
    generalize y * z = t
    rcases le_total (1 - t) 0 with h1 | h1
    · rw [max_eq_left h1]
      nlinarith
    · rw [max_eq_right h1]
      nlinarith
  · show u * y - max 0 (1 - y * y) = y * u
    rw [hyy]
    simp [mul_comm]

theorem hinge_unbounded {u y : K} (hy : y = 1 ∨ y = -1) (h : ¬ (-1 ≤ y * u ∧ y * u ≤ 0)) : ¬ BddAbove (Set.range fun z => u * z - hinge z y) := by
  have hyy : y * y = 1 := by rcases hy with rfl | rfl <;> norm_num
  rintro ⟨b, hb⟩
  have hz : ∀ t, (y * u) * t - max 0 (1 - t) ≤ b := by
    intro t
    have := hb ⟨y * t, rfl⟩
    simp only [hinge] at this
    rw [show u * (y * t) = (y * u) * t by ring, show y * (y * t) = t by linear_combination t * hyy] at this
    exact this
  generalize y * u = v at h hz
  by_cases h1 : -1 ≤ v
  · have h2 : 0 < v := by
      by_contra h3
      exact h ⟨h1, not_lt.1 h3⟩
    have := hz (max 1 ((b + 1) / v))
    rw [max_eq_left (a := 0) (b := 1 - max 1 ((b + 1) / v)) (by linarith [le_max_left 1 ((b + 1) / v)])] at this
    have h3 : v * ((b + 1) / v) ≤ v * max 1 ((b + 1) / v) := mul_le_mul_of_nonneg_left (le_max_right _ _) h2.le
    rw [mul_div_cancel₀ _ h2.ne'] at h3
    linarith
  · have h2 : 0 < -1 - v := by linarith [not_le.1 h1]
    have := hz (- max 0 ((b + 2) / (-1 - v)))
    rw [max_eq_right (a := 0) (b := 1 - - max 0 ((b + 2) / (-1 - v))) (by linarith [le_max_left 0 ((b + 2) / (-1 - v))])] at this
    have h3 : (-1 - v) * ((b + 2) / (-1 - v)) ≤ (-1 - v) * max 0 ((b + 2) / (-1 - v)) := mul_le_mul_of_nonneg_left (le_max_right _ _) h2.le
    rw [mul_div_cancel₀ _ h2.ne'] at h3
    linarith

theorem hinge_conj_iff {u y c : K} (hy : y = 1 ∨ y = -1) : IsConj (fun z => hinge z y) u c ↔ (-1 ≤ y * u ∧ y * u ≤ 0) ∧ c = y * u := by
  constructor
  · intro h
    by_cases h1 : -1 ≤ y * u ∧ y * u ≤ 0
    · exact ⟨h1, conj_unique h (hinge_conj_value hy h1)⟩
    · exact absurd ⟨c, h.1⟩ (hinge_unbounded hy h1)
  · rintro ⟨h1, rfl⟩
    exact hinge_conj_value hy h1

theorem hinge_isLoss (F : Fns K) : IsLoss (setLoss F .hinge) (hinge (K := K)) (fun y => y = 1 ∨ y = -1) where
  loss z y _ := max_comm _ _
  nonneg z y := le_max_left _ _
  deriv z y _ z' := by
    show max 0 (1 - y * z) + (if y * z < 1 then - y else 0) * (z' - z) ≤ max 0 (1 - y * z')
    split
    · rename_i h
      rw [max_eq_right (by linarith)]
      refine le_trans (le_of_eq ?_) (le_max_right _ _)
      ring
    · rename_i h
      rw [max_eq_left (by linarith [not_lt.1 h])]
      simp
  conj u y hy := by
    show (∃ c : K, (if -1 ≤ y * u ∧ y * u ≤ 0 then ((y * u : K) : WithTop K) else ⊤) = c ∧ _) ∨ ((if -1 ≤ y * u ∧ y * u ≤ 0 then ((y * u : K) : WithTop K) else ⊤) = ⊤ ∧ _)
    by_cases h : -1 ≤ y * u ∧ y * u ≤ 0
    · rw [if_pos h]
      exact Or.inl ⟨_, rfl, hinge_conj_value hy h⟩
    · rw [if_neg h]
      exact Or.inr ⟨rfl, hinge_unbounded hy h⟩
  zero y hy := (hinge_conj_iff hy).2 ⟨by simp, by simp⟩
  dca a B A y c hy hA ha := by
    have hyy : y * y = 1 := by rcases hy with rfl | rfl <;> norm_num
    refine ⟨_, _, by
      show (divv (y - B) A).bind _ = _
      rw [divv, if_neg hA.ne']
      rfl, (hinge_conj_iff hy).2 ⟨?_, rfl⟩, ?_⟩
    · rw [show y * -(a + (y * max 0 (min 1 (y * ((y - B) / A + a))) - a)) = - max 0 (min 1 (y * ((y - B) / A + a))) by linear_combination (- max 0 (min 1 (y * ((y - B) / A + a)))) * hyy]
      exact ⟨neg_le_neg (max_le zero_le_one (min_le_left _ _)), neg_nonpos.2 (le_max_left _ _)⟩
    · intro d2 c2 h2
      obtain ⟨⟨h3, h4⟩, rfl⟩ := (hinge_conj_iff hy).1 h2
      have key := clamp_sq 0 1 (y * ((y - B) / A + a)) (y * (a + d2)) zero_le_one (by linarith) (by linarith)
      generalize max 0 (min 1 (y * ((y - B) / A + a))) = m at key ⊢
      have e : (y - B) / A * A = y - B := div_mul_cancel₀ _ hA.ne'
      generalize (y - B) / A = q at key e
      have k2 : (m - y * (q + a)) ^ 2 = m ^ 2 - 2 * m * y * (q + a) + (q + a) ^ 2 := by linear_combination (q + a) ^ 2 * hyy
      have k3 : (y * (a + d2) - y * (q + a)) ^ 2 = (d2 - q) ^ 2 := by linear_combination (d2 - q) ^ 2 * hyy
      rw [k2, k3] at key
      have key2 := mul_le_mul_of_nonneg_left key hA.le
      have eB : B = y - q * A := by linear_combination e
      subst eB
      have : A / 2 * (y * m - a) ^ 2 + (y - q * A) * (y * m - a) + y * -(a + (y * m - a)) = A / 2 * (m ^ 2 - 2 * m * y * (q + a) + (q + a) ^ 2) - A / 2 * q ^ 2 - y * a + 0 := by
        linear_combination (A / 2 * m ^ 2) * hyy
      rw [this]
      nlinarith [key2]

/-! ### Square hinge loss -/

theorem hinge2_conj_value {u y : K} (hy : y = 1 ∨ y = -1) (h : y * u ≤ 0) : IsConj (fun z => hinge2 z y) u ((y + u / 4) * u) := by
  have hyy : y * y = 1 := by rcases hy with rfl | rfl <;> norm_num
  refine conj_of (fun z => ?_) (y * (1 + y * u / 2)) ?_
  · show u * z - max 0 (1 - y * z) ^ 2 ≤ (y + u / 4) * u
    have e : u * z = (y * u) * (y * z) := by linear_combination (- u * z) * hyy
    have e2 : (y + u / 4) * u = y * u + (y * u) ^ 2 / 4 := by linear_combination (- u ^ 2 / 4) * hyy
    rw [e, e2]
    generalize y * u = v at h ⊢
    generalize y * z = t
    rcases le_total (1 - t) 0 with h1 | h1
    · rw [max_eq_left h1]
      nlinarith [sq_nonneg v, mul_nonneg (neg_nonneg.2 h) (neg_nonneg.2 h1)]
    · rw [max_eq_right h1]
      nlinarith [sq_nonneg (1 - t + v / 2)]
  · show u * (y * (1 + y * u / 2)) - max 0 (1 - y * (y * (1 + y * u / 2))) ^ 2 = (y + u / 4) * u
    rw [show 1 - y * (y * (1 + y * u / 2)) = - (y * u) / 2 by linear_combination (- (1 + y * u / 2)) * hyy, max_eq_right (by linarith)]
    linear_combination (u ^ 2 / 4) * hyy

theorem hinge2_unbounded {u y : K} (hy : y = 1 ∨ y = -1) (h : ¬ y * u ≤ 0) : ¬ BddAbove (Set.range fun z => u * z - hinge2 z y) := by
  have hyy : y * y = 1 := by rcases hy with rfl | rfl <;> norm_num
  rintro ⟨b, hb⟩
  have hz : ∀ t, (y * u) * t - max 0 (1 - t) ^ 2 ≤ b := by
    intro t
    have := hb ⟨y * t, rfl⟩
    simp only [hinge2] at this
    rw [show u * (y * t) = (y * u) * t by ring, show y * (y * t) = t by linear_combination t * hyy] at this
    exact this
  generalize y * u = v at h hz
  have h2 : 0 < v := not_le.1 h
  have := hz (max 1 ((b + 1) / v))
  rw [max_eq_left (a := 0) (b := 1 - max 1 ((b + 1) / v)) (by linarith [le_max_left 1 ((b + 1) / v)])] at this
  have h3 : v * ((b + 1) / v) ≤ v * max 1 ((b + 1) / v) := mul_le_mul_of_nonneg_left (le_max_right _ _) h2.le
  rw [mul_div_cancel₀ _ h2.ne'] at h3
  linarith

theorem hinge2_conj_iff {u y c : K} (hy : y = 1 ∨ y = -1) : IsConj (fun z => hinge2 z y) u c ↔ y * u ≤ 0 ∧ c = (y + u / 4) * u := by
  constructor
  · intro h
    by_cases h1 : y * u ≤ 0
    · exact ⟨h1, conj_unique h (hinge2_conj_value hy h1)⟩
    · exact absurd ⟨c, h.1⟩ (hinge2_unbounded hy h1)
  · rintro ⟨h1, rfl⟩
    exact hinge2_conj_value hy h1

theorem hinge2_isLoss (F : Fns K) : IsLoss (setLoss F .hinge2) (hinge2 (K := K)) (fun y => y = 1 ∨ y = -1) where
  loss z y _ := by
    show max (1 - y * z) 0 * max (1 - y * z) 0 = max 0 (1 - y * z) ^ 2
    rw [max_comm, sq]
  nonneg z y := sq_nonneg _
  deriv z y hy z' := by
    have hyy : y * y = 1 := by rcases hy with rfl | rfl <;> norm_num
    show max 0 (1 - y * z) ^ 2 + (if y * z < 1 then 2 * (z - y) else 0) * (z' - z) ≤ max 0 (1 - y * z') ^ 2
    split
    · rename_i h
      rw [max_eq_right (by linarith)]
      have e : (1 - y * z) ^ 2 + 2 * (z - y) * (z' - z) = (1 - y * z) ^ 2 + 2 * (1 - y * z) * ((1 - y * z') - (1 - y * z)) := by
        linear_combination (- 2 * z * z' + 2 * z ^ 2) * hyy
      rw [e]
      generalize 1 - y * z' = t
      have h0 : 0 ≤ 1 - y * z := by linarith
      generalize 1 - y * z = s at h0
      rcases le_total t 0 with h1 | h1
      · rw [max_eq_left h1]
        nlinarith [mul_nonneg h0 (neg_nonneg.2 h1)]
      · rw [max_eq_right h1]
        nlinarith [sq_nonneg (s - t)]
    · rename_i h
      rw [max_eq_left (by linarith [not_lt.1 h])]
      simp
  conj u y hy := by
    show (∃ c : K, (if y * u ≤ 0 then (((y + u / 4) * u : K) : WithTop K) else ⊤) = c ∧ _) ∨ ((if y * u ≤ 0 then (((y + u / 4) * u : K) : WithTop K) else ⊤) = ⊤ ∧ _)
    by_cases h : y * u ≤ 0
    · rw [if_pos h]
      exact Or.inl ⟨_, rfl, hinge2_conj_value hy h⟩
    · rw [if_neg h]
      exact Or.inr ⟨rfl, hinge2_unbounded hy h⟩
  zero y hy := (hinge2_conj_iff hy).2 ⟨by simp, by simp⟩
  dca a B A y c hy hA ha := by
    have hyy : y * y = 1 := by rcases hy with rfl | rfl <;> norm_num
    have hA2 : 0 < A + 1 / 2 := by linarith
    refine ⟨_, _, by
      show (divv (y - B - 1 / 2 * a) (A + 1 / 2)).bind _ = _
      rw [divv, if_neg hA2.ne']
      rfl, (hinge2_conj_iff hy).2 ⟨?_, rfl⟩, ?_⟩
    · rw [show y * -(a + (y * max 0 (y * ((y - B - 1 / 2 * a) / (A + 1 / 2) + a)) - a)) = - max 0 (y * ((y - B - 1 / 2 * a) / (A + 1 / 2) + a)) by linear_combination (- max 0 (y * ((y - B - 1 / 2 * a) / (A + 1 / 2) + a))) * hyy]
      exact neg_nonpos.2 (le_max_left _ _)
    · intro d2 c2 h2
      obtain ⟨h3, rfl⟩ := (hinge2_conj_iff hy).1 h2
      have key := clampl_sq 0 (y * ((y - B - 1 / 2 * a) / (A + 1 / 2) + a)) (y * (a + d2)) (by linarith)
      generalize max 0 (y * ((y - B - 1 / 2 * a) / (A + 1 / 2) + a)) = m at key ⊢
      have e : (y - B - 1 / 2 * a) / (A + 1 / 2) * (A + 1 / 2) = y - B - 1 / 2 * a := div_mul_cancel₀ _ hA2.ne'
      generalize (y - B - 1 / 2 * a) / (A + 1 / 2) = q at key e
      have k2 : (m - y * (q + a)) ^ 2 = m ^ 2 - 2 * m * y * (q + a) + (q + a) ^ 2 := by linear_combination (q + a) ^ 2 * hyy
      have k3 : (y * (a + d2) - y * (q + a)) ^ 2 = (d2 - q) ^ 2 := by linear_combination (d2 - q) ^ 2 * hyy
      rw [k2, k3] at key
      have key2 := mul_le_mul_of_nonneg_left key hA2.le
      have eB : B = y - 1 / 2 * a - q * (A + 1 / 2) := by linear_combination e
      subst eB
      have : A / 2 * (y * m - a) ^ 2 + (y - 1 / 2 * a - q * (A + 1 / 2)) * (y * m - a) + (y + -(a + (y * m - a)) / 4) * -(a + (y * m - a)) = (A + 1 / 2) / 2 * (m ^ 2 - 2 * m * y * (q + a) + (q + a) ^ 2) - (A + 1 / 2) / 2 * q ^ 2 - y * a + a ^ 2 / 4 := by
        linear_combination (A / 2 * m ^ 2 + m ^ 2 / 4) * hyy
      rw [this]
      nlinarith [key2]

/-! ### Absolute error -/

theorem l1_conj_value {u y : K} (h : |u| ≤ 1) : IsConj (fun z => l1 z y) u (y * u) := by
  refine conj_of (fun z => ?_) y ?_
  · show u * z - |y - z| ≤ y * u
    have h1 : - u * (y - z) ≤ |y - z| := by
      calc - u * (y - z) ≤ |- u * (y - z)| := le_abs_self _
        _ = |u| * |y - z| := by rw [abs_mul, abs_neg]
        _ ≤ 1 * |y - z| := mul_le_mul_of_nonneg_right h (abs_nonneg _)
        _ = |y - z| := one_mul _
    linarith
  · show u * y - |y - y| = y * u
    simp [mul_comm]

theorem l1_unbounded {u y : K} (h : ¬ |u| ≤ 1) : ¬ BddAbove (Set.range fun z => u * z - l1 z y) := by
  rintro ⟨b, hb⟩
  have hz : ∀ t, u * (t + y) - |t| ≤ b := by
    intro t
    have := hb ⟨t + y, rfl⟩
    simp only [l1] at this
    rw [show y - (t + y) = - t by ring, abs_neg] at this
    exact this
  have h1 : 0 < |u| - 1 := by linarith [not_le.1 h]
  have h0 : 0 ≤ max 0 ((b + 1 - u * y) / (|u| - 1)) := le_max_left _ _
  have h3 : (|u| - 1) * ((b + 1 - u * y) / (|u| - 1)) ≤ (|u| - 1) * max 0 ((b + 1 - u * y) / (|u| - 1)) := mul_le_mul_of_nonneg_left (le_max_right _ _) h1.le
  rw [mul_div_cancel₀ _ h1.ne'] at h3
  generalize max 0 ((b + 1 - u * y) / (|u| - 1)) = m at h0 h3
  rcases abs_cases u with ⟨h4, -⟩ | ⟨h4, -⟩
  · have := hz m
    rw [abs_of_nonneg h0] at this
    rw [h4] at h3
    linarith
  · have := hz (- m)
    rw [abs_neg, abs_of_nonneg h0] at this
    rw [h4] at h3
    linarith

theorem l1_conj_iff {u y c : K} : IsConj (fun z => l1 z y) u c ↔ |u| ≤ 1 ∧ c = y * u := by
  constructor
  · intro h
    by_cases h1 : |u| ≤ 1
    · exact ⟨h1, conj_unique h (l1_conj_value h1)⟩
    · exact absurd ⟨c, h.1⟩ (l1_unbounded h1)
  · rintro ⟨h1, rfl⟩
    exact l1_conj_value h1

theorem l1_isLoss (F : Fns K) : IsLoss (setLoss F .l1) (l1 (K := K)) (fun _ => True) where
  loss z y _ := rfl
  nonneg z y := abs_nonneg _
  deriv z y _ z' := by
    show |y - z| + (if y > z then -1 else 1) * (z' - z) ≤ |y - z'|
    split
    · rename_i h
      rw [abs_of_pos (sub_pos.2 h)]
      refine le_trans (le_of_eq ?_) (le_abs_self _)
      ring
    · rename_i h
      rw [abs_of_nonpos (sub_nonpos.2 (not_lt.1 h))]
      refine le_trans (le_of_eq ?_) (neg_le_abs _)
      ring
  conj u y _ := by
    show (∃ c : K, (if |u| ≤ 1 then ((y * u : K) : WithTop K) else ⊤) = c ∧ _) ∨ ((if |u| ≤ 1 then ((y * u : K) : WithTop K) else ⊤) = ⊤ ∧ _)
    by_cases h : |u| ≤ 1
    · rw [if_pos h]
      exact Or.inl ⟨_, rfl, l1_conj_value h⟩
    · rw [if_neg h]
      exact Or.inr ⟨rfl, l1_unbounded h⟩
  zero y _ := l1_conj_iff.2 ⟨by simp, by simp⟩
  dca a B A y c _ hA ha := by
    obtain ⟨h1, -⟩ := l1_conj_iff.1 ha
    rw [abs_neg] at h1
    refine ⟨_, _, by
      show (if |a| ≤ 1 then _ else _) = _
      rw [if_pos h1]
      show (divv (y - B) A).bind _ = _
      rw [divv, if_neg hA.ne']
      rfl, l1_conj_iff.2 ⟨?_, rfl⟩, ?_⟩
    · rw [abs_neg, add_sub_cancel, abs_le]
      exact ⟨le_max_left _ _, max_le (by linarith) (min_le_left _ _)⟩
    · intro d2 c2 h2
      obtain ⟨h3, rfl⟩ := l1_conj_iff.1 h2
      rw [abs_neg, abs_le] at h3
      have key := clamp_sq (-1) 1 ((y - B) / A + a) (a + d2) (by linarith) h3.1 h3.2
      generalize max (-1) (min 1 ((y - B) / A + a)) = m at key ⊢
      have e : (y - B) / A * A = y - B := div_mul_cancel₀ _ hA.ne'
      generalize (y - B) / A = q at key e
      have key2 := mul_le_mul_of_nonneg_left key hA.le
      have eB : B = y - q * A := by linear_combination e
      subst eB
      nlinarith [key2]

/-! ### Square error -/

theorem l2_conj_value (u y : K) : IsConj (fun z => l2 z y) u ((y + u / 4) * u) := by
  refine conj_of (fun z => ?_) (y + u / 2) ?_
  · show u * z - (y - z) ^ 2 ≤ (y + u / 4) * u
    nlinarith [sq_nonneg (y - z + u / 2)]
  · show u * (y + u / 2) - (y - (y + u / 2)) ^ 2 = (y + u / 4) * u
    ring

theorem l2_isLoss (F : Fns K) : IsLoss (setLoss F .l2) (l2 (K := K)) (fun _ => True) where
  loss z y _ := (sq _).symm
  nonneg z y := sq_nonneg _
  deriv z y _ z' := by
    show (y - z) ^ 2 + - 2 * (y - z) * (z' - z) ≤ (y - z') ^ 2
    nlinarith [sq_nonneg (z - z')]
  conj u y _ := Or.inl ⟨_, rfl, l2_conj_value u y⟩
  zero y _ := by simpa using l2_conj_value (0 : K) y
  dca a B A y c _ hA ha := by
    have hA2 : 0 < A + 1 / 2 := by linarith
    refine ⟨_, _, by
      show divv (y - B - 1 / 2 * a) (A + 1 / 2) = _
      rw [divv, if_neg hA2.ne'], l2_conj_value _ y, ?_⟩
    intro d2 c2 h2
    rw [conj_unique h2 (l2_conj_value _ y)]
    have e : (y - B - 1 / 2 * a) / (A + 1 / 2) * (A + 1 / 2) = y - B - 1 / 2 * a := div_mul_cancel₀ _ hA2.ne'
    generalize (y - B - 1 / 2 * a) / (A + 1 / 2) = q at e
    have eB : B = y - 1 / 2 * a - q * (A + 1 / 2) := by linear_combination e
    subst eB
    nlinarith [mul_nonneg hA2.le (sq_nonneg (d2 - q))]

end Verif.Svm
