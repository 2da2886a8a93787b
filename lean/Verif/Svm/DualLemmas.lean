import Verif.Svm.Spec
import Verif.Flat
import Mathlib.Tactic.Ring
import Mathlib.Tactic.Linarith
import Mathlib.Tactic.LinearCombination
import Mathlib.Tactic.FieldSimp
import Mathlib.Tactic.Positivity
import Mathlib.Tactic.NormNum
import Mathlib.Algebra.BigOperators.Ring.Finset
import Mathlib.Algebra.BigOperators.Field

/-!
# Duality
-/

set_option linter.unusedSectionVars false

namespace Verif.Svm

open Spec Finset

variable {K : Type} [Field K] [LinearOrder K] [IsStrictOrderedRing K] {P : Problem K}

/-- The square of the distance of two models -/
def dist2 (P : Problem K) (w : Nat → K) (b : K) (w' : Nat → K) (b' : K) : K := (∑ k ∈ range P.d, (w' k - w k) ^ 2) + (b' - b) ^ 2

theorem sq_congr {w w' : Nat → K} {b : K} (h : ∀ k < P.d, w k = w' k) : P.sq w b = P.sq w' b := by
  unfold Problem.sq
  rw [sum_congr rfl fun k hk => by rw [h k (mem_range.1 hk)]]

theorem score_congr {w w' : Nat → K} {b : K} (h : ∀ k < P.d, w k = w' k) (i : Nat) : P.score w b i = P.score w' b i := by
  unfold Problem.score
  rw [sum_congr rfl fun k hk => by rw [h k (mem_range.1 hk)]]

theorem objective_congr {w w' : Nat → K} {b : K} (h : ∀ k < P.d, w k = w' k) : P.objective w b = P.objective w' b := by
  unfold Problem.objective
  rw [sq_congr h, sum_congr rfl fun i _ => by rw [score_congr h i]]

theorem comb_unique {a a' : Nat → K} {w w' : Nat → K} {b b' : K} (ha : ∀ i < P.n, a i = a' i) (h : P.IsComb a w b) (h' : P.IsComb a' w' b') : (∀ k < P.d, w k = w' k) ∧ b = b' := by
  constructor
  · intro k hk
    rw [h.1 k hk, h'.1 k hk, sum_congr rfl fun i hi => by rw [ha i (mem_range.1 hi)]]
  · rw [h.2, h'.2, sum_congr rfl fun i hi => by rw [ha i (mem_range.1 hi)]]

/-- The dual objective function has one value. -/
theorem dual_unique {a a' : Nat → K} {v v' : K} (ha : ∀ i < P.n, a i = a' i) (h : P.IsDual a v) (h' : P.IsDual a' v') : v = v' := by
  obtain ⟨w, b, c, h1, h2, h3, rfl⟩ := h
  obtain ⟨w', b', c', h1', h2', h3', rfl⟩ := h'
  obtain ⟨e1, rfl⟩ := comb_unique ha h1 h1'
  rw [sq_congr e1]
  congr 2
  refine sum_congr rfl fun i hi => ?_
  have hi := mem_range.1 hi
  rcases le_or_gt (P.p i) 0 with hp | hp
  · rw [max_eq_left hp, zero_mul, zero_mul]
  · have := h3' i hi hp
    rw [← ha i hi] at this
    rw [IsLUB.unique (h3 i hi hp) this]

theorem dual_congr {a a' : Nat → K} {v : K} (ha : ∀ i < P.n, a i = a' i) (h : P.IsDual a v) : P.IsDual a' v := by
  obtain ⟨w, b, c, h1, h2, h3, e⟩ := h
  refine ⟨w, b, c, ⟨fun k hk => ?_, ?_⟩, fun i hi hp => by rw [← ha i hi]; exact h2 i hi hp, fun i hi hp => by rw [← ha i hi]; exact h3 i hi hp, e⟩
  · rw [h1.1 k hk, sum_congr rfl fun i hi => by rw [ha i (mem_range.1 hi)]]
  · rw [h1.2, sum_congr rfl fun i hi => by rw [ha i (mem_range.1 hi)]]

/-- The inner product of two models, one of which is a combination of samples -/
theorem comb_inner {a : Nat → K} {w : Nat → K} {b : K} (hn : 0 < P.n) (hl : 0 < P.lambda) (h : P.IsComb a w b) (w' : Nat → K) (b' : K) :
    P.lambda * ((∑ k ∈ range P.d, w k * w' k) + b * b') = (∑ i ∈ range P.n, a i * P.score w' b' i) / P.n := by
  have hn' : (P.n : K) ≠ 0 := Nat.cast_ne_zero.2 hn.ne'
  have hl' := hl.ne'
  have e1 : ∑ k ∈ range P.d, w k * w' k = (∑ i ∈ range P.n, a i * ∑ k ∈ range P.d, P.x i k * w' k) / (P.lambda * P.n) := by
    rw [sum_congr rfl fun k hk => by rw [h.1 k (mem_range.1 hk)]]
    simp only [div_mul_eq_mul_div, ← sum_div, sum_mul, mul_sum]
    rw [sum_comm]
    congr 1
    exact sum_congr rfl fun i _ => sum_congr rfl fun k _ => by ring
  rw [e1, h.2]
  unfold Problem.score
  simp only [mul_add, sum_add_distrib]
  rw [div_mul_eq_mul_div, sum_mul]
  simp only [show ∀ i, a i * (b' * P.B) = a i * P.B * b' from fun i => by ring]
  generalize ∑ i ∈ range P.n, a i * P.B * b' = u
  field_simp

/-- **Weak duality**: the gap between the objective function at any model and the dual objective function bounds the distance between the models. -/
theorem weak_duality {a : Nat → K} {v : K} {w : Nat → K} {b : K} (hn : 0 < P.n) (hl : 0 < P.lambda) (hc : P.IsComb a w b) (h : P.IsDual a v) (w' : Nat → K) (b' : K) :
    v + P.lambda / 2 * dist2 P w b w' b' ≤ P.objective w' b' := by
  obtain ⟨w1, b1, c, h1, h2, h3, rfl⟩ := h
  obtain ⟨e1, rfl⟩ := comb_unique (fun _ _ => rfl) h1 hc
  rw [sq_congr e1]
  have hn' : (0 : K) < P.n := Nat.cast_pos.2 hn
  have fen : - (∑ i ∈ range P.n, a i * P.score w' b' i) ≤ ∑ i ∈ range P.n, (max 0 (P.p i) * P.loss (P.score w' b' i) (P.y i) + max 0 (P.p i) * c i) := by
    rw [← sum_neg_distrib]
    refine sum_le_sum fun i hi => ?_
    have hi := mem_range.1 hi
    rcases le_or_gt (P.p i) 0 with hp | hp
    · rw [max_eq_left hp, h2 i hi hp]
      simp
    · rw [max_eq_right hp.le]
      have := (h3 i hi hp).1 ⟨P.score w' b' i, rfl⟩
      have := mul_le_mul_of_nonneg_left this hp.le
      have e : P.p i * (-(a i / P.p i) * P.score w' b' i - P.loss (P.score w' b' i) (P.y i)) = - (a i * P.score w' b' i) - P.p i * P.loss (P.score w' b' i) (P.y i) := by
        field_simp
      rw [e] at this
      linarith
  rw [sum_add_distrib] at fen
  have hin := comb_inner hn hl hc w' b'
  have fen' := div_le_div_of_nonneg_right fen hn'.le
  rw [neg_div, ← hin, add_div] at fen'
  have hd : dist2 P w b1 w' b' = P.sq w' b' + P.sq w b1 - 2 * ((∑ k ∈ range P.d, w k * w' k) + b1 * b') := by
    unfold dist2 Problem.sq
    rw [sum_congr rfl fun k _ => show (w' k - w k) ^ 2 = w' k ^ 2 + w k ^ 2 - 2 * (w k * w' k) by ring, sum_sub_distrib, sum_add_distrib, ← mul_sum]
    ring
  rw [hd]
  unfold Problem.objective
  linear_combination fen'

/-- The norm of a sample -/
def sampleSq (P : Problem K) (i : Nat) : K := (∑ k ∈ range P.d, P.x i k * P.x i k) + P.B * P.B

/-- The combination after the change of a coefficient -/
theorem comb_update {a : Nat → K} {w : Nat → K} {b : K} (hn : 0 < P.n) (hl : 0 < P.lambda) (h : P.IsComb a w b) {i : Nat} (hi : i < P.n) (d : K) :
    P.IsComb (upd1 a i (a i + d)) (fun k => w k + d / (P.n * P.lambda) * P.x i k) (b + P.B * (d / (P.n * P.lambda))) := by
  have hn' : (P.n : K) ≠ 0 := Nat.cast_ne_zero.2 hn.ne'
  have hl' := hl.ne'
  have e : ∀ f : Nat → K, ∑ j ∈ range P.n, upd1 a i (a i + d) j * f j = (∑ j ∈ range P.n, a j * f j) + d * f i := by
    intro f
    have : ∀ j, upd1 a i (a i + d) j * f j = a j * f j + (if j = i then d * f i else 0) := by
      intro j
      unfold upd1
      split
      · rename_i e
        subst e
        ring
      · ring
    simp only [this, sum_add_distrib, sum_ite_eq', mem_range, if_pos hi]
  refine ⟨fun k hk => ?_, ?_⟩
  · show w k + _ = _
    rw [e (fun j => P.x j k), h.1 k hk]
    generalize ∑ j ∈ range P.n, a j * P.x j k = u
    field_simp
  · rw [e (fun _ => P.B), h.2]
    generalize ∑ j ∈ range P.n, a j * P.B = u
    field_simp

/-- The change of the dual objective function -/
theorem dual_update {a : Nat → K} {w : Nat → K} {b : K} {v : K} (hn : 0 < P.n) (hl : 0 < P.lambda) (hc : P.IsComb a w b) (h : P.IsDual a v) {i : Nat} (hi : i < P.n) (hp : 0 < P.p i) :
    ∃ c0, IsConj (fun z => P.loss z (P.y i)) (- (a i / P.p i)) c0 ∧ ∀ d c', IsConj (fun z => P.loss z (P.y i)) (- (a i / P.p i + d)) c' →
      P.IsDual (upd1 a i (a i + P.p i * d)) (v + P.p i / P.n * (c0 - (P.p i * (sampleSq P i / (P.lambda * P.n)) / 2 * d ^ 2 + P.score w b i * d + c'))) := by
  obtain ⟨w1, b1, c, h1, h2, h3, rfl⟩ := h
  obtain ⟨e1, rfl⟩ := comb_unique (fun _ _ => rfl) h1 hc
  rw [sq_congr e1]
  have hn' : (P.n : K) ≠ 0 := Nat.cast_ne_zero.2 hn.ne'
  have hl' := hl.ne'
  refine ⟨c i, h3 i hi hp, fun d c' hcc => ⟨_, _, upd1 c i c', comb_update hn hl hc hi (P.p i * d), ?_, ?_, ?_⟩⟩
  · intro j hj hpj
    unfold upd1
    rw [if_neg (by rintro rfl; exact absurd hp (not_lt.2 hpj))]
    exact h2 j hj hpj
  · intro j hj hpj
    unfold upd1
    by_cases hji : j = i
    · subst hji
      rw [if_pos rfl, if_pos rfl, add_div, mul_div_cancel_left₀ _ hpj.ne']
      exact hcc
    · rw [if_neg hji, if_neg hji]
      exact h3 j hj hpj
  · have es : ∑ j ∈ range P.n, max 0 (P.p j) * upd1 c i c' j = (∑ j ∈ range P.n, max 0 (P.p j) * c j) + P.p i * (c' - c i) := by
      have : ∀ j, max 0 (P.p j) * upd1 c i c' j = max 0 (P.p j) * c j + (if j = i then P.p i * (c' - c i) else 0) := by
        intro j
        unfold upd1
        split
        · rename_i e
          subst e
          rw [max_eq_right hp.le]
          ring
        · ring
      simp only [this, sum_add_distrib, sum_ite_eq', mem_range, if_pos hi]
    have eq : P.sq (fun k => w k + P.p i * d / (P.n * P.lambda) * P.x i k) (b1 + P.B * (P.p i * d / (P.n * P.lambda))) = P.sq w b1 + 2 * (P.p i * d / (P.n * P.lambda)) * P.score w b1 i + (P.p i * d / (P.n * P.lambda)) ^ 2 * sampleSq P i := by
      unfold Problem.sq Problem.score sampleSq
      generalize P.p i * d / (P.n * P.lambda) = m
      rw [sum_congr rfl fun k _ => show (w k + m * P.x i k) ^ 2 = w k ^ 2 + 2 * m * (P.x i k * w k) + m ^ 2 * (P.x i k * P.x i k) by ring, sum_add_distrib, sum_add_distrib, ← mul_sum, ← mul_sum]
      ring
    rw [es, eq]
    field_simp
    ring

end Verif.Svm
