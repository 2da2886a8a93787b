import Verif.Ubc.Model
import Verif.Ubc.Spec
import Mathlib.Tactic.Linarith
import Mathlib.Algebra.Order.BigOperators.Ring.Finset
import Mathlib.Tactic.Ring
import Mathlib.Tactic.NormNum

/-!
# Properties of the descriptor matching

C42: the matches are the ones of an exhaustive search.
-/

namespace Verif.Ubc

open Finset

/-- The loop gives the distance, or a number not below the second best, and then the distance is not either. -/
theorem dist_spec (l1 l2 : List ℚ) (ND i j : Nat) (second : WithTop ℚ) (h1 : ND * i + ND ≤ l1.length) (h2 : ND * j + ND ≤ l2.length) :
    ∀ (n bin : Nat) (acc : ℚ), bin + n = ND → acc = ∑ t ∈ range bin, (l1.getD (ND * i + t) 0 - l2.getD (ND * j + t) 0) ^ 2 →
      ∃ a, dist l1 l2 (ND * i) (ND * j) second n bin acc = some a ∧ (a = sqDist l1 l2 ND i j ∨ (second ≤ (a : WithTop ℚ) ∧ second ≤ (sqDist l1 l2 ND i j : WithTop ℚ))) := by
  intro n
  induction n with
  | zero =>
    intro bin acc hb ha
    refine ⟨acc, rfl, Or.inl ?_⟩
    rw [ha, sqDist, ← hb, Nat.add_zero]
  | succ n ih =>
    intro bin acc hb ha
    have r1 : rd l1 (ND * i + bin) = some (l1.getD (ND * i + bin) 0) := by
      rw [rd_of_lt (by omega)]; simp [List.getD, List.getElem?_eq_getElem (show ND * i + bin < l1.length by omega)]
    have r2 : rd l2 (ND * j + bin) = some (l2.getD (ND * j + bin) 0) := by
      rw [rd_of_lt (by omega)]; simp [List.getD, List.getElem?_eq_getElem (show ND * j + bin < l2.length by omega)]
    unfold dist
    rw [r1, r2]
    simp only [Option.bind_eq_bind, Option.bind_some]
    have ha' : acc + (l1.getD (ND * i + bin) 0 - l2.getD (ND * j + bin) 0) * (l1.getD (ND * i + bin) 0 - l2.getD (ND * j + bin) 0) =
        ∑ t ∈ range (bin + 1), (l1.getD (ND * i + t) 0 - l2.getD (ND * j + t) 0) ^ 2 := by
      rw [Finset.sum_range_succ, ha]; ring
    rw [ha']
    by_cases c : ((∑ t ∈ range (bin + 1), (l1.getD (ND * i + t) 0 - l2.getD (ND * j + t) 0) ^ 2 : ℚ) : WithTop ℚ) ≥ second
    · rw [if_pos c]
      refine ⟨_, rfl, Or.inr ⟨c, le_trans c ?_⟩⟩
      rw [WithTop.coe_le_coe, sqDist]
      apply Finset.sum_le_sum_of_subset_of_nonneg
      · intro t ht; rw [Finset.mem_range] at ht ⊢; omega
      · intro t _ _; exact sq_nonneg _
    · rw [if_neg c]
      exact ih (bin + 1) _ (by omega) rfl

/-- What is known after looking at `n` points at distances `d`. -/
def Known (d : Nat → ℚ) (maxval : WithTop ℚ) (n : Nat) (s : Best) : Prop :=
  (n = 0 ∧ s.best = maxval ∧ s.second = maxval ∧ s.k = none) ∨
  ∃ k < n, s.k = some k ∧ s.best = (d k : WithTop ℚ) ∧ (∀ i < n, d k ≤ d i) ∧ (∀ i < k, d k < d i) ∧ (∀ i < n, i ≠ k → s.second ≤ (d i : WithTop ℚ)) ∧
    ((n = 1 ∧ s.second = maxval) ∨ ∃ i < n, i ≠ k ∧ s.second = (d i : WithTop ℚ))

theorem filter_known (d : Nat → ℚ) (maxval : WithTop ℚ) (n : Nat) (hd : ∀ i ≤ n, (d i : WithTop ℚ) < maxval) (s : Best) (h : Known d maxval n s) (a : ℚ)
    (ha : a = d n ∨ (s.second ≤ (a : WithTop ℚ) ∧ s.second ≤ (d n : WithTop ℚ))) : Known d maxval (n + 1) (filter s a n) := by
  right
  rcases h with ⟨rfl, h1, h2, h3⟩ | ⟨k, hk, h1, h2, h3, h4, h5, h6⟩
  · have ha' : a = d 0 := by
      rcases ha with e | ⟨_, e⟩
      · exact e
      · rw [h2] at e; exact absurd (hd 0 (by omega)) (not_lt.mpr e)
    subst ha'
    refine ⟨0, by omega, ?_⟩
    unfold filter
    rw [h1, if_pos (hd 0 (by omega))]
    refine ⟨rfl, rfl, ?_, ?_, ?_, Or.inl ⟨rfl, rfl⟩⟩
    · intro i hi; have : i = 0 := by omega
      rw [this]
    · intro i hi; omega
    · intro i hi h; omega
  · have hbs : s.best ≤ s.second := by
      rw [h2]
      rcases h6 with ⟨rfl, e⟩ | ⟨i, hi, _, e⟩
      · rw [e]; exact (hd k (by omega)).le
      · rw [e, WithTop.coe_le_coe]; exact h3 i hi
    unfold filter
    by_cases cA : (a : WithTop ℚ) < s.best
    · rw [if_pos cA]
      have ha' : a = d n := by
        rcases ha with e | ⟨e, _⟩
        · exact e
        · exact absurd (lt_of_lt_of_le cA hbs) (not_lt.mpr e)
      subst ha'
      rw [h2, WithTop.coe_lt_coe] at cA
      refine ⟨n, by omega, rfl, rfl, ?_, ?_, ?_, Or.inr ⟨k, by omega, by omega, h2⟩⟩
      · intro i hi
        rcases Nat.lt_or_ge i n with g | g
        · exact le_trans cA.le (h3 i g)
        · rw [show i = n by omega]
      · intro i hi
        exact lt_of_lt_of_le cA (h3 i hi)
      · intro i hi hne
        rw [h2, WithTop.coe_le_coe]
        exact h3 i (by omega)
    · rw [if_neg cA]
      by_cases cB : (a : WithTop ℚ) < s.second
      · rw [if_pos cB]
        have ha' : a = d n := by
          rcases ha with e | ⟨e, _⟩
          · exact e
          · exact absurd cB (not_lt.mpr e)
        subst ha'
        rw [h2, WithTop.coe_lt_coe, not_lt] at cA
        refine ⟨k, by omega, h1, h2, ?_, h4, ?_, Or.inr ⟨n, by omega, by omega, rfl⟩⟩
        · intro i hi
          rcases Nat.lt_or_ge i n with g | g
          · exact h3 i g
          · rw [show i = n by omega]; exact cA
        · intro i hi hne
          rcases Nat.lt_or_ge i n with g | g
          · exact le_trans cB.le (h5 i g hne)
          · rw [show i = n by omega]
      · rw [if_neg cB]
        have hsn : s.second ≤ (d n : WithTop ℚ) := by
          rcases ha with e | ⟨_, e⟩
          · rw [← e]; exact not_lt.mp cB
          · exact e
        refine ⟨k, by omega, h1, h2, ?_, h4, ?_, Or.inr ?_⟩
        · intro i hi
          rcases Nat.lt_or_ge i n with g | g
          · exact h3 i g
          · rw [show i = n by omega]
            have := le_trans hbs hsn
            rw [h2, WithTop.coe_le_coe] at this
            exact this
        · intro i hi hne
          rcases Nat.lt_or_ge i n with g | g
          · exact h5 i g hne
          · rw [show i = n by omega]; exact hsn
        · rcases h6 with ⟨_, e⟩ | ⟨i, hi, hne, e⟩
          · rw [e] at hsn
            exact absurd (hd n (le_refl _)) (not_lt.mpr hsn)
          · exact ⟨i, by omega, hne, e⟩

theorem scan_spec (l1 l2 : List ℚ) (ND i K2 : Nat) (maxval : WithTop ℚ) (h1 : ND * i + ND ≤ l1.length) (h2 : ND * K2 ≤ l2.length)
    (hd : ∀ j < K2, (sqDist l1 l2 ND i j : WithTop ℚ) < maxval) :
    ∃ s, scan l1 l2 (ND * i) K2 ND maxval = some s ∧ Known (sqDist l1 l2 ND i) maxval K2 s := by
  obtain ⟨s, e, h⟩ := iter_inv (n := K2) (f := fun (k2 : Nat) (s : Best) => (do
      let acc ← dist l1 l2 (ND * i) (ND * k2) s.second ND 0 0
      some (filter s acc k2) : Option Best)) (s := ⟨maxval, maxval, none⟩) (fun n s => Known (sqDist l1 l2 ND i) maxval n s)
    (Or.inl ⟨rfl, rfl, rfl, rfl⟩) (by
    intro n hn s hs
    have h3 : ND * n + ND ≤ l2.length := by
      have := Nat.mul_le_mul_left ND (show n + 1 ≤ K2 by omega)
      rw [Nat.mul_succ] at this; omega
    obtain ⟨a, ea, ha⟩ := dist_spec l1 l2 ND i n s.second h1 h3 ND 0 0 (by omega) (by simp)
    simp only [Option.bind_eq_bind]
    rw [ea]
    exact ⟨_, rfl, filter_known _ _ _ (fun j hj => hd j (by omega)) s hs a ha⟩)
  exact ⟨s, e, h⟩

theorem accept_spec (d : Nat → ℚ) (maxval : WithTop ℚ) (K2 : Nat) (thresh : ℚ) (s : Best) (h : Known d maxval K2 s) (k : Nat) (b : ℚ) :
    accept thresh s = some (k, b) ↔ IsMatch K2 d thresh maxval k ∧ b = d k := by
  rcases h with ⟨rfl, h1, h2, h3⟩ | ⟨k', hk, h1, h2, h3, h4, h5, h6⟩
  · unfold accept
    rw [h3]
    constructor
    · intro h; simp at h
    · rintro ⟨⟨h, _⟩, _⟩; omega
  · have e : accept thresh s = if ((thresh * d k' : ℚ) : WithTop ℚ) < s.second then some (k', d k') else none := by
      unfold accept
      rw [h1, h2]
    have huniq : IsMatch K2 d thresh maxval k → k = k' := by
      rintro ⟨g1, g2, g3, _⟩
      rcases Nat.lt_trichotomy k k' with g | g | g
      · have := h4 k g
        have := g2 k' hk
        linarith
      · exact g
      · have := g3 k' g
        have := h3 k g1
        linarith
    rw [e]
    by_cases c : ((thresh * d k' : ℚ) : WithTop ℚ) < s.second
    · rw [if_pos c]
      have hm : IsMatch K2 d thresh maxval k' := by
        refine ⟨hk, h3, h4, ?_, ?_⟩
        · intro i hi hne
          have := lt_of_lt_of_le c (h5 i hi hne)
          rwa [WithTop.coe_lt_coe] at this
        · intro h1'
          rcases h6 with ⟨_, e⟩ | ⟨i, hi, hne, _⟩
          · rw [← e]; exact c
          · omega
      constructor
      · intro h
        simp only [Option.some.injEq, Prod.mk.injEq] at h
        rw [← h.1, ← h.2]
        exact ⟨hm, rfl⟩
      · rintro ⟨h, rfl⟩
        rw [huniq h]
    · rw [if_neg c]
      constructor
      · intro h; cases h
      · rintro ⟨h, rfl⟩
        exfalso
        have hk' := huniq h
        subst hk'
        apply c
        rcases h6 with ⟨hn, e⟩ | ⟨i, hi, hne, e⟩
        · rw [e]; exact h.2.2.2.2 hn
        · rw [e, WithTop.coe_lt_coe]; exact h.2.2.2.1 i hi hne

/-- C42: the pairs reported, in increasing order of the first index, are exactly the matches of the exhaustive search, with their squared distance; nothing is read outside the two arrays or written outside
the array of the pairs.  The distances have to be below `maxval`, which always holds for `float` and `double`. -/
theorem compare_correct (l1 l2 : List ℚ) (K1 K2 ND : Nat) (thresh : ℚ) (maxval : WithTop ℚ) (h1 : l1.length = ND * K1) (h2 : l2.length = ND * K2)
    (hd : ∀ i < K1, ∀ j < K2, (sqDist l1 l2 ND i j : WithTop ℚ) < maxval) :
    ∃ pairs, compare l1 l2 K1 K2 ND thresh maxval = some pairs ∧ pairs.Pairwise (fun p q => p.1 < q.1) ∧
      ∀ i j b, (i, j, b) ∈ pairs ↔ i < K1 ∧ IsMatch K2 (sqDist l1 l2 ND i) thresh maxval j ∧ b = sqDist l1 l2 ND i j := by
  obtain ⟨pairs, e, g1, g2, g3⟩ := iter_inv (n := K1) (f := fun (k1 : Nat) (pairs : List (Nat × Nat × ℚ)) => (do
      let s ← scan l1 l2 (ND * k1) K2 ND maxval
      match accept thresh s with
      | some (k, b) => if pairs.length < K1 + K2 then some (pairs ++ [(k1, k, b)]) else none
      | none => some pairs : Option (List (Nat × Nat × ℚ)))) (s := [])
    (fun n pairs => pairs.length ≤ n ∧ pairs.Pairwise (fun p q => p.1 < q.1) ∧
      ∀ i j b, (i, j, b) ∈ pairs ↔ i < n ∧ IsMatch K2 (sqDist l1 l2 ND i) thresh maxval j ∧ b = sqDist l1 l2 ND i j)
    ⟨by simp, List.Pairwise.nil, by simp⟩ (by
    rintro n hn pairs ⟨g1, g2, g3⟩
    have h3 : ND * n + ND ≤ l1.length := by
      have := Nat.mul_le_mul_left ND (show n + 1 ≤ K1 by omega)
      rw [Nat.mul_succ] at this; omega
    obtain ⟨s, es, hs⟩ := scan_spec l1 l2 ND n K2 maxval h3 (by omega) (hd n hn)
    have ha := accept_spec _ _ _ thresh s hs
    simp only [Option.bind_eq_bind]
    rw [es]
    simp only [Option.bind_some]
    cases hacc : accept thresh s with
    | none =>
      refine ⟨pairs, rfl, by omega, g2, ?_⟩
      intro i j b
      rw [g3]
      constructor
      · rintro ⟨a1, a2⟩; exact ⟨by omega, a2⟩
      · rintro ⟨a1, a2⟩
        rcases Nat.lt_or_ge i n with g | g
        · exact ⟨g, a2⟩
        · have : i = n := by omega
          subst this
          have := (ha j b).mpr a2
          rw [hacc] at this; cases this
    | some kb =>
      obtain ⟨k, b0⟩ := kb
      simp only
      rw [if_pos (by omega)]
      have hm := (ha k b0).mp hacc
      refine ⟨_, rfl, by simp; omega, ?_, ?_⟩
      · rw [List.pairwise_append]
        refine ⟨g2, List.pairwise_singleton _ _, ?_⟩
        rintro ⟨i, j, b⟩ hp q hq
        rw [List.mem_singleton] at hq
        rw [hq]
        exact ((g3 i j b).mp hp).1
      · intro i j b
        rw [List.mem_append, g3, List.mem_singleton]
        constructor
        · rintro (⟨a1, a2⟩ | h)
          · exact ⟨by omega, a2⟩
          · simp only [Prod.mk.injEq] at h
            obtain ⟨rfl, rfl, rfl⟩ := h
            exact ⟨by omega, hm⟩
        · rintro ⟨a1, a2⟩
          rcases Nat.lt_or_ge i n with g | g
          · exact Or.inl ⟨g, a2⟩
          · right
            have hi : i = n := by omega
            subst hi
            have := (ha j b).mpr a2
            rw [hacc] at this
            simp only [Option.some.injEq, Prod.mk.injEq] at this
            rw [this.1, this.2])
  exact ⟨pairs, e, g2, g3⟩

/-- C42 for `float` and `double`. -/
theorem compare_double (l1 l2 : List ℚ) (K1 K2 ND : Nat) (thresh : ℚ) (h1 : l1.length = ND * K1) (h2 : l2.length = ND * K2) :
    ∃ pairs, compare l1 l2 K1 K2 ND thresh ⊤ = some pairs ∧ pairs.Pairwise (fun p q => p.1 < q.1) ∧
      ∀ i j b, (i, j, b) ∈ pairs ↔ i < K1 ∧ IsMatch K2 (sqDist l1 l2 ND i) thresh ⊤ j ∧ b = sqDist l1 l2 ND i j :=
  compare_correct l1 l2 K1 K2 ND thresh ⊤ h1 h2 (fun _ _ _ _ => WithTop.coe_lt_top _)

/-- C42 for bytes: descriptors of up to 33025 bytes cannot reach `0x7fffffff`. -/
theorem compare_bytes (l1 l2 : List ℚ) (K1 K2 ND : Nat) (thresh : ℚ) (h1 : l1.length = ND * K1) (h2 : l2.length = ND * K2) (hND : ND ≤ 33025)
    (hb1 : ∀ x ∈ l1, 0 ≤ x ∧ x ≤ 255) (hb2 : ∀ x ∈ l2, 0 ≤ x ∧ x ≤ 255) :
    ∃ pairs, compare l1 l2 K1 K2 ND thresh (2147483647 : ℚ) = some pairs ∧ pairs.Pairwise (fun p q => p.1 < q.1) ∧
      ∀ i j b, (i, j, b) ∈ pairs ↔ i < K1 ∧ IsMatch K2 (sqDist l1 l2 ND i) thresh (2147483647 : ℚ) j ∧ b = sqDist l1 l2 ND i j := by
  apply compare_correct l1 l2 K1 K2 ND thresh _ h1 h2
  intro i hi j hj
  rw [WithTop.coe_lt_coe]
  have hg : ∀ (l : List ℚ), (∀ x ∈ l, 0 ≤ x ∧ x ≤ 255) → ∀ t, 0 ≤ l.getD t 0 ∧ l.getD t 0 ≤ 255 := by
    intro l hl t
    rcases Nat.lt_or_ge t l.length with g | g
    · simp only [List.getD, List.getElem?_eq_getElem g, Option.getD_some]
      exact hl _ (List.getElem_mem g)
    · simp [List.getD, List.getElem?_eq_none g]
  have h3 : sqDist l1 l2 ND i j ≤ ∑ t ∈ range ND, (65025 : ℚ) := by
    apply Finset.sum_le_sum
    intro t _
    have := hg l1 hb1 (ND * i + t)
    have := hg l2 hb2 (ND * j + t)
    nlinarith
  rw [Finset.sum_const, Finset.card_range, nsmul_eq_mul] at h3
  have h4 : (ND : ℚ) ≤ 33025 := by exact_mod_cast hND
  nlinarith

/-- The hypotheses hold for two sets of two descriptors with two components. -/
example : ∃ pairs, compare [0, 0, 5, 5] [1, 0, 9, 9] 2 2 2 (3 / 2) ⊤ = some pairs ∧ (0, 0, 1) ∈ pairs := by
  obtain ⟨pairs, e, _, h⟩ := compare_double [0, 0, 5, 5] [1, 0, 9, 9] 2 2 2 (3 / 2) rfl rfl
  refine ⟨pairs, e, (h 0 0 1).mpr ⟨by omega, ⟨by omega, ?_, ?_, ?_, ?_⟩, ?_⟩⟩
  · intro i hi
    have : i = 0 ∨ i = 1 := by omega
    rcases this with rfl | rfl <;> norm_num [sqDist, Finset.sum_range_succ]
  · intro i hi; omega
  · intro i hi hne
    have : i = 1 := by omega
    subst this
    norm_num [sqDist, Finset.sum_range_succ]
  · intro h; omega
  · norm_num [sqDist, Finset.sum_range_succ]

end Verif.Ubc
