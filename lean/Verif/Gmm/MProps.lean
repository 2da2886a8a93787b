import Verif.Gmm.MLemmas
import Mathlib.Data.Rat.Floor

/-!
# The maximisation step gives weighted means and variances
-/

namespace Verif.Gmm

open Finset

set_option linter.unusedSectionVars false

variable {K : Type} [Field K] [LinearOrder K] [IsStrictOrderedRing K]

theorem variance_shift {ι : Type} (s : Finset ι) (r x : ι → K) (o : K) (hM : ∑ i ∈ s, r i ≠ 0) :
    (∑ i ∈ s, r i * (x i - o) ^ 2) / ∑ i ∈ s, r i - ((∑ i ∈ s, r i * x i) / ∑ i ∈ s, r i - o) ^ 2 =
      (∑ i ∈ s, r i * (x i - (∑ i ∈ s, r i * x i) / ∑ i ∈ s, r i) ^ 2) / ∑ i ∈ s, r i := by
  set M := ∑ i ∈ s, r i with hMd
  set X := ∑ i ∈ s, r i * x i with hX
  have h1 : ∀ a : K, ∑ i ∈ s, r i * (x i - a) ^ 2 = ∑ i ∈ s, r i * x i ^ 2 - 2 * a * X + a ^ 2 * M := by
    intro a
    rw [hX, hMd, mul_sum, mul_sum, ← sum_sub_distrib, ← sum_add_distrib]
    exact sum_congr rfl (fun i _ => by ring)
  rw [h1, h1]
  field_simp
  ring

variable {D C N : Nat} {post data : List K} {q x o : Nat → Nat → K}

theorem assoc_nonneg (hq : ∀ i < N, ∀ k < C, 0 ≤ q i k) {i k : Nat} (hi : i < N) (hk : k < C) : 0 ≤ assoc C q i k := by
  unfold assoc
  split_ifs
  · exact le_refl _
  · exact hq i hi k hk

/-- A component has either no mass at all, or a mass that is at least the threshold. -/
theorem mass_cases (hq : ∀ i < N, ∀ k < C, 0 ≤ q i k) {k : Nat} (hk : k < C) : (∀ i < N, assoc C q i k = 0) ∨ (1 / 10 ^ 6 / C ≤ massOf C N q k ∧ 0 < massOf C N q k) := by
  have hC : (0 : K) < C := by exact_mod_cast (by omega : 0 < C)
  by_cases h : ∀ i < N, assoc C q i k = 0
  · exact Or.inl h
  · right
    push Not at h
    obtain ⟨i, hi, h⟩ := h
    have h1 : 1 / 100 / (C : K) ≤ assoc C q i k := by
      unfold assoc at h ⊢
      by_cases h' : q i k < 1 / 100 / C
      · rw [if_pos h'] at h; exact absurd rfl h
      · rw [if_neg h']; exact not_lt.1 h'
    have h2 : assoc C q i k ≤ massOf C N q k := single_le_sum (f := fun i => assoc C q i k) (fun j hj => assoc_nonneg hq (mem_range.1 hj) hk) (mem_range.2 hi)
    have h3 : (1 : K) / 10 ^ 6 / C ≤ 1 / 100 / C := by
      apply div_le_div_of_nonneg_right _ hC.le
      norm_num
    have h4 : (0 : K) < 1 / 100 / C := by positivity
    exact ⟨h3.trans (h1.trans h2), lt_of_lt_of_le h4 (h1.trans h2)⟩

/-- For all data, associations (not negative), numbers of threads and distributions of the data among them: nothing is accessed out of bounds; the weights are proportional to the masses; a component with mass
gets the weighted mean and the weighted variance of the data, the latter not less than the lower bound.  A component without mass gets a zero mean and the lower bound. -/
theorem maximization_correct (chunks : List (List Nat)) (hch : chunks.flatten.Perm (List.range N)) {lbs : List K} {lb : Nat → K} (hl : Arr lbs D lb) (hq : Flat post N C q) (hq0 : ∀ i < N, ∀ k < C, 0 ≤ q i k)
    (hx : Flat data N D x) (m : Mix K) (hm : Flat m.means C D o) :
    ∃ m', maximization chunks D C lbs post data m = some m' ∧
      MixIs m' C D (fun k => massOf C N q k / max (∑ k ∈ range C, massOf C N q k) (1 / 10 ^ 12))
        (fun k d => if massOf C N q k = 0 then 0 else meanOf C N q x k d) (fun k d => max (if massOf C N q k = 0 then 0 else varOf C N q x k d) (lb d)) := by
  have hsum : ∀ g : Nat → K, (chunks.flatten.map g).sum = ∑ i ∈ range N, g i := by
    intro g
    rw [sum_flat' N g]
    exact (hch.map g).sum_eq
  obtain ⟨m1, a1, a2⟩ := foldlM_list
    (fun done (m : Mix K) => MixIs m C D (fun k => (done.flatten.map (fun i => assoc C q i k)).sum) (fun k d => (done.flatten.map (fun i => assoc C q i k * x i d)).sum) (fun k d => (done.flatten.map (fun i => assoc C q i k * (x i d - o k d) ^ 2)).sum))
    (body := fun m' chunk => (accChunk D C post data m.means chunk).bind (fun a => combine D C a m')) chunks [] (zeros K C D) (by simpa using zeros_is C D) (by
      intro done chunk m' hc hm'
      obtain ⟨a, e1, e2⟩ := accChunk_spec hq hx hm chunk (by
        intro i hi
        exact List.mem_range.1 (hch.mem_iff.1 (List.mem_flatten.2 ⟨chunk, hc, hi⟩)))
      obtain ⟨m'', e3, e4⟩ := combine_spec e2 hm'
      refine ⟨m'', by rw [e1, Option.bind_some, e3], e4.congr ?_ ?_ ?_⟩
      · intro k _; simp
      · intro k _ d _; simp
      · intro k _ d _; simp)
  rw [List.nil_append] at a2
  simp only [hsum] at a2
  obtain ⟨m2, b1, b2⟩ := divide_spec a2
  obtain ⟨m3, c1, c2⟩ := correct_spec hm b2
  obtain ⟨m4, d1, d2⟩ := applyBounds_spec hl c2
  obtain ⟨m5, e1, e2⟩ := normalizePriors_spec d2
  refine ⟨m5, ?_, e2.congr (fun k _ => rfl) ?_ ?_⟩
  · unfold maximization
    simp only [Option.bind_eq_bind]
    rw [a1, Option.bind_some, b1, Option.bind_some, c1, Option.bind_some, d1, Option.bind_some, e1]
  · intro k hk d hd
    rcases mass_cases hq0 hk with h | ⟨h1, h2⟩
    · have h0 : massOf C N q k = 0 := sum_eq_zero (fun i hi => h i (mem_range.1 hi))
      have h0' : ∑ i ∈ range N, assoc C q i k * x i d = 0 := sum_eq_zero (fun i hi => by rw [h i (mem_range.1 hi), zero_mul])
      rw [if_pos h0, h0', zero_div, ite_self]
    · have h1' : ∑ i ∈ range N, assoc C q i k ≥ 1 / 10 ^ 6 / C := h1
      rw [if_neg h2.ne', if_pos h1']
      rfl
  · intro k hk d hd
    congr 1
    rcases mass_cases hq0 hk with h | ⟨h1, h2⟩
    · have h0 : massOf C N q k = 0 := sum_eq_zero (fun i hi => h i (mem_range.1 hi))
      have hC : (0 : K) < C := by exact_mod_cast (by omega : 0 < C)
      have hlt : ¬ massOf C N q k ≥ 1 / 10 ^ 6 / C := by
        rw [h0, ge_iff_le, not_le]
        positivity
      have h0' : ∑ i ∈ range N, assoc C q i k * (x i d - o k d) ^ 2 = 0 := sum_eq_zero (fun i hi => by rw [h i (mem_range.1 hi), zero_mul])
      rw [if_pos h0]
      unfold massOf at hlt
      rw [if_neg hlt, if_neg hlt, h0']
    · rw [if_neg h2.ne']
      have h1' : ∑ i ∈ range N, assoc C q i k ≥ 1 / 10 ^ 6 / C := h1
      rw [if_pos h1', if_pos h1', if_pos h1']
      exact variance_shift (range N) (fun i => assoc C q i k) (fun i => x i d) (o k d) h2.ne'

/-- If the associations of each point are probabilities, the new weights are probabilities. -/
theorem weights_distribution (hN : 1 ≤ N) (hq0 : ∀ i < N, ∀ k < C, 0 ≤ q i k) (hq1 : ∀ i < N, ∑ k ∈ range C, q i k = 1) :
    (∀ k < C, 0 ≤ massOf C N q k / max (∑ k ∈ range C, massOf C N q k) (1 / 10 ^ 12)) ∧ ∑ k ∈ range C, massOf C N q k / max (∑ k ∈ range C, massOf C N q k) (1 / 10 ^ 12) = 1 := by
  have hC : 0 < C := by
    rcases Nat.eq_zero_or_pos C with h | h
    · subst h
      have := hq1 0 (by omega)
      simp at this
    · exact h
  have hC' : (0 : K) < C := by exact_mod_cast hC
  have hm : ∀ k < C, 0 ≤ massOf C N q k := fun k hk => sum_nonneg (fun i hi => assoc_nonneg hq0 (mem_range.1 hi) hk)
  have hrow : ∀ i < N, 99 / 100 ≤ ∑ k ∈ range C, assoc C q i k := by
    intro i hi
    have h1 : ∑ k ∈ range C, (q i k - 1 / 100 / C) ≤ ∑ k ∈ range C, assoc C q i k := by
      apply sum_le_sum
      intro k hk
      have h2 : (0 : K) < 1 / 100 / C := by positivity
      unfold assoc
      by_cases h : q i k < 1 / 100 / C
      · rw [if_pos h]; linarith
      · rw [if_neg h]; linarith
    rw [sum_sub_distrib, hq1 i hi, sum_const, card_range, nsmul_eq_mul, mul_div_cancel₀ _ hC'.ne'] at h1
    linarith
  have htot : (1 : K) / 10 ^ 12 ≤ ∑ k ∈ range C, massOf C N q k := by
    unfold massOf
    rw [sum_comm]
    have h1 : ∑ k ∈ range C, assoc C q 0 k ≤ ∑ i ∈ range N, ∑ k ∈ range C, assoc C q i k :=
      single_le_sum (f := fun i => ∑ k ∈ range C, assoc C q i k) (fun i hi => sum_nonneg (fun k hk => assoc_nonneg hq0 (mem_range.1 hi) (mem_range.1 hk))) (mem_range.2 (by omega))
    have h2 := hrow 0 (by omega)
    have h3 : (1 : K) / 10 ^ 12 ≤ 99 / 100 := by norm_num
    linarith
  have hpos : (0 : K) < 1 / 10 ^ 12 := by positivity
  rw [max_eq_left htot]
  refine ⟨fun k hk => div_nonneg (hm k hk) (hpos.le.trans htot), ?_⟩
  rw [← sum_div]
  exact div_self (lt_of_lt_of_le hpos htot).ne'

/-! ### Components without mass -/

/-- What the comment in the code says: a component that receives no mass is not updated. -/
def KeepEmptyClaim : Prop :=
  ∀ (D C N : Nat) (chunks : List (List Nat)) (lbs post data : List ℚ) (m m' : Mix ℚ), chunks.flatten.Perm (List.range N) → lbs.length = D → post.length = N * C → data.length = N * D →
    m.priors.length = C → m.means.length = C * D → m.cov.length = C * D → (∀ i < C * D, lbs.getD (i % D) 0 ≤ m.cov.getD i 0) → maximization chunks D C lbs post data m = some m' →
      ∀ k < C, (∀ i < N, post.getD (i * C + k) 0 = 0) → ∀ d < D, m'.means.getD (k * D + d) 0 = m.means.getD (k * D + d) 0 ∧ m'.cov.getD (k * D + d) 0 = m.cov.getD (k * D + d) 0

/-- Two components on the line, one point, associated to the first component. -/
def exMix : Mix ℚ := { priors := [1 / 2, 1 / 2], means := [3, 7], cov := [1, 1] }

example : (maximization [[0]] 1 2 [1 / 1000] [1, 0] [5] exMix).map (fun m => (m.priors, m.means, m.cov)) = some ([1, 0], [5, 0], [1 / 1000, 1 / 1000]) := by decide +kernel

/-- The claim is false: the mean of such a component becomes zero. -/
theorem keepEmpty_claim_false : ¬ KeepEmptyClaim := by
  intro h
  have hb : (maximization [[0]] 1 2 [1 / 1000] [1, 0] [5] exMix).map (fun m => m.means.getD 1 0) = some 0 := by decide +kernel
  obtain ⟨m', e, hb⟩ := Option.map_eq_some_iff.1 hb
  have h1 := (h 1 2 1 [[0]] [1 / 1000] [1, 0] [5] exMix m' (by decide) rfl rfl rfl rfl rfl rfl (by decide +kernel) e 1 (by omega) (by decide +kernel) 0 (by omega)).1
  simp only [Nat.one_mul, Nat.add_zero] at h1
  rw [hb] at h1
  revert h1
  decide +kernel

/-- The hypotheses of `maximization_correct` are met: three points of the plane shared between two components, two threads. -/
example : ∃ m', maximization (K := ℚ) [[2], [0, 1]] 2 2 [1 / 1000, 1 / 1000] [1, 0, 0, 1, 1 / 2, 1 / 2] [1, 2, 5, 6, 3, 3] { priors := [1 / 2, 1 / 2], means := [0, 0, 4, 4], cov := [1, 1, 1, 1] } = some m' ∧
    Arr m'.priors 2 (fun k => massOf 2 3 (fun i k => ([1, 0, 0, 1, 1 / 2, 1 / 2] : List ℚ).getD (i * 2 + k) 0) k / max (∑ k ∈ range 2, massOf 2 3 (fun i k => ([1, 0, 0, 1, 1 / 2, 1 / 2] : List ℚ).getD (i * 2 + k) 0) k) (1 / 10 ^ 12)) := by
  obtain ⟨m', h1, h2⟩ := maximization_correct (N := 3) (C := 2) (D := 2) (K := ℚ) [[2], [0, 1]] (by decide) (lbs := [1 / 1000, 1 / 1000]) (Arr.of_len' rfl 0) (post := [1, 0, 0, 1, 1 / 2, 1 / 2]) (Flat.of_len rfl 0) (by decide +kernel)
    (data := [1, 2, 5, 6, 3, 3]) (Flat.of_len rfl 0) { priors := [1 / 2, 1 / 2], means := [0, 0, 4, 4], cov := [1, 1, 1, 1] } (Flat.of_len rfl 0)
  exact ⟨m', h1, h2.priors⟩

end Verif.Gmm
