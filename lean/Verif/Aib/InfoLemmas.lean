import Verif.Aib.Spec
import Mathlib.Algebra.Order.BigOperators.Group.Finset
import Mathlib.Algebra.BigOperators.Ring.Finset
import Mathlib.Tactic.Ring
import Mathlib.Tactic.Linarith
import Mathlib.Tactic.FieldSimp

/-!
# Mutual information of clusterings
-/

namespace Verif.Aib

open Spec

set_option linter.unusedSectionVars false

variable {K : Type} [Field K] [LinearOrder K] [IsStrictOrderedRing K]

theorem log_div {log : K → K} (hl : IsLog log) {x y : K} (hx : 0 < x) (hy : 0 < y) : log (x / y) = log x - log y := by
  have := hl (x / y) y (div_pos hx hy) hy
  rw [div_mul_cancel₀ x hy.ne'] at this
  rw [this]; ring

/-- `p log p` with the convention for zero -/
def pl (log : K → K) (x : K) : K := if x = 0 then 0 else x * log x

/-- Sum of `p(c) log (p(c) / p)` -/
def tv (log : K → K) (L : Nat) (r : Nat → K) : K := ∑ c ∈ Finset.range L, if r c = 0 then 0 else r c * log (r c / ∑ d ∈ Finset.range L, r d)

/-- The loss of information of a merge -/
def loss (log : K → K) (L : Nat) (r s : Nat → K) : K := tv log L r + tv log L s - tv log L (fun c => r c + s c)

theorem loss_comm (log : K → K) (L : Nat) (r s : Nat → K) : loss log L r s = loss log L s r := by
  unfold loss
  rw [add_comm (tv log L r), show (fun c => r c + s c) = (fun c => s c + r c) from funext fun c => add_comm _ _]

theorem pos_sum {L : Nat} {r : Nat → K} (h : ∀ c < L, 0 ≤ r c) {c : Nat} (hc : c < L) (h0 : r c ≠ 0) : 0 < ∑ d ∈ Finset.range L, r d :=
  lt_of_lt_of_le (lt_of_le_of_ne (h c hc) (Ne.symm h0)) (Finset.single_le_sum (f := r) (fun d hd => h d (Finset.mem_range.1 hd)) (Finset.mem_range.2 hc))

theorem tv_eq {log : K → K} (hl : IsLog log) {L : Nat} {r : Nat → K} (h : ∀ c < L, 0 ≤ r c) :
    tv log L r = ∑ c ∈ Finset.range L, pl log (r c) - pl log (∑ d ∈ Finset.range L, r d) := by
  by_cases h0 : ∑ d ∈ Finset.range L, r d = 0
  · have hz : ∀ c < L, r c = 0 := fun c hc => by
      by_contra hne
      exact absurd h0 (pos_sum h hc hne).ne'
    unfold tv pl
    rw [if_pos h0, sub_zero]
    apply Finset.sum_congr rfl
    intro c hc
    rw [if_pos (hz c (Finset.mem_range.1 hc)), if_pos (hz c (Finset.mem_range.1 hc))]
  · unfold tv
    rw [show pl log (∑ d ∈ Finset.range L, r d) = ∑ c ∈ Finset.range L, r c * log (∑ d ∈ Finset.range L, r d) by
      unfold pl; rw [if_neg h0, Finset.sum_mul], ← Finset.sum_sub_distrib]
    apply Finset.sum_congr rfl
    intro c hc
    have hc := Finset.mem_range.1 hc
    unfold pl
    by_cases hr : r c = 0
    · rw [if_pos hr, if_pos hr, hr]; ring
    · rw [if_neg hr, if_neg hr, log_div hl (lt_of_le_of_ne (h c hc) (Ne.symm hr)) (pos_sum h hc hr)]; ring

/-- The formula of the program for the loss -/
theorem loss_eq {log : K → K} (hl : IsLog log) {L : Nat} {r s : Nat → K} (hr : ∀ c < L, 0 ≤ r c) (hs : ∀ c < L, 0 ≤ s c) :
    loss log L r s = pl log (∑ c ∈ Finset.range L, r c + ∑ c ∈ Finset.range L, s c) + (tv log L r + tv log L s) + ∑ c ∈ Finset.range L, - pl log (r c + s c) := by
  unfold loss
  rw [tv_eq hl (r := fun c => r c + s c) (fun c hc => add_nonneg (hr c hc) (hs c hc)), Finset.sum_neg_distrib, Finset.sum_add_distrib]
  ring

/-- Contribution of a cluster to the information -/
def contrib (log : K → K) (L : Nat) (Pc : Nat → K) (r : Nat → K) : K :=
  ∑ c ∈ Finset.range L, if r c = 0 then 0 else r c * log (r c / ((∑ d ∈ Finset.range L, r d) * Pc c))

theorem contrib_eq {log : K → K} (hl : IsLog log) {L : Nat} {Pc r : Nat → K} (h : ∀ c < L, 0 ≤ r c) (hc : ∀ c < L, r c ≤ Pc c) :
    contrib log L Pc r = tv log L r - ∑ c ∈ Finset.range L, r c * log (Pc c) := by
  unfold contrib tv
  rw [← Finset.sum_sub_distrib]
  apply Finset.sum_congr rfl
  intro c hcc
  have hcc := Finset.mem_range.1 hcc
  by_cases hr : r c = 0
  · rw [if_pos hr, if_pos hr, hr]; ring
  · have h1 := lt_of_le_of_ne (h c hcc) (Ne.symm hr)
    rw [if_neg hr, if_neg hr, ← div_div, log_div hl (div_pos h1 (pos_sum h hcc hr)) (lt_of_lt_of_le h1 (hc c hcc))]; ring

theorem joint_nonneg {n L : Nat} {P : Nat → Nat → K} (hP : ∀ v < n, ∀ c < L, 0 ≤ P v c) (f : Nat → Nat) (u : Nat) {c : Nat} (hc : c < L) : 0 ≤ joint n P f u c :=
  Finset.sum_nonneg fun v hv => hP v (Finset.mem_range.1 (Finset.mem_filter.1 hv).1) c hc

theorem joint_le {n L : Nat} {P : Nat → Nat → K} (hP : ∀ v < n, ∀ c < L, 0 ≤ P v c) (f : Nat → Nat) (u : Nat) {c : Nat} (hc : c < L) : joint n P f u c ≤ label n P c :=
  Finset.sum_le_sum_of_subset_of_nonneg (Finset.filter_subset _ _) fun v hv _ => hP v (Finset.mem_range.1 hv) c hc

theorem joint_empty {n : Nat} {P : Nat → Nat → K} {f : Nat → Nat} {u : Nat} (h : u ∉ (Finset.range n).image f) (c : Nat) : joint n P f u c = 0 := by
  unfold joint
  rw [Finset.filter_eq_empty_iff.2, Finset.sum_empty]
  intro v hv he
  exact h (Finset.mem_image.2 ⟨v, hv, he⟩)

theorem info_sum (log : K → K) (n L : Nat) (P : Nat → Nat → K) (f : Nat → Nat) (A : Finset Nat) (hA : ∀ v < n, f v ∈ A) :
    info log n L P f = ∑ u ∈ A, contrib log L (label n P) (joint n P f u) := by
  unfold info
  apply Finset.sum_subset_zero_on_sdiff
  · intro u hu
    obtain ⟨v, hv, rfl⟩ := Finset.mem_image.1 hu
    exact hA v (Finset.mem_range.1 hv)
  · intro u hu
    apply Finset.sum_eq_zero
    intro c _
    rw [if_pos (joint_empty (Finset.mem_sdiff.1 hu).2 c)]
  · intro u _
    rfl

theorem joint_merge_new {n : Nat} {P : Nat → Nat → K} {f : Nat → Nat} {x y w : Nat} (hxy : x ≠ y) (hw : ∀ v < n, f v ≠ w) (c : Nat) :
    joint n P (merge f x y w) w c = joint n P f x c + joint n P f y c := by
  unfold joint
  rw [← Finset.sum_union]
  · apply Finset.sum_congr _ (fun _ _ => rfl)
    ext v
    simp only [Finset.mem_filter, Finset.mem_union, Finset.mem_range]
    unfold merge
    constructor
    · rintro ⟨hv, h⟩
      by_cases hc : f v = x ∨ f v = y
      · rcases hc with hc | hc
        · exact Or.inl ⟨hv, hc⟩
        · exact Or.inr ⟨hv, hc⟩
      · rw [if_neg hc] at h
        exact absurd h (hw v hv)
    · rintro (⟨hv, h⟩ | ⟨hv, h⟩)
      · exact ⟨hv, if_pos (Or.inl h)⟩
      · exact ⟨hv, if_pos (Or.inr h)⟩
  · rw [Finset.disjoint_left]
    intro v hv hv'
    exact hxy ((Finset.mem_filter.1 hv).2.symm.trans (Finset.mem_filter.1 hv').2)

theorem joint_merge_old {n : Nat} {P : Nat → Nat → K} {f : Nat → Nat} {x y w u : Nat} (hx : u ≠ x) (hy : u ≠ y) (hw : u ≠ w) (c : Nat) :
    joint n P (merge f x y w) u c = joint n P f u c := by
  unfold joint
  apply Finset.sum_congr _ (fun _ _ => rfl)
  ext v
  simp only [Finset.mem_filter, Finset.mem_range]
  unfold merge
  constructor
  · rintro ⟨hv, h⟩
    by_cases hc : f v = x ∨ f v = y
    · rw [if_pos hc] at h
      exact absurd h.symm hw
    · rw [if_neg hc] at h
      exact ⟨hv, h⟩
  · rintro ⟨hv, h⟩
    refine ⟨hv, ?_⟩
    rw [if_neg (by rintro (hc | hc); exact hx (h.symm.trans hc); exact hy (h.symm.trans hc)), h]

theorem info_merge {log : K → K} (hl : IsLog log) {n L : Nat} {P : Nat → Nat → K} (hP : ∀ v < n, ∀ c < L, 0 ≤ P v c) {f : Nat → Nat} {x y w : Nat} (hxy : x ≠ y) (hw : ∀ v < n, f v ≠ w) :
    info log n L P (merge f x y w) = info log n L P f - loss log L (joint n P f x) (joint n P f y) := by
  have hA : ∀ v < n, f v ∈ insert x (insert y (((Finset.range n).image f).erase x |>.erase y |>.erase w)) := fun v hv => by
    simp only [Finset.mem_insert, Finset.mem_erase, Finset.mem_image, Finset.mem_range]
    by_cases h1 : f v = x
    · exact Or.inl h1
    by_cases h2 : f v = y
    · exact Or.inr (Or.inl h2)
    exact Or.inr (Or.inr ⟨hw v hv, h2, h1, v, hv, rfl⟩)
  have hB : ∀ v < n, merge f x y w v ∈ insert w (((Finset.range n).image f).erase x |>.erase y |>.erase w) := fun v hv => by
    simp only [Finset.mem_insert, Finset.mem_erase, Finset.mem_image, Finset.mem_range, merge]
    by_cases h : f v = x ∨ f v = y
    · rw [if_pos h]; exact Or.inl rfl
    · rw [if_neg h]
      push Not at h
      exact Or.inr ⟨hw v hv, h.2, h.1, v, hv, rfl⟩
  rw [info_sum log n L P f _ hA, info_sum log n L P _ _ hB]
  rw [Finset.sum_insert (a := x) (by simp [hxy]), Finset.sum_insert (a := y) (by simp), Finset.sum_insert (a := w) (by simp)]
  have e1 : ∑ u ∈ (((Finset.range n).image f).erase x |>.erase y |>.erase w), contrib log L (label n P) (joint n P (merge f x y w) u)
      = ∑ u ∈ (((Finset.range n).image f).erase x |>.erase y |>.erase w), contrib log L (label n P) (joint n P f u) := by
    apply Finset.sum_congr rfl
    intro u hu
    simp only [Finset.mem_erase] at hu
    congr 1
    funext c
    exact joint_merge_old hu.2.2.1 hu.2.1 hu.1 c
  rw [e1]
  have e2 : joint n P (merge f x y w) w = fun c => joint n P f x c + joint n P f y c := funext fun c => joint_merge_new hxy hw c
  have hle : ∀ c < L, (fun c => joint n P f x c + joint n P f y c) c ≤ label n P c := fun c hc => by
    have := joint_le hP (merge f x y w) w hc
    rwa [e2] at this
  rw [e2, contrib_eq hl (fun c hc => joint_nonneg hP f x hc) (fun c hc => joint_le hP f x hc), contrib_eq hl (fun c hc => joint_nonneg hP f y hc) (fun c hc => joint_le hP f y hc),
    contrib_eq hl (fun c hc => add_nonneg (joint_nonneg hP f x hc) (joint_nonneg hP f y hc)) hle]
  unfold loss
  simp only [add_mul, Finset.sum_add_distrib]
  ring

end Verif.Aib
