import Verif.Covdet.OriModel
import Verif.Sift.OrientProps
import Mathlib.Tactic.LinearCombination

/-!
# Properties of the orientations of the features of the covariant detector
-/

namespace Verif.Covdet

open Finset

/-! ### Specification -/

/-- The share of a vote at position `x` of a circle of 36 bins that goes to bin `b`: linear interpolation between the two bins next to `x`. -/
def voteShare (x : ℚ) (b : Nat) : ℚ := max 0 (1 - |x - b|) + max 0 (1 - |x - b - 36|)

/-- The histogram of the orientations of the gradients. -/
def oriHistSpec (binExtent : ℚ) (n : Nat) (mods angs mask : List ℚ) (b : Nat) : ℚ :=
  ∑ k ∈ range n, voteShare (angs.getD k 0 / binExtent) b * (mods.getD k 0 * mask.getD k 0)

/-- The mean of three bins next to each other on the circle. -/
def circMean (f : Nat → ℚ) (i : Nat) : ℚ := (f ((i + 35) % 36) + f i + f ((i + 1) % 36)) / 3

/-- Bin `i` is a peak: higher than the two bins next to it and than 80% of the maximum. -/
def IsOriPeak (f : Nat → ℚ) (m : ℚ) (i : Nat) : Prop := f i > 8 / 10 * m ∧ f i > f ((i + 35) % 36) ∧ f i > f ((i + 1) % 36)

instance (f : Nat → ℚ) (m : ℚ) (i : Nat) : Decidable (IsOriPeak f m i) := by unfold IsOriPeak; infer_instance

/-- The orientation of a peak: the top of the parabola through three bins, counted from `theta0`, and from the vertical axis if the convention
is transposed. -/
def peakOri (c : OriConf) (f : Nat → ℚ) (i : Nat) : Ori :=
  ⟨c.binExtent * ((i : ℚ) + (f ((i + 1) % 36) - f ((i + 35) % 36)) / (2 * (2 * f i - f ((i + 1) % 36) - f ((i + 35) % 36)))) + c.theta0 - (if c.transposed then c.halfPi else 0), f i⟩

/-- All the peaks in the order of the bins. -/
def allPeaks (c : OriConf) (f : Nat → ℚ) (m : ℚ) : List Ori := ((List.range 36).filter fun i => decide (IsOriPeak f m i)).map (peakOri c f)

/-- The maximum of the bins, or zero if they are all negative. -/
def IsMax36 (f : Nat → ℚ) (m : ℚ) : Prop := 0 ≤ m ∧ (∀ i < 36, f i ≤ m) ∧ (m = 0 ∨ ∃ i < 36, m = f i)

/-- The contract of `qsort` with the comparison of the scores. -/
def SortsDescending (sort : List Ori → List Ori) : Prop := ∀ l, (sort l).Perm l ∧ (sort l).Pairwise fun a b => a.score ≥ b.score

/-! ### The histogram -/

theorem voteShare_eq (x : ℚ) (h0 : 0 ≤ x) (h1 : x ≤ 36) (b : Nat) (hb : b < 36) :
    voteShare x b = (if (⌊x⌋.toNat + 36) % 36 = b then 1 - (x - ⌊x⌋) else 0) + (if (⌊x⌋.toNat + 36 + 1) % 36 = b then x - ⌊x⌋ else 0) := by
  obtain ⟨r, hr⟩ : ∃ r : ℚ, r = Int.fract x := ⟨_, rfl⟩
  obtain ⟨k, hk⟩ : ∃ k : Int, k = ⌊x⌋ := ⟨_, rfl⟩
  have hx : x = k + r := by rw [hk, hr]; exact (Int.floor_add_fract x).symm
  have r0 : 0 ≤ r := by rw [hr]; exact Int.fract_nonneg x
  have r1 : r < 1 := by rw [hr]; exact Int.fract_lt_one x
  have k0 : 0 ≤ k := by rw [hk]; exact Int.floor_nonneg.mpr h0
  have k1 : k ≤ 36 := by
    have : (k : ℚ) ≤ ((36 : Int) : ℚ) := by rw [hk]; exact (Int.floor_le x).trans (by exact_mod_cast h1)
    exact_mod_cast this
  have hr0 : k = 36 → r = 0 := by
    intro h
    rw [h] at hx
    push_cast at hx
    linarith
  have e1 := Sift.tri_int k (b : Int) r r0 r1
  have e2 := Sift.tri_int k ((b : Int) + 36) r r0 r1
  unfold Sift.tri at e1 e2
  unfold voteShare
  rw [← hk, hx]
  rw [show (k : ℚ) + r - ((b : Nat) : ℚ) = (k : ℚ) + r - ((b : Int) : ℚ) by push_cast; rfl, e1]
  rw [show (k : ℚ) + r - ((b : Int) : ℚ) - 36 = (k : ℚ) + r - (((b : Int) + 36 : Int) : ℚ) by push_cast; ring, e2]
  obtain ⟨j, rfl⟩ : ∃ j : Nat, k = j := ⟨k.toNat, by omega⟩
  have hj : j ≤ 36 := by exact_mod_cast k1
  rw [Int.toNat_natCast, show ((j : Int) : ℚ) + r - ((j : Int) : ℚ) = r by ring]
  by_cases c36 : j = 36
  · subst c36
    rw [hr0 rfl]
    simp only [ite_self, add_zero, sub_zero]
    by_cases hb0 : b = 0
    · subst hb0; norm_num
    · rw [if_neg (by omega), if_neg (by omega), if_neg (by omega)]; norm_num
  · split_ifs <;> first | (exfalso; omega) | ring

/-- The conditions under which the histogram is built: the angles are on the circle. -/
structure OriOk (binExtent : ℚ) (n : Nat) (mods angs mask : List ℚ) : Prop where
  pos : 0 < binExtent
  hmods : n ≤ mods.length
  hangs : n ≤ angs.length
  hmask : n ≤ mask.length
  circle : ∀ k < n, 0 ≤ angs.getD k 0 ∧ angs.getD k 0 ≤ 36 * binExtent

theorem rd_getD {l : List ℚ} {k : Nat} (h : k < l.length) : rd l k = some (l.getD k 0) := by
  rw [rd_getElem?, List.getD_eq_getElem?_getD, List.getElem?_eq_getElem h]
  rfl

/-- Every bin of the histogram is the sum of the votes of the gradients. -/
theorem oriHist_spec {binExtent : ℚ} {n : Nat} {mods angs mask : List ℚ} (ok : OriOk binExtent n mods angs mask) : ∃ hist, oriHist binExtent 36 n mods angs mask = some hist ∧ Arr hist 36 (oriHistSpec binExtent n mods angs mask) := by
  obtain ⟨hist, e, h⟩ := iter_inv (n := n) (f := oriVote binExtent 36 mods angs mask) (s := List.replicate 36 0) (fun k hist => Arr hist 36 (oriHistSpec binExtent k mods angs mask))
    ⟨by simp, fun i hi => by rw [List.getElem?_replicate, if_pos hi]; simp [oriHistSpec]⟩ (by
      intro k hk hist h
      obtain ⟨a0, a1⟩ := ok.circle k hk
      have x0 : 0 ≤ angs.getD k 0 / binExtent := div_nonneg a0 ok.pos.le
      have x1 : angs.getD k 0 / binExtent ≤ 36 := by rw [div_le_iff₀ ok.pos]; exact a1
      obtain ⟨x, hx⟩ : ∃ x, x = angs.getD k 0 / binExtent := ⟨_, rfl⟩
      rw [← hx] at x0 x1
      obtain ⟨m, e, lm, gm⟩ := addAll_spec hist [((⌊x⌋.toNat + 36) % 36, (1 - (x - ⌊x⌋)) * (mods.getD k 0 * mask.getD k 0)), ((⌊x⌋.toNat + 36 + 1) % 36, (x - ⌊x⌋) * (mods.getD k 0 * mask.getD k 0))] (by
        intro c hc
        rw [h.len]
        simp only [List.mem_cons, List.not_mem_nil, or_false] at hc
        rcases hc with rfl | rfl <;> exact Nat.mod_lt _ (by norm_num))
      refine ⟨m, ?_, lm.trans h.len, fun i hi => ?_⟩
      · rw [Sift.addAll_pair] at e
        unfold oriVote
        rw [rd_getD (by have := ok.hmods; omega), rd_getD (by have := ok.hangs; omega), rd_getD (by have := ok.hmask; omega)]
        simp only [Option.bind_eq_bind, Option.bind_some]
        rw [← hx, assert', if_pos (by simpa using Int.floor_nonneg.mpr x0)]
        exact e
      · rw [gm i, h.get i hi]
        simp only [Option.map_some, contrib_cons, contrib_nil]
        unfold oriHistSpec
        rw [Finset.sum_range_succ, ← hx, voteShare_eq x x0 x1 i hi]
        congr 2
        split_ifs <;> ring)
  exact ⟨hist, e, h⟩

/-! ### The smoothing and the peaks -/

theorem circMean_eq (f : Nat → ℚ) : circMean f = Sift.mean3 36 f := by
  funext i
  rfl

theorem oriSmooth_spec {hist : List ℚ} {f : Nat → ℚ} (h : Arr hist 36 f) : ∃ hist', oriSmooth 36 hist = some hist' ∧ Arr hist' 36 (circMean^[6] f) := by
  obtain ⟨m, e, h'⟩ := iter_inv (n := 6) (f := fun _ hist => oriPass 36 hist) (s := hist) (fun k m => Arr m 36 (circMean^[k] f)) h (by
    intro k _ m h
    obtain ⟨m', e, h'⟩ := Sift.smoothPass_spec 36 (by norm_num) m _ h
    refine ⟨m', e, ?_⟩
    rw [Function.iterate_succ_apply']
    exact h')
  exact ⟨m, e, h'⟩

theorem oriMax_spec {hist : List ℚ} {f : Nat → ℚ} (h : Arr hist 36 f) : ∃ m, oriMax 36 hist = some m ∧ IsMax36 f m := Sift.maxHist_spec 36 hist f h

theorem peak_angle {c : OriConf} {f : Nat → ℚ} {i : Nat} {h0 hm hp : ℚ} (e0 : h0 = f i) (em : hm = f ((i + 35) % 36)) (ep : hp = f ((i + 1) % 36)) :
    (⟨if c.transposed then c.binExtent * ((i : ℚ) + - (1 / 2) * (hp - hm) / (hp + hm - 2 * h0)) + c.theta0 - c.halfPi else c.binExtent * ((i : ℚ) + - (1 / 2) * (hp - hm) / (hp + hm - 2 * h0)) + c.theta0, h0⟩ : Ori) = peakOri c f i := by
  unfold peakOri
  rw [← e0, ← em, ← ep]
  have : - (1 / 2) * (hp - hm) / (hp + hm - 2 * h0) = (hp - hm) / (2 * (2 * h0 - hp - hm)) := by
    rw [show (2 : ℚ) * (2 * h0 - hp - hm) = (-2) * (hp + hm - 2 * h0) by ring, show - (1 / 2) * (hp - hm) = (hp - hm) / (-2) by ring, div_div]
  rw [this]
  congr 1
  split <;> ring

theorem oriPeaks_spec (c : OriConf) {maxNum : Nat} {hist : List ℚ} {f : Nat → ℚ} (h : Arr hist 36 f) (m : ℚ) : ∀ (k : Nat) (P Q : List Ori), k ≤ 36 →
    P.length < maxNum → maxNum ≤ P.length + Q.length → ∃ T : List Ori, T = ((((List.range' (36 - k) k).filter (fun i => decide (IsOriPeak f m i))).map (peakOri c f)).take (maxNum - P.length)) ∧
      oriPeaks c maxNum 36 hist m k (P ++ Q) P.length = some (P ++ T ++ Q.drop T.length, P.length + T.length) := by
  intro k
  induction k with
  | zero =>
    intro P Q _ _ _
    exact ⟨[], by simp, by simp [oriPeaks]⟩
  | succ k ih =>
    intro P Q hk hP hPQ
    have hi : 36 - (k + 1) < 36 := by omega
    have hr : List.range' (36 - (k + 1)) (k + 1) = (36 - (k + 1)) :: List.range' (36 - k) k := by
      rw [List.range'_succ]; congr 2; omega
    obtain ⟨i, hi'⟩ : ∃ i, i = 36 - (k + 1) := ⟨_, rfl⟩
    unfold oriPeaks
    simp only
    rw [← hi'] at hi hr ⊢
    rw [h.rd hi, h.rd (Nat.mod_lt _ (by omega)), h.rd (Nat.mod_lt _ (by omega)), show i + 1 + 36 = (i + 1) + 36 from rfl, Nat.add_mod_right]
    simp only [Option.bind_eq_bind, Option.bind_some]
    rw [hr, show i + 36 - 1 = i + 35 by omega]
    by_cases hp : IsOriPeak f m i
    · have hp' := hp
      unfold IsOriPeak at hp'
      rw [if_pos hp', peak_angle rfl rfl rfl]
      have hQ : Q ≠ [] := by intro e; subst e; simp at hPQ; omega
      rw [wr_of_lt (by rw [List.length_append]; have := List.length_pos_of_ne_nil hQ; omega), Sift.set_append_len P Q _ _ rfl hQ]
      simp only [Option.bind_some]
      rw [List.filter_cons_of_pos (by simpa using hp), List.map_cons]
      have ht (t : List Ori) : (peakOri c f i :: t).take (maxNum - P.length) = peakOri c f i :: t.take (maxNum - P.length - 1) := by
        rw [show maxNum - P.length = (maxNum - P.length - 1) + 1 by omega, List.take_succ_cons]; simp
      rw [ht]
      by_cases h4 : P.length + 1 ≥ maxNum
      · rw [if_pos h4]
        refine ⟨_, rfl, ?_⟩
        rw [show maxNum - P.length - 1 = 0 by omega]
        simp
      · rw [if_neg h4]
        obtain ⟨T, hT, e⟩ := ih (P ++ [peakOri c f i]) (Q.drop 1) (by omega) (by simp; omega) (by simp; omega)
        refine ⟨peakOri c f i :: T, ?_, ?_⟩
        · rw [hT]
          congr 2
          simp
          omega
        · have e' := e
          rw [List.length_append, List.length_singleton] at e'
          refine Eq.trans e' ?_
          simp
          omega
    · rw [if_neg (by unfold IsOriPeak at hp; exact hp), List.filter_cons_of_neg (by simpa using hp)]
      exact ih P Q (by omega) hP hPQ

/-! ### Properties -/

/-- For every patch, if the limit on the number of orientations is between one and the size of the array, the function has no undefined
behaviour.  The orientations are those of the peaks of the histogram of the gradients smoothed six times, the first ones in the order of the bins
up to the limit, by decreasing scores. -/
theorem oriForPatch_correct {sort : List Ori → List Ori} (hs : SortsDescending sort) (c : OriConf) {maxNum n : Nat} {mods angs mask : List ℚ} (ok : OriOk c.binExtent n mods angs mask) {out : List Ori} (h1 : 1 ≤ maxNum) (h2 : maxNum ≤ out.length) :
    ∃ (hist : Nat → ℚ) (m : ℚ) (T : List Ori), hist = circMean^[6] (oriHistSpec c.binExtent n mods angs mask) ∧ IsMax36 hist m ∧
      oriForPatch sort c maxNum n mods angs mask out = some (T ++ out.drop T.length, T.length) ∧ T.Perm ((allPeaks c hist m).take maxNum) ∧ T.Pairwise (fun a b => a.score ≥ b.score) := by
  obtain ⟨l1, e1, a1⟩ := oriHist_spec ok
  obtain ⟨l2, e2, a2⟩ := oriSmooth_spec a1
  obtain ⟨m, e3, hm⟩ := oriMax_spec a2
  obtain ⟨T, hT, e4⟩ := oriPeaks_spec c (maxNum := maxNum) a2 m 36 [] out (by omega) (by simp only [List.length_nil]; omega) (by simpa using h2)
  obtain ⟨p1, p2⟩ := hs T
  refine ⟨_, m, sort T, rfl, hm, ?_, ?_, p2⟩
  · unfold oriForPatch
    simp only [e1, e2, e3, Option.bind_eq_bind, Option.bind_some]
    rw [List.nil_append, List.nil_append, List.length_nil, Nat.zero_add] at e4
    rw [e4]
    simp [p1.length_eq]
  · rw [hT] at p1 ⊢
    rw [Nat.sub_self, List.length_nil, Nat.sub_zero, ← List.range_eq_range'] at *
    exact p1

/-- The votes of a gradient add up to its weight. -/
theorem voteShare_sum (x : ℚ) (h0 : 0 ≤ x) (h1 : x ≤ 36) : ∑ b ∈ range 36, voteShare x b = 1 := by
  rw [Finset.sum_congr rfl (fun b hb => voteShare_eq x h0 h1 b (Finset.mem_range.mp hb)), Finset.sum_add_distrib, Finset.sum_ite_eq, Finset.sum_ite_eq, if_pos (Finset.mem_range.mpr (Nat.mod_lt _ (by norm_num))), if_pos (Finset.mem_range.mpr (Nat.mod_lt _ (by norm_num)))]
  ring

/-! ### What the code does not do -/

/-- Insertion by decreasing scores. -/
def insertOri (x : Ori) : List Ori → List Ori
  | [] => [x]
  | y :: l => if x.score ≥ y.score then x :: y :: l else y :: insertOri x l

/-- A function that meets the contract of `qsort`. -/
def sortOri : List Ori → List Ori
  | [] => []
  | x :: l => insertOri x (sortOri l)

theorem insertOri_perm (x : Ori) (l : List Ori) : (insertOri x l).Perm (x :: l) := by
  induction l with
  | nil => exact List.Perm.refl _
  | cons y l ih =>
    unfold insertOri
    split
    · exact List.Perm.refl _
    · exact (ih.cons y).trans (List.Perm.swap _ _ _)

theorem insertOri_sorted (x : Ori) (l : List Ori) (h : l.Pairwise fun a b => a.score ≥ b.score) : (insertOri x l).Pairwise fun a b => a.score ≥ b.score := by
  induction l with
  | nil => simp [insertOri]
  | cons y l ih =>
    rw [List.pairwise_cons] at h
    unfold insertOri
    split
    · next hxy =>
      refine List.pairwise_cons.mpr ⟨fun a ha => ?_, List.pairwise_cons.mpr h⟩
      rcases List.mem_cons.mp ha with rfl | ha
      · exact hxy
      · exact le_trans (h.1 a ha) hxy
    · next hxy =>
      refine List.pairwise_cons.mpr ⟨fun a ha => ?_, ih h.2⟩
      rcases List.mem_cons.mp ((insertOri_perm x l).mem_iff.mp ha) with rfl | ha
      · exact (not_le.mp hxy).le
      · exact h.1 a ha

theorem sortOri_sorts : SortsDescending sortOri := by
  intro l
  induction l with
  | nil => exact ⟨List.Perm.refl _, by simp [sortOri]⟩
  | cons x l ih => exact ⟨(insertOri_perm x _).trans (ih.1.cons x), insertOri_sorted x _ ih.2⟩

/-- The bins have width one, and no extra rotation. -/
def unitConf : OriConf := ⟨1, 9, 0, false⟩

/-- Two gradients, the second one a little stronger. -/
theorem two_ok : OriOk 1 2 [9, 10] [5, 20] [1, 1] := ⟨by norm_num, by decide, by decide, by decide, by decide +kernel⟩

example : ∃ T : List Ori, oriForPatch sortOri unitConf 4 2 [9, 10] [5, 20] [1, 1] (List.replicate 4 ⟨0, 0⟩) = some (T ++ (List.replicate 4 ⟨0, 0⟩).drop T.length, T.length) := by
  obtain ⟨_, _, T, _, _, e, _⟩ := oriForPatch_correct sortOri_sorts unitConf (maxNum := 4) (out := List.replicate 4 ⟨0, 0⟩) two_ok (by decide) (by decide)
  exact ⟨T, e⟩

example : (oriForPatch sortOri unitConf 4 2 [9, 10] [5, 20] [1, 1] (List.replicate 4 ⟨0, 0⟩)).map (fun r => (r.1.map (·.angle), r.2)) = some ([20, 5, 0, 0], 2) := by decide +kernel

/-- The strongest peak is always among the orientations. -/
def StrongestPeakClaim : Prop := ∀ (sort : List Ori → List Ori) (c : OriConf) (maxNum n : Nat) (mods angs mask : List ℚ) (out out' : List Ori) (num : Nat), SortsDescending sort → OriOk c.binExtent n mods angs mask → 1 ≤ maxNum → maxNum ≤ out.length →
  oriForPatch sort c maxNum n mods angs mask out = some (out', num) → ∀ (out4 : List Ori) (num4 : Nat), oriForPatch sort c out.length n mods angs mask out = some (out4, num4) → out'.head? = out4.head?

/-- If the limit is one, the orientation is the first peak and not the strongest. -/
theorem strongestPeak_claim_false : ¬ StrongestPeakClaim := by
  intro hc
  have h1 : oriForPatch sortOri unitConf 1 2 [9, 10] [5, 20] [1, 1] (List.replicate 4 ⟨0, 0⟩) = some ([⟨5, 141 / 81⟩, ⟨0, 0⟩, ⟨0, 0⟩, ⟨0, 0⟩], 1) := by decide +kernel
  have h4 : (oriForPatch sortOri unitConf 4 2 [9, 10] [5, 20] [1, 1] (List.replicate 4 ⟨0, 0⟩)) = some ([⟨20, 470 / 243⟩, ⟨5, 141 / 81⟩, ⟨0, 0⟩, ⟨0, 0⟩], 2) := by decide +kernel
  have := hc sortOri unitConf 1 2 [9, 10] [5, 20] [1, 1] (List.replicate 4 ⟨0, 0⟩) _ _ sortOri_sorts two_ok (by decide) (by decide) h1 _ _ h4
  exact absurd this (by decide +kernel)

/-- A patch whose gradients are not zero has an orientation. -/
def SomeOrientationClaim : Prop := ∀ (sort : List Ori → List Ori) (c : OriConf) (maxNum n : Nat) (mods angs mask : List ℚ) (out out' : List Ori) (num : Nat), SortsDescending sort → OriOk c.binExtent n mods angs mask → 1 ≤ maxNum → maxNum ≤ out.length →
  (∀ k < n, 0 < mods.getD k 0 ∧ 0 < mask.getD k 0) → 0 < n → oriForPatch sort c maxNum n mods angs mask out = some (out', num) → 0 < num

/-- If two bins next to each other are equal, no bin is higher than both its neighbours. -/
theorem someOrientation_claim_false : ¬ SomeOrientationClaim := by
  intro hc
  have h1 : oriForPatch sortOri unitConf 4 2 [1, 1] [5, 6] [1, 1] (List.replicate 4 ⟨0, 0⟩) = some (List.replicate 4 ⟨0, 0⟩, 0) := by decide +kernel
  have := hc sortOri unitConf 4 2 [1, 1] [5, 6] [1, 1] (List.replicate 4 ⟨0, 0⟩) _ _ sortOri_sorts ⟨by decide +kernel, by decide, by decide, by decide, by decide +kernel⟩ (by decide) (by decide) (by decide +kernel) (by decide) h1
  exact absurd this (by decide)

/-- Any limit on the number of orientations can be set, and is obeyed. -/
def MaxOrientationsClaim : Prop := ∀ (sort : List Ori → List Ori) (c : OriConf) (maxNum n : Nat) (mods angs mask : List ℚ) (out : List Ori), SortsDescending sort → OriOk c.binExtent n mods angs mask → out.length = 4 →
  ∃ out' num, oriForPatch sort c maxNum n mods angs mask out = some (out', num) ∧ num ≤ maxNum

/-- With a limit of zero there can be an orientation. -/
theorem maxOrientations_zero : oriForPatch sortOri unitConf 0 2 [9, 10] [5, 20] [1, 1] (List.replicate 4 ⟨0, 0⟩) = some ([⟨5, 141 / 81⟩, ⟨0, 0⟩, ⟨0, 0⟩, ⟨0, 0⟩], 1) := by decide +kernel

/-- With a limit of eighteen, the fifth peak is written past the array. -/
theorem maxOrientations_overflow : oriForPatch sortOri unitConf 18 18 (List.replicate 18 1) ((List.range 18).map fun i => 2 * (i : ℚ)) (List.replicate 18 1) (List.replicate 4 ⟨0, 0⟩) = none := by decide +kernel

theorem maxOrientations_claim_false : ¬ MaxOrientationsClaim := by
  intro hc
  obtain ⟨o, k, e, _⟩ := hc sortOri unitConf 18 18 (List.replicate 18 1) ((List.range 18).map fun i => 2 * (i : ℚ)) (List.replicate 18 1) (List.replicate 4 ⟨0, 0⟩) sortOri_sorts
    ⟨by decide +kernel, by decide, by decide, by decide, by decide +kernel⟩ rfl
  rw [maxOrientations_overflow] at e
  exact absurd e (by simp)

/-! ### The features -/

section features

variable {K : Type} [Field K]

/-- The frame `f` turned by the angle whose cosine and sine are `c` and `s`: the product of its matrix and of the matrix of the rotation. -/
def IsTurned (f g : Frame K) (c s : K) : Prop := g.x = f.x ∧ g.y = f.y ∧ g.a11 = f.a11 * c + f.a12 * s ∧ g.a12 = f.a11 * (-s) + f.a12 * c ∧ g.a21 = f.a21 * c + f.a22 * s ∧ g.a22 = f.a21 * (-s) + f.a22 * c

/-- The feature `g` is `f` with an orientation. -/
def IsOriented (f g : Feature K) (o : K × K × K) : Prop := IsTurned f.frame g.frame o.1 o.2.1 ∧ g.orientationScore = o.2.2 ∧ g.peakScore = f.peakScore ∧ g.edgeScore = f.edgeScore ∧ g.laplacianScaleScore = f.laplacianScaleScore

theorem orient_oriented (f : Feature K) (o : K × K × K) : IsOriented f (orient f o.1 o.2.1 o.2.2) o := by
  refine ⟨⟨rfl, rfl, rfl, ?_, rfl, ?_⟩, rfl, rfl, rfl, rfl⟩ <;> simp only [orient] <;> ring

/-- Turning a frame keeps its ellipse: the matrix times its transpose does not change, nor the determinant. -/
theorem turned_ellipse {f g : Frame K} {c s : K} (h : IsTurned f g c s) (hcs : c * c + s * s = 1) : g.a11 * g.a11 + g.a12 * g.a12 = f.a11 * f.a11 + f.a12 * f.a12 ∧ g.a11 * g.a21 + g.a12 * g.a22 = f.a11 * f.a21 + f.a12 * f.a22 ∧
    g.a21 * g.a21 + g.a22 * g.a22 = f.a21 * f.a21 + f.a22 * f.a22 ∧ g.a11 * g.a22 - g.a12 * g.a21 = f.a11 * f.a22 - f.a12 * f.a21 := by
  obtain ⟨-, -, h1, h2, h3, h4⟩ := h
  rw [h1, h2, h3, h4]
  refine ⟨?_, ?_, ?_, ?_⟩
  · linear_combination (f.a11 * f.a11 + f.a12 * f.a12) * hcs
  · linear_combination (f.a11 * f.a21 + f.a12 * f.a22) * hcs
  · linear_combination (f.a21 * f.a21 + f.a22 * f.a22) * hcs
  · linear_combination (f.a11 * f.a22 - f.a12 * f.a21) * hcs

/-- What replaces a feature. -/
def firstOriented (os : List (K × K × K)) (f : Feature K) : Feature K := match os with
  | [] => f
  | o :: _ => orient f o.1 o.2.1 o.2.2

/-- What is appended for a feature. -/
def restOriented (os : List (K × K × K)) (f : Feature K) : List (Feature K) := os.tail.map fun o => orient f o.1 o.2.1 o.2.2

theorem oriInner_spec (os : List (K × K × K)) (f : Feature K) (features : List (Feature K)) {i : Nat} (hi : features[i]? = some f) :
    iter os.length (fun j features => do
      let (r1, r2, score) ← rd os j
      if j = 0 then wr features i (orient f r1 r2 score)
      else
        let features := features ++ [f]
        wr features (features.length - 1) (orient f r1 r2 score)) features = some (features.set i (firstOriented os f) ++ restOriented os f) := by
  have hlt : i < features.length := (List.getElem?_eq_some_iff.mp hi).1
  cases os with
  | nil =>
    have : features.set i f = features := by
      refine List.ext_getElem? fun j => ?_
      rw [List.getElem?_set]
      split
      · next h => subst h; rw [hi]
      · rfl
    simp [iter, firstOriented, restOriented, this]
  | cons o os =>
    obtain ⟨r, e, h⟩ := iter_inv (n := (o :: os).length) (f := fun j features => do
      let (r1, r2, score) ← rd (o :: os) j
      if j = 0 then wr features i (orient f r1 r2 score)
      else
        let features := features ++ [f]
        wr features (features.length - 1) (orient f r1 r2 score)) (s := features)
      (fun k r => r = if k = 0 then features else features.set i (orient f o.1 o.2.1 o.2.2) ++ (os.take (k - 1)).map fun o => orient f o.1 o.2.1 o.2.2) rfl (by
        rintro j hj r rfl
        simp only [List.length_cons] at hj
        rcases Nat.eq_zero_or_pos j with rfl | hj0
        · refine ⟨features.set i (orient f o.1 o.2.1 o.2.2), ?_, by simp⟩
          simp only [rd_getElem?, List.getElem?_cons_zero, Option.bind_eq_bind, Option.bind_some, if_true]
          exact wr_of_lt hlt _
        · obtain ⟨k, rfl⟩ : ∃ k, j = k + 1 := ⟨j - 1, by omega⟩
          have hk : k < os.length := by omega
          refine ⟨features.set i (orient f o.1 o.2.1 o.2.2) ++ (os.take (k + 1)).map fun o => orient f o.1 o.2.1 o.2.2, ?_, by simp⟩
          simp only [rd_getElem?, List.getElem?_cons_succ, List.getElem?_eq_getElem hk, Option.bind_eq_bind, Option.bind_some]
          rw [if_neg (by omega), if_neg (by omega), wr_of_lt (by simp)]
          simp [List.set_append_right]
          rw [List.take_add_one, List.getElem?_map, List.getElem?_eq_getElem hk]
          rfl)
    rw [e, h, if_neg (by simp)]
    simp [firstOriented, restOriented]

/-- For every list of features, each feature is replaced by the one with its first orientation, or is kept if it has none; the copies
with the other orientations follow all the features, in order.  If the orientations of all the frames are computed then so are those of the features. -/
theorem extractOrientations_correct {oris : Frame K → Option (List (K × K × K))} {features : List (Feature K)} {os : Feature K → List (K × K × K)} (ho : ∀ f ∈ features, oris f.frame = some (os f)) :
    extractOrientations oris features = some ((features.map fun f => firstOriented (os f) f) ++ features.flatMap fun f => restOriented (os f) f) := by
  unfold extractOrientations
  simp only
  obtain ⟨r, e, h⟩ := iter_inv (n := features.length) (f := fun i features => do
    let feature ← rd features i
    let os ← oris feature.frame
    iter os.length (fun j features => do
      let (r1, r2, score) ← rd os j
      if j = 0 then wr features i (orient feature r1 r2 score)
      else
        let features := features ++ [feature]
        wr features (features.length - 1) (orient feature r1 r2 score)) features) (s := features)
    (fun k r => r = ((features.take k).map fun f => firstOriented (os f) f) ++ features.drop k ++ (features.take k).flatMap fun f => restOriented (os f) f) (by simp) (by
      rintro i hi r rfl
      obtain ⟨f, hf⟩ : ∃ f, features[i]? = some f := ⟨_, List.getElem?_eq_getElem hi⟩
      have hd : features.drop i = f :: features.drop (i + 1) := by
        rw [List.drop_eq_getElem_cons hi]
        rw [List.getElem?_eq_getElem hi] at hf
        rw [Option.some.inj hf]
      have hg : (((features.take i).map fun f => firstOriented (os f) f) ++ features.drop i ++ (features.take i).flatMap fun f => restOriented (os f) f)[i]? = some f := by
        rw [hd, List.append_assoc, List.getElem?_append_right (by simp)]
        simp [Nat.min_eq_left hi.le]
      refine ⟨_, ?_, rfl⟩
      simp only [rd_getElem?]
      rw [hg]
      simp only [Option.bind_eq_bind, Option.bind_some]
      rw [ho f (List.mem_of_getElem? hf)]
      simp only [Option.bind_some]
      refine (oriInner_spec (os f) f _ hg).trans ?_
      rw [hd, List.take_add_one, hf]
      simp [List.set_append_right, Nat.min_eq_left hi.le])
  rw [e, h]
  simp

end features

end Verif.Covdet
