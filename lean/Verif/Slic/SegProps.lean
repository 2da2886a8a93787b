import Verif.Slic.InitLemmas
import Verif.Slic.CleanProps

/-!
# Properties of the SLIC segmentation

C36: `segment_correct`.  C82: `initCenters_correct`, `assign_correct`, `recompute_correct`, `energy_antitone`, `segment_correct`.
-/

namespace Verif.Slic

open Finset

section
variable {I : List ℚ} {w h K rs : Nat}

/-- C82.  The initial centre of each region is the pixel of weakest gradient around the middle of its cell, with its position and colours. -/
theorem initCenters_correct (hI : I.length = w * h * K) (hw : 1 ≤ w) (hh : 1 ≤ h) (hrs : 1 ≤ rs) (C0 : List ℚ) (hC0 : C0.length = (2 + K) * (gridSize w rs * gridSize h rs)) :
    ∃ E C, edgeMap I w h K = some E ∧ initCenters I E w h K rs C0 = some C ∧ C.length = (2 + K) * (gridSize w rs * gridSize h rs) ∧
      ∀ r < gridSize w rs * gridSize h rs, ∃ p, IsSeed I w h K rs r p ∧ ∀ j < 2 + K, C.getD ((2 + K) * r + j) 0 = feat I w h p j := by
  obtain ⟨E, e1, hE⟩ := edgeMap_spec (w := w) (h := h) (K := K) hI
  obtain ⟨C, e2, h1, h2⟩ := initCenters_spec hI hw hh hrs E hE C0 hC0
  exact ⟨E, C, e1, e2, h1, h2⟩

/-- C82.  Whatever the centres and the old labels, the assignment gives every pixel the nearest of the regions around it, and the energy is the sum of the distances. -/
theorem assign_correct (hI : I.length = w * h * K) (hrs : 1 ≤ rs) (hn : w * h ≤ 2 ^ 32) (reg : ℚ) (C : List ℚ)
    (hC : C.length = (2 + K) * (gridSize w rs * gridSize h rs)) (seg : List Nat) (hs : seg.length = w * h) :
    ∃ seg' e, assign I w h K rs reg C seg = some (seg', e) ∧ seg'.length = w * h ∧
      (∀ p < w * h, IsNearest w h rs (dist I w h K (reg / (rs * rs)) C) p (seg'.getD p 0)) ∧
      e = ∑ p ∈ range (w * h), dist I w h K (reg / (rs * rs)) C p (seg'.getD p 0) :=
  assign_spec hI hrs hn reg C hC seg hs

/-- C82.  The new centre of a region with pixels is the mean of its pixels; that of a region without pixels is zero. -/
theorem recompute_correct (hI : I.length = w * h * K) (hn : w * h < 2 ^ 32) (n : Nat) (hnn : n ≤ w * h) (seg : List Nat) (hs : seg.length = w * h) (hr : ∀ p < w * h, seg.getD p 0 < n) :
    ∃ C, recompute I w h K n seg = some C ∧ C.length = (2 + K) * n ∧
      ∀ r < n, ∀ j < 2 + K, C.getD ((2 + K) * r + j) 0 =
        if mass (w * h) seg r = 0 then 0 else (∑ p ∈ range (w * h) with seg.getD p 0 = r, feat I w h p j) / mass (w * h) seg r := by
  obtain ⟨C, e, h1, h2⟩ := recompute_spec hI hn n hnn seg hs hr
  refine ⟨C, e, h1, ?_⟩
  intro r hr' j hj
  rw [h2 r hr' j hj, featSum, ← Finset.sum_filter]
  by_cases c : mass (w * h) seg r = 0
  · rw [if_pos c]
    unfold mass at c
    rw [Finset.card_eq_zero] at c
    rw [c]
    simp
  · rw [if_neg c, max_eq_left]
    have : (1 : ℚ) ≤ mass (w * h) seg r := by exact_mod_cast Nat.one_le_iff_ne_zero.mpr c
    refine le_trans ?_ this
    norm_num

/-- The sum of squares around the mean is the smallest. -/
theorem mean_le (S : Finset Nat) (f : Nat → ℚ) (o : ℚ) : ∑ p ∈ S, (f p - (∑ q ∈ S, f q) / S.card) ^ 2 ≤ ∑ p ∈ S, (f p - o) ^ 2 := by
  rcases S.eq_empty_or_nonempty with rfl | hne
  · simp
  have hm : (0 : ℚ) < (S.card : ℚ) := by exact_mod_cast Finset.card_pos.mpr hne
  set μ := (∑ q ∈ S, f q) / S.card with hμ
  have hs : ∑ x ∈ S, f x = S.card * μ := by rw [hμ]; field_simp
  have e : ∑ x ∈ S, (f x - o) ^ 2 - ∑ x ∈ S, (f x - μ) ^ 2 = S.card * (μ - o) ^ 2 := by
    rw [← Finset.sum_sub_distrib]
    have : ∀ x ∈ S, (f x - o) ^ 2 - (f x - μ) ^ 2 = 2 * (μ - o) * f x - (μ - o) * (μ + o) := fun x _ => by ring
    rw [Finset.sum_congr rfl this, Finset.sum_sub_distrib, ← Finset.mul_sum, hs, Finset.sum_const, nsmul_eq_mul]
    ring
  have : (0 : ℚ) ≤ S.card * (μ - o) ^ 2 := mul_nonneg hm.le (sq_nonneg _)
  linarith

theorem energy_group (D : Nat → Nat → ℚ) (n m : Nat) (seg : List Nat) (hr : ∀ p < m, seg.getD p 0 < n) :
    ∑ p ∈ range m, D p (seg.getD p 0) = ∑ r ∈ range n, ∑ p ∈ range m with seg.getD p 0 = r, D p r := by
  rw [← Finset.sum_fiberwise_of_maps_to (s := range m) (t := range n) (g := fun p => seg.getD p 0) (fun p hp => Finset.mem_range.mpr (hr p (Finset.mem_range.mp hp)))]
  apply Finset.sum_congr rfl
  intro r _
  apply Finset.sum_congr rfl
  intro p hp
  rw [Finset.mem_filter] at hp
  rw [hp.2]

/-- C82.  The energy never increases: one iteration after the other, whatever the centres at the start. -/
theorem energy_antitone (hI : I.length = w * h * K) (hrs : 1 ≤ rs) (hn : w * h < 2 ^ 32) (reg : ℚ) (hreg : 0 ≤ reg) (C : List ℚ)
    (hC : C.length = (2 + K) * (gridSize w rs * gridSize h rs)) (seg : List Nat) (hs : seg.length = w * h) :
    ∃ s1 e1 C' s2 e2, assign I w h K rs reg C seg = some (s1, e1) ∧ recompute I w h K (gridSize w rs * gridSize h rs) s1 = some C' ∧
      assign I w h K rs reg C' s1 = some (s2, e2) ∧ e2 ≤ e1 := by
  set n := gridSize w rs * gridSize h rs with hndef
  have hnn : n ≤ w * h := Nat.mul_le_mul (gridSize_le w rs hrs) (gridSize_le h rs hrs)
  obtain ⟨s1, e1, a1, l1, n1, v1⟩ := assign_spec hI hrs hn.le reg C hC seg hs
  have hr1 : ∀ p < w * h, s1.getD p 0 < n := fun p hp => (n1 p hp).1.1
  obtain ⟨C', a2, l2, v2⟩ := recompute_correct hI hn n hnn s1 l1 hr1
  obtain ⟨s2, e2, a3, l3, n3, v3⟩ := assign_spec hI hrs hn.le reg C' l2 s1 l1
  refine ⟨s1, e1, C', s2, e2, a1, a2, a3, ?_⟩
  set fc := reg / ((rs : ℚ) * rs) with hfc
  have hfc0 : 0 ≤ fc := by rw [hfc]; positivity
  -- the new assignment is at least as good as the old one for the new centres
  have step1 : e2 ≤ ∑ p ∈ range (w * h), dist I w h K fc C' p (s1.getD p 0) := by
    rw [v3]
    apply Finset.sum_le_sum
    intro p hp
    rw [Finset.mem_range] at hp
    exact (n3 p hp).2.1 _ (n1 p hp).1
  refine le_trans step1 ?_
  rw [v1, energy_group (dist I w h K fc C') n _ s1 hr1, energy_group (dist I w h K fc C) n _ s1 hr1]
  apply Finset.sum_le_sum
  intro r hr
  rw [Finset.mem_range] at hr
  by_cases c : mass (w * h) s1 r = 0
  · have c' := c
    unfold mass at c'
    rw [Finset.card_eq_zero] at c'
    rw [c']; simp
  set S := (range (w * h)).filter (fun p => s1.getD p 0 = r) with hS
  have hcard : mass (w * h) s1 r = S.card := rfl
  have hC' : ∀ j < 2 + K, C'.getD ((2 + K) * r + j) 0 = (∑ p ∈ S, feat I w h p j) / S.card := by
    intro j hj
    rw [v2 r hr j hj, if_neg c, hcard]
  have hsplit : ∀ X : List ℚ, ∑ p ∈ S, dist I w h K fc X p r = ∑ k ∈ range K, ∑ p ∈ S, (feat I w h p (k + 2) - X.getD ((2 + K) * r + (k + 2)) 0) ^ 2 +
      fc * (∑ p ∈ S, (feat I w h p 0 - X.getD ((2 + K) * r) 0) ^ 2 + ∑ p ∈ S, (feat I w h p 1 - X.getD ((2 + K) * r + 1) 0) ^ 2) := by
    intro X
    unfold dist
    rw [Finset.sum_add_distrib, Finset.sum_comm, ← Finset.mul_sum, Finset.sum_add_distrib]
  rw [hsplit, hsplit]
  have hle : ∀ j < 2 + K, ∑ p ∈ S, (feat I w h p j - C'.getD ((2 + K) * r + j) 0) ^ 2 ≤ ∑ p ∈ S, (feat I w h p j - C.getD ((2 + K) * r + j) 0) ^ 2 := by
    intro j hj
    rw [hC' j hj]
    exact mean_le S (fun p => feat I w h p j) _
  apply add_le_add
  · apply Finset.sum_le_sum
    intro k hk
    rw [Finset.mem_range] at hk
    exact hle (k + 2) (by omega)
  · exact mul_le_mul_of_nonneg_left (add_le_add (hle 0 (by omega)) (hle 1 (by omega))) hfc0

theorem loop_spec (hI : I.length = w * h * K) (hrs : 1 ≤ rs) (hn : w * h < 2 ^ 32) (reg : ℚ) : ∀ (left it : Nat) (pe se : ℚ) (C : List ℚ) (seg : List Nat),
    C.length = (2 + K) * (gridSize w rs * gridSize h rs) → seg.length = w * h →
    ∃ seg', loop I w h K rs reg left it pe se C seg = some seg' ∧ seg'.length = w * h ∧
      ((seg' = seg ∧ left = 0) ∨ ∃ C', C'.length = (2 + K) * (gridSize w rs * gridSize h rs) ∧ ∀ p < w * h, IsNearest w h rs (dist I w h K (reg / (rs * rs)) C') p (seg'.getD p 0)) := by
  intro left
  induction left with
  | zero => intro it pe se C seg hC hs; exact ⟨seg, rfl, hs, Or.inl ⟨rfl, rfl⟩⟩
  | succ left ih =>
    intro it pe se C seg hC hs
    have hnn : gridSize w rs * gridSize h rs ≤ w * h := Nat.mul_le_mul (gridSize_le w rs hrs) (gridSize_le h rs hrs)
    obtain ⟨s1, e1, a1, l1, n1, v1⟩ := assign_spec hI hrs hn.le reg C hC seg hs
    unfold loop
    rw [a1]
    simp only [Option.bind_eq_bind, Option.bind_some, numRegions1_eq _ rs hrs]
    generalize (if it = 0 then e1 else se) = se'
    split_ifs with c
    · exact ⟨s1, rfl, l1, Or.inr ⟨C, hC, n1⟩⟩
    · obtain ⟨C', a2, l2, _⟩ := recompute_spec hI hn _ hnn s1 l1 (fun p hp => (n1 p hp).1.1)
      rw [a2]
      simp only [Option.bind_some]
      obtain ⟨s2, a3, l3, h3⟩ := ih (it + 1) e1 se' C' s1 l2 l1
      refine ⟨s2, a3, l3, Or.inr ?_⟩
      rcases h3 with ⟨rfl, _⟩ | h3
      · exact ⟨C, hC, n1⟩
      · exact h3

/-- C36 and C82.  For every image, region size, regularisation and minimum size, whatever the blocks hold before, the segmentation is defined: it is a labelling by the
nearest of the regions around each pixel for some centres, with its small components absorbed by their neighbours.  Every label is the number of a region, and every
connected component of the result contains the first pixel or has at least `minRegionSize` pixels. -/
theorem segment_correct (hI : I.length = w * h * K) (hw : 1 ≤ w) (hh : 1 ≤ h) (hK : 1 ≤ K) (hrs : 1 ≤ rs) (hn : w * h < 2 ^ 32) (reg : ℚ) (hreg : 0 ≤ reg) (minSize : Nat)
    (C0 : List ℚ) (hC0 : C0.length = (2 + K) * (gridSize w rs * gridSize h rs)) (seg0 : List Nat) (hs0 : seg0.length = w * h) :
    ∃ out, segment I w h K rs reg minSize C0 seg0 = some out ∧ out.length = w * h ∧ (∀ l ∈ out, l < gridSize w rs * gridSize h rs) ∧
      (∀ p < w * h, Connected w h (fun q => out.getD q 0) p 0 ∨ AtLeast minSize (Connected w h (fun q => out.getD q 0) p)) ∧
      ∃ (C : List ℚ) (seg : List Nat), C.length = (2 + K) * (gridSize w rs * gridSize h rs) ∧ seg.length = w * h ∧
        (∀ p < w * h, IsNearest w h rs (dist I w h K (reg / (rs * rs)) C) p (seg.getD p 0)) ∧
        (∀ p < w * h, AtLeast minSize (Connected w h (fun q => seg.getD q 0) p) → out[p]? = seg[p]?) ∧
        ∀ p < w * h, ∀ q, Connected w h (fun q => seg.getD q 0) p q → out[p]? = out[q]? := by
  obtain ⟨E, C1, e1, e2, l2, _⟩ := initCenters_correct hI hw hh hrs C0 hC0
  obtain ⟨seg, e3, l3, h3⟩ := loop_spec hI hrs hn reg 100 0 0 0 C1 seg0 l2 hs0
  rcases h3 with ⟨_, h3⟩ | ⟨C, hC, h3⟩
  · omega
  have hnn : gridSize w rs * gridSize h rs ≤ w * h := Nat.mul_le_mul (gridSize_le w rs hrs) (gridSize_le h rs hrs)
  have hlab : ∀ l ∈ seg, l < gridSize w rs * gridSize h rs := by
    intro l hl
    obtain ⟨p, hp, e⟩ := List.getElem_of_mem hl
    have := (h3 p (by omega)).1.1
    rw [show seg.getD p 0 = l by simp [List.getD, hp, e]] at this
    exact this
  obtain ⟨out, e4, l4, g1, g2, g3, g4⟩ := clean_correct w h minSize seg l3 (fun l hl => by have := hlab l hl; omega)
  refine ⟨out, ?_, l4, fun l hl => hlab l (g4 l hl), g1, C, seg, hC, l3, h3, g2, g3⟩
  unfold segment
  have ha : assert' (decide (1 ≤ w ∧ 1 ≤ h ∧ 1 ≤ K ∧ 1 ≤ rs ∧ 0 ≤ reg)) = some () := by
    unfold assert'
    rw [decide_eq_true (⟨hw, hh, hK, hrs, hreg⟩ : 1 ≤ w ∧ 1 ≤ h ∧ 1 ≤ K ∧ 1 ≤ rs ∧ 0 ≤ reg)]
    rfl
  rw [ha, e1]
  simp only [Option.bind_eq_bind, Option.bind_some]
  rw [e2]
  simp only [Option.bind_some]
  rw [e3]
  exact e4

/-- The hypotheses are met: an image of four by two pixels with one colour and regions of side two; the two halves are separated. -/
example : ([0, 0, 9, 9, 0, 0, 9, 9] : List ℚ).length = 4 * 2 * 1 ∧ gridSize 4 2 * gridSize 2 2 = 2 ∧
    segment [0, 0, 9, 9, 0, 0, 9, 9] 4 2 1 2 1 1 (List.replicate 6 7) (List.replicate 8 5) = some [0, 0, 1, 1, 0, 0, 1, 1] := by
  decide +kernel

end

end Verif.Slic
