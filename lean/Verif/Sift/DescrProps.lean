import Verif.Sift.DescrLemmas
import Mathlib.Tactic.IntervalCases
import Mathlib.Algebra.BigOperators.Field
import Mathlib.Algebra.Order.BigOperators.Ring.Finset

/-!
# C77, C78, C79: descriptor of a SIFT keypoint
-/

namespace Verif.Sift

open Finset

theorem split_index (i : Nat) (h : i < 128) : ∃ b' < 4, ∃ bx < 4, ∃ bt < 8, i = 32 * b' + 8 * bx + bt :=
  ⟨i / 32, by omega, i / 8 % 4, by omega, i % 8, by omega, by omega⟩

/-- The entry `i` of the histogram. -/
def descrEntry (H : Nat → Nat → Nat → ℚ) (i : Nat) : ℚ := H (i / 32) (i / 8 % 4) (i % 8)

theorem arr_of_bins (l : List ℚ) (hl : l.length = 128) (H : Nat → Nat → Nat → ℚ) (h : ∀ b' < 4, ∀ bx < 4, ∀ bt < 8, l[32 * b' + 8 * bx + bt]? = some (H b' bx bt)) :
    Arr l 128 (descrEntry H) := by
  refine ⟨hl, fun i hi => ?_⟩
  have := h (i / 32) (by omega) (i / 8 % 4) (by omega) (i % 8) (by omega)
  rwa [show 32 * (i / 32) + 8 * (i / 8 % 4) + i % 8 = i by omega] at this

/-- **C77.**  For a keypoint of the current octave, inside it and not in its last row, at an inner level, the function has no undefined behaviour, and the 128 entries of the
descriptor are the histogram of the gradients of the window (`descrSum`), normalised, cut at 0.2 and normalised again.  The entry of the spatial bin in column `i / 8 % 4` and row
`i / 32` and of the orientation bin `i % 8` is entry `i`.  What was in the buffer before does not matter. -/
theorem keypointDescriptor_correct (f : DescrFilt) (hsq : ∀ a, 0 ≤ f.sq a) (heps : 0 < f.epsF) (grad descr : List ℚ) (w h L lvl : Nat) (x y sigma st0 ct0 angle0 : ℚ)
    (ok : DescrOk ⟨f.twoPi, f.fuel, f.tab, st0, ct0, angle0, f.magnif * sigma + f.epsD, f.windowSize⟩ grad w h L lvl x y)
    (hx : 0 ≤ x + 1 / 2) (hx' : x + 1 / 2 < w) (hy : 0 ≤ y + 1 / 2) (hy' : y + 1 / 2 < h - 1) (sMin : Int) :
    ∃ out, keypointDescriptor f grad descr w h sMin (sMin + L + 2) true x y sigma (sMin + 1 + lvl) st0 ct0 angle0 = some out ∧ out.length = 128 ∧
      ∀ i < 128, out[i]? = some (descrFinal f.sq f.epsF f.normThresh f.normThresh 128
        (fun j => descrSum f.twoPi f.tab grad st0 ct0 angle0 (f.magnif * sigma + f.epsD) f.windowSize w h lvl 1 ⌊x + 1 / 2⌋ ⌊y + 1 / 2⌋
          ⌊f.sqrt2 * (f.magnif * sigma + f.epsD) * 5 / 2 + 1 / 2⌋ x y (j / 32) (j / 8 % 4) (j % 8)) i) := by
  have hfx : 0 ≤ ⌊x + 1 / 2⌋ := Int.floor_nonneg.mpr hx
  have hfy : 0 ≤ ⌊y + 1 / 2⌋ := Int.floor_nonneg.mpr hy
  have hfx' : ⌊x + 1 / 2⌋ < w := by rw [Int.floor_lt]; exact_mod_cast hx'
  have hfy' : ⌊y + 1 / 2⌋ < h - 1 := by rw [Int.floor_lt]; push_cast; exact hy'
  obtain ⟨d, e1, hl, hd⟩ := descrHist_spec ok 1 ⌊x + 1 / 2⌋ ⌊y + 1 / 2⌋ ⌊f.sqrt2 * (f.magnif * sigma + f.epsD) * 5 / 2 + 1 / 2⌋
  obtain ⟨out, e2, ho⟩ := finishDescr_spec f.sq f.epsF f.normThresh f.normThresh hsq heps 128 d _ (arr_of_bins d hl _ hd)
  refine ⟨out, ?_, ho.len, ho.get⟩
  have hlv := ok.level
  unfold keypointDescriptor
  simp only [trunc_eq _ hx, trunc_eq _ hy]
  rw [if_neg (by simp only [Bool.true_eq_false, false_or]; omega), show sMin + 1 + (lvl : Int) - sMin - 1 = lvl by ring]
  unfold DescrFilt.env DescrFilt.win DescrFilt.sbp
  rw [show ((1 : Nat) : Int) = 1 from rfl] at e1
  rw [e1]
  simp only [Option.bind_eq_bind, Option.bind_some]
  exact e2

/-- **C77, raw data.**  The same for the function that is given the gradients: all pixels of the window count, and the threshold is compared with the norm per sample. -/
theorem rawDescriptor_correct (f : DescrFilt) (hsq : ∀ a, 0 ≤ f.sq a) (heps : 0 < f.epsF) (grad descr : List ℚ) (w h : Nat) (x y sigma st0 ct0 angle0 : ℚ)
    (ok : DescrOk ⟨f.twoPi, f.fuel, f.tab, st0, ct0, angle0, f.magnif * sigma + f.epsD, f.windowSize⟩ grad w h 1 0 x y)
    (hx : 0 ≤ x + 1 / 2) (hx' : x + 1 / 2 < w) (hy : 0 ≤ y + 1 / 2) (hy' : y + 1 / 2 < h - 1)
    (hW : 0 ≤ ⌊f.sqrt2 * (f.magnif * sigma + f.epsD) * 5 / 2 + 1 / 2⌋) :
    ∃ out, rawDescriptor f grad descr w h x y sigma st0 ct0 angle0 = some out ∧ out.length = 128 ∧
      ∀ i < 128, out[i]? = some (descrFinal f.sq f.epsF f.normThresh
        (f.normThresh *
          (((range h).filter (fun (v : Nat) => |(v : Int) - ⌊y + 1 / 2⌋| ≤ ⌊f.sqrt2 * (f.magnif * sigma + f.epsD) * 5 / 2 + 1 / 2⌋)).card *
            ((range w).filter (fun (u : Nat) => |(u : Int) - ⌊x + 1 / 2⌋| ≤ ⌊f.sqrt2 * (f.magnif * sigma + f.epsD) * 5 / 2 + 1 / 2⌋)).card : Nat)) 128
        (fun j => descrSum f.twoPi f.tab grad st0 ct0 angle0 (f.magnif * sigma + f.epsD) f.windowSize w h 0 0 ⌊x + 1 / 2⌋ ⌊y + 1 / 2⌋
          ⌊f.sqrt2 * (f.magnif * sigma + f.epsD) * 5 / 2 + 1 / 2⌋ x y (j / 32) (j / 8 % 4) (j % 8)) i) := by
  have hfx : 0 ≤ ⌊x + 1 / 2⌋ := Int.floor_nonneg.mpr hx
  have hfy : 0 ≤ ⌊y + 1 / 2⌋ := Int.floor_nonneg.mpr hy
  have hfx' : ⌊x + 1 / 2⌋ < w := by rw [Int.floor_lt]; exact_mod_cast hx'
  have hfy' : ⌊y + 1 / 2⌋ < h - 1 := by rw [Int.floor_lt]; push_cast; exact hy'
  obtain ⟨d, e1, hl, hd⟩ := descrHist_spec ok 0 ⌊x + 1 / 2⌋ ⌊y + 1 / 2⌋ ⌊f.sqrt2 * (f.magnif * sigma + f.epsD) * 5 / 2 + 1 / 2⌋
  have hcard : ∀ (n : Nat) (W c : Int), 0 ≤ W → 0 ≤ c → c < n →
      ((((range n).filter (fun (v : Nat) => |(v : Int) - c| ≤ W)).card : Nat) : Int) = min W (n - c - 1) - max (-W) (-c) + 1 := by
    intro n W c h0 h1 h2
    have := Int.card_Icc (max (-W) (-c)) (min W (n - c - 1))
    have e : ((range n).filter (fun (v : Nat) => |(v : Int) - c| ≤ W)).card = (Finset.Icc (max (-W) (-c)) (min W (n - c - 1))).card := by
      refine Finset.card_nbij' (fun u : Nat => (u : Int) - c) (fun a => (a + c).toNat) ?_ ?_ ?_ ?_
      · intro a ha
        simp only [Finset.coe_filter, Set.mem_ofPred_eq, Finset.mem_range, abs_le] at ha
        simp only [Finset.coe_Icc, Set.mem_Icc, max_le_iff, le_min_iff]; omega
      · intro a ha
        simp only [Finset.coe_Icc, Set.mem_Icc, max_le_iff, le_min_iff] at ha
        simp only [Finset.coe_filter, Set.mem_ofPred_eq, Finset.mem_range, abs_le]; omega
      · intro a ha; simp
      · intro a ha
        simp only [Finset.coe_Icc, Set.mem_Icc, max_le_iff, le_min_iff] at ha
        simp only; omega
    rw [e, this]
    omega
  obtain ⟨out, e2, ho⟩ := finishDescr_spec f.sq f.epsF f.normThresh (f.normThresh *
          (((range h).filter (fun (v : Nat) => |(v : Int) - ⌊y + 1 / 2⌋| ≤ ⌊f.sqrt2 * (f.magnif * sigma + f.epsD) * 5 / 2 + 1 / 2⌋)).card *
            ((range w).filter (fun (u : Nat) => |(u : Int) - ⌊x + 1 / 2⌋| ≤ ⌊f.sqrt2 * (f.magnif * sigma + f.epsD) * 5 / 2 + 1 / 2⌋)).card : Nat)) hsq heps 128 d _ (arr_of_bins d hl _ hd)
  refine ⟨out, ?_, ho.len, ho.get⟩
  unfold rawDescriptor
  simp only [trunc_eq _ hx, trunc_eq _ hy]
  rw [if_neg (by omega)]
  unfold DescrFilt.env DescrFilt.win DescrFilt.sbp
  rw [show ⌊x + 1 / 2⌋ * 2 + ⌊y + 1 / 2⌋ * (2 * (w : Int)) = ⌊x + 1 / 2⌋ * 2 + ⌊y + 1 / 2⌋ * (2 * (w : Int)) + ((0 : Nat) : Int) * (2 * (w : Int) * h) by push_cast; ring]
  rw [show ((0 : Nat) : Int) = 0 from rfl] at e1 ⊢
  rw [e1]
  simp only [Option.bind_eq_bind, Option.bind_some]
  rw [← hcard w _ _ hW hfx hfx', ← hcard h _ _ hW hfy (by omega)]
  have hc : ∀ a b : Nat, (((a : Int) * (b : Int) : Int) : ℚ) = ((b * a : Nat) : ℚ) := by intro a b; push_cast; ring
  rw [hc]
  exact e2

/-- **C77.**  A keypoint of another octave, outside, or at a level without gradients leaves the buffer as it is. -/
theorem keypointDescriptor_skip (f : DescrFilt) (grad descr : List ℚ) (w h sMin sMax si : Int) (x y sigma st0 ct0 angle0 : ℚ) (current : Bool)
    (hs : current = false ∨ x + 1 / 2 ≤ -1 ∨ (w : ℚ) ≤ x + 1 / 2 ∧ 0 ≤ w ∨ y + 1 / 2 ≤ -1 ∨ (h : ℚ) ≤ y + 1 / 2 ∧ 0 ≤ h ∨ si ≤ sMin ∨ sMax - 2 < si) :
    keypointDescriptor f grad descr w h sMin sMax current x y sigma si st0 ct0 angle0 = some descr := by
  have hneg : ∀ a : ℚ, a ≤ -1 → trunc a < 0 := by
    intro a ha
    unfold trunc
    rw [if_neg (by linarith)]
    have : (1 : Int) ≤ ⌊-a⌋ := by rw [Int.le_floor]; push_cast; linarith
    omega
  have hge : ∀ (a : ℚ) (n : Int), (n : ℚ) ≤ a → 0 ≤ n → n ≤ trunc a := by
    intro a n ha hn
    rw [trunc_eq a (le_trans (by exact_mod_cast hn) ha), Int.le_floor]; exact ha
  unfold keypointDescriptor
  simp only
  rw [if_pos]
  rcases hs with hs | hs | ⟨hs, h0⟩ | hs | ⟨hs, h0⟩ | hs | hs
  · exact Or.inl hs
  · exact Or.inr (Or.inl (hneg _ hs))
  · exact Or.inr (Or.inr (Or.inl (hge _ _ hs h0)))
  · exact Or.inr (Or.inr (Or.inr (Or.inl (hneg _ hs))))
  · have := hge _ _ hs h0
    refine Or.inr (Or.inr (Or.inr (Or.inr (Or.inl ?_))))
    omega
  · exact Or.inr (Or.inr (Or.inr (Or.inr (Or.inr (Or.inl (by omega))))))
  · exact Or.inr (Or.inr (Or.inr (Or.inr (Or.inr (Or.inr (by omega))))))

/-- The claim that every keypoint in the octave, at an inner level, gets a descriptor that does not depend on what was in the buffer before. -/
def DescriptorWrittenClaim : Prop :=
  ∀ (f : DescrFilt) (grad d1 d2 : List ℚ) (w h : Nat) (x y sigma st0 ct0 angle0 : ℚ),
    (∀ a, 0 ≤ f.sq a) → 0 < f.epsF → DescrOk ⟨f.twoPi, f.fuel, f.tab, st0, ct0, angle0, f.magnif * sigma + f.epsD, f.windowSize⟩ grad w h 1 0 x y →
    d1.length = 128 → d2.length = 128 → 0 ≤ x + 1 / 2 → x + 1 / 2 < w → 0 ≤ y + 1 / 2 → y + 1 / 2 < h →
    keypointDescriptor f grad d1 w h (-1) 2 true x y sigma 0 st0 ct0 angle0 = keypointDescriptor f grad d2 w h (-1) 2 true x y sigma 0 st0 ct0 angle0

/-- It is false: a keypoint in the last row of the octave gets no descriptor, the buffer of the caller stays as it is. -/
theorem descriptorWritten_claim_false : ¬ DescriptorWrittenClaim := by
  intro hc
  have := hc ⟨3, 2, 0, 6, 1, fun _ => 1, 0, 1, List.replicate 257 1, 5⟩ [1, 0, 2, 3] (List.replicate 128 0) (List.replicate 128 1) 1 2 0 1 1 0 1 0
    (by intro a; norm_num) (by norm_num)
    ⟨by norm_num, List.length_replicate, rfl, by norm_num, by norm_num, by norm_num,
      by intro v hv u hu; interval_cases v <;> interval_cases u <;> norm_num [gradAng],
      by intro v hv u hu; interval_cases v <;> interval_cases u <;> norm_num [frameX, frameY]⟩
    List.length_replicate List.length_replicate (by norm_num) (by norm_num) (by norm_num) (by norm_num)
  have hr : ∀ d, keypointDescriptor ⟨3, 2, 0, 6, 1, fun _ => 1, 0, 1, List.replicate 257 1, 5⟩ [1, 0, 2, 3] d (1 : Nat) (2 : Nat) (-1) 2 true 0 1 1 0 0 1 0 = some d := by
    intro d
    unfold keypointDescriptor
    simp only
    have e : trunc ((1 : ℚ) + 1 / 2) = 1 := by
      rw [trunc_eq _ (by norm_num), Int.floor_eq_iff]; norm_num
    rw [if_pos]
    rw [e]
    right; right; right; right; left
    norm_num
  rw [hr, hr] at this
  have h2 := congrArg (fun o : Option (List ℚ) => o.map (fun l => l[0]?)) this
  simp only [Option.map_some, Option.some.injEq] at h2
  rw [List.getElem?_replicate, List.getElem?_replicate] at h2
  norm_num at h2

theorem unit_sq_le (sq : ℚ → ℚ) (hsq : ∀ a, 0 ≤ a → 0 ≤ sq a ∧ a ≤ sq a ^ 2) (eps : ℚ) (heps : 0 < eps) (n : Nat) (f : Nat → ℚ) :
    ∑ i ∈ range n, unit sq eps n f i ^ 2 ≤ 1 := by
  obtain ⟨h1, h2⟩ := hsq (∑ j ∈ range n, f j ^ 2) (Finset.sum_nonneg (fun i _ => sq_nonneg _))
  unfold unit
  simp only [div_pow]
  rw [← Finset.sum_div, div_le_one (by positivity)]
  nlinarith

/-- **C78.**  The descriptor has no negative entry and its norm is at most one, so no entry is above one.  Only nonnegative magnitudes and a nonnegative table are needed, and
a square root that is not below the true one. -/
theorem descriptor_bounds (sq : ℚ → ℚ) (hsq : ∀ a, 0 ≤ a → 0 ≤ sq a ∧ a ≤ sq a ^ 2) (eps thr bound : ℚ) (heps : 0 < eps) (n : Nat) (f : Nat → ℚ) (hf : ∀ i < n, 0 ≤ f i) :
    (∀ i < n, 0 ≤ descrFinal sq eps thr bound n f i ∧ descrFinal sq eps thr bound n f i ≤ 1) ∧ ∑ i ∈ range n, descrFinal sq eps thr bound n f i ^ 2 ≤ 1 := by
  have hsum : ∑ i ∈ range n, descrFinal sq eps thr bound n f i ^ 2 ≤ 1 := by
    unfold descrFinal
    split_ifs
    · simp
    · exact unit_sq_le sq hsq eps heps n _
  have hnn : ∀ i < n, 0 ≤ descrFinal sq eps thr bound n f i := by
    intro i hi
    have hu : ∀ g : Nat → ℚ, (∀ i < n, 0 ≤ g i) → 0 ≤ unit sq eps n g i := by
      intro g hg
      obtain ⟨h1, -⟩ := hsq (∑ j ∈ range n, g j ^ 2) (Finset.sum_nonneg (fun i _ => sq_nonneg _))
      exact div_nonneg (hg i hi) (by linarith)
    unfold descrFinal
    split_ifs
    · exact le_refl _
    · apply hu
      intro j hj
      refine le_min ?_ (by norm_num)
      obtain ⟨h1, -⟩ := hsq (∑ j ∈ range n, f j ^ 2) (Finset.sum_nonneg (fun i _ => sq_nonneg _))
      exact div_nonneg (hf j hj) (by linarith)
  refine ⟨fun i hi => ⟨hnn i hi, ?_⟩, hsum⟩
  have h1 := Finset.single_le_sum (f := fun i => descrFinal sq eps thr bound n f i ^ 2) (fun j _ => sq_nonneg _) (Finset.mem_range.mpr hi)
  have h2 := hnn i hi
  nlinarith

/-- The histogram is nonnegative. -/
theorem descrSum_nonneg (twoPi : ℚ) (tab grad : List ℚ) (ht : ∀ a ∈ tab, 0 ≤ a) (st0 ct0 angle0 sbp wsigma : ℚ) (w h lvl mg : Nat) (hg : ∀ v < h, ∀ u < w, 0 ≤ gradMod grad w h lvl v u)
    (xi yi W : Int) (x y : ℚ) (b' bx bt : Nat) : 0 ≤ descrSum twoPi tab grad st0 ct0 angle0 sbp wsigma w h lvl mg xi yi W x y b' bx bt := by
  have htab : ∀ i, 0 ≤ tab.getD i 0 := by
    intro i
    by_cases hi : i < tab.length
    · rw [List.getD_eq_getElem _ _ hi]; exact ht _ (List.getElem_mem hi)
    · rw [List.getD_eq_default _ _ (by omega)]
  have hex : ∀ a, 0 ≤ expn tab a := by
    intro a
    unfold expn
    split_ifs
    · exact le_refl _
    · have h1 := Int.floor_le (a * (256 / 25))
      have h2 := Int.lt_floor_add_one (a * (256 / 25))
      exact add_nonneg (mul_nonneg (by linarith) (htab _)) (mul_nonneg (by linarith) (htab _))
  unfold descrSum
  refine Finset.sum_nonneg (fun v hv => ?_)
  split_ifs
  · refine Finset.sum_nonneg (fun u hu => ?_)
    split_ifs
    · unfold descrTerm tri
      have h1 := hg v (Finset.mem_range.mp hv) u (Finset.mem_range.mp hu)
      exact mul_nonneg (mul_nonneg (mul_nonneg (mul_nonneg h1 (hex _)) (le_max_left _ _)) (le_max_left _ _)) (le_max_left _ _)
    · exact le_refl _
  · exact le_refl _

/-- The hypotheses of C77 can be met: an octave of 3 by 3 pixels. -/
example : ∃ out, keypointDescriptor ⟨3, 2, 0, 6, 1, fun _ => 1, 0, 1, List.replicate 257 1, 5⟩ [1, 0, 2, 3, 4, 5, 1, 0, 2, 3, 4, 5, 1, 0, 2, 3, 4, 5] [] 3 3 (-1) 2 true 1 (1 / 4) 1 0 0 1 0 =
    some out ∧ out.length = 128 := by
  obtain ⟨out, h1, h2, -⟩ := keypointDescriptor_correct ⟨3, 2, 0, 6, 1, fun _ => 1, 0, 1, List.replicate 257 1, 5⟩ (by intro a; norm_num) (by norm_num)
    [1, 0, 2, 3, 4, 5, 1, 0, 2, 3, 4, 5, 1, 0, 2, 3, 4, 5] [] 3 3 1 0 1 (1 / 4) 1 0 1 0
    ⟨by norm_num, List.length_replicate, rfl, by norm_num, by norm_num, by norm_num,
      by intro v hv u hu; interval_cases v <;> interval_cases u <;> norm_num [gradAng],
      by intro v hv u hu; interval_cases v <;> interval_cases u <;> norm_num [frameX, frameY]⟩
    (by norm_num) (by norm_num) (by norm_num) (by norm_num) (-1)
  exact ⟨out, h1, h2⟩

/-- **C79.**  The keypoint made from a position and a scale is at an octave of the filter and at a level with gradients; its fractional level is that of its scale; the
octave and the level together are the level of the scale space next to the scale (the first or the last one when the scale is outside). -/
theorem keypointInit_correct (xper : Int → ℚ) (hx : ∀ o, xper o ≠ 0) (oMin O S : Int) (hO : 1 ≤ O) (hS : 1 ≤ S) (phi x y sigma : ℚ) :
    ∃ k, keypointInit xper (-1) (S + 1) oMin O S phi x y sigma = some k ∧ oMin ≤ k.o ∧ k.o ≤ oMin + O - 1 ∧ 0 ≤ k.is ∧ k.is ≤ S - 1 ∧
      phi = k.o + k.s / S ∧ k.o * S + k.is = nearestLevel oMin O S phi ∧ k.x = x ∧ k.y = y ∧ k.sigma = sigma ∧
      k.ix = trunc (x / xper k.o + 1 / 2) ∧ k.iy = trunc (y / xper k.o + 1 / 2) := by
  have hS0 : (0 : ℚ) < S := by exact_mod_cast (show 0 < S by omega)
  unfold keypointInit
  rw [if_neg (by omega)]
  simp only
  rw [if_neg (hx _)]
  refine ⟨_, rfl, ?_⟩
  simp only
  rw [vlFloor_eq]
  have hlo := Int.floor_le (phi - (((-1 : Int) : ℚ) + 1 / 2) / S)
  have hhi := Int.lt_floor_add_one (phi - (((-1 : Int) : ℚ) + 1 / 2) / S)
  generalize ⌊phi - (((-1 : Int) : ℚ) + 1 / 2) / S⌋ = o0 at *
  have ea : phi - (((-1 : Int) : ℚ) + 1 / 2) / S = (S * phi + 1 / 2) / S := by field_simp; push_cast; ring
  rw [ea] at hlo hhi
  rw [le_div_iff₀ hS0] at hlo
  rw [div_lt_iff₀ hS0] at hhi
  have n1 : o0 * S ≤ ⌊(S : ℚ) * phi + 1 / 2⌋ := by rw [Int.le_floor]; push_cast; exact hlo
  have n2 : ⌊(S : ℚ) * phi + 1 / 2⌋ < (o0 + 1) * S := by rw [Int.floor_lt]; push_cast; exact hhi
  have hfl : ∀ o : Int, ⌊(S : ℚ) * (phi - o) + 1 / 2⌋ = ⌊(S : ℚ) * phi + 1 / 2⌋ - S * o := by
    intro o
    rw [show (S : ℚ) * (phi - o) + 1 / 2 = (S * phi + 1 / 2) - ((S * o : Int) : ℚ) by push_cast; ring, Int.floor_sub_intCast]
  have htr : ∀ o : Int, S * o ≤ ⌊(S : ℚ) * phi + 1 / 2⌋ → trunc ((S : ℚ) * (phi - o) + 1 / 2) = ⌊(S : ℚ) * phi + 1 / 2⌋ - S * o := by
    intro o ho
    rw [← hfl, trunc_eq]
    rw [← Int.floor_nonneg, hfl]; omega
  have htn : ∀ o : Int, ⌊(S : ℚ) * phi + 1 / 2⌋ < S * o → trunc ((S : ℚ) * (phi - o) + 1 / 2) ≤ 0 := by
    intro o ho
    have : (S : ℚ) * (phi - o) + 1 / 2 < 0 := by
      rw [Int.floor_lt] at ho; push_cast at ho; linarith
    unfold trunc
    rw [if_neg (by linarith)]
    have : 0 ≤ ⌊-((S : ℚ) * (phi - o) + 1 / 2)⌋ := Int.floor_nonneg.mpr (by linarith)
    omega
  refine ⟨by omega, by omega, by omega, by omega, by field_simp; ring, ?_, trivial, trivial, trivial, trivial, trivial⟩
  unfold nearestLevel
  rcases lt_or_ge o0 oMin with c | c
  · rw [show max (min o0 (oMin + O - 1)) oMin = oMin by omega]
    have h1 : (o0 + 1) * S ≤ oMin * S := Int.mul_le_mul_of_nonneg_right (by omega) (by omega)
    have h2 := htn oMin (by rw [mul_comm S]; omega)
    have h3 : oMin * S ≤ (oMin + O) * S - 1 := by nlinarith
    omega
  · rcases lt_or_ge (oMin + O - 1) o0 with c2 | c2
    · rw [show max (min o0 (oMin + O - 1)) oMin = oMin + O - 1 by omega]
      have h1 : (oMin + O) * S ≤ o0 * S := Int.mul_le_mul_of_nonneg_right (by omega) (by omega)
      have h3 : oMin * S ≤ (oMin + O) * S - 1 := by nlinarith
      have e : (oMin + O - 1) * S = (oMin + O) * S - S := by ring
      rw [htr _ (by rw [mul_comm S]; omega), mul_comm S]
      omega
    · rw [show max (min o0 (oMin + O - 1)) oMin = o0 by omega]
      have e : (o0 + 1) * S = o0 * S + S := by ring
      have h1 : oMin * S ≤ o0 * S := Int.mul_le_mul_of_nonneg_right (by omega) (by omega)
      have h2 : (o0 + 1) * S ≤ (oMin + O) * S := Int.mul_le_mul_of_nonneg_right (by omega) (by omega)
      rw [htr _ (by rw [mul_comm S]; omega), mul_comm S]
      omega

/-- The hypotheses can be met: three octaves from -1 on, three levels each, a scale of 4.6 octaves and one below the first. -/
example : (∃ k, keypointInit (fun o => 2 ^ o) (-1) 4 (-1) 3 3 (23 / 5) 10 20 30 = some k ∧ k.o * 3 + k.is = 5) ∧
    ∃ k, keypointInit (fun o => 2 ^ o) (-1) 4 (-1) 3 3 (-3 / 2) 10 20 30 = some k ∧ k.o * 3 + k.is = -3 := by
  have h := fun phi => keypointInit_correct (fun o => (2 : ℚ) ^ o) (fun o => zpow_ne_zero o (by norm_num)) (-1) 3 3 (by norm_num) (by norm_num) phi 10 20 30
  constructor
  · obtain ⟨k, h1, -, -, -, -, -, h2, -⟩ := h (23 / 5)
    refine ⟨k, h1, h2.trans ?_⟩
    unfold nearestLevel
    rw [show ⌊((3 : Int) : ℚ) * (23 / 5) + 1 / 2⌋ = 14 by rw [Int.floor_eq_iff]; norm_num]; rfl
  · obtain ⟨k, h1, -, -, -, -, -, h2, -⟩ := h (-3 / 2)
    refine ⟨k, h1, h2.trans ?_⟩
    unfold nearestLevel
    rw [show ⌊((3 : Int) : ℚ) * (-3 / 2) + 1 / 2⌋ = -4 by rw [Int.floor_eq_iff]; norm_num]; rfl

end Verif.Sift
