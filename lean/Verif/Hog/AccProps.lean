import Verif.Hog.AccLemmas

/-!
# Accumulation of HOG histograms
-/

namespace Verif.Hog

open Finset

/-- Orientation weights of a gradient, in the mode of the object. -/
def Weights (E : Cfg) (g : ℚ × ℚ) (ow : Nat → ℚ) : Prop :=
  if E.bilinear then SoftWeights E.O (score E.ox E.oy g) (fun a => E.acos (min (a / max (E.sq (norm2 g)) (1 / 10 ^ 10)) 1) / (E.pi / E.O)) ow
  else HardWeights E.O (score E.ox E.oy g) ow

theorem directedBin_lt {O : Nat} {s : Nat → ℚ} {k : Nat} (hk : k < O) : directedBin O s k < 2 * O := by
  unfold directedBin
  by_cases h : s k < 0
  · rw [if_pos h]; omega
  · rw [if_neg h]; omega

theorem putPixel_spec (E : Cfg) (im : List ℚ) (W H C c x y : Nat) (hO : 1 ≤ E.O) (hox : E.ox.length = E.O) (hoy : E.oy.length = E.O) (him : im.length = W * H * C)
    (hc : 0 < c) (hx : 1 ≤ x) (hx' : x + 1 < W) (hy : 1 ≤ y) (hy' : y + 1 < H) :
    ∃ (g : ℚ × ℚ) (ow : Nat → ℚ) (l : List (Nat × ℚ)), LargestGradient im W H C x y g ∧ Weights E g ow ∧
      (∀ b : Bufs, b.w = cells c W → b.h = cells c H → putPixel E im W H C c x y b = addBufs b l) ∧ (∀ a ∈ l, a.1 < cells c W * cells c H * E.O * 2) ∧
      ∀ X < cells c W, ∀ Y < cells c H, ∀ p, contrib l (X + Y * cells c W + p * (cells c W * cells c H)) = E.sq (norm2 g) * ow p * share c x y X Y := by
  obtain ⟨g, e1, hg⟩ := maxGradient_spec im W H C x y him hx hx' hy hy'
  obtain ⟨b, e2, k, hk, hb0, hb1, hl⟩ := closest_spec E g hO hox hoy
  set s := score E.ox E.oy g with hs
  set o := interpolate E (E.sq (norm2 g)) b with ho
  set F : ℚ → ℚ → ℚ → ℚ := fun ow wx wy => E.sq (norm2 g) * ow * wx * wy with hF
  have hput : ∀ b : Bufs, b.w = cells c W → b.h = cells c H →
      putPixel E im W H C c x y b = addBufs b (binList (cells c W) (cells c H) c x y o.b0 o.w0 F ++ binList (cells c W) (cells c H) c x y o.b1 o.w1 F) := by
    intro b hw hh
    unfold putPixel
    rw [e1]
    simp only [Option.bind_eq_bind, Option.bind_some]
    rw [e2]
    simp only [Option.bind_some]
    rw [splatBin_eq hc (by omega : x < W) (by omega : y < H) _ _ _ b hw hh, ← hw, ← hh]
    apply addBufs_bind
    intro b' h1 h2
    rw [splatBin_eq hc (by omega : x < W) (by omega : y < H) _ _ _ b' (h1.trans hw) (h2.trans hh), h1, h2]
  have hco : ∀ X < cells c W, ∀ Y < cells c H, ∀ p : Nat,
      contrib (binList (cells c W) (cells c H) c x y o.b0 o.w0 F ++ binList (cells c W) (cells c H) c x y o.b1 o.w1 F) (X + Y * cells c W + p * (cells c W * cells c H)) =
        E.sq (norm2 g) * ((if (p : Int) = o.b0 then o.w0 else 0) + (if (p : Int) = o.b1 then o.w1 else 0)) * share c x y X Y := by
    intro X hX Y hY p
    rw [contrib_append, contrib_binList hX hY c x y o.b0 o.w0 (E.sq (norm2 g) * o.w0) F (fun _ _ => rfl),
      contrib_binList hX hY c x y o.b1 o.w1 (E.sq (norm2 g) * o.w1) F (fun _ _ => rfl)]
    split_ifs <;> ring
  have hlt0 : (directedBin E.O s k : Int) < 2 * E.O := by exact_mod_cast directedBin_lt hk.1
  refine ⟨g, fun p => (if (p : Int) = o.b0 then o.w0 else 0) + (if (p : Int) = o.b1 then o.w1 else 0), _, hg, ?_, hput, ?_, hco⟩
  · unfold Weights
    rw [← hs]
    unfold interpolate at ho
    cases hB : E.bilinear with
    | false =>
      rw [hB] at ho
      simp only [Bool.false_eq_true, if_false] at ho ⊢
      refine ⟨k, hk, fun p => ?_⟩
      rw [ho]
      simp only [hb1, Nat.cast_inj]
      rw [if_neg (by omega : ¬ (p : Int) = -1), add_zero]
    | true =>
      rw [hB] at ho
      simp only [if_true] at ho ⊢
      refine ⟨k, hk, ?_⟩
      rcases hl with ⟨h1, h2⟩ | ⟨l, h1, h2⟩
      · refine Or.inl ⟨h1, fun p => ?_⟩
        rw [ho]
        simp only [hb1, h2, hb0, Nat.cast_inj]
        rw [if_neg (by omega : ¬ (p : Int) = -1), add_zero]
      · refine Or.inr ⟨l, h1, fun p => ?_⟩
        rw [ho]
        simp only [hb1, h2, hb0, Nat.cast_inj]
  · have h0 : o.b0 < 2 * E.O := by
      rw [ho]; unfold interpolate
      cases E.bilinear <;> simp only [hb1, if_true, Bool.false_eq_true, if_false] <;> exact hlt0
    have h1 : o.b1 < 2 * E.O := by
      rw [ho]; unfold interpolate
      cases E.bilinear with
      | false => simp only [Bool.false_eq_true, if_false]; omega
      | true =>
        simp only [if_true]
        rcases hl with ⟨_, h2⟩ | ⟨l, h1, h2⟩
        · rw [h2]; omega
        · rw [h2]; exact_mod_cast directedBin_lt h1.1.1
    intro a ha
    rcases List.mem_append.1 ha with ha | ha
    · exact binList_lt h0 _ _ a ha
    · exact binList_lt h1 _ _ a ha

/-- The function that adds an image never accesses memory outside its buffers and the image, whatever the previous contents of the object.  It leaves in entry `(X, Y, p)` of the histograms
the sum over the pixels that have four neighbours of the norm of the gradient, times the weight of orientation `p`, times the bilinear weight of cell `(X, Y)`. -/
theorem putImage_correct (E : Cfg) (old : Option Bufs) (im : List ℚ) (W H C c : Nat) (hO : 1 ≤ E.O) (hox : E.ox.length = E.O) (hoy : E.oy.length = E.O)
    (hold : ∀ b, old = some b → Fits E.O b) (him : im.length = W * H * C) (hc : 0 < c) (hW : 3 < W) (hH : 3 < H) (hw : 0 < cells c W) (hh : 0 < cells c H) :
    ∃ (b : Bufs) (g : Nat → Nat → ℚ × ℚ) (ow : Nat → Nat → Nat → ℚ),
      putImage E old im W H C c = some b ∧ b.w = cells c W ∧ b.h = cells c H ∧ Fits E.O b ∧ b.norm = List.replicate (b.w * b.h) 0 ∧
      (∀ x y, 1 ≤ x → x ≤ W - 2 → 1 ≤ y → y ≤ H - 2 → LargestGradient im W H C x y (g x y) ∧ Weights E (g x y) (ow x y)) ∧
      ∀ X < b.w, ∀ Y < b.h, ∀ p < 2 * E.O, entry b.hog b.w b.h X Y p =
        some (∑ y ∈ Icc 1 (H - 2), ∑ x ∈ Icc 1 (W - 2), E.sq (norm2 (g x y)) * ow x y p * share c x y X Y) := by
  have hpix : ∀ x y, ∃ (g : ℚ × ℚ) (ow : Nat → ℚ) (l : List (Nat × ℚ)), 1 ≤ x → x ≤ W - 2 → 1 ≤ y → y ≤ H - 2 → LargestGradient im W H C x y g ∧ Weights E g ow ∧
      (∀ b : Bufs, b.w = cells c W → b.h = cells c H → putPixel E im W H C c x y b = addBufs b l) ∧ (∀ a ∈ l, a.1 < cells c W * cells c H * E.O * 2) ∧
      ∀ X < cells c W, ∀ Y < cells c H, ∀ p, contrib l (X + Y * cells c W + p * (cells c W * cells c H)) = E.sq (norm2 g) * ow p * share c x y X Y := by
    intro x y
    by_cases h : 1 ≤ x ∧ x ≤ W - 2 ∧ 1 ≤ y ∧ y ≤ H - 2
    · obtain ⟨g, ow, l, hl⟩ := putPixel_spec E im W H C c x y hO hox hoy him hc h.1 (by omega) h.2.2.1 (by omega)
      exact ⟨g, ow, l, fun _ _ _ _ => hl⟩
    · exact ⟨(0, 0), fun _ => 0, [], fun h1 h2 h3 h4 => absurd ⟨h1, h2, h3, h4⟩ h⟩
  choose g ow l hl using hpix
  obtain ⟨m, h1, h2, h3⟩ := fill_spec E.O (cells c W) (cells c H) (W - 2) (H - 2) (fun y x => putPixel E im W H C c (x + 1) (y + 1)) (fun y x => l (x + 1) (y + 1))
    (fun y x X Y p => E.sq (norm2 (g (x + 1) (y + 1))) * ow (x + 1) (y + 1) p * share c (x + 1) (y + 1) X Y) (by
      intro y hy x hx
      obtain ⟨-, -, a1, a2, a3⟩ := hl (x + 1) (y + 1) (by omega) (by omega) (by omega) (by omega)
      exact ⟨a1, a2, a3⟩)
  refine ⟨{ hog := m, norm := List.replicate (cells c W * cells c H) 0, w := cells c W, h := cells c H }, g, ow, ?_, rfl, rfl, ⟨h2, by simp⟩, rfl, ?_, ?_⟩
  · unfold putImage
    rw [prepare_spec E.O old W H c hold hc hW hH hw hh]
    exact h1
  · intro x y a1 a2 a3 a4
    exact ⟨(hl x y a1 a2 a3 a4).1, (hl x y a1 a2 a3 a4).2.1⟩
  · intro X hX Y hY p hp
    simp only at hX hY ⊢
    rw [h3 X hX Y hY p hp]
    congr 1
    rw [← sum_range_Icc (H - 2) (fun y => ∑ x ∈ Icc 1 (W - 2), E.sq (norm2 (g x y)) * ow x y p * share c x y X Y)]
    apply Finset.sum_congr rfl
    intro ty hty
    rw [← sum_range_Icc (W - 2)]

/-! ### Conservation of mass -/

theorem tent_sum (n : Nat) (t : ℚ) : (0 ≤ ∑ X ∈ range n, tent (t - X)) ∧ ∑ X ∈ range n, tent (t - X) ≤ 1 ∧ (0 ≤ t → t ≤ n - 1 → ∑ X ∈ range n, tent (t - X) = 1) := by
  have h0 : ∀ X : Nat, tent (t - X) = (if (X : Int) = ⌊t⌋ then 1 - (t - ⌊t⌋) else 0) + (if (X : Int) = ⌊t⌋ + 1 then t - ⌊t⌋ else 0) := by
    intro X
    have h := tent_floor t X
    push_cast at h
    rw [h]
    by_cases e : (X : Int) = ⌊t⌋
    · rw [if_pos e, if_pos e, if_neg (by omega), add_zero]
    · rw [if_neg e, if_neg e, zero_add]
  have hs : ∀ (z : Int) (v : ℚ), ∑ X ∈ range n, (if (X : Int) = z then v else 0) = if 0 ≤ z ∧ z < n then v else 0 := by
    intro z v
    by_cases hz : 0 ≤ z ∧ z < n
    · obtain ⟨k, rfl⟩ := Int.eq_ofNat_of_zero_le hz.1
      rw [if_pos hz]
      simp only [Nat.cast_inj]
      rw [Finset.sum_ite_eq' (range n) k (fun _ => v), if_pos (by rw [Finset.mem_range]; omega)]
    · rw [if_neg hz]
      apply Finset.sum_eq_zero
      intro X hX
      rw [Finset.mem_range] at hX
      rw [if_neg (by omega)]
  have h1 := Int.floor_le t
  have h2 := Int.lt_floor_add_one t
  rw [Finset.sum_congr rfl (fun X _ => h0 X), Finset.sum_add_distrib, hs, hs]
  refine ⟨?_, ?_, ?_⟩
  · split_ifs <;> linarith
  · split_ifs <;> linarith
  · intro a1 a2
    have b1 : 0 ≤ ⌊t⌋ := Int.le_floor.2 (by exact_mod_cast a1)
    have b2 : (⌊t⌋ : ℚ) ≤ n - 1 := le_trans h1 a2
    have b3 : ⌊t⌋ ≤ (n : Int) - 1 := by exact_mod_cast b2
    rw [if_pos ⟨b1, by omega⟩]
    by_cases e : 0 ≤ ⌊t⌋ + 1 ∧ ⌊t⌋ + 1 < n
    · rw [if_pos e]; ring
    · rw [if_neg e]
      have : ⌊t⌋ = (n : Int) - 1 := by omega
      have : (⌊t⌋ : ℚ) = n - 1 := by exact_mod_cast this
      linarith

/-- The part of pixel `x` that falls on the cells: what the bilinear weights along one axis sum to. -/
def coverage (c n x : Nat) : ℚ := ∑ X ∈ range (cells c n), tent (pos c x - X)

/-- Bilinear weights are between zero and one; along an axis they sum to at most one, and to one exactly when the pixel is between the centres of the first and of the last cell. -/
theorem coverage_spec (c n x : Nat) (hc : 0 < c) :
    0 ≤ coverage c n x ∧ coverage c n x ≤ 1 ∧ (c ≤ 2 * x + 1 → 2 * x + 1 + c ≤ 2 * c * cells c n → coverage c n x = 1) := by
  obtain ⟨h1, h2, h3⟩ := tent_sum (cells c n) (pos c x)
  refine ⟨h1, h2, fun a1 a2 => h3 ?_ ?_⟩
  · unfold pos
    have hc' : (0 : ℚ) < c := by exact_mod_cast hc
    rw [sub_nonneg, le_div_iff₀ hc']
    have : ((c : Nat) : ℚ) ≤ ((2 * x + 1 : Nat) : ℚ) := by exact_mod_cast a1
    push_cast at this
    linarith
  · unfold pos
    have hc' : (0 : ℚ) < c := by exact_mod_cast hc
    rw [sub_le_iff_le_add, div_le_iff₀ hc']
    have : ((2 * x + 1 + c : Nat) : ℚ) ≤ ((2 * c * cells c n : Nat) : ℚ) := by exact_mod_cast a2
    push_cast at this
    linarith

theorem tent_nonneg (t : ℚ) : 0 ≤ tent t := le_max_left _ _

theorem share_sum (c x y W H : Nat) : ∑ Y ∈ range (cells c H), ∑ X ∈ range (cells c W), share c x y X Y = coverage c W x * coverage c H y := by
  unfold coverage share
  rw [Finset.sum_mul_sum, Finset.sum_comm]

theorem sum_ite_bin (O q : Nat) (v : ℚ) (hq : q < 2 * O) : ∑ p ∈ range (2 * O), (if p = q then v else 0) = v := by
  rw [Finset.sum_ite_eq' (range (2 * O)) q (fun _ => v), if_pos (Finset.mem_range.2 hq)]

theorem weights_sum {E : Cfg} {g : ℚ × ℚ} {ow : Nat → ℚ} (h : Weights E g ow) (hb : E.bilinear = false ∨ 2 ≤ E.O) : ∑ p ∈ range (2 * E.O), ow p = 1 := by
  unfold Weights at h
  cases hB : E.bilinear with
  | false =>
    rw [hB] at h
    obtain ⟨k, hk, h⟩ := h
    rw [Finset.sum_congr rfl (fun p _ => h p), sum_ite_bin _ _ _ (directedBin_lt hk.1)]
  | true =>
    rw [hB] at h hb
    obtain ⟨k, hk, h⟩ := h
    rcases h with ⟨h, -⟩ | ⟨l, hl, h⟩
    · rcases hb with hb | hb
      · simp at hb
      · omega
    · rw [Finset.sum_congr rfl (fun p _ => h p), Finset.sum_add_distrib, sum_ite_bin _ _ _ (directedBin_lt hk.1), sum_ite_bin _ _ _ (directedBin_lt hl.1.1)]
      ring

/-- The mass of the histograms is the sum over the pixels of the norm of the gradient times the part of the pixel that falls on the cells.  (With the soft assignment to orientations and one
orientation only, part of the mass is lost.) -/
theorem putImage_mass (E : Cfg) (old : Option Bufs) (im : List ℚ) (W H C c : Nat) (hO : 1 ≤ E.O) (hox : E.ox.length = E.O) (hoy : E.oy.length = E.O)
    (hold : ∀ b, old = some b → Fits E.O b) (him : im.length = W * H * C) (hc : 0 < c) (hW : 3 < W) (hH : 3 < H) (hw : 0 < cells c W) (hh : 0 < cells c H)
    (hb : E.bilinear = false ∨ 2 ≤ E.O) :
    ∃ (b : Bufs) (g : Nat → Nat → ℚ × ℚ), putImage E old im W H C c = some b ∧ (∀ x y, 1 ≤ x → x ≤ W - 2 → 1 ≤ y → y ≤ H - 2 → LargestGradient im W H C x y (g x y)) ∧
      ∑ p ∈ range (2 * E.O), ∑ Y ∈ range (cells c H), ∑ X ∈ range (cells c W), (entry b.hog b.w b.h X Y p).getD 0 =
        ∑ y ∈ Icc 1 (H - 2), ∑ x ∈ Icc 1 (W - 2), E.sq (norm2 (g x y)) * (coverage c W x * coverage c H y) := by
  obtain ⟨b, g, ow, h1, h2, h3, -, -, h6, h7⟩ := putImage_correct E old im W H C c hO hox hoy hold him hc hW hH hw hh
  refine ⟨b, g, h1, fun x y a1 a2 a3 a4 => (h6 x y a1 a2 a3 a4).1, ?_⟩
  have e1 : ∀ p ∈ range (2 * E.O), ∑ Y ∈ range (cells c H), ∑ X ∈ range (cells c W), (entry b.hog b.w b.h X Y p).getD 0 =
      ∑ y ∈ Icc 1 (H - 2), ∑ x ∈ Icc 1 (W - 2), E.sq (norm2 (g x y)) * ow x y p * (coverage c W x * coverage c H y) := by
    intro p hp
    rw [Finset.mem_range] at hp
    have : ∀ Y ∈ range (cells c H), ∑ X ∈ range (cells c W), (entry b.hog b.w b.h X Y p).getD 0 =
        ∑ y ∈ Icc 1 (H - 2), ∑ x ∈ Icc 1 (W - 2), E.sq (norm2 (g x y)) * ow x y p * ∑ X ∈ range (cells c W), share c x y X Y := by
      intro Y hY
      rw [Finset.mem_range] at hY
      rw [Finset.sum_congr rfl (fun X hX => by rw [h7 X (by rw [h2]; exact Finset.mem_range.1 hX) Y (by rw [h3]; exact hY) p hp, Option.getD_some])]
      rw [Finset.sum_comm]
      apply Finset.sum_congr rfl
      intro y _
      rw [Finset.sum_comm]
      apply Finset.sum_congr rfl
      intro x _
      rw [Finset.mul_sum]
    rw [Finset.sum_congr rfl this, Finset.sum_comm]
    apply Finset.sum_congr rfl
    intro y _
    rw [Finset.sum_comm]
    apply Finset.sum_congr rfl
    intro x _
    rw [← Finset.mul_sum, share_sum]
  rw [Finset.sum_congr rfl e1, Finset.sum_comm]
  apply Finset.sum_congr rfl
  intro y hy
  rw [Finset.sum_comm]
  apply Finset.sum_congr rfl
  intro x hx
  rw [Finset.mem_Icc] at hx hy
  have e2 := weights_sum (h6 x y hx.1 hx.2 hy.1 hy.2).2 hb
  rw [← Finset.sum_mul, ← Finset.mul_sum, e2, mul_one]

end Verif.Hog
