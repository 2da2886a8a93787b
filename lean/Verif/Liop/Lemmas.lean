import Verif.Flat
import Verif.Liop.RankLemmas
import Verif.Qsort.Props
import Verif.Sift.DescrLemmas

/-!
# Lemmas about the LIOP descriptor
-/

namespace Verif.Liop

open Finset
open Verif.Sift (trunc vlFloor vlFloor_eq)

theorem keyCmp_threeWay (key : List ℚ) : ThreeWay (keyCmp key) := by
  constructor
  · intro x y
    unfold keyCmp
    generalize key.getD x 0 = a
    generalize key.getD y 0 = b
    rcases lt_trichotomy a b with h | h | h
    · simp [h, not_lt.mpr h.le]
    · simp [h]
    · simp [h, not_lt.mpr h.le]
  · intro x y z
    unfold keyCmp
    generalize key.getD x 0 = a
    generalize key.getD y 0 = b
    generalize key.getD z 0 = c
    split_ifs <;> first | (intro _ _; omega) | (intro _ _; exfalso; linarith)

theorem keyCmp_le (key : List ℚ) (a b : Nat) : keyCmp key a b ≤ 0 ↔ key.getD a 0 ≤ key.getD b 0 := by
  unfold keyCmp
  generalize key.getD a 0 = x
  generalize key.getD b 0 = y
  split_ifs with h1 h2
  · simp [h1.le]
  · simp [h2]
  · simp at *; linarith

theorem sort_range (key : List ℚ) (f : Nat → ℚ) (n : Nat) (h : Arr key n f) (hn : 1 ≤ n) :
    ∃ τ, Qsort.sort (keyCmp key) (List.range n) n = some τ ∧ Sorts n f τ := by
  obtain ⟨τ, h1, h2, h3⟩ := Qsort.sort_whole (keyCmp_threeWay key) (List.range n) (by simp; omega)
  rw [List.length_range] at h1
  refine ⟨τ, h1, h2, ?_⟩
  have hm : ∀ a ∈ τ, f a = key.getD a 0 := by
    intro a ha
    have := h2.subset ha
    rw [List.mem_range] at this
    simp [List.getD, h.get a this]
  refine List.Pairwise.imp_of_mem ?_ h3
  intro a b ha hb hab
  rw [hm a ha, hm b hb]
  exact (keyCmp_le key a b).mp hab

theorem rd_pixel {patch : List ℚ} {L : Nat} (hp : patch.length = L * L) {x y i : Int} (hx : 0 ≤ x) (hx' : x < L) (hy : 0 ≤ y) (hy' : y < L)
    (hi : i = x + y * L) : rdI patch i = some (pixel patch L x y) := by
  obtain ⟨a, rfl⟩ := Int.eq_ofNat_of_zero_le hx
  obtain ⟨b, rfl⟩ := Int.eq_ofNat_of_zero_le hy
  rw [rdI_eq _ _ (a + b * L) (by rw [hi]; push_cast; rfl)]
  have hl : a + b * L < patch.length := by
    rw [hp]
    have := Flat.addr_lt (n := L) (m := L) (i := b) (j := a) (by omega) (by omega)
    omega
  rw [rd_of_lt hl]
  unfold pixel
  rw [if_pos (by omega)]
  simp [List.getD, hl]

theorem pixel_out {patch : List ℚ} {L : Nat} {x y : Int} (h : ¬ (0 ≤ x ∧ x < L ∧ 0 ≤ y ∧ y < L)) : pixel patch L x y = 0 := by
  unfold pixel; rw [if_neg h]

theorem sample_spec (patch : List ℚ) (L : Nat) (hp : patch.length = L * L) (x y : ℚ) (hx : -1 ≤ x) (hx' : x < L) (hy : -1 ≤ y) (hy' : y < L) :
    sample patch L x y = some (bilinear patch L x y) := by
  have f1 : -1 ≤ ⌊x⌋ := Int.le_floor.mpr (by push_cast; exact hx)
  have f2 : ⌊x⌋ < L := Int.floor_lt.mpr (by push_cast; exact hx')
  have f3 : -1 ≤ ⌊y⌋ := Int.le_floor.mpr (by push_cast; exact hy)
  have f4 : ⌊y⌋ < L := Int.floor_lt.mpr (by push_cast; exact hy')
  unfold sample
  simp only [vlFloor_eq]
  have ea : (if ⌊x⌋ ≥ 0 ∧ ⌊y⌋ ≥ 0 then rdI patch (⌊x⌋ + ⌊y⌋ * (L : Int)) else some 0) = some (pixel patch L ⌊x⌋ ⌊y⌋) := by
    split_ifs with h
    · exact rd_pixel hp h.1 f2 h.2 f4 rfl
    · rw [pixel_out (by omega)]
  have eb : (if ⌊x⌋ < (L : Int) - 1 ∧ ⌊y⌋ ≥ 0 then rdI patch (⌊x⌋ + 1 + ⌊y⌋ * (L : Int)) else some 0) = some (pixel patch L (⌊x⌋ + 1) ⌊y⌋) := by
    split_ifs with h
    · exact rd_pixel hp (by omega) (by omega) h.2 f4 rfl
    · rw [pixel_out (by omega)]
  have ec : (if ⌊x⌋ ≥ 0 ∧ ⌊y⌋ < (L : Int) - 1 then rdI patch (⌊x⌋ + (⌊y⌋ + 1) * (L : Int)) else some 0) = some (pixel patch L ⌊x⌋ (⌊y⌋ + 1)) := by
    split_ifs with h
    · exact rd_pixel hp h.1 f2 (by omega) (by omega) rfl
    · rw [pixel_out (by omega)]
  have ed : (if ⌊x⌋ < (L : Int) - 1 ∧ ⌊y⌋ < (L : Int) - 1 then rdI patch (⌊x⌋ + 1 + (⌊y⌋ + 1) * (L : Int)) else some 0) =
      some (pixel patch L (⌊x⌋ + 1) (⌊y⌋ + 1)) := by
    split_ifs with h
    · exact rd_pixel hp (by omega) (by omega) (by omega) (by omega) rfl
    · rw [pixel_out (by omega)]
  rw [ea, eb, ec, ed]
  simp only [Option.bind_eq_bind, Option.bind_some]
  congr 1
  unfold bilinear Int.fract
  ring

theorem range_arr {l : List Nat} {n : Nat} (h : Arr l n (fun i => i)) : l = List.range n :=
  h.eq ⟨by simp, fun i hi => by simp [hi]⟩

theorem neighbours_spec (D : Desc) (patch : List ℚ) (q : Nat) (np : List Nat) (ni : List ℚ) (X Y : Nat → ℚ) (hp : patch.length = D.side * D.side)
    (hX : ∀ t < D.numNeighbours, rd D.sx (D.numNeighbours * q + t) = some (X t) ∧ -1 ≤ X t ∧ X t < D.side)
    (hY : ∀ t < D.numNeighbours, rd D.sy (D.numNeighbours * q + t) = some (Y t) ∧ -1 ≤ Y t ∧ Y t < D.side)
    (hnp : np.length = D.numNeighbours) (hni : ni.length = D.numNeighbours) :
    ∃ ni', neighbours D patch q np ni = some (List.range D.numNeighbours, ni') ∧
      Arr ni' D.numNeighbours (fun t => bilinear patch D.side (X t) (Y t)) := by
  obtain ⟨⟨np', ni'⟩, e, h1, h2⟩ := iter_inv (n := D.numNeighbours) (f := fun (t : Nat) ((np, ni) : List Nat × List ℚ) => (do
      let x ← rd D.sx (D.numNeighbours * q + t)
      let y ← rd D.sy (D.numNeighbours * q + t)
      let v ← sample patch D.side x y
      let np ← wr np t t
      let ni ← wr ni t v
      some (np, ni) : Option (List Nat × List ℚ))) (s := (np, ni))
    (fun k st => Arr st.1 D.numNeighbours (fun i => if i < k then i else np.getD i 0) ∧
      Arr st.2 D.numNeighbours (fun i => if i < k then bilinear patch D.side (X i) (Y i) else ni.getD i 0))
    ⟨(Arr.of_len' hnp 0).congr (by intro i _; rfl), (Arr.of_len' hni 0).congr (by intro i _; rfl)⟩ (by
    rintro i hi ⟨np1, ni1⟩ ⟨h1, h2⟩
    simp only at h1 h2 ⊢
    obtain ⟨x1, x2, x3⟩ := hX i hi
    obtain ⟨y1, y2, y3⟩ := hY i hi
    rw [x1, y1]
    simp only [Option.bind_eq_bind, Option.bind_some]
    rw [sample_spec patch D.side hp _ _ x2 x3 y2 y3]
    obtain ⟨np2, e1, g1⟩ := h1.wr hi i
    obtain ⟨ni2, e2, g2⟩ := h2.wr hi (bilinear patch D.side (X i) (Y i))
    simp only [Option.bind_some, e1, e2]
    refine ⟨_, rfl, g1.congr ?_, g2.congr ?_⟩
    all_goals
      intro j hj
      simp only [upd1]
      by_cases ej : j = i
      · subst ej; simp
      · rw [if_neg ej]
        by_cases c : j < i
        · rw [if_pos c, if_pos (by omega)]
        · rw [if_neg c, if_neg (by omega)])
  refine ⟨ni', ?_, h2.congr (by intro i hi; rw [if_pos hi])⟩
  have := range_arr (h1.congr (by intro i hi; rw [if_pos hi]))
  simp only at this
  rw [← this]
  exact e

theorem weight_spec (n : Nat) (ni : List ℚ) (thr : ℚ) (f : Nat → ℚ) (h : Arr ni n f) : weight n ni thr = some (pairWeight n f thr) := by
  obtain ⟨w, e, hw⟩ := iter_inv (n := n) (f := fun (k : Nat) (w : ℚ) => iter (n - (k + 1)) (fun (j : Nat) (w : ℚ) => (do
      let a ← rd ni k
      let b ← rd ni (k + 1 + j)
      some (w + (if a > b + thr ∨ b > a + thr then 1 else 0)) : Option ℚ)) w) (s := (0 : ℚ))
    (fun k w => w = ∑ k ∈ range k, ∑ t ∈ range n, if k < t ∧ (f k > f t + thr ∨ f t > f k + thr) then 1 else 0) (by simp) (by
    intro k hk w hw
    obtain ⟨w', e', hw'⟩ := iter_inv (n := n - (k + 1)) (f := fun (j : Nat) (w : ℚ) => (do
        let a ← rd ni k
        let b ← rd ni (k + 1 + j)
        some (w + (if a > b + thr ∨ b > a + thr then 1 else 0)) : Option ℚ)) (s := w)
      (fun J w' => w' = w + ∑ j ∈ range J, if f k > f (k + 1 + j) + thr ∨ f (k + 1 + j) > f k + thr then 1 else 0) (by simp) (by
      intro j hj w1 hw1
      rw [h.rd hk, h.rd (show k + 1 + j < n by omega)]
      refine ⟨_, rfl, ?_⟩
      rw [Finset.sum_range_succ, hw1]
      ring)
    refine ⟨w', e', ?_⟩
    rw [Finset.sum_range_succ, hw', hw]
    congr 1
    obtain ⟨d, rfl⟩ : ∃ d, n = (k + 1) + d := ⟨n - (k + 1), by omega⟩
    rw [Nat.add_sub_cancel_left, Finset.sum_range_add (fun t => if k < t ∧ (f k > f t + thr ∨ f t > f k + thr) then (1 : ℚ) else 0)]
    rw [Finset.sum_eq_zero (s := range (k + 1)) (by
      intro t ht
      rw [Finset.mem_range] at ht
      rw [if_neg (by omega)]), zero_add]
    apply Finset.sum_congr rfl
    intro j _
    by_cases c : f k > f (k + 1 + j) + thr ∨ f (k + 1 + j) > f k + thr
    · rw [if_pos c, if_pos ⟨by omega, c⟩]
    · rw [if_neg c, if_neg (by intro h; exact c h.2)])
  unfold weight
  rw [e, hw]
  rfl

theorem fillPatch_spec (D : Desc) (patch ints : List ℚ) (perm : List Nat) (hpix : ∀ p ∈ D.pixels, p < patch.length)
    (hi : ints.length = D.pixels.length) (hpm : perm.length = D.pixels.length) :
    ∃ ints', fillPatch D patch ints perm = some (ints', List.range D.pixels.length) ∧
      Arr ints' D.pixels.length (fun i => patch.getD (D.pixels.getD i 0) 0) := by
  obtain ⟨⟨ints', perm'⟩, e, h1, h2⟩ := iter_inv (n := D.pixels.length) (f := fun (i : Nat) ((ints, perm) : List ℚ × List Nat) => (do
      let pixel ← rd D.pixels i
      let v ← rd patch pixel
      let ints ← wr ints i v
      let perm ← wr perm i i
      some (ints, perm) : Option (List ℚ × List Nat))) (s := (ints, perm))
    (fun k st => Arr st.1 D.pixels.length (fun i => if i < k then patch.getD (D.pixels.getD i 0) 0 else ints.getD i 0) ∧
      Arr st.2 D.pixels.length (fun i => if i < k then i else perm.getD i 0))
    ⟨(Arr.of_len' hi 0).congr (by intro i _; rfl), (Arr.of_len' hpm 0).congr (by intro i _; rfl)⟩ (by
    rintro i hi ⟨np1, ni1⟩ ⟨h1, h2⟩
    simp only at h1 h2 ⊢
    have hpx : D.pixels.getD i 0 = D.pixels[i] := by simp [List.getD, hi]
    have hlt := hpix _ (List.getElem_mem hi)
    rw [rd_of_lt hi]
    simp only [Option.bind_eq_bind, Option.bind_some]
    rw [rd_of_lt hlt]
    obtain ⟨np2, e1, g1⟩ := h1.wr hi (patch[D.pixels[i]])
    obtain ⟨ni2, e2, g2⟩ := h2.wr hi i
    simp only [Option.bind_some, e1, e2]
    refine ⟨_, rfl, g1.congr ?_, g2.congr ?_⟩
    · intro j hj
      simp only [upd1]
      by_cases ej : j = i
      · subst ej
        rw [if_pos rfl, if_pos (by omega), hpx]
        simp [List.getD, hlt]
      · rw [if_neg ej]
        by_cases c : j < i
        · rw [if_pos c, if_pos (by omega)]
        · rw [if_neg c, if_neg (by omega)]
    · intro j hj
      simp only [upd1]
      by_cases ej : j = i
      · subst ej; simp
      · rw [if_neg ej]
        by_cases c : j < i
        · rw [if_pos c, if_pos (by omega)]
        · rw [if_neg c, if_neg (by omega)])
  refine ⟨ints', ?_, h1.congr (by intro i hi; rw [if_pos hi])⟩
  have := range_arr (h2.congr (by intro i hi; rw [if_pos hi]))
  simp only at this
  rw [← this]
  exact e

/-- The bin reached by the counter after `i` rounds. -/
def binBefore (N nb i : Nat) : Nat := if i = 0 then 0 else binOf N nb (i - 1)

theorem binOf_lt (N nb i : Nat) (h : 1 ≤ nb) : binOf N nb i < nb := by unfold binOf; split_ifs <;> omega

theorem bin_step (N nb i : Nat) (hnb : 1 ≤ nb) :
    binOf N nb i = if i ≥ (binBefore N nb i + 1) * (N / nb) ∧ (binBefore N nb i : Int) < (nb : Int) - 1 then binBefore N nb i + 1 else binBefore N nb i := by
  unfold binBefore binOf
  generalize N / nb = a
  by_cases ha : a = 0
  · subst ha
    simp only [if_true, Nat.mul_zero]
    by_cases hi : i = 0
    · subst hi
      rw [if_pos rfl]
      by_cases c : nb = 1
      · subst c; simp
      · rw [if_pos (by omega)]; omega
    · rw [if_neg hi]
      by_cases c : i < nb - 1
      · rw [if_pos (by omega)]; omega
      · rw [if_neg (by omega)]; omega
  · simp only [if_neg ha]
    have hpos : 0 < a := by omega
    by_cases hi : i = 0
    · subst hi
      rw [if_pos rfl, if_neg (by intro h; simp at h; omega)]
      simp
    · rw [if_neg hi]
      have h1 := Nat.div_add_mod (i - 1) a
      have h2 := Nat.mod_lt (i - 1) hpos
      have h3 : (i - 1) / a ≤ i / a := Nat.div_le_div_right (by omega)
      by_cases c : (i - 1) / a < nb - 1
      · rw [Nat.min_eq_left (show (i - 1) / a ≤ nb - 1 by omega)]
        by_cases g : i ≥ ((i - 1) / a + 1) * a
        · rw [if_pos ⟨g, by omega⟩]
          have h4 : i / a = (i - 1) / a + 1 := by
            have h5 : (i - 1) / a + 1 ≤ i / a := (Nat.le_div_iff_mul_le hpos).mpr g
            have h6 : i / a < (i - 1) / a + 1 + 1 := by
              rw [Nat.div_lt_iff_lt_mul hpos]
              have : ((i - 1) / a + 1 + 1) * a = a * ((i - 1) / a) + 2 * a := by ring
              omega
            omega
          omega
        · rw [if_neg (by intro h; exact g h.1)]
          have h4 : i / a < (i - 1) / a + 1 := by rw [Nat.div_lt_iff_lt_mul hpos]; omega
          omega
      · rw [if_neg (by omega)]
        omega

theorem addAt_arr {l : List ℚ} {n : Nat} {f : Nat → ℚ} (h : Arr l n f) {i : Nat} (hi : i < n) (v : ℚ) :
    ∃ l', addAt l i v = some l' ∧ Arr l' n (fun j => f j + if i = j then v else 0) := by
  unfold addAt
  rw [h.rd hi]
  obtain ⟨l', e, g⟩ := h.wr hi (f i + v)
  simp only [Option.bind_eq_bind, Option.bind_some, e]
  refine ⟨l', rfl, g.congr ?_⟩
  intro j _
  simp only [upd1]
  by_cases c : j = i
  · subst c; simp
  · rw [if_neg c, if_neg (by omega), add_zero]

/-- The histogram before the normalisation. -/
def hist (N nb n : Nat) (τ : Nat → List Nat) (w : Nat → ℚ) (m : Nat) : ℚ :=
  ∑ i ∈ range N, if binOf N nb i * n.factorial + lexRank (τ i) = m then w i else 0

theorem loop_spec (D : Desc) (patch : List ℚ) (perm np : List Nat) (ni : List ℚ) (thr : ℚ) (N : Nat) (σ : Nat → Nat) (X Y : Nat → Nat → ℚ) (τ : Nat → List Nat)
    (hperm : Arr perm N σ) (hp : patch.length = D.side * D.side)
    (hX : ∀ i < N, ∀ t < D.numNeighbours, rd D.sx (D.numNeighbours * σ i + t) = some (X i t) ∧ -1 ≤ X i t ∧ X i t < D.side)
    (hY : ∀ i < N, ∀ t < D.numNeighbours, rd D.sy (D.numNeighbours * σ i + t) = some (Y i t) ∧ -1 ≤ Y i t ∧ Y i t < D.side)
    (hnp : np.length = D.numNeighbours) (hni : ni.length = D.numNeighbours) (hnb : 1 ≤ D.numSpatialBins)
    (hτ : ∀ i < N, (τ i).Perm (List.range D.numNeighbours) ∧ ∀ ni', Arr ni' D.numNeighbours (fun t => bilinear patch D.side (X i t) (Y i t)) →
      Qsort.sort (keyCmp ni') (List.range D.numNeighbours) D.numNeighbours = some (τ i)) :
    ∃ s, iter N (fun i s => pixelStep D patch perm thr (N / D.numSpatialBins) D.numNeighbours.factorial i s)
        ⟨List.replicate (D.numNeighbours.factorial * D.numSpatialBins) 0, N / D.numSpatialBins, 0, 0, np, ni⟩ = some s ∧
      Arr s.desc (D.numNeighbours.factorial * D.numSpatialBins) (hist N D.numSpatialBins D.numNeighbours τ
        (fun i => pairWeight D.numNeighbours (fun t => bilinear patch D.side (X i t) (Y i t)) thr)) := by
  set w : Nat → ℚ := fun i => pairWeight D.numNeighbours (fun t => bilinear patch D.side (X i t) (Y i t)) thr with hw
  obtain ⟨s, e, h1, _⟩ := iter_inv (n := N) (f := fun i s => pixelStep D patch perm thr (N / D.numSpatialBins) D.numNeighbours.factorial i s)
    (s := ⟨List.replicate (D.numNeighbours.factorial * D.numSpatialBins) 0, N / D.numSpatialBins, 0, 0, np, ni⟩)
    (fun i s => Arr s.desc (D.numNeighbours.factorial * D.numSpatialBins)
        (fun m => ∑ j ∈ range i, if binOf N D.numSpatialBins j * D.numNeighbours.factorial + lexRank (τ j) = m then w j else 0) ∧
      s.binIndex = binBefore N D.numSpatialBins i ∧ s.binEnd = (s.binIndex + 1) * (N / D.numSpatialBins) ∧
      s.offset = s.binIndex * D.numNeighbours.factorial ∧ s.np.length = D.numNeighbours ∧ s.ni.length = D.numNeighbours)
    ⟨(Arr.replicate _ 0).congr (by intro i _; simp), by simp [binBefore], by simp, by simp, hnp, hni⟩ (by
    rintro i hi ⟨desc, be, bi, off, np1, ni1⟩ ⟨h1, h2, h3, h4, h5, h6⟩
    simp only at h1 h2 h3 h4 h5 h6
    unfold pixelStep
    simp only
    have hstep : ∃ s1 : Acc, (if i ≥ be ∧ (bi : Int) < (D.numSpatialBins : Int) - 1 then
          ({ desc := desc, binEnd := be + N / D.numSpatialBins, binIndex := bi + 1, offset := off + D.numNeighbours.factorial, np := np1, ni := ni1 } : Acc)
        else { desc := desc, binEnd := be, binIndex := bi, offset := off, np := np1, ni := ni1 }) = s1 ∧ s1.desc = desc ∧ s1.np = np1 ∧ s1.ni = ni1 ∧
        s1.binIndex = binOf N D.numSpatialBins i ∧ s1.binEnd = (s1.binIndex + 1) * (N / D.numSpatialBins) ∧
        s1.offset = s1.binIndex * D.numNeighbours.factorial := by
      have hb := bin_step N D.numSpatialBins i hnb
      rw [← h2, ← h3] at hb
      refine ⟨_, rfl, ?_⟩
      by_cases c : i ≥ be ∧ (bi : Int) < (D.numSpatialBins : Int) - 1
      · rw [if_pos c] at hb
        rw [if_pos c]
        refine ⟨rfl, rfl, rfl, hb.symm, ?_, ?_⟩
        · simp only; rw [h3]; ring
        · simp only; rw [h4]; ring
      · rw [if_neg c] at hb
        rw [if_neg c]
        exact ⟨rfl, rfl, rfl, hb.symm, h3, h4⟩
    obtain ⟨s1, es1, g1, g2, g3, g4, g5, g6⟩ := hstep
    rw [es1, hperm.rd hi]
    simp only [Option.bind_eq_bind, Option.bind_some]
    obtain ⟨ni', e1, hni'⟩ := neighbours_spec D patch (σ i) s1.np s1.ni (X i) (Y i) hp (hX i hi) (hY i hi) (by rw [g2]; exact h5) (by rw [g3]; exact h6)
    rw [e1]
    simp only [Option.bind_some]
    obtain ⟨t1, t2⟩ := hτ i hi
    rw [t2 ni' hni']
    simp only [Option.bind_some]
    obtain ⟨q, e2, hq⟩ := permIndex_spec t1
    rw [e2]
    simp only [Option.bind_some]
    rw [weight_spec _ _ thr _ hni']
    simp only [Option.bind_some]
    have hlt : lexRank (τ i) + s1.offset < D.numNeighbours.factorial * D.numSpatialBins := by
      have a1 := lexRank_lt (τ i)
      rw [t1.length_eq, List.length_range] at a1
      rw [g6, g4, Nat.mul_comm D.numNeighbours.factorial, Nat.add_comm]
      exact Flat.addr_lt (binOf_lt _ _ _ hnb) a1
    rw [g1]
    obtain ⟨desc', e3, h7⟩ := addAt_arr h1 hlt (w i)
    rw [show pairWeight D.numNeighbours (fun t => bilinear patch D.side (X i t) (Y i t)) thr = w i from rfl, e3]
    refine ⟨_, rfl, h7.congr ?_, ?_, g5, g6, hq, hni'.len⟩
    · intro m _
      rw [Finset.sum_range_succ, g6, g4, Nat.add_comm (lexRank (τ i))]
    · simp only
      rw [g4]
      simp [binBefore])
  exact ⟨s, e, h1⟩

theorem normalize_spec (sq : ℚ → ℚ) (tiny : ℚ) (ht : 0 < tiny) (n : Nat) (desc : List ℚ) (f : Nat → ℚ) (h : Arr desc n f) :
    ∃ desc', normalize sq tiny n desc = some desc' ∧ Arr desc' n (fun i => f i / max (sq (∑ j ∈ range n, f j ^ 2)) tiny) := by
  obtain ⟨s, e1, h1⟩ := iter_inv (n := n) (f := fun i (norm : ℚ) => (do
      let a ← rd desc i
      some (norm + a * a) : Option ℚ)) (s := 0) (fun k s => s = ∑ j ∈ range k, f j ^ 2) (by simp) (by
    intro i hi s hs
    rw [h.rd hi]
    exact ⟨_, rfl, by rw [Finset.sum_range_succ, hs, pow_two]⟩)
  obtain ⟨l, e2, h2⟩ := iter_inv (n := n) (f := fun i (desc : List ℚ) => (do
      let a ← rd desc i
      wr desc i (a / max (sq (∑ j ∈ range n, f j ^ 2)) tiny) : Option (List ℚ))) (s := desc)
    (fun k l => Arr l n (fun i => if i < k then f i / max (sq (∑ j ∈ range n, f j ^ 2)) tiny else f i)) (h.congr (by intro i _; simp)) (by
    intro i hi l hl
    rw [hl.rd hi]
    obtain ⟨l', e, h3⟩ := hl.wr hi (f i / max (sq (∑ j ∈ range n, f j ^ 2)) tiny)
    simp only [Option.bind_eq_bind, Option.bind_some]
    rw [if_neg (by omega), e]
    refine ⟨l', rfl, h3.congr ?_⟩
    intro j _
    simp only [upd1]
    by_cases ej : j = i
    · subst ej; simp
    · rw [if_neg ej]
      by_cases c : j < i
      · rw [if_pos c, if_pos (by omega)]
      · rw [if_neg c, if_neg (by omega)])
  refine ⟨l, ?_, h2.congr (by intro i hi; rw [if_pos hi])⟩
  unfold normalize
  simp only [Option.bind_eq_bind] at e1 e2 ⊢
  rw [e1]
  simp only [Option.bind_some]
  rw [h1, if_neg (ne_of_gt (lt_of_lt_of_le ht (le_max_right _ _)))]
  exact e2

end Verif.Liop
