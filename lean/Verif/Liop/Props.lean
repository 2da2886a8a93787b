import Verif.Liop.NewLemmas
import Mathlib.Order.Bounds.Basic
import Mathlib.Tactic.NormNum
import Mathlib.Algebra.BigOperators.Field

/-!
# Properties of the LIOP descriptor

C49: the number given to an ordering of the neighbours is its position in the lexicographic list.
C80: the descriptor is the histogram of the orderings, and all accesses are inside the arrays.
-/

namespace Verif.Liop

open Finset

/-- C49: the index computed for a permutation of `0, …, n-1` is below `n!` and is its Lehmer number. -/
theorem permIndex_correct {p : List Nat} {n : Nat} (hp : p.Perm (List.range n)) : ∃ q, permIndex p n = some (lexRank p, q) ∧ lexRank p < n.factorial := by
  obtain ⟨q, e, _⟩ := permIndex_spec hp
  refine ⟨q, e, ?_⟩
  have := lexRank_lt p
  rwa [hp.length_eq, List.length_range] at this

example : ∃ q, permIndex [2, 0, 3, 1] 4 = some (lexRank [2, 0, 3, 1], q) ∧ lexRank [2, 0, 3, 1] < (4 : Nat).factorial := permIndex_correct (by decide)

/-- C49: the indexes follow the lexicographic order of the permutations. -/
theorem permIndex_lex {p q : List Nat} {n : Nat} (hp : p.Perm (List.range n)) (hq : q.Perm (List.range n)) :
    ∃ i j p' q', permIndex p n = some (i, p') ∧ permIndex q n = some (j, q') ∧ (i < j ↔ p < q) ∧ (i = j ↔ p = q) := by
  obtain ⟨p', e1, _⟩ := permIndex_spec hp
  obtain ⟨q', e2, _⟩ := permIndex_spec hq
  refine ⟨_, _, p', q', e1, e2, lexRank_lt_iff (hp.trans hq.symm), lexRank_inj (hp.trans hq.symm), fun h => by rw [h]⟩

/-- C49: every number below `n!` is the index of a permutation. -/
theorem permIndex_onto (n k : Nat) (hk : k < n.factorial) : ∃ p q, p.Perm (List.range n) ∧ permIndex p n = some (k, q) := by
  obtain ⟨p, hp, e⟩ := lexRank_surj n k hk
  obtain ⟨q, e1, _⟩ := permIndex_spec hp
  exact ⟨p, q, hp, by rw [e1, e]⟩

/-- C49: the index is the number of permutations that come before in lexicographic order. -/
theorem permIndex_counts {p : List Nat} {n : Nat} (hp : p.Perm (List.range n)) : ∃ q,
    permIndex p n = some (((List.range n).permutations.filter (· < p)).length, q) := by
  obtain ⟨q, e, _⟩ := permIndex_spec hp
  refine ⟨q, ?_⟩
  rw [e]
  congr 2
  have hnd := (List.nodup_permutations _ (List.nodup_range (n := n)))
  rw [← List.toFinset_card_of_nodup (hnd.filter _)]
  have hlt := lexRank_lt p
  rw [hp.length_eq, List.length_range] at hlt
  conv_lhs => rw [← Finset.card_range (lexRank p)]
  symm
  refine Finset.card_nbij lexRank ?_ ?_ ?_
  · intro r hr
    simp only [List.coe_toFinset, Set.mem_ofPred_eq, List.mem_filter, List.mem_permutations, decide_eq_true_eq, Finset.coe_range, Set.mem_Iio] at hr ⊢
    exact (lexRank_lt_iff (hr.1.trans hp.symm)).mpr hr.2
  · intro r hr s hs h
    simp only [List.coe_toFinset, Set.mem_ofPred_eq, List.mem_filter, List.mem_permutations] at hr hs
    exact lexRank_inj (hr.1.trans hs.1.symm) h
  · intro k hk
    simp only [Finset.coe_range, Set.mem_Iio] at hk
    obtain ⟨r, hr, e'⟩ := lexRank_surj n k (by omega)
    refine ⟨r, ?_, e'⟩
    simp only [List.coe_toFinset, Set.mem_ofPred_eq, List.mem_filter, List.mem_permutations, decide_eq_true_eq]
    exact ⟨hr, (lexRank_lt_iff (hr.trans hp.symm)).mp (by omega)⟩

example : ∃ q, permIndex [1, 2, 0] 3 = some (((List.range 3).permutations.filter (· < [1, 2, 0])).length, q) := permIndex_counts (by decide)

/-- The descriptor before normalisation, as a function of the spatial bin and of the number of the ordering. -/
def orderSum (N nb : Nat) (τ : Nat → List Nat) (w : Nat → ℚ) (b r : Nat) : ℚ :=
  ∑ i ∈ range N, if binOf N nb i = b ∧ lexRank (τ i) = r then w i else 0

theorem hist_eq {N nb n : Nat} {τ : Nat → List Nat} {w : Nat → ℚ} {b r : Nat} (hr : r < n.factorial)
    (hτ : ∀ i < N, (τ i).Perm (List.range n)) : hist N nb n τ w (b * n.factorial + r) = orderSum N nb τ w b r := by
  unfold hist orderSum
  apply Finset.sum_congr rfl
  intro i hi
  rw [Finset.mem_range] at hi
  have h1 := lexRank_lt (τ i)
  rw [(hτ i hi).length_eq, List.length_range] at h1
  by_cases c : binOf N nb i = b ∧ lexRank (τ i) = r
  · rw [if_pos c, if_pos (by rw [c.1, c.2])]
  · rw [if_neg c, if_neg (fun h => c (Flat.addr_inj h1 hr h))]

theorem hist_sq {N nb n : Nat} {τ : Nat → List Nat} {w : Nat → ℚ} (hτ : ∀ i < N, (τ i).Perm (List.range n)) :
    ∑ m ∈ range (n.factorial * nb), hist N nb n τ w m ^ 2 = ∑ b ∈ range nb, ∑ r ∈ range n.factorial, orderSum N nb τ w b r ^ 2 := by
  rw [Nat.mul_comm]
  generalize hh : nb = nb'
  have : ∀ k, ∑ m ∈ range (k * n.factorial), hist N nb n τ w m ^ 2 = ∑ b ∈ range k, ∑ r ∈ range n.factorial, orderSum N nb τ w b r ^ 2 := by
    intro k
    induction k with
    | zero => simp
    | succ k ih =>
      rw [Nat.succ_mul, Finset.sum_range_add, ih, Finset.sum_range_succ]
      congr 1
      apply Finset.sum_congr rfl
      intro r hr
      rw [hist_eq (Finset.mem_range.mp hr) hτ]
  have := this nb
  rw [hh] at this
  exact this

theorem new_spec (co si : Nat → Nat → ℚ) (n nb : Nat) (r : ℚ) (L : Nat) (hr : r ≤ ((L / 2 : Nat) : ℚ)) :
    ∃ D, new co si n nb r L = some D ∧ D.numNeighbours = n ∧ D.numSpatialBins = nb ∧ D.side = L ∧ D.threshold = -(5 / 255) ∧ D.pixels = discPixels r L ∧
      ∀ q < (discPixels r L).length, ∀ t < n,
        rd D.sx (n * q + t) = some (((discPixels r L).getD q 0 % L : Nat) + r * co ((discPixels r L).getD q 0) t) ∧
        rd D.sy (n * q + t) = some (((discPixels r L).getD q 0 / L : Nat) + r * si ((discPixels r L).getD q 0) t) := by
  unfold new
  simp only [Option.bind_eq_bind, decide_eq_true hr, assert', if_true, Option.bind_some]
  refine ⟨_, rfl, rfl, rfl, rfl, rfl, patchPixels_eq r L, ?_⟩
  intro q hq t ht
  simp only
  rw [patchPixels_eq]
  constructor
  · refine (rd_blocks (l := discPixels r L) (n := n)
      (fun pixel t => ((((pixel % L : Nat) : Int) - ((L : Int) - 1) / 2 : Int) : ℚ) + r * co pixel t + ((((L : Int) - 1) / 2 : Int) : ℚ)) hq ht).trans ?_
    congr 1
    rw [Int.cast_sub, Int.cast_natCast]
    ring
  · refine (rd_blocks (l := discPixels r L) (n := n)
      (fun pixel t => ((((pixel / L : Nat) : Int) - ((L : Int) - 1) / 2 : Int) : ℚ) + r * si pixel t + ((((L : Int) - 1) / 2 : Int) : ℚ)) hq ht).trans ?_
    congr 1
    rw [Int.cast_sub, Int.cast_natCast]
    ring

theorem sorted_arr {n : Nat} {f : Nat → ℚ} {σ : List Nat} (h : Sorts n f σ) : Arr σ n (fun i => σ.getD i 0) ∧ ∀ i < n, σ.getD i 0 < n := by
  have hl : σ.length = n := by rw [h.1.length_eq, List.length_range]
  refine ⟨Arr.of_len' hl 0, fun i hi => ?_⟩
  have hm : σ[i]'(by omega) ∈ σ := List.getElem_mem _
  have := h.1.subset hm
  rw [List.mem_range] at this
  simpa [List.getD, List.getElem?_eq_getElem (show i < σ.length by omega)] using this

theorem sorted_bounds {n : Nat} {f : Nat → ℚ} {σ : List Nat} (h : Sorts n f σ) (hn : 1 ≤ n) :
    IsLeast {v | ∃ i < n, v = f i} (f (σ.getD 0 0)) ∧ IsGreatest {v | ∃ i < n, v = f i} (f (σ.getD (n - 1) 0)) := by
  have hl : σ.length = n := by rw [h.1.length_eq, List.length_range]
  obtain ⟨_, hlt⟩ := sorted_arr h
  have key : ∀ i < n, f (σ.getD 0 0) ≤ f i ∧ f i ≤ f (σ.getD (n - 1) 0) := by
    intro i hi
    have hm : i ∈ σ := h.1.symm.subset (by simpa using hi)
    obtain ⟨k, hk, rfl⟩ := List.getElem_of_mem hm
    have g : ∀ j (hj : j < σ.length), σ.getD j 0 = σ[j] := by intro j hj; simp [List.getD, hj]
    rw [g 0 (by omega), g (n - 1) (by omega)]
    have hp := List.pairwise_iff_getElem.mp h.2
    constructor
    · rcases Nat.eq_zero_or_pos k with rfl | h0
      · exact le_refl _
      · exact hp 0 k (by omega) hk h0
    · rcases Nat.lt_or_ge k (n - 1) with h1 | h1
      · exact hp k (n - 1) hk (by omega) h1
      · have : k = n - 1 := by omega
        subst this; exact le_refl _
  constructor
  · exact ⟨⟨_, hlt 0 (by omega), rfl⟩, by rintro v ⟨i, hi, rfl⟩; exact (key i hi).1⟩
  · exact ⟨⟨_, hlt (n - 1) (by omega), rfl⟩, by rintro v ⟨i, hi, rfl⟩; exact (key i hi).2⟩

/-- C80: for a patch of side three or more, any number of neighbours and of bins but zero, and any radius up to half the side, the descriptor exists (no access outside an array, no failed
assertion).  Entry `r` of bin `b` is the sum of the weights of the pixels of the bin whose neighbours are in the ordering of number `r`, over the
norm; the bins divide the pixels in increasing order of intensity. -/
theorem process_correct (sq : ℚ → ℚ) (tiny : ℚ) (htiny : 0 < tiny) (co si : Nat → Nat → ℚ) (hcs : ∀ p t, co p t ^ 2 + si p t ^ 2 = 1)
    (n nb : Nat) (hn : 1 ≤ n) (hnb : 1 ≤ nb) (r : ℚ) (L : Nat) (hL : 3 ≤ L) (hr0 : 0 ≤ r) (hr : r ≤ ((L / 2 : Nat) : ℚ)) (th : ℚ)
    (ints : List ℚ) (perm np : List Nat) (ni patch : List ℚ) (hpatch : patch.length = L * L)
    (hints : ints.length = (discPixels r L).length) (hperm : perm.length = (discPixels r L).length) (hnp : np.length = n) (hni : ni.length = n) :
    ∃ D desc, new co si n nb r L = some D ∧ process sq tiny { D with threshold := th } ints perm np ni patch = some desc ∧ desc.length = n.factorial * nb ∧
      ∃ (N : Nat) (px : Nat → Nat) (σ : List Nat) (τ : Nat → List Nat) (key : Nat → Nat → ℚ) (lo hi thr : ℚ),
        N = (discPixels r L).length ∧ 1 ≤ N ∧ px = (fun i => (discPixels r L).getD (σ.getD i 0) 0) ∧
        Sorts N (fun i => patch.getD ((discPixels r L).getD i 0) 0) σ ∧
        (key = fun i t => bilinear patch L ((px i % L : Nat) + r * co (px i) t) ((px i / L : Nat) + r * si (px i) t)) ∧
        (∀ i < N, Sorts n (key i) (τ i)) ∧
        IsLeast {v | ∃ i < N, v = patch.getD ((discPixels r L).getD i 0) 0} lo ∧ IsGreatest {v | ∃ i < N, v = patch.getD ((discPixels r L).getD i 0) 0} hi ∧
        thr = (if th < 0 then -th * (hi - lo) else th) ∧
        ∀ b < nb, ∀ k < n.factorial, desc[b * n.factorial + k]? =
          some (orderSum N nb τ (fun i => pairWeight n (key i) thr) b k /
            max (sq (∑ b ∈ range nb, ∑ k ∈ range n.factorial, orderSum N nb τ (fun i => pairWeight n (key i) thr) b k ^ 2)) tiny) := by
  obtain ⟨D, eD, d1, d2, d3, _, d5, d6⟩ := new_spec co si n nb r L hr
  obtain ⟨N, hN⟩ : ∃ N, N = (discPixels r L).length := ⟨_, rfl⟩
  have hN1 : 1 ≤ N := by rw [hN]; exact disc_ne_nil hL
  have hmem : ∀ p ∈ discPixels r L, p < patch.length := fun p hp => by rw [hpatch]; exact (mem_disc hp).1
  obtain ⟨ints', e1, h1⟩ := fillPatch_spec { D with threshold := th } patch ints perm (by simp only [d5]; exact hmem) (by simp only [d5]; exact hints) (by simp only [d5]; exact hperm)
  simp only [d5] at e1 h1
  rw [← hN] at e1 h1
  obtain ⟨σ, e2, hσ⟩ := sort_range ints' _ N h1 hN1
  obtain ⟨hσa, hσlt⟩ := sorted_arr hσ
  obtain ⟨hlo, hhi⟩ := sorted_bounds hσ hN1
  obtain ⟨px, hpx⟩ : ∃ px : Nat → Nat, px = (fun i => (discPixels r L).getD (σ.getD i 0) 0) := ⟨_, rfl⟩
  have hpm : ∀ i < N, px i ∈ discPixels r L := by
    intro i hi
    rw [hpx]
    have : σ.getD i 0 < (discPixels r L).length := by rw [← hN]; exact hσlt i hi
    have h2 : (discPixels r L).getD (σ.getD i 0) 0 = (discPixels r L)[σ.getD i 0] := by
      rw [List.getD_eq_getElem?_getD (l := discPixels r L), List.getElem?_eq_getElem this, Option.getD_some]
    simp only
    rw [h2]
    exact List.getElem_mem _
  obtain ⟨X, hX⟩ : ∃ X : Nat → Nat → ℚ, X = fun i t => ((px i % L : Nat) : ℚ) + r * co (px i) t := ⟨_, rfl⟩
  obtain ⟨Y, hY⟩ : ∃ Y : Nat → Nat → ℚ, Y = fun i t => ((px i / L : Nat) : ℚ) + r * si (px i) t := ⟨_, rfl⟩
  have hXr : ∀ i < N, ∀ t < n, rd D.sx (n * σ.getD i 0 + t) = some (X i t) ∧ -1 ≤ X i t ∧ X i t < L := by
    intro i hi t ht
    have := (d6 (σ.getD i 0) (by rw [← hN]; exact hσlt i hi) t ht).1
    refine ⟨by rw [this, hX, hpx], ?_⟩
    rw [hX]
    have hd := (mem_disc (hpm i hi)).2
    have := sample_range hr0 hr (by omega) (hcs (px i) t) hd
    rw [Int.cast_natCast] at this
    exact this
  have hYr : ∀ i < N, ∀ t < n, rd D.sy (n * σ.getD i 0 + t) = some (Y i t) ∧ -1 ≤ Y i t ∧ Y i t < L := by
    intro i hi t ht
    have := (d6 (σ.getD i 0) (by rw [← hN]; exact hσlt i hi) t ht).2
    refine ⟨by rw [this, hY, hpx], ?_⟩
    rw [hY]
    have hd := (mem_disc (hpm i hi)).2
    rw [add_comm] at hd
    have := sample_range hr0 hr (by omega) (by rw [add_comm]; exact hcs (px i) t) hd
    rw [Int.cast_natCast] at this
    exact this
  have hex : ∀ i, ∃ τ : List Nat, i < N → Sorts n (fun t => bilinear patch L (X i t) (Y i t)) τ ∧ ∀ ni', Arr ni' n (fun t => bilinear patch L (X i t) (Y i t)) →
      Qsort.sort (keyCmp ni') (List.range n) n = some τ := by
    intro i
    have ha : Arr ((List.range n).map (fun t => bilinear patch L (X i t) (Y i t))) n (fun t => bilinear patch L (X i t) (Y i t)) :=
      ⟨by simp, fun j hj => by simp [hj]⟩
    obtain ⟨τ, t1, t2⟩ := sort_range _ _ n ha hn
    exact ⟨τ, fun _ => ⟨t2, fun ni' h => by rw [h.eq ha]; exact t1⟩⟩
  choose τ hτ using hex
  obtain ⟨thr, hthr⟩ : ∃ thr : ℚ, thr = if th < 0 then -th * (patch.getD ((discPixels r L).getD (σ.getD (N - 1) 0) 0) 0 - patch.getD ((discPixels r L).getD (σ.getD 0 0) 0) 0) else th := ⟨_, rfl⟩
  have e3 : tuneThreshold { D with threshold := th } ints' σ = some thr := by
    unfold tuneThreshold
    simp only [d5]
    rw [hthr, ← hN]
    split_ifs with c
    · simp only [Option.bind_eq_bind, hσa.rd (show 0 < N by omega), hσa.rd (show N - 1 < N by omega), Option.bind_some, h1.rd (hσlt 0 (by omega)), h1.rd (hσlt (N - 1) (by omega))]
    · rfl
  obtain ⟨s, e4, h4⟩ := loop_spec { D with threshold := th } patch σ np ni thr N (fun i => σ.getD i 0) X Y τ hσa (by simp only [d3]; exact hpatch)
    (by simp only [d1, d3]; exact hXr) (by simp only [d1, d3]; exact hYr) (by simp only [d1]; exact hnp) (by simp only [d1]; exact hni) (by simp only [d2]; exact hnb)
    (by simp only [d1, d3]; intro i hi; exact ⟨(hτ i hi).1.1, (hτ i hi).2⟩)
  simp only [d1, d2, d3] at e4 h4
  obtain ⟨desc, e5, h5⟩ := normalize_spec sq tiny htiny _ s.desc _ h4
  have hp : ∀ i < N, (τ i).Perm (List.range n) := fun i hi => (hτ i hi).1.1
  refine ⟨D, desc, eD, ?_, h5.len, N, px, σ, τ, (fun i t => bilinear patch L (X i t) (Y i t)), _, _, thr, hN, hN1, hpx, hσ, by rw [hX, hY], fun i hi => (hτ i hi).1, hlo, hhi, hthr, ?_⟩
  · unfold process
    simp only [d1, d2, d5, factorial_spec, Option.bind_eq_bind, Option.bind_some]
    rw [← hN]
    simp only [d1, d2, d5] at e1 e3 e4
    rw [e1]
    simp only [Option.bind_some]
    rw [e2]
    simp only [Option.bind_some]
    rw [e3]
    simp only [Option.bind_some]
    simp only [d3] at e4 ⊢
    rw [if_neg (by omega), e4]
    exact e5
  · intro b hb k hk
    have hlt : b * n.factorial + k < n.factorial * nb := by rw [Nat.mul_comm n.factorial]; exact Flat.addr_lt hb hk
    rw [h5.get _ hlt, hist_eq hk hp, hist_sq hp]

example (patch : List ℚ) (hp : patch.length = 41 * 41) (ints : List ℚ) (perm : List Nat) (h1 : ints.length = (discPixels 6 41).length) (h2 : perm.length = (discPixels 6 41).length) :
    ∃ D desc, new (fun _ t => if t = 0 then 1 else 0) (fun _ t => if t = 0 then 0 else 1) 4 6 6 41 = some D ∧
      process (fun x => x) (1 / 10) { D with threshold := -(5 / 255) } ints perm [0, 0, 0, 0] [0, 0, 0, 0] patch = some desc ∧ desc.length = 144 := by
  obtain ⟨D, desc, h⟩ := process_correct (fun x => x) (1 / 10) (by norm_num) (fun _ t => if t = 0 then 1 else 0) (fun _ t => if t = 0 then 0 else 1)
    (by intro _ t; split_ifs <;> norm_num) 4 6 (by norm_num) (by norm_num) 6 41 (by norm_num) (by norm_num) (by norm_num) (-(5 / 255)) ints perm [0, 0, 0, 0] [0, 0, 0, 0] patch hp h1 h2 rfl rfl
  exact ⟨D, desc, h.1, h.2.1, h.2.2.1⟩

/-- C80: the squares of the entries of a descriptor add up to one at most (exactly one when the norm is not below the floor), for any positive square root. -/
theorem descriptor_norm (sq : ℚ → ℚ) (tiny : ℚ) (htiny : 0 < tiny) (m : Nat) (f : Nat → ℚ) (hsq : sq (∑ j ∈ range m, f j ^ 2) ^ 2 = ∑ j ∈ range m, f j ^ 2)
    (hs0 : 0 ≤ sq (∑ j ∈ range m, f j ^ 2)) (desc : List ℚ) (h : Arr desc m f) :
    ∃ desc' g, normalize sq tiny m desc = some desc' ∧ Arr desc' m g ∧ ∑ j ∈ range m, g j ^ 2 ≤ 1 ∧ (tiny ≤ sq (∑ j ∈ range m, f j ^ 2) → ∑ j ∈ range m, g j ^ 2 = 1) := by
  obtain ⟨desc', e, g⟩ := normalize_spec sq tiny htiny m desc f h
  refine ⟨desc', _, e, g, ?_⟩
  have hpos : 0 < max (sq (∑ j ∈ range m, f j ^ 2)) tiny := lt_of_lt_of_le htiny (le_max_right _ _)
  have h1 : ∑ j ∈ range m, (f j / max (sq (∑ j ∈ range m, f j ^ 2)) tiny) ^ 2 = (∑ j ∈ range m, f j ^ 2) / max (sq (∑ j ∈ range m, f j ^ 2)) tiny ^ 2 := by
    rw [Finset.sum_div]
    apply Finset.sum_congr rfl
    intro j _
    rw [div_pow]
  rw [h1]
  constructor
  · rw [div_le_one (by positivity)]
    conv_lhs => rw [← hsq]
    exact pow_le_pow_left₀ hs0 (le_max_left _ _) 2
  · intro ht
    rw [max_eq_left ht, hsq, div_self]
    intro h0
    have := le_trans (le_of_eq rfl) ht
    rw [← hsq] at h0
    have := pow_eq_zero_iff (two_ne_zero) |>.mp h0
    linarith

/-- C80: with a patch of side one or two, which the constructor accepts, no pixel is left and the computation is not defined. -/
theorem process_small (sq : ℚ → ℚ) (tiny : ℚ) (co si : Nat → Nat → ℚ) (n nb : Nat) (r : ℚ) (L : Nat) (hL : L ≤ 2) (hr0 : 0 ≤ r) (hr : r ≤ ((L / 2 : Nat) : ℚ))
    (perm np : List Nat) (ints ni patch : List ℚ) :
    ∃ D, new co si n nb r L = some D ∧ D.pixels = [] ∧ process sq tiny D ints perm np ni patch = none := by
  obtain ⟨D, eD, d1, d2, d3, _, d5, d6⟩ := new_spec co si n nb r L hr
  rw [disc_small hL hr0 hr] at d5
  refine ⟨D, eD, d5, ?_⟩
  unfold process
  simp only [factorial_spec, Option.bind_eq_bind, Option.bind_some, fillPatch, d5, List.length_nil, iter]
  have : ∀ (cmp : Nat → Nat → Int) (l : List Nat), Qsort.sort cmp l 0 = none := by
    intro cmp l; simp [Qsort.sort, assert']
  rw [this]
  rfl

/-- The claim that a LIOP object accepted by the constructor can process any patch of its size. -/
def ProcessDefinedClaim : Prop := ∀ (sq : ℚ → ℚ) (tiny : ℚ), 0 < tiny → ∀ (co si : Nat → Nat → ℚ), (∀ p t, co p t ^ 2 + si p t ^ 2 = 1) →
  ∀ (n nb : Nat), 1 ≤ n → 1 ≤ nb → ∀ (r : ℚ) (L : Nat), 1 ≤ L → 0 ≤ r → ∀ D, new co si n nb r L = some D → ∀ (ints : List ℚ) (perm np : List Nat) (ni patch : List ℚ),
    patch.length = L * L → ints.length = D.pixels.length → perm.length = D.pixels.length → np.length = n → ni.length = n →
    ∃ desc, process sq tiny D ints perm np ni patch = some desc

theorem processDefined_claim_false : ¬ ProcessDefinedClaim := by
  intro h
  obtain ⟨D, e, hp, e'⟩ := process_small (fun x => x) 1 (fun _ _ => 1) (fun _ _ => 0) 1 1 1 2 (by norm_num) (by norm_num) (by norm_num) [] [0] [] [0] [0, 0, 0, 0]
  obtain ⟨desc, e2⟩ := h (fun x => x) 1 one_pos (fun _ _ => 1) (fun _ _ => 0) (by intro _ _; norm_num) 1 1 (le_refl _) (le_refl _) 1 2 (by norm_num) (by norm_num) D e [] [] [0] [0] [0, 0, 0, 0]
    rfl (by simp [hp]) (by simp [hp]) rfl rfl
  rw [e'] at e2
  cases e2

end Verif.Liop
