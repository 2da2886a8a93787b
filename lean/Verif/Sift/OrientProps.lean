import Verif.Sift.OrientLemmas
import Mathlib.Tactic.IntervalCases
import Mathlib.Tactic.NormNum
import Mathlib.Algebra.BigOperators.Field

/-!
# C60: orientations of a SIFT keypoint
-/

namespace Verif.Sift

open Finset

/-- The smoothing is six times the circular mean of three bins. -/
theorem smooth_correct (n : Nat) (hn : 1 ≤ n) (hist : List ℚ) (hl : hist.length = n) :
    ∃ hist', smooth n hist = some hist' ∧ hist'.length = n ∧ ∀ i < n, hist'[i]? = some ((mean3 n)^[6] (fun j => hist.getD j 0) i) := by
  obtain ⟨m, e, h⟩ := iter_inv (n := 6) (f := fun _ hist => smoothPass n hist) (s := hist)
    (fun k m => Arr m n ((mean3 n)^[k] (fun j => hist.getD j 0))) (Arr.of_len' hl 0) (by
    intro k _ m h
    obtain ⟨m', e, h'⟩ := smoothPass_spec n hn m _ h
    refine ⟨m', e, ?_⟩
    rw [Function.iterate_succ_apply']
    exact h')
  exact ⟨m, e, h.len, h.get⟩

theorem sum_shift (n : Nat) (f : Nat → ℚ) : ∑ i ∈ range n, f ((i + 1) % n) = ∑ i ∈ range n, f i := by
  cases n with
  | zero => rfl
  | succ n =>
    rw [Finset.sum_range_succ, Nat.mod_self, Finset.sum_range_succ', add_left_inj]
    apply Finset.sum_congr rfl
    intro i hi
    rw [Nat.mod_eq_of_lt (by have := Finset.mem_range.mp hi; omega)]

/-- The circular mean keeps the mass. -/
theorem mean3_mass (n : Nat) (f : Nat → ℚ) : ∑ i ∈ range n, mean3 n f i = ∑ i ∈ range n, f i := by
  have h1 := sum_shift n f
  have h2 := sum_shift n (fun i => f ((i + n - 1) % n))
  have h3 : ∑ i ∈ range n, f (((i + 1) % n + n - 1) % n) = ∑ i ∈ range n, f i := by
    apply Finset.sum_congr rfl
    intro i hi
    have hi := Finset.mem_range.mp hi
    congr 1
    rw [mod_lt_add n _ (Nat.mod_lt _ (by omega))]
    by_cases h : i + 1 = n
    · rw [h, Nat.mod_self, if_pos rfl]; omega
    · rw [Nat.mod_eq_of_lt (by omega), if_neg (by omega)]; omega
  rw [h3] at h2
  unfold mean3
  rw [← Finset.sum_div, Finset.sum_add_distrib, Finset.sum_add_distrib, h1, ← h2]
  ring

/-- The smoothing keeps the mass of the histogram. -/
theorem smooth_mass (n : Nat) (hn : 1 ≤ n) (hist hist' : List ℚ) (hl : hist.length = n) (h : smooth n hist = some hist') : hist'.sum = hist.sum := by
  obtain ⟨m, e, h1, h2⟩ := smooth_correct n hn hist hl
  rw [h] at e
  cases e
  have hs : ∀ l : List ℚ, l.length = n → l.sum = ∑ i ∈ range n, l.getD i 0 := by
    intro l hl
    subst hl
    rw [Finset.sum_range]
    simp [← Fin.sum_univ_getElem]
  have hit : ∀ k, ∑ i ∈ range n, (mean3 n)^[k] (fun j => hist.getD j 0) i = ∑ i ∈ range n, hist.getD i 0 := by
    intro k
    induction k with
    | zero => rfl
    | succ k ih => rw [Function.iterate_succ_apply', mean3_mass, ih]
  rw [hs hist' h1, hs hist hl, ← hit 6]
  apply Finset.sum_congr rfl
  intro i hi
  rw [List.getD_eq_getElem?_getD, h2 i (Finset.mem_range.mp hi)]
  rfl

/-- **C60.**  For a keypoint inside the current octave, at an inner level, the function has no undefined behaviour; it writes at most four angles and returns
their number; the angles are those of the first four peaks, in order of the bins, of the histogram smoothed six times.  A peak is a bin higher than
the two next to it on the circle and higher than 80% of the maximum.  What is behind the angles in the buffer of the caller does not change. -/
theorem orientations_correct (twoPi : ℚ) (tab grad : List ℚ) (w h L lvl : Nat) (x y sigma : ℚ)
    (ok : OrientOk twoPi tab grad w h L lvl x y (15 / 10 * sigma))
    (hx : 0 ≤ x + 1 / 2) (hx' : x + 1 / 2 < w) (hy : 0 ≤ y + 1 / 2) (hy' : y + 1 / 2 < h) (sMin : Int) (angles : List ℚ) (ha : angles.length = 4) :
    ∃ (hist : Nat → ℚ) (m : ℚ) (T : List ℚ),
      hist = (mean3 36)^[6] (orientHistSpec twoPi tab grad w h lvl ⌊x + 1 / 2⌋ ⌊y + 1 / 2⌋ (max ⌊3 * (15 / 10 * sigma)⌋ 1) x y (15 / 10 * sigma)) ∧
      (0 ≤ m ∧ (∀ i < 36, hist i ≤ m) ∧ (m = 0 ∨ ∃ i < 36, m = hist i)) ∧
      T = (((List.range 36).filter (fun i => decide (IsPeak 36 hist m i))).map (peakAngle twoPi 36 hist)).take 4 ∧
      orientations twoPi tab grad w h sMin (sMin + L + 2) true x y sigma (sMin + 1 + lvl) angles = some (T ++ angles.drop T.length, T.length) ∧
      T.length ≤ 4 := by
  have hfx : 0 ≤ ⌊x + 1 / 2⌋ := Int.floor_nonneg.mpr hx
  have hfy : 0 ≤ ⌊y + 1 / 2⌋ := Int.floor_nonneg.mpr hy
  have hfx' : ⌊x + 1 / 2⌋ < w := by rw [Int.floor_lt]; exact_mod_cast hx'
  have hfy' : ⌊y + 1 / 2⌋ < h := by rw [Int.floor_lt]; exact_mod_cast hy'
  obtain ⟨hist, e1, a1⟩ := orientHist_spec ok ⌊x + 1 / 2⌋ ⌊y + 1 / 2⌋ (max ⌊3 * (15 / 10 * sigma)⌋ 1)
  change Arr hist 36 (orientHistSpec twoPi tab grad w h lvl ⌊x + 1 / 2⌋ ⌊y + 1 / 2⌋ (max ⌊3 * (15 / 10 * sigma)⌋ 1) x y (15 / 10 * sigma)) at a1
  obtain ⟨hist', e2, a2⟩ := iter_inv (n := 6) (f := fun _ hist => smoothPass 36 hist) (s := hist)
    (fun k m => Arr m 36 ((mean3 36)^[k] (orientHistSpec twoPi tab grad w h lvl ⌊x + 1 / 2⌋ ⌊y + 1 / 2⌋ (max ⌊3 * (15 / 10 * sigma)⌋ 1) x y (15 / 10 * sigma)))) a1 (by
    intro k _ m h
    obtain ⟨m', e, h'⟩ := smoothPass_spec 36 (by norm_num) m _ h
    refine ⟨m', e, ?_⟩
    rw [Function.iterate_succ_apply']
    exact h')
  obtain ⟨m, e3, hm⟩ := maxHist_spec 36 hist' _ a2
  obtain ⟨T, hT, e4⟩ := peaks_spec twoPi 36 hist' _ a2 m 36 [] angles (by omega) (by simp) (by simpa using ha)
  refine ⟨_, m, T, rfl, hm, ?_, ?_, ?_⟩
  · rw [hT, List.range_eq_range']; rfl
  · have hl := ok.level
    unfold orientations trunc
    simp only [if_pos hx, if_pos hy]
    rw [if_neg (by simp), if_neg (by omega), show sMin + 1 + (lvl : Int) - sMin - 1 = lvl by ring, e1]
    simp only [Option.bind_eq_bind, Option.bind_some]
    unfold smooth
    rw [e2]
    simp only [Option.bind_some]
    rw [e3]
    simp only [Option.bind_some]
    simpa using e4
  · rw [hT]; simp

/-- The hypotheses can be met: an octave of 2 by 2 pixels, gradients at different angles. -/
example : ∃ T : List ℚ, orientations 6 (List.replicate 257 1) [1, 0, 2, 3, 1, 6, 5, 1] 2 2 (-1) 2 true (1 / 2) (1 / 4) 1 0 [0, 0, 0, 0] =
    some (T ++ [(0 : ℚ), 0, 0, 0].drop T.length, T.length) ∧ T.length ≤ 4 := by
  obtain ⟨hist, m, T, -, -, -, h4, h5⟩ := orientations_correct 6 (List.replicate 257 1) [1, 0, 2, 3, 1, 6, 5, 1] 2 2 1 0 (1 / 2) (1 / 4) 1
    ⟨by norm_num, List.length_replicate, rfl, by norm_num,
      by intro v hv u hu; interval_cases v <;> interval_cases u <;> norm_num [gradAng],
      by intro v hv u hu; interval_cases v <;> interval_cases u <;> norm_num⟩
    (by norm_num) (by norm_num) (by norm_num) (by norm_num) (-1) [0, 0, 0, 0] rfl
  exact ⟨T, h4, h5⟩

/-- The weights of a sample add up to one: nothing is lost at the seam of the circle. -/
theorem share_sum (fb : ℚ) (h0 : 0 ≤ fb) (h1 : fb ≤ 36) : ∑ b ∈ range 36, share fb b = 1 := by
  obtain ⟨b1, b2, b3, b4⟩ := bin_bounds fb h0
  rw [Finset.sum_congr rfl (fun b hb => share_eq fb h0 h1 b (Finset.mem_range.mp hb)), Finset.sum_add_distrib, Finset.sum_ite_eq, Finset.sum_ite_eq,
    if_pos (Finset.mem_range.mpr (by omega)), if_pos (Finset.mem_range.mpr (by omega))]
  ring

/-- The end of the table: the code reads behind it. -/
theorem fastExpn_end (tab : List ℚ) (ht : tab.length = 257) : fastExpn tab 25 = none := by
  unfold fastExpn
  rw [if_neg (by norm_num)]
  simp only
  have e : ⌊(25 : ℚ) * (256 / 25)⌋ = 256 := by norm_num
  rw [e, rdI_eq tab 256 256 rfl, rdI_eq tab (256 + 1) 257 rfl, rd_of_lt (by omega)]
  simp [rd, ht]

end Verif.Sift
