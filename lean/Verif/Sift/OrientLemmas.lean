import Verif.Sift.OrientModel
import Verif.Sift.OrientSpec
import Verif.Flat
import Mathlib.Data.List.GetD
import Mathlib.Data.Int.Interval
import Mathlib.Algebra.BigOperators.Intervals
import Mathlib.Algebra.BigOperators.Group.List.Basic
import Mathlib.Algebra.BigOperators.Fin
import Mathlib.Tactic.Linarith
import Mathlib.Tactic.Ring
import Mathlib.Tactic.FieldSimp
import Mathlib.Tactic.Positivity
import Mathlib.Tactic.Push

/-!
# Orientations of a SIFT keypoint: lemmas
-/

namespace Verif.Sift

open Finset

/-! ## Smoothing -/

theorem mod_lt_add (n i : Nat) (hn : i < n) : (i + n - 1) % n = if i = 0 then n - 1 else i - 1 := by
  by_cases h : i = 0
  · subst h; rw [if_pos rfl, Nat.zero_add, Nat.mod_eq_of_lt (by omega)]
  · rw [if_neg h, show i + n - 1 = (i - 1) + n by omega, Nat.add_mod_right, Nat.mod_eq_of_lt (by omega)]

theorem smoothPass_spec (n : Nat) (hn : 1 ≤ n) (hist : List ℚ) (f : Nat → ℚ) (h : Arr hist n f) :
    ∃ hist', smoothPass n hist = some hist' ∧ Arr hist' n (fun i => (f ((i + n - 1) % n) + f i + f ((i + 1) % n)) / 3) := by
  obtain ⟨⟨l, p⟩, e, hl, hp⟩ := iter_inv (n := n - 1) (f := fun i (s : List ℚ × ℚ) => (do
      let hi ← rd s.1 i
      let hn ← rd s.1 ((i + 1) % n)
      let hist ← wr s.1 i ((s.2 + hi + hn) / 3)
      some (hist, hi) : Option (List ℚ × ℚ))) (s := (hist, f (n - 1)))
    (fun i s => Arr s.1 n (fun j => if j < i then (f ((j + n - 1) % n) + f j + f ((j + 1) % n)) / 3 else f j) ∧ s.2 = f ((i + n - 1) % n))
    ⟨h.congr (by intro j _; simp), by rw [mod_lt_add n 0 (by omega), if_pos rfl]⟩ (by
    rintro i hi ⟨l, p⟩ ⟨hl, hp⟩
    simp only at hl hp ⊢
    have e1 : (i + 1) % n = i + 1 := Nat.mod_eq_of_lt (by omega)
    rw [hl.rd (show i < n by omega), e1, hl.rd (show i + 1 < n by omega)]
    simp only [Option.bind_eq_bind, Option.bind_some, if_neg (show ¬ i < i by omega), if_neg (show ¬ i + 1 < i by omega)]
    obtain ⟨l', h1, h2⟩ := hl.wr (show i < n by omega) ((p + f i + f (i + 1)) / 3)
    rw [h1]
    refine ⟨_, rfl, h2.congr ?_, ?_⟩
    · intro j _
      simp only [upd1]
      by_cases hj : j = i
      · subst hj; rw [if_pos rfl, if_pos (by omega), hp, e1]
      · rw [if_neg hj]
        by_cases hj' : j < i
        · rw [if_pos hj', if_pos (by omega)]
        · rw [if_neg hj', if_neg (by omega)]
    · simp only
      rw [mod_lt_add n (i + 1) (by omega), if_neg (by omega)]; rfl)
  unfold smoothPass
  rw [h.rd (show n - 1 < n by omega), h.rd (show 0 < n by omega)]
  simp only [Option.bind_eq_bind, Option.bind_some] at e ⊢
  simp only at hl hp
  rw [e]
  simp only [Option.bind_some]
  rw [hl.rd (show n - 1 < n by omega)]
  simp only [Option.bind_some, if_neg (show ¬ n - 1 < n - 1 by omega)]
  obtain ⟨l', h1, h2⟩ := hl.wr (show n - 1 < n by omega) ((p + f (n - 1) + f 0) / 3)
  refine ⟨l', h1, h2.congr ?_⟩
  intro j hj
  simp only [upd1]
  by_cases hj' : j = n - 1
  · subst hj'
    rw [if_pos rfl, hp, show (n - 1 + 1) % n = 0 by rw [show n - 1 + 1 = n by omega, Nat.mod_self]]
  · rw [if_neg hj', if_pos (by omega)]

/-! ## The maximum and the peaks -/

theorem maxHist_spec (n : Nat) (hist : List ℚ) (f : Nat → ℚ) (h : Arr hist n f) :
    ∃ m, maxHist n hist = some m ∧ 0 ≤ m ∧ (∀ i < n, f i ≤ m) ∧ (m = 0 ∨ ∃ i < n, m = f i) := by
  obtain ⟨m, e, h1, h2, h3⟩ := iter_inv (n := n) (f := fun i (m : ℚ) => (do
      let hi ← rd hist i
      some (if m > hi then m else hi) : Option ℚ)) (s := 0)
    (fun k m => 0 ≤ m ∧ (∀ i < k, f i ≤ m) ∧ (m = 0 ∨ ∃ i < k, m = f i)) ⟨le_refl _, by omega, Or.inl rfl⟩ (by
    rintro i hi m ⟨h1, h2, h3⟩
    rw [h.rd hi]
    refine ⟨_, rfl, ?_⟩
    by_cases hm : m > f i
    · rw [if_pos hm]
      refine ⟨h1, ?_, ?_⟩
      · intro j hj
        rcases Nat.lt_succ_iff_lt_or_eq.mp hj with h | rfl
        · exact h2 j h
        · exact le_of_lt hm
      · rcases h3 with h | ⟨j, hj, h⟩
        · exact Or.inl h
        · exact Or.inr ⟨j, by omega, h⟩
    · rw [if_neg hm]
      have hm' := not_lt.mp hm
      refine ⟨le_trans h1 hm', ?_, Or.inr ⟨i, by omega, rfl⟩⟩
      intro j hj
      rcases Nat.lt_succ_iff_lt_or_eq.mp hj with h | rfl
      · exact le_trans (h2 j h) hm'
      · exact le_refl _)
  exact ⟨m, e, h1, h2, h3⟩

theorem set_append_len {α : Type} (P Q : List α) (x : α) (n : Nat) (hn : n = P.length) (hQ : Q ≠ []) : (P ++ Q).set n x = P ++ [x] ++ Q.drop 1 := by
  subst hn
  cases Q with
  | nil => exact absurd rfl hQ
  | cons q Q => rw [List.set_append_right _ _ (Nat.le_refl _), Nat.sub_self]; simp

theorem peaks_spec (twoPi : ℚ) (n : Nat) (hist : List ℚ) (f : Nat → ℚ) (h : Arr hist n f) (m : ℚ) : ∀ (k : Nat) (P Q : List ℚ), k ≤ n →
    P.length < 4 → P.length + Q.length = 4 → ∃ T : List ℚ, T = ((((List.range' (n - k) k).filter (fun i => decide (IsPeak n f m i))).map (peakAngle twoPi n f)).take (4 - P.length)) ∧
      peaks twoPi n hist m k (P ++ Q) P.length = some (P ++ T ++ Q.drop T.length, P.length + T.length) := by
  intro k
  induction k with
  | zero =>
    intro P Q _ _ _
    refine ⟨[], by simp, ?_⟩
    simp [peaks]
  | succ k ih =>
    intro P Q hk hP hPQ
    have hi : n - (k + 1) < n := by omega
    have hr : List.range' (n - (k + 1)) (k + 1) = (n - (k + 1)) :: List.range' (n - k) k := by
      rw [List.range'_succ]; congr 2; omega
    unfold peaks
    simp only
    rw [h.rd hi, h.rd (Nat.mod_lt _ (by omega)), h.rd (Nat.mod_lt _ (by omega))]
    rw [show n - (k + 1) + 1 + n = (n - (k + 1) + 1) + n by omega, Nat.add_mod_right]
    simp only [Option.bind_eq_bind, Option.bind_some]
    rw [hr]
    by_cases hp : IsPeak n f m (n - (k + 1))
    · have hp' := hp
      unfold IsPeak at hp'
      rw [if_pos hp']
      have hQ : Q ≠ [] := by intro e; subst e; simp at hPQ; omega
      rw [wr_of_lt (by rw [List.length_append]; omega), set_append_len P Q _ _ rfl hQ]
      simp only [Option.bind_some]
      rw [List.filter_cons_of_pos (by simpa using hp), List.map_cons]
      have ht : ∀ t : List ℚ, (peakAngle twoPi n f (n - (k + 1)) :: t).take (4 - P.length) = peakAngle twoPi n f (n - (k + 1)) :: t.take (3 - P.length) := by
        intro t
        rw [show 4 - P.length = (3 - P.length) + 1 by omega, List.take_succ_cons]
      rw [ht]
      by_cases h4 : P.length + 1 = 4
      · rw [if_pos h4]
        refine ⟨_, rfl, ?_⟩
        rw [show 3 - P.length = 0 by omega]
        simp only [List.take_zero, List.length_cons, List.length_nil]
        rw [h4]
        rfl
      · rw [if_neg h4]
        obtain ⟨T, hT, e⟩ := ih (P ++ [peakAngle twoPi n f (n - (k + 1))]) (Q.drop 1) (by omega) (by simp; omega) (by simp; omega)
        refine ⟨peakAngle twoPi n f (n - (k + 1)) :: T, ?_, ?_⟩
        · rw [hT]
          congr 2
          simp
        · have e' := e
          rw [List.length_append, List.length_singleton] at e'
          refine Eq.trans e' ?_
          simp
          omega
    · rw [if_neg (by unfold IsPeak at hp; exact hp), List.filter_cons_of_neg (by simpa using hp)]
      exact ih P Q (by omega) hP hPQ

/-! ## The histogram -/

theorem fastExpn_spec (tab : List ℚ) (ht : tab.length = 257) (x : ℚ) (h0 : 0 ≤ x) (h25 : x ≠ 25) : fastExpn tab x = some (expn tab x) := by
  unfold fastExpn expn
  by_cases h : x > 25
  · rw [if_pos h, if_pos h]
  · rw [if_neg h, if_neg h]
    have hx : x < 25 := lt_of_le_of_ne (not_lt.mp h) h25
    have hn : 0 ≤ ⌊x * (256 / 25)⌋ := Int.floor_nonneg.mpr (by positivity)
    have hl : ⌊x * (256 / 25)⌋ < 256 := by
      rw [Int.floor_lt]; push_cast; linarith
    obtain ⟨n, e⟩ := Int.eq_ofNat_of_zero_le hn
    simp only
    rw [e] at hl ⊢
    rw [rdI_nat, show ((n : Int) + 1) = ((n + 1 : Nat) : Int) by push_cast; ring, rdI_nat]
    rw [rd_of_lt (show n < tab.length by omega), rd_of_lt (show n + 1 < tab.length by omega)]
    simp only [Option.bind_eq_bind, Option.bind_some, Int.toNat_natCast, Option.some.injEq]
    rw [List.getD_eq_getElem _ _ (show n < tab.length by omega), List.getD_eq_getElem _ _ (show n + 1 < tab.length by omega)]
    push_cast
    ring

theorem tri_int (k u : Int) (r : ℚ) (h0 : 0 ≤ r) (h1 : r < 1) : tri ((k : ℚ) + r - u) = (if u = k then 1 - r else 0) + (if u = k + 1 then r else 0) := by
  unfold tri
  by_cases e1 : u = k
  · subst e1
    rw [if_pos rfl, if_neg (by omega), show (u : ℚ) + r - u = r by ring, abs_of_nonneg h0, max_eq_right (by linarith)]; ring
  · by_cases e2 : u = k + 1
    · subst e2
      rw [if_neg (by omega), if_pos rfl]
      push_cast
      rw [show (k : ℚ) + r - (k + 1) = -(1 - r) by ring, abs_neg, abs_of_nonneg (by linarith), max_eq_right (by linarith)]; ring
    · rw [if_neg e1, if_neg e2, max_eq_left]
      · simp
      · rcases lt_or_gt_of_ne e1 with h | h
        · have : (u : ℚ) + 1 ≤ k := by exact_mod_cast h
          rw [abs_of_nonneg (by linarith)]; linarith
        · have : (k : ℚ) + 2 ≤ u := by exact_mod_cast (by omega : k + 2 ≤ u)
          rw [abs_of_nonpos (by linarith)]; linarith

theorem share_eq (fb : ℚ) (h0 : 0 ≤ fb) (h1 : fb ≤ 36) (b : Nat) (hb : b < 36) :
    share fb b = (if ((⌊fb - 1 / 2⌋ + 36).tmod 36).toNat = b then 1 - (fb - ⌊fb - 1 / 2⌋ - 1 / 2) else 0) +
      (if ((⌊fb - 1 / 2⌋ + 1).tmod 36).toNat = b then fb - ⌊fb - 1 / 2⌋ - 1 / 2 else 0) := by
  have hk1 : -1 ≤ ⌊fb - 1 / 2⌋ := by rw [Int.le_floor]; push_cast; linarith
  have hk2 : ⌊fb - 1 / 2⌋ < 36 := by rw [Int.floor_lt]; push_cast; linarith
  have hr0 := Int.floor_le (fb - 1 / 2)
  have hr1 := Int.lt_floor_add_one (fb - 1 / 2)
  generalize hk : ⌊fb - 1 / 2⌋ = k at *
  unfold share
  have e1 : fb - ((b : ℚ) + 1 / 2) = (k : ℚ) + (fb - k - 1 / 2) - ((b : Int) : ℚ) := by push_cast; ring
  have e2 : fb - ((b : ℚ) + 1 / 2) - 36 = (k : ℚ) + (fb - k - 1 / 2) - ((b + 36 : Int) : ℚ) := by push_cast; ring
  have e3 : fb - ((b : ℚ) + 1 / 2) + 36 = (k : ℚ) + (fb - k - 1 / 2) - ((b - 36 : Int) : ℚ) := by push_cast; ring
  rw [e2, e3, e1, tri_int _ _ _ (by linarith) (by linarith), tri_int _ _ _ (by linarith) (by linarith), tri_int _ _ _ (by linarith) (by linarith)]
  clear e1 e2 e3
  rw [Int.tmod_eq_emod_of_nonneg (by omega), Int.tmod_eq_emod_of_nonneg (by omega)]
  by_cases c1 : (b : Int) = k ∨ (b : Int) = k + 36
  · rw [if_pos (show ((k + 36) % 36).toNat = b by omega), if_neg (show ¬ ((k + 1) % 36).toNat = b by omega)]
    split_ifs <;> first | (exfalso; omega) | ring
  · rw [if_neg (show ¬ ((k + 36) % 36).toNat = b by omega)]
    by_cases c2 : (b : Int) = k + 1 ∨ (b : Int) = k + 1 - 36
    · rw [if_pos (show ((k + 1) % 36).toNat = b by omega)]
      split_ifs <;> first | (exfalso; omega) | ring
    · rw [if_neg (show ¬ ((k + 1) % 36).toNat = b by omega)]
      split_ifs <;> first | (exfalso; omega) | ring

theorem grad_rd {grad : List ℚ} {w h L lvl v u : Nat} (hl : grad.length = 2 * (w * h * L)) (hlvl : lvl < L) (hv : v < h) (hu : u < w) :
    rd grad (2 * ((lvl * h + v) * w + u)) = some (gradMod grad w h lvl v u) ∧
      rd grad (2 * ((lvl * h + v) * w + u) + 1) = some (gradAng grad w h lvl v u) := by
  have h1 : lvl * h + v < L * h := Flat.addr_lt hlvl hv
  have h2 : (lvl * h + v) * w + u < (L * h) * w := Flat.addr_lt h1 hu
  have h3 : (L * h) * w = w * h * L := by ring
  unfold gradMod gradAng
  rw [rd_of_lt (by omega), rd_of_lt (by omega), List.getD_eq_getElem _ _ (by omega), List.getD_eq_getElem _ _ (by omega)]
  exact ⟨rfl, rfl⟩

theorem addI_nat (hist : List ℚ) (i : Int) (v : ℚ) (h : 0 ≤ i) : addI hist i v = addAt hist i.toNat v := by
  unfold addI; rw [if_neg (by omega)]

theorem addAll_pair (hist : List ℚ) (i j : Nat) (a b : ℚ) : addAll hist [(i, a), (j, b)] = (addAt hist i a).bind (fun m => addAt m j b) := by
  simp only [addAll, Option.bind_eq_bind]
  congr 1; funext m
  cases addAt m j b <;> rfl

/-- The contributions of a pixel. -/
def orientContrib (twoPi : ℚ) (tab grad : List ℚ) (w h lvl : Nat) (W : Int) (x y sigmaw : ℚ) (v u : Nat) : List (Nat × ℚ) :=
  let r2 := ((u : ℚ) - x) * (u - x) + (v - y) * (v - y)
  let m := gradMod grad w h lvl v u
  let e := expn tab (r2 / (2 * sigmaw * sigmaw))
  let fb := 36 * gradAng grad w h lvl v u / twoPi
  if r2 ≥ W * W + 6 / 10 then []
  else [(((⌊fb - 1 / 2⌋ + 36).tmod 36).toNat, (1 - (fb - ⌊fb - 1 / 2⌋ - 1 / 2)) * m * e),
    (((⌊fb - 1 / 2⌋ + 1).tmod 36).toNat, (fb - ⌊fb - 1 / 2⌋ - 1 / 2) * m * e)]

theorem fb_bounds {twoPi : ℚ} {tab grad : List ℚ} {w h L lvl : Nat} {x y sigmaw : ℚ} (ok : OrientOk twoPi tab grad w h L lvl x y sigmaw)
    {v u : Nat} (hv : v < h) (hu : u < w) : 0 ≤ 36 * gradAng grad w h lvl v u / twoPi ∧ 36 * gradAng grad w h lvl v u / twoPi ≤ 36 := by
  obtain ⟨h1, h2⟩ := ok.ang v hv u hu
  have := ok.pi
  refine ⟨by positivity, ?_⟩
  rw [div_le_iff₀ this]; linarith

theorem bin_bounds (fb : ℚ) (h0 : 0 ≤ fb) : 0 ≤ (⌊fb - 1 / 2⌋ + 36).tmod 36 ∧ (⌊fb - 1 / 2⌋ + 36).tmod 36 < 36 ∧
    0 ≤ (⌊fb - 1 / 2⌋ + 1).tmod 36 ∧ (⌊fb - 1 / 2⌋ + 1).tmod 36 < 36 := by
  have hk1 : -1 ≤ ⌊fb - 1 / 2⌋ := by rw [Int.le_floor]; push_cast; linarith
  rw [Int.tmod_eq_emod_of_nonneg (by omega), Int.tmod_eq_emod_of_nonneg (by omega)]
  omega

theorem orientSample_eq {twoPi : ℚ} {tab grad : List ℚ} {w h L lvl : Nat} {x y sigmaw : ℚ} (ok : OrientOk twoPi tab grad w h L lvl x y sigmaw)
    (xi yi W xs ys : Int) (v u : Nat) (hu : u < w) (hv : v < h) (eu : xi + xs = u) (ev : yi + ys = v) (hist : List ℚ) :
    orientSample twoPi tab grad (2 * xi + 2 * (w : Int) * yi + 2 * (w : Int) * h * lvl) w xi yi W x y sigmaw ys xs hist =
      addAll hist (orientContrib twoPi tab grad w h lvl W x y sigmaw v u) := by
  unfold orientSample orientContrib
  simp only
  rw [eu, ev]
  push_cast
  by_cases hr : ((u : ℚ) - x) * (u - x) + (v - y) * (v - y) ≥ W * W + 6 / 10
  · rw [if_pos hr, if_pos hr]; rfl
  · rw [if_neg hr, if_neg hr]
    rw [fastExpn_spec tab ok.tabLen _ (div_nonneg (add_nonneg (mul_self_nonneg _) (mul_self_nonneg _))
      (by rw [mul_assoc]; exact mul_nonneg (by norm_num) (mul_self_nonneg _))) (ok.table v hv u hu)]
    have ea : 2 * xi + 2 * (w : Int) * yi + 2 * (w : Int) * h * lvl + xs * 2 + ys * (2 * w) = ((2 * ((lvl * h + v) * w + u) : Nat) : Int) := by
      push_cast
      rw [← eu, ← ev]; ring
    rw [ea, rdI_nat, show ((2 * ((lvl * h + v) * w + u) : Nat) : Int) + 1 = ((2 * ((lvl * h + v) * w + u) + 1 : Nat) : Int) by push_cast; ring, rdI_nat]
    obtain ⟨g1, g2⟩ := grad_rd ok.gradLen ok.level hv hu
    rw [g1, g2]
    simp only [Option.bind_eq_bind, Option.bind_some]
    obtain ⟨f0, f1⟩ := fb_bounds ok hv hu
    obtain ⟨b1, b2, b3, b4⟩ := bin_bounds _ f0
    rw [addI_nat _ _ _ b1, addAll_pair]
    congr 1; funext m
    rw [addI_nat _ _ _ b3]

theorem orientContrib_bin {twoPi : ℚ} {tab grad : List ℚ} {w h L lvl : Nat} {x y sigmaw : ℚ} (ok : OrientOk twoPi tab grad w h L lvl x y sigmaw)
    (W : Int) {v u : Nat} (hu : u < w) (hv : v < h) : (∀ c ∈ orientContrib twoPi tab grad w h lvl W x y sigmaw v u, c.1 < 36) ∧
      ∀ b < 36, contrib (orientContrib twoPi tab grad w h lvl W x y sigmaw v u) b = orientTerm twoPi tab grad w h lvl W x y sigmaw b v u := by
  obtain ⟨f0, f1⟩ := fb_bounds ok hv hu
  obtain ⟨b1, b2, b3, b4⟩ := bin_bounds _ f0
  unfold orientContrib orientTerm
  simp only
  by_cases hr : ((u : ℚ) - x) * (u - x) + (v - y) * (v - y) ≥ W * W + 6 / 10
  · rw [if_pos hr]
    refine ⟨by simp, fun b _ => ?_⟩
    rw [if_neg (not_lt.mpr hr)]; rfl
  · rw [if_neg hr]
    constructor
    · intro c hc
      simp only [List.mem_cons, List.not_mem_nil, or_false] at hc
      rcases hc with rfl | rfl <;> simp only <;> omega
    · intro b hb
      rw [if_pos (not_le.mp hr), share_eq _ f0 f1 b hb, contrib_cons, contrib_cons, contrib_nil]
      simp only
      split_ifs <;> ring

/-- A window clipped to an interval, as a sum over the interval. -/
theorem window_sum (n : Nat) (W c : Int) (g : Int → ℚ) :
    ((intRange (max (-W) (-c)) (min W (n - 1 - c))).map g).sum = ∑ u ∈ range n, if |(u : Int) - c| ≤ W then g (u - c) else 0 := by
  have h1 : ∀ lo hi : Int, ((intRange lo hi).map g).sum = ∑ a ∈ Finset.Icc lo hi, g a := by
    intro lo hi
    unfold intRange
    rw [List.map_map, ← List.sum_toFinset _ List.nodup_range] 
    rw [List.toFinset_range]
    refine Finset.sum_nbij' (fun i : Nat => lo + (i : Int)) (fun a => (a - lo).toNat) ?_ ?_ ?_ ?_ ?_
    · intro a ha; simp only [Finset.mem_range] at ha; rw [Finset.mem_Icc]; omega
    · intro a ha; rw [Finset.mem_Icc] at ha; simp only [Finset.mem_range]; omega
    · intro a ha; simp
    · intro a ha; rw [Finset.mem_Icc] at ha; omega
    · intro a ha; rfl
  rw [h1, ← Finset.sum_filter]
  refine (Finset.sum_nbij' (fun u : Nat => (u : Int) - c) (fun a => (a + c).toNat) ?_ ?_ ?_ ?_ ?_).symm
  · intro a ha
    simp only [Finset.mem_filter, Finset.mem_range, abs_le] at ha
    rw [Finset.mem_Icc, max_le_iff, le_min_iff]; omega
  · intro a ha
    rw [Finset.mem_Icc, max_le_iff, le_min_iff] at ha
    simp only [Finset.mem_filter, Finset.mem_range, abs_le]; omega
  · intro a ha; simp
  · intro a ha
    rw [Finset.mem_Icc, max_le_iff, le_min_iff] at ha
    omega
  · intro a ha; rfl

theorem foldlM_addAll' {α : Type} (l : List α) (f : List ℚ → α → Option (List ℚ)) (g : α → List (Nat × ℚ))
    (h : ∀ a ∈ l, ∀ m, f m a = addAll m (g a)) (m : List ℚ) : l.foldlM f m = addAll m (l.flatMap g) := by
  induction l generalizing m with
  | nil => simp [addAll]
  | cons a l ih =>
    rw [List.foldlM_cons, h a (by simp), List.flatMap_cons, addAll_append]
    simp only [Option.bind_eq_bind]
    congr 1; funext m'
    exact ih (fun b hb => h b (by simp [hb])) m'

theorem orientHist_spec {twoPi : ℚ} {tab grad : List ℚ} {w h L lvl : Nat} {x y sigmaw : ℚ} (ok : OrientOk twoPi tab grad w h L lvl x y sigmaw)
    (xi yi W : Int) :
    ∃ hist, orientHist twoPi tab grad (2 * xi + 2 * (w : Int) * yi + 2 * (w : Int) * h * lvl) w h xi yi W x y sigmaw = some hist ∧
      Arr hist 36 (fun b => ∑ v ∈ range h, if |(v : Int) - yi| ≤ W then
        ∑ u ∈ range w, if |(u : Int) - xi| ≤ W then orientTerm twoPi tab grad w h lvl W x y sigmaw b v u else 0 else 0) := by
  have hrow : ∀ ys ∈ intRange (max (-W) (-yi)) (min W (h - 1 - yi)), ∀ hist, forInt (max (-W) (-xi)) (min W (w - 1 - xi))
      (fun xs hist => orientSample twoPi tab grad (2 * xi + 2 * (w : Int) * yi + 2 * (w : Int) * h * lvl) w xi yi W x y sigmaw ys xs hist) hist =
      addAll hist ((intRange (max (-W) (-xi)) (min W (w - 1 - xi))).flatMap
        (fun xs => orientContrib twoPi tab grad w h lvl W x y sigmaw (yi + ys).toNat (xi + xs).toNat)) := by
    intro ys hys hist
    rw [mem_intRange, max_le_iff, le_min_iff] at hys
    rw [forInt_eq]
    apply foldlM_addAll'
    intro xs hxs m
    rw [mem_intRange, max_le_iff, le_min_iff] at hxs
    exact orientSample_eq ok xi yi W xs ys _ _ (by omega) (by omega) (by omega) (by omega) m
  have hall : orientHist twoPi tab grad (2 * xi + 2 * (w : Int) * yi + 2 * (w : Int) * h * lvl) w h xi yi W x y sigmaw =
      addAll (List.replicate 36 0) ((intRange (max (-W) (-yi)) (min W (h - 1 - yi))).flatMap (fun ys =>
        (intRange (max (-W) (-xi)) (min W (w - 1 - xi))).flatMap
          (fun xs => orientContrib twoPi tab grad w h lvl W x y sigmaw (yi + ys).toNat (xi + xs).toNat))) := by
    unfold orientHist
    rw [forInt_eq]
    apply foldlM_addAll'
    intro ys hys m
    exact hrow ys hys m
  obtain ⟨m, e1, e2, e3⟩ := addAll_spec (List.replicate 36 (0 : ℚ)) ((intRange (max (-W) (-yi)) (min W (h - 1 - yi))).flatMap (fun ys =>
        (intRange (max (-W) (-xi)) (min W (w - 1 - xi))).flatMap
          (fun xs => orientContrib twoPi tab grad w h lvl W x y sigmaw (yi + ys).toNat (xi + xs).toNat))) (by
    intro c hc
    rw [List.mem_flatMap] at hc
    obtain ⟨ys, hys, hc⟩ := hc
    rw [List.mem_flatMap] at hc
    obtain ⟨xs, hxs, hc⟩ := hc
    rw [mem_intRange, max_le_iff, le_min_iff] at hxs hys
    rw [List.length_replicate]
    exact (orientContrib_bin ok W (by omega) (by omega)).1 c hc)
  refine ⟨m, by rw [hall, e1], by rw [e2, List.length_replicate], ?_⟩
  intro b hb
  rw [e3, List.getElem?_replicate, if_pos hb]
  simp only [Option.map_some, zero_add, Option.some.injEq]
  rw [contrib_flatMap]
  have hin : ∀ ys ∈ intRange (max (-W) (-yi)) (min W (h - 1 - yi)), contrib ((intRange (max (-W) (-xi)) (min W (w - 1 - xi))).flatMap
      (fun xs => orientContrib twoPi tab grad w h lvl W x y sigmaw (yi + ys).toNat (xi + xs).toNat)) b =
      ∑ u ∈ range w, if |(u : Int) - xi| ≤ W then orientTerm twoPi tab grad w h lvl W x y sigmaw b (yi + ys).toNat u else 0 := by
    intro ys hys
    rw [mem_intRange, max_le_iff, le_min_iff] at hys
    rw [contrib_flatMap]
    rw [List.map_congr_left (g := fun xs => orientTerm twoPi tab grad w h lvl W x y sigmaw b (yi + ys).toNat (xi + xs).toNat) (by
      intro xs hxs
      rw [mem_intRange, max_le_iff, le_min_iff] at hxs
      exact (orientContrib_bin ok W (by omega) (by omega)).2 b hb)]
    rw [window_sum]
    apply Finset.sum_congr rfl
    intro u _
    rw [show (xi + ((u : Int) - xi)).toNat = u by omega]
  rw [List.map_congr_left hin, window_sum]
  apply Finset.sum_congr rfl
  intro v _
  rw [show (yi + ((v : Int) - yi)).toNat = v by omega]

end Verif.Sift
