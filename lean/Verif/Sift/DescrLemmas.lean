import Verif.Sift.DescrModel
import Verif.Sift.DescrSpec
import Verif.Sift.OrientLemmas
import Mathlib.Tactic.Linarith
import Mathlib.Tactic.Ring
import Mathlib.Tactic.FieldSimp
import Mathlib.Tactic.Positivity
import Mathlib.Tactic.NormNum

/-!
# Lemmas for the descriptor
-/

namespace Verif.Sift

open Finset

theorem vlFloor_eq (x : ℚ) : vlFloor x = ⌊x⌋ := by
  unfold vlFloor trunc
  simp only
  by_cases h : 0 ≤ x
  · rw [if_pos h, if_pos (Or.inl h)]
  · rw [if_neg h]
    have h1 : -⌊-x⌋ = ⌈x⌉ := by rw [Int.floor_neg, neg_neg]
    rw [h1]
    by_cases h2 : ((⌈x⌉ : Int) : ℚ) = x
    · rw [if_pos (Or.inr h2)]
      conv_rhs => rw [← h2]
      simp
    · rw [if_neg (by rintro (h3 | h3); exacts [h h3, h2 h3])]
      symm
      rw [Int.floor_eq_iff]
      have h3 := Int.ceil_lt_add_one x
      have h4 := lt_of_le_of_ne (Int.le_ceil x) (Ne.symm h2)
      push_cast
      constructor <;> linarith

theorem trunc_eq (x : ℚ) (h : 0 ≤ x) : trunc x = ⌊x⌋ := by unfold trunc; rw [if_pos h]

theorem subLoop_spec (twoPi : ℚ) (_ : 0 < twoPi) : ∀ (n : Nat) (x : ℚ), x ≤ (n + 1) * twoPi → ∃ (y : ℚ) (k : Nat), subLoop twoPi n x = some y ∧ y = x - k * twoPi ∧
    y ≤ twoPi ∧ (0 < y ∨ k = 0) := by
  intro n
  induction n with
  | zero =>
    intro x hx
    refine ⟨x, 0, ?_, by ring, ?_, Or.inr rfl⟩
    · unfold subLoop; rw [if_neg (by push_cast at hx; linarith)]
    · push_cast at hx; linarith
  | succ n ih =>
    intro x hx
    unfold subLoop
    by_cases h : x > twoPi
    · rw [if_pos h]
      obtain ⟨y, k, e, h1, h2, h3⟩ := ih (x - twoPi) (by push_cast at hx; linarith)
      refine ⟨y, k + 1, e, by rw [h1]; push_cast; ring, h2, ?_⟩
      rcases h3 with h3 | h3
      · exact Or.inl h3
      · subst h3
        left
        rw [h1]; push_cast; linarith
    · rw [if_neg h]
      exact ⟨x, 0, rfl, by ring, not_lt.mp h, Or.inr rfl⟩

theorem addLoop_spec (twoPi : ℚ) (_ : 0 < twoPi) : ∀ (n : Nat) (x : ℚ), - (n * twoPi) ≤ x → x ≤ twoPi → ∃ (y : ℚ) (k : Nat), addLoop twoPi n x = some y ∧ y = x + k * twoPi ∧
    0 ≤ y ∧ y ≤ twoPi := by
  intro n
  induction n with
  | zero =>
    intro x hx hx'
    refine ⟨x, 0, ?_, by ring, ?_, hx'⟩
    · unfold addLoop; rw [if_neg (by push_cast at hx; linarith)]
    · push_cast at hx; linarith
  | succ n ih =>
    intro x hx hx'
    unfold addLoop
    by_cases h : x < 0
    · rw [if_pos h]
      obtain ⟨y, k, e, h1, h2, h3⟩ := ih (x + twoPi) (by push_cast at hx; linarith) (by linarith)
      exact ⟨y, k + 1, e, by rw [h1]; push_cast; ring, h2, h3⟩
    · rw [if_neg h]
      exact ⟨x, 0, rfl, by ring, not_lt.mp h, hx'⟩

/-- The loops end, at a value between 0 and 2π that differs from `x` by a whole number of turns. -/
theorem mod2pi_spec (twoPi : ℚ) (hp : 0 < twoPi) (fuel : Nat) (x : ℚ) (hx : |x| ≤ fuel * twoPi) :
    ∃ (y : ℚ) (k : Int), mod2pi twoPi fuel x = some y ∧ y = x + k * twoPi ∧ 0 ≤ y ∧ y ≤ twoPi := by
  rw [abs_le] at hx
  obtain ⟨a, k, e1, h1, h2, h3⟩ := subLoop_spec twoPi hp fuel x (by linarith)
  obtain ⟨b, j, e2, h4, h5, h6⟩ := addLoop_spec twoPi hp fuel a (by
    rcases h3 with h3 | h3
    · have : (0 : ℚ) ≤ fuel * twoPi := by positivity
      linarith
    · subst h3; rw [h1]; push_cast; linarith) h2
  refine ⟨b, (j : Int) - k, ?_, by rw [h4, h1]; push_cast; ring, h5, h6⟩
  unfold mod2pi
  rw [e1]
  exact e2

theorem iter_addAll (n : Nat) (f : Nat → List ℚ → Option (List ℚ)) (g : Nat → List (Nat × ℚ))
    (h : ∀ i < n, ∀ m, f i m = addAll m (g i)) (m : List ℚ) : iter n f m = addAll m ((List.range n).flatMap g) := by
  induction n with
  | zero => rfl
  | succ n ih =>
    rw [iter, ih (fun i hi => h i (by omega)), List.range_succ, List.flatMap_append, addAll_append]
    congr 1; funext m'
    rw [h n (by omega)]
    simp

theorem window_sum' (n mg : Nat) (W c : Int) (g : Int → ℚ) :
    ((intRange (max (-W) (mg - c)) (min W (n - c - 1 - mg))).map g).sum =
      ∑ u ∈ range n, if |(u : Int) - c| ≤ W ∧ mg ≤ u ∧ u + mg < n then g (u - c) else 0 := by
  have h1 : ∀ lo hi : Int, ((intRange lo hi).map g).sum = ∑ a ∈ Finset.Icc lo hi, g a := by
    intro lo hi
    unfold intRange
    rw [List.map_map, ← List.sum_toFinset _ List.nodup_range]
    rw [List.toFinset_range]
    refine Finset.sum_nbij' (fun i : Nat => lo + (i : Int)) (fun a => (a - lo).toNat) ?_ ?_ ?_ ?_ ?_
    · intro a ha; simp only [Finset.mem_range] at ha; rw [Finset.mem_Icc]; omega
    · intro a ha; rw [Finset.mem_Icc] at ha; simp only [Finset.mem_range]; omega
    · intro a ha; simp
    · intro a ha; rw [Finset.mem_Icc] at ha; omega
    · intro a ha; rfl
  rw [h1, ← Finset.sum_filter]
  refine (Finset.sum_nbij' (fun u : Nat => (u : Int) - c) (fun a => (a + c).toNat) ?_ ?_ ?_ ?_ ?_).symm
  · intro a ha
    simp only [Finset.mem_filter, Finset.mem_range, abs_le] at ha
    rw [Finset.mem_Icc, max_le_iff, le_min_iff]; omega
  · intro a ha
    rw [Finset.mem_Icc, max_le_iff, le_min_iff] at ha
    simp only [Finset.mem_filter, Finset.mem_range, abs_le]; omega
  · intro a ha; simp
  · intro a ha
    rw [Finset.mem_Icc, max_le_iff, le_min_iff] at ha
    omega
  · intro a ha; rfl

/-- What is needed of the buffers and the parameters: positive sizes, a table of 257 entries, no pixel at the end of the table, enough rounds for the angles. -/
structure DescrOk (E : DescrEnv) (grad : List ℚ) (w h L lvl : Nat) (x y : ℚ) : Prop where
  pi : 0 < E.twoPi
  tabLen : E.tab.length = 257
  gradLen : grad.length = 2 * (w * h * L)
  level : lvl < L
  sbp : E.sbp ≠ 0
  wsigma : E.wsigma ≠ 0
  ang : ∀ v < h, ∀ u < w, |gradAng grad w h lvl v u - E.angle0| ≤ E.fuel * E.twoPi
  table : ∀ v < h, ∀ u < w, (frameX E.ct0 E.st0 E.sbp x y v u ^ 2 + frameY E.ct0 E.st0 E.sbp x y v u ^ 2) / (2 * E.wsigma ^ 2) ≠ 25

theorem circDist_eq (t nt : ℚ) (m : Int) (ht : nt = t + 8 * m) (b : ℚ) (z : Int) (hz : |nt - b - 8 * z| ≤ 4) : circDist t b = |nt - b - 8 * z| := by
  unfold circDist
  have e1 : ∀ q : Int, |t - b - 8 * (q : ℚ)| = 8 * |(t - b) / 8 - q| := by
    intro q
    rw [show t - b - 8 * (q : ℚ) = 8 * ((t - b) / 8 - q) by field_simp, abs_mul]; norm_num
  have e2 : nt - b - 8 * z = t - b - 8 * ((z - m : Int) : ℚ) := by rw [ht]; push_cast; ring
  rw [e2, e1] at hz
  rw [e2, e1, e1]
  have h1 := round_le ((t - b) / 8) (z - m)
  have h2 := abs_sub_round ((t - b) / 8)
  by_cases h : round ((t - b) / 8) = z - m
  · rw [h]
  · have h3 : (1 : ℚ) ≤ |((round ((t - b) / 8) : Int) : ℚ) - ((z - m : Int) : ℚ)| := by
      have : (1 : Int) ≤ |round ((t - b) / 8) - (z - m)| := Int.one_le_abs (by omega)
      exact_mod_cast this
    have h4 := abs_sub_le ((round ((t - b) / 8) : Int) : ℚ) ((t - b) / 8) ((z - m : Int) : ℚ)
    rw [abs_sub_comm _ ((t - b) / 8)] at h4
    linarith

theorem circDist_far (t nt : ℚ) (m : Int) (ht : nt = t + 8 * m) (b : ℚ) (h : ∀ z : Int, 1 ≤ |nt - b - 8 * z|) : 1 ≤ circDist t b := by
  unfold circDist
  have := h (round ((t - b) / 8) + m)
  rw [ht] at this
  push_cast at this
  rwa [show t + 8 * (m : ℚ) - b - 8 * (round ((t - b) / 8) + m) = t - b - 8 * round ((t - b) / 8) by ring] at this

/-- The share of an orientation bin. -/
theorem circ_share (t nt : ℚ) (m : Int) (ht : nt = t + 8 * m) (h0 : 0 ≤ nt) (h8 : nt ≤ 8) (b : Nat) (hb : b < 8) :
    max 0 (1 - circDist t b) = (if ((⌊nt⌋ + 0).tmod 8).toNat = b then 1 - (nt - ⌊nt⌋) else 0) +
      (if ((⌊nt⌋ + 1).tmod 8).toNat = b then nt - ⌊nt⌋ else 0) := by
  have hk0 : 0 ≤ ⌊nt⌋ := Int.floor_nonneg.mpr h0
  have hk8 : ⌊nt⌋ ≤ 8 := by
    have := Int.floor_le_floor h8
    simpa using this
  have hr0 := Int.floor_le nt
  have hr1 := Int.lt_floor_add_one nt
  rw [Int.tmod_eq_emod_of_nonneg (by omega), Int.tmod_eq_emod_of_nonneg (by omega)]
  have hd := circDist_eq t nt m ht b
  have hf := circDist_far t nt m ht b
  generalize ⌊nt⌋ = k at *
  by_cases c1 : ((k + 0) % 8).toNat = b
  · rw [if_pos c1, if_neg (by omega), add_zero]
    by_cases c : k = 8
    · have hb0 : b = 0 := by omega
      subst hb0
      have : nt = 8 := by subst c; push_cast at hr0; linarith
      rw [hd 1 (by rw [this]; norm_num), this, c]; norm_num
    · have hb0 : (b : ℚ) = k := by have : (b : Int) = k := by omega
                                   exact_mod_cast this
      rw [hb0] at hd ⊢
      have e : |nt - k - 8 * ((0 : Int) : ℚ)| = nt - k := by
        rw [show nt - k - 8 * ((0 : Int) : ℚ) = nt - k by push_cast; ring, abs_of_nonneg (by linarith)]
      rw [hd 0 (by rw [e]; linarith), e, max_eq_right (by linarith)]
  · rw [if_neg c1, zero_add]
    by_cases c2 : ((k + 1) % 8).toNat = b
    · rw [if_pos c2]
      by_cases c : k < 7
      · have hb0 : (b : ℚ) = k + 1 := by have : (b : Int) = k + 1 := by omega
                                         exact_mod_cast this
        rw [hb0] at hd ⊢
        have e : |nt - (k + 1) - 8 * ((0 : Int) : ℚ)| = 1 - (nt - k) := by
          rw [show nt - (k + 1) - 8 * ((0 : Int) : ℚ) = nt - k - 1 by push_cast; ring, abs_of_nonpos (by linarith)]; ring
        rw [hd 0 (by rw [e]; linarith), e, max_eq_right (by linarith)]; ring
      · have hb0 : (b : ℚ) = k + 1 - 8 := by have : (b : Int) = k + 1 - 8 := by omega
                                             exact_mod_cast this
        rw [hb0] at hd ⊢
        have e : |nt - (k + 1 - 8) - 8 * ((1 : Int) : ℚ)| = 1 - (nt - k) := by
          rw [show nt - (k + 1 - 8) - 8 * ((1 : Int) : ℚ) = nt - k - 1 by push_cast; ring, abs_of_nonpos (by linarith)]; ring
        rw [hd 1 (by rw [e]; linarith), e, max_eq_right (by linarith)]; ring
    · rw [if_neg c2, max_eq_left]
      have := hf (by
        intro z
        have hne : k - b - 8 * z ≠ 0 ∧ k - b - 8 * z ≠ -1 := by omega
        rcases le_or_gt 1 (k - b - 8 * z) with h | h
        · have h' : (1 : ℚ) ≤ k - b - 8 * z := by exact_mod_cast h
          rw [abs_of_nonneg (by linarith)]; linarith
        · have h2 : k - b - 8 * z ≤ -2 := by omega
          have h' : (k : ℚ) - b - 8 * z ≤ -2 := by exact_mod_cast h2
          rw [abs_of_nonpos (by linarith)]; linarith)
      linarith

/-- The contributions of a pixel. -/
def descrContrib (wm nx ny nt : ℚ) : List (Nat × ℚ) :=
  (List.range 2).flatMap fun (dbinx : Nat) => (List.range 2).flatMap fun (dbiny : Nat) => (List.range 2).flatMap fun (dbint : Nat) =>
    if ⌊nx - 1 / 2⌋ + dbinx ≥ -2 ∧ ⌊nx - 1 / 2⌋ + dbinx < 2 ∧ ⌊ny - 1 / 2⌋ + dbiny ≥ -2 ∧ ⌊ny - 1 / 2⌋ + dbiny < 2 then
      [(((2 * 32 + 2 * 8 : Int) + (⌊nt⌋ + dbint).tmod 8 * 1 + (⌊ny - 1 / 2⌋ + dbiny) * 32 + (⌊nx - 1 / 2⌋ + dbinx) * 8).toNat,
        wm * |1 - dbinx - (nx - (⌊nx - 1 / 2⌋ + 1 / 2))| * |1 - dbiny - (ny - (⌊ny - 1 / 2⌋ + 1 / 2))| * |1 - dbint - (nt - ⌊nt⌋)|)]
    else []

theorem descrContrib_lt (wm nx ny nt : ℚ) (h0 : 0 ≤ nt) : ∀ c ∈ descrContrib wm nx ny nt, c.1 < 128 := by
  have hk0 : 0 ≤ ⌊nt⌋ := Int.floor_nonneg.mpr h0
  intro c hc
  unfold descrContrib at hc
  rw [List.mem_flatMap] at hc
  obtain ⟨dx, hx, hc⟩ := hc
  rw [List.mem_flatMap] at hc
  obtain ⟨dy, hy, hc⟩ := hc
  rw [List.mem_flatMap] at hc
  obtain ⟨dt, ht, hc⟩ := hc
  by_cases g : ⌊nx - 1 / 2⌋ + dx ≥ -2 ∧ ⌊nx - 1 / 2⌋ + dx < 2 ∧ ⌊ny - 1 / 2⌋ + dy ≥ -2 ∧ ⌊ny - 1 / 2⌋ + dy < 2
  · rw [if_pos g, List.mem_singleton] at hc
    rw [hc]
    simp only
    rw [Int.tmod_eq_emod_of_nonneg (Int.add_nonneg hk0 (Int.natCast_nonneg _))]
    omega
  · rw [if_neg g] at hc; cases hc

theorem prod_ites (P1 P2 Q1 Q2 R1 R2 : Prop) [Decidable P1] [Decidable P2] [Decidable Q1] [Decidable Q2] [Decidable R1] [Decidable R2]
    (w p1 p2 q1 q2 r1 r2 : ℚ) :
    (((if (P1 ∧ Q1) ∧ R1 then w * p1 * q1 * r1 else 0) + (if (P1 ∧ Q1) ∧ R2 then w * p1 * q1 * r2 else 0)) +
      ((if (P1 ∧ Q2) ∧ R1 then w * p1 * q2 * r1 else 0) + (if (P1 ∧ Q2) ∧ R2 then w * p1 * q2 * r2 else 0))) +
    (((if (P2 ∧ Q1) ∧ R1 then w * p2 * q1 * r1 else 0) + (if (P2 ∧ Q1) ∧ R2 then w * p2 * q1 * r2 else 0)) +
      ((if (P2 ∧ Q2) ∧ R1 then w * p2 * q2 * r1 else 0) + (if (P2 ∧ Q2) ∧ R2 then w * p2 * q2 * r2 else 0))) =
    w * ((if P1 then p1 else 0) + (if P2 then p2 else 0)) * ((if Q1 then q1 else 0) + (if Q2 then q2 else 0)) * ((if R1 then r1 else 0) + (if R2 then r2 else 0)) := by
  by_cases a : P1 <;> by_cases b : P2 <;> by_cases c : Q1 <;> by_cases d : Q2 <;> by_cases e : R1 <;> by_cases f : R2 <;>
    simp only [a, b, c, d, e, f, and_self, and_true, and_false, if_true, if_false] <;> ring

theorem descrContrib_bin (wm nx ny nt t : ℚ) (m : Int) (ht : nt = t + 8 * m) (h0 : 0 ≤ nt) (h8 : nt ≤ 8) (b' bx bt : Nat) (hb' : b' < 4) (hbx : bx < 4) (hbt : bt < 8) :
    contrib (descrContrib wm nx ny nt) (32 * b' + 8 * bx + bt) = wm * tri (nx - (bx - 3 / 2)) * tri (ny - (b' - 3 / 2)) * max 0 (1 - circDist t bt) := by
  rw [circ_share t nt m ht h0 h8 bt hbt]
  have hk0 : 0 ≤ ⌊nt⌋ := Int.floor_nonneg.mpr h0
  have ht0 := Int.floor_le nt
  have ht1 := Int.lt_floor_add_one nt
  have hx0 := Int.floor_le (nx - 1 / 2)
  have hx1 := Int.lt_floor_add_one (nx - 1 / 2)
  have hy0 := Int.floor_le (ny - 1 / 2)
  have hy1 := Int.lt_floor_add_one (ny - 1 / 2)
  have tx := tri_int ⌊nx - 1 / 2⌋ (bx - 2) (nx - (⌊nx - 1 / 2⌋ + 1 / 2)) (by linarith) (by linarith)
  have ty := tri_int ⌊ny - 1 / 2⌋ (b' - 2) (ny - (⌊ny - 1 / 2⌋ + 1 / 2)) (by linarith) (by linarith)
  rw [show (⌊nx - 1 / 2⌋ : ℚ) + (nx - (⌊nx - 1 / 2⌋ + 1 / 2)) - ((bx - 2 : Int) : ℚ) = nx - (bx - 3 / 2) by push_cast; ring] at tx
  rw [show (⌊ny - 1 / 2⌋ : ℚ) + (ny - (⌊ny - 1 / 2⌋ + 1 / 2)) - ((b' - 2 : Int) : ℚ) = ny - (b' - 3 / 2) by push_cast; ring] at ty
  rw [tx, ty]
  have key : ∀ (dx dy dt : Nat) (v : ℚ), contrib (if ⌊nx - 1 / 2⌋ + dx ≥ -2 ∧ ⌊nx - 1 / 2⌋ + dx < 2 ∧ ⌊ny - 1 / 2⌋ + dy ≥ -2 ∧ ⌊ny - 1 / 2⌋ + dy < 2 then
      [(((2 * 32 + 2 * 8 : Int) + (⌊nt⌋ + dt).tmod 8 * 1 + (⌊ny - 1 / 2⌋ + dy) * 32 + (⌊nx - 1 / 2⌋ + dx) * 8).toNat, v)] else []) (32 * b' + 8 * bx + bt) =
      if ((bx : Int) - 2 = ⌊nx - 1 / 2⌋ + dx ∧ (b' : Int) - 2 = ⌊ny - 1 / 2⌋ + dy) ∧ ((⌊nt⌋ + dt).tmod 8).toNat = bt then v else 0 := by
    intro dx dy dt v
    rw [Int.tmod_eq_emod_of_nonneg (by omega)]
    by_cases g : ⌊nx - 1 / 2⌋ + dx ≥ -2 ∧ ⌊nx - 1 / 2⌋ + dx < 2 ∧ ⌊ny - 1 / 2⌋ + dy ≥ -2 ∧ ⌊ny - 1 / 2⌋ + dy < 2
    · rw [if_pos g, contrib_cons, contrib_nil, add_zero]
      congr 1
      rw [eq_iff_iff]
      simp only
      omega
    · rw [if_neg g, if_neg (by omega)]; rfl
  unfold descrContrib
  simp only [show List.range 2 = [0, 1] from rfl, List.flatMap_cons, List.flatMap_nil, contrib_append, contrib_nil, key]
  have ax : |1 - ((0 : Nat) : ℚ) - (nx - (⌊nx - 1 / 2⌋ + 1 / 2))| = 1 - (nx - (⌊nx - 1 / 2⌋ + 1 / 2)) := by
    rw [abs_of_nonneg (by push_cast; linarith)]; push_cast; ring
  have bx' : |1 - ((1 : Nat) : ℚ) - (nx - (⌊nx - 1 / 2⌋ + 1 / 2))| = nx - (⌊nx - 1 / 2⌋ + 1 / 2) := by
    rw [abs_of_nonpos (by push_cast; linarith)]; push_cast; ring
  have ay : |1 - ((0 : Nat) : ℚ) - (ny - (⌊ny - 1 / 2⌋ + 1 / 2))| = 1 - (ny - (⌊ny - 1 / 2⌋ + 1 / 2)) := by
    rw [abs_of_nonneg (by push_cast; linarith)]; push_cast; ring
  have by1 : |1 - ((1 : Nat) : ℚ) - (ny - (⌊ny - 1 / 2⌋ + 1 / 2))| = ny - (⌊ny - 1 / 2⌋ + 1 / 2) := by
    rw [abs_of_nonpos (by push_cast; linarith)]; push_cast; ring
  have at0 : |1 - ((0 : Nat) : ℚ) - (nt - ⌊nt⌋)| = 1 - (nt - ⌊nt⌋) := by
    rw [abs_of_nonneg (by push_cast; linarith)]; push_cast; ring
  have at1 : |1 - ((1 : Nat) : ℚ) - (nt - ⌊nt⌋)| = nt - ⌊nt⌋ := by
    rw [abs_of_nonpos (by push_cast; linarith)]; push_cast; ring
  rw [ax, bx', ay, by1, at0, at1]
  simp only [Nat.cast_zero, Nat.cast_one, add_zero]
  generalize nx - (⌊nx - 1 / 2⌋ + 1 / 2) = rx
  generalize ny - (⌊ny - 1 / 2⌋ + 1 / 2) = ry
  generalize nt - ⌊nt⌋ = rt
  apply prod_ites

theorem descrSample_eq {E : DescrEnv} {grad : List ℚ} {w h L lvl : Nat} {x y : ℚ} (ok : DescrOk E grad w h L lvl x y)
    (xi yi dxi dyi : Int) (v u : Nat) (hu : u < w) (hv : v < h) (eu : xi + dxi = u) (ev : yi + dyi = v) :
    ∃ (nt : ℚ) (m : Int), nt = 8 * (gradAng grad w h lvl v u - E.angle0) / E.twoPi + 8 * m ∧ 0 ≤ nt ∧ nt ≤ 8 ∧ ∀ descr : List ℚ,
      descrSample E grad (xi * 2 + yi * (2 * (w : Int)) + lvl * (2 * (w : Int) * h)) w xi yi x y dyi dxi descr =
        addAll descr (descrContrib (gradMod grad w h lvl v u *
          expn E.tab ((frameX E.ct0 E.st0 E.sbp x y v u ^ 2 + frameY E.ct0 E.st0 E.sbp x y v u ^ 2) / (2 * E.wsigma ^ 2)))
          (frameX E.ct0 E.st0 E.sbp x y v u) (frameY E.ct0 E.st0 E.sbp x y v u) nt) := by
  have hpi := ok.pi
  obtain ⟨th, m, e1, h1, h2, h3⟩ := mod2pi_spec E.twoPi ok.pi E.fuel _ (ok.ang v hv u hu)
  refine ⟨8 * th / E.twoPi, m, ?_, by positivity, ?_, ?_⟩
  · rw [h1]; field_simp
  · rw [div_le_iff₀ hpi]; linarith
  intro descr
  have hnt : 0 ≤ ⌊8 * th / E.twoPi⌋ := Int.floor_nonneg.mpr (by positivity)
  unfold descrSample
  have hws : 2 * E.wsigma * E.wsigma ≠ 0 := mul_ne_zero (mul_ne_zero (by norm_num) ok.wsigma) ok.wsigma
  rw [if_neg (by rintro (h | h); exacts [ok.sbp h, hws h])]
  have ea : xi * 2 + yi * (2 * (w : Int)) + lvl * (2 * (w : Int) * h) + dxi * 2 + dyi * (2 * w) = ((2 * ((lvl * h + v) * w + u) : Nat) : Int) := by
    push_cast
    rw [← eu, ← ev]; ring
  rw [ea, add_zero, rdI_nat, show ((2 * ((lvl * h + v) * w + u) : Nat) : Int) + 1 = ((2 * ((lvl * h + v) * w + u) + 1 : Nat) : Int) by push_cast; ring, rdI_nat]
  obtain ⟨g1, g2⟩ := grad_rd ok.gradLen ok.level hv hu
  rw [g1, g2]
  simp only [Option.bind_eq_bind, Option.bind_some]
  rw [e1]
  simp only [Option.bind_some]
  rw [eu, ev]
  have ex : (E.ct0 * (((u : Int) : ℚ) - x) + E.st0 * (((v : Int) : ℚ) - y)) / E.sbp = frameX E.ct0 E.st0 E.sbp x y v u := by
    unfold frameX; push_cast; rfl
  have ey : (-E.st0 * (((u : Int) : ℚ) - x) + E.ct0 * (((v : Int) : ℚ) - y)) / E.sbp = frameY E.ct0 E.st0 E.sbp x y v u := by
    unfold frameY; push_cast; ring
  rw [ex, ey]
  have ew : (frameX E.ct0 E.st0 E.sbp x y v u * frameX E.ct0 E.st0 E.sbp x y v u + frameY E.ct0 E.st0 E.sbp x y v u * frameY E.ct0 E.st0 E.sbp x y v u) / (2 * E.wsigma * E.wsigma) =
      (frameX E.ct0 E.st0 E.sbp x y v u ^ 2 + frameY E.ct0 E.st0 E.sbp x y v u ^ 2) / (2 * E.wsigma ^ 2) := by
    rw [pow_two, pow_two, pow_two, mul_assoc 2]
  rw [ew, fastExpn_spec E.tab ok.tabLen _ (by positivity) (ok.table v hv u hu)]
  simp only [Option.bind_some, vlFloor_eq]
  unfold descrContrib
  apply iter_addAll
  intro dx _ m1
  apply iter_addAll
  intro dy _ m2
  apply iter_addAll
  intro dt _ m3
  by_cases g : ⌊frameX E.ct0 E.st0 E.sbp x y v u - 1 / 2⌋ + dx ≥ -2 ∧ ⌊frameX E.ct0 E.st0 E.sbp x y v u - 1 / 2⌋ + dx < 2 ∧
      ⌊frameY E.ct0 E.st0 E.sbp x y v u - 1 / 2⌋ + dy ≥ -2 ∧ ⌊frameY E.ct0 E.st0 E.sbp x y v u - 1 / 2⌋ + dy < 2
  · rw [if_pos g, if_pos g]
    have hm : 0 ≤ (⌊8 * th / E.twoPi⌋ + dt).tmod 8 := by
      rw [Int.tmod_eq_emod_of_nonneg (Int.add_nonneg hnt (Int.natCast_nonneg _))]; omega
    rw [addI_nat _ _ _ (by omega)]
    simp only [addAll, Option.bind_eq_bind]
    rw [mul_comm (expn _ _) (gradMod _ _ _ _ _ _)]
    simp
  · rw [if_neg g, if_neg g]; rfl

/-- The histogram of the descriptor. -/
theorem descrHist_spec {E : DescrEnv} {grad : List ℚ} {w h L lvl : Nat} {x y : ℚ} (ok : DescrOk E grad w h L lvl x y) (mg : Nat) (xi yi W : Int) :
    ∃ descr, descrHist E grad mg (xi * 2 + yi * (2 * (w : Int)) + lvl * (2 * (w : Int) * h)) w h xi yi W x y = some descr ∧ descr.length = 128 ∧
      ∀ b' < 4, ∀ bx < 4, ∀ bt < 8, descr[32 * b' + 8 * bx + bt]? =
        some (descrSum E.twoPi E.tab grad E.st0 E.ct0 E.angle0 E.sbp E.wsigma w h lvl mg xi yi W x y b' bx bt) := by
  have hex : ∀ v u : Nat, ∃ nt : ℚ, v < h → u < w → (∃ m : Int, nt = 8 * (gradAng grad w h lvl v u - E.angle0) / E.twoPi + 8 * m) ∧ 0 ≤ nt ∧ nt ≤ 8 ∧
      ∀ dxi dyi : Int, xi + dxi = u → yi + dyi = v → ∀ descr : List ℚ,
      descrSample E grad (xi * 2 + yi * (2 * (w : Int)) + lvl * (2 * (w : Int) * h)) w xi yi x y dyi dxi descr =
        addAll descr (descrContrib (gradMod grad w h lvl v u *
          expn E.tab ((frameX E.ct0 E.st0 E.sbp x y v u ^ 2 + frameY E.ct0 E.st0 E.sbp x y v u ^ 2) / (2 * E.wsigma ^ 2)))
          (frameX E.ct0 E.st0 E.sbp x y v u) (frameY E.ct0 E.st0 E.sbp x y v u) nt) := by
    intro v u
    by_cases hv : v < h
    · by_cases hu : u < w
      · obtain ⟨nt, m, h1, h2, h3, h4⟩ := descrSample_eq ok xi yi (u - xi) (v - yi) v u hu hv (by omega) (by omega)
        refine ⟨nt, fun _ _ => ⟨⟨m, h1⟩, h2, h3, ?_⟩⟩
        intro dxi dyi e1 e2
        have e3 : dxi = u - xi := by omega
        have e4 : dyi = v - yi := by omega
        subst e3 e4
        exact h4
      · exact ⟨0, fun _ h => absurd h hu⟩
    · exact ⟨0, fun h => absurd h hv⟩
  choose nt hnt using hex
  let G : Nat → Nat → List (Nat × ℚ) := fun v u => descrContrib (gradMod grad w h lvl v u *
          expn E.tab ((frameX E.ct0 E.st0 E.sbp x y v u ^ 2 + frameY E.ct0 E.st0 E.sbp x y v u ^ 2) / (2 * E.wsigma ^ 2)))
          (frameX E.ct0 E.st0 E.sbp x y v u) (frameY E.ct0 E.st0 E.sbp x y v u) (nt v u)
  have hG : ∀ v < h, ∀ u < w, (∀ c ∈ G v u, c.1 < 128) ∧ ∀ b' < 4, ∀ bx < 4, ∀ bt < 8, contrib (G v u) (32 * b' + 8 * bx + bt) =
      descrTerm E.twoPi E.tab grad E.st0 E.ct0 E.angle0 E.sbp E.wsigma w h lvl x y b' bx bt v u := by
    intro v hv u hu
    obtain ⟨⟨m, h1⟩, h2, h3, _⟩ := hnt v u hv hu
    refine ⟨descrContrib_lt _ _ _ _ h2, ?_⟩
    intro b' hb' bx hbx bt hbt
    exact descrContrib_bin _ _ _ _ _ m h1 h2 h3 b' bx bt hb' hbx hbt
  have hrow : ∀ dyi ∈ intRange (max (-W) ((mg : Int) - yi)) (min W (h - yi - 1 - mg)), ∀ descr, forInt (max (-W) ((mg : Int) - xi)) (min W (w - xi - 1 - mg))
      (fun dxi descr => descrSample E grad (xi * 2 + yi * (2 * (w : Int)) + lvl * (2 * (w : Int) * h)) w xi yi x y dyi dxi descr) descr =
      addAll descr ((intRange (max (-W) ((mg : Int) - xi)) (min W (w - xi - 1 - mg))).flatMap (fun dxi => G (yi + dyi).toNat (xi + dxi).toNat)) := by
    intro dyi hdy descr
    rw [mem_intRange, max_le_iff, le_min_iff] at hdy
    rw [forInt_eq]
    apply foldlM_addAll'
    intro dxi hdx m
    rw [mem_intRange, max_le_iff, le_min_iff] at hdx
    exact (hnt _ _ (by omega) (by omega)).2.2.2 dxi dyi (by omega) (by omega) m
  have hall : descrHist E grad mg (xi * 2 + yi * (2 * (w : Int)) + lvl * (2 * (w : Int) * h)) w h xi yi W x y =
      addAll (List.replicate 128 0) ((intRange (max (-W) ((mg : Int) - yi)) (min W (h - yi - 1 - mg))).flatMap (fun dyi =>
        (intRange (max (-W) ((mg : Int) - xi)) (min W (w - xi - 1 - mg))).flatMap (fun dxi => G (yi + dyi).toNat (xi + dxi).toNat))) := by
    unfold descrHist
    rw [forInt_eq]
    apply foldlM_addAll'
    intro dyi hdy m
    exact hrow dyi hdy m
  obtain ⟨m, e1, e2, e3⟩ := addAll_spec (List.replicate 128 (0 : ℚ)) ((intRange (max (-W) ((mg : Int) - yi)) (min W (h - yi - 1 - mg))).flatMap (fun dyi =>
        (intRange (max (-W) ((mg : Int) - xi)) (min W (w - xi - 1 - mg))).flatMap (fun dxi => G (yi + dyi).toNat (xi + dxi).toNat))) (by
    intro c hc
    rw [List.mem_flatMap] at hc
    obtain ⟨dyi, hdy, hc⟩ := hc
    rw [List.mem_flatMap] at hc
    obtain ⟨dxi, hdx, hc⟩ := hc
    rw [mem_intRange, max_le_iff, le_min_iff] at hdx hdy
    rw [List.length_replicate]
    exact (hG _ (by omega) _ (by omega)).1 c hc)
  refine ⟨m, by rw [hall, e1], by rw [e2, List.length_replicate], ?_⟩
  intro b' hb' bx hbx bt hbt
  rw [e3, List.getElem?_replicate, if_pos (by omega)]
  simp only [Option.map_some, zero_add, Option.some.injEq]
  rw [contrib_flatMap]
  have hin : ∀ dyi ∈ intRange (max (-W) ((mg : Int) - yi)) (min W (h - yi - 1 - mg)), contrib ((intRange (max (-W) ((mg : Int) - xi)) (min W (w - xi - 1 - mg))).flatMap
      (fun dxi => G (yi + dyi).toNat (xi + dxi).toNat)) (32 * b' + 8 * bx + bt) =
      ∑ u ∈ range w, if |(u : Int) - xi| ≤ W ∧ mg ≤ u ∧ u + mg < w then
        descrTerm E.twoPi E.tab grad E.st0 E.ct0 E.angle0 E.sbp E.wsigma w h lvl x y b' bx bt (yi + dyi).toNat u else 0 := by
    intro dyi hdy
    rw [mem_intRange, max_le_iff, le_min_iff] at hdy
    rw [contrib_flatMap]
    rw [List.map_congr_left (g := fun dxi => descrTerm E.twoPi E.tab grad E.st0 E.ct0 E.angle0 E.sbp E.wsigma w h lvl x y b' bx bt (yi + dyi).toNat (xi + dxi).toNat) (by
      intro dxi hdx
      rw [mem_intRange, max_le_iff, le_min_iff] at hdx
      exact (hG _ (by omega) _ (by omega)).2 b' hb' bx hbx bt hbt)]
    rw [window_sum']
    apply Finset.sum_congr rfl
    intro u _
    rw [show (xi + ((u : Int) - xi)).toNat = u by omega]
  rw [List.map_congr_left hin, window_sum']
  unfold descrSum
  apply Finset.sum_congr rfl
  intro v _
  rw [show (yi + ((v : Int) - yi)).toNat = v by omega]

theorem normalizeHist_spec (sq : ℚ → ℚ) (eps : ℚ) (n : Nat) (hist : List ℚ) (f : Nat → ℚ) (h : Arr hist n f) (hn : sq (∑ j ∈ range n, f j ^ 2) + eps ≠ 0) :
    ∃ hist', normalizeHist sq eps n hist = some (hist', sq (∑ j ∈ range n, f j ^ 2) + eps) ∧ Arr hist' n (unit sq eps n f) := by
  obtain ⟨s, e1, h1⟩ := iter_inv (n := n) (f := fun i (norm : ℚ) => (do
      let a ← rd hist i
      some (norm + a * a) : Option ℚ)) (s := 0) (fun k s => s = ∑ j ∈ range k, f j ^ 2) (by simp) (by
    intro i hi s hs
    rw [h.rd hi]
    exact ⟨_, rfl, by rw [Finset.sum_range_succ, hs, pow_two]⟩)
  obtain ⟨l, e2, h2⟩ := iter_inv (n := n) (f := fun i (hist : List ℚ) => (do
      let a ← rd hist i
      wr hist i (a / (sq (∑ j ∈ range n, f j ^ 2) + eps)) : Option (List ℚ))) (s := hist)
    (fun k l => Arr l n (fun i => if i < k then unit sq eps n f i else f i)) (h.congr (by intro i _; simp)) (by
    intro i hi l hl
    rw [hl.rd hi]
    simp only [Option.bind_eq_bind, Option.bind_some, lt_irrefl, if_false]
    obtain ⟨l', e, h'⟩ := hl.wr hi (f i / (sq (∑ j ∈ range n, f j ^ 2) + eps))
    refine ⟨l', e, h'.congr ?_⟩
    intro j _
    simp only [upd1]
    by_cases c : j = i
    · subst c; rw [if_pos rfl, if_pos (by omega)]; rfl
    · rw [if_neg c]
      by_cases c2 : j < i
      · rw [if_pos c2, if_pos (by omega)]
      · rw [if_neg c2, if_neg (by omega)])
  refine ⟨l, ?_, h2.congr (by intro i hi; rw [if_pos hi])⟩
  unfold normalizeHist
  simp only [Option.bind_eq_bind] at e1 e2 ⊢
  rw [e1, Option.bind_some, h1, if_neg hn, e2]
  rfl

theorem finishDescr_spec (sq : ℚ → ℚ) (eps thr bound : ℚ) (hsq : ∀ a, 0 ≤ sq a) (heps : 0 < eps) (n : Nat) (descr : List ℚ) (f : Nat → ℚ) (h : Arr descr n f) :
    ∃ out, finishDescr sq eps thr bound n descr = some out ∧ Arr out n (descrFinal sq eps thr bound n f) := by
  have hne : ∀ a, sq a + eps ≠ 0 := fun a => by have := hsq a; linarith
  obtain ⟨l, e1, h1⟩ := normalizeHist_spec sq eps n descr f h (hne _)
  unfold finishDescr
  rw [e1]
  simp only [Option.bind_eq_bind, Option.bind_some]
  by_cases c : thr ≠ 0 ∧ sq (∑ j ∈ range n, f j ^ 2) + eps < bound
  · rw [if_pos c]
    obtain ⟨l', e2, h2⟩ := iter_inv (n := n) (f := fun bin (descr : List ℚ) => wr descr bin 0) (s := l)
      (fun k m => Arr m n (fun i => if i < k then 0 else unit sq eps n f i)) (h1.congr (by intro i _; simp)) (by
      intro i hi m hm
      obtain ⟨m', e, h'⟩ := hm.wr hi 0
      refine ⟨m', e, h'.congr ?_⟩
      intro j _
      simp only [upd1]
      by_cases c : j = i
      · subst c; rw [if_pos rfl, if_pos (by omega)]
      · rw [if_neg c]
        by_cases c2 : j < i
        · rw [if_pos c2, if_pos (by omega)]
        · rw [if_neg c2, if_neg (by omega)])
    refine ⟨l', e2, h2.congr ?_⟩
    intro i hi
    unfold descrFinal
    rw [if_pos hi, if_pos c]
  · rw [if_neg c]
    obtain ⟨l', e2, h2⟩ := iter_inv (n := n) (f := fun bin (descr : List ℚ) => (do
        let a ← rd descr bin
        if a > 2 / 10 then wr descr bin (2 / 10) else some descr : Option (List ℚ))) (s := l)
      (fun k m => Arr m n (fun i => if i < k then min (unit sq eps n f i) (2 / 10) else unit sq eps n f i)) (h1.congr (by intro i _; simp)) (by
      intro i hi m hm
      rw [hm.rd hi]
      simp only [Option.bind_eq_bind, Option.bind_some, lt_irrefl, if_false]
      by_cases c : unit sq eps n f i > 2 / 10
      · rw [if_pos c]
        obtain ⟨m', e, h'⟩ := hm.wr hi (2 / 10)
        refine ⟨m', e, h'.congr ?_⟩
        intro j _
        simp only [upd1]
        by_cases c3 : j = i
        · subst c3; rw [if_pos rfl, if_pos (by omega), min_eq_right (le_of_lt c)]
        · rw [if_neg c3]
          by_cases c2 : j < i
          · rw [if_pos c2, if_pos (by omega)]
          · rw [if_neg c2, if_neg (by omega)]
      · rw [if_neg c]
        refine ⟨m, rfl, hm.congr ?_⟩
        intro j _
        by_cases c2 : j < i
        · rw [if_pos c2, if_pos (by omega)]
        · rw [if_neg c2]
          by_cases c3 : j = i
          · subst c3; rw [if_pos (by omega), min_eq_left (not_lt.mp c)]
          · rw [if_neg (by omega)])
    obtain ⟨l'', e3, h3⟩ := normalizeHist_spec sq eps n l' (fun i => min (unit sq eps n f i) (2 / 10)) (h2.congr (by intro i hi; rw [if_pos hi])) (hne _)
    refine ⟨l'', ?_, h3.congr ?_⟩
    · simp only [Option.bind_eq_bind] at e2
      rw [e2, Option.bind_some, e3]
      rfl
    · intro i _
      unfold descrFinal
      rw [if_neg c]

end Verif.Sift
