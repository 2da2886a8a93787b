import Verif.Covdet.ExtremaLemmas
import Mathlib.Tactic.Positivity
import Mathlib.Tactic.LinearCombination
import Mathlib.Algebra.Order.Field.Basic

set_option linter.unusedSectionVars false

/-!
# Lemmas on the refinement of extrema
-/

namespace Verif.Covdet

open Finset

variable {K : Type} [Field K] [LinearOrder K] [IsStrictOrderedRing K]

/-- The derivatives as functions of the differences -/
def derivsOf (dim : Nat) (D : Int → Int → Int → K) (z y x : Int) : Derivs K :=
  { v := D z y x
    dx := grad D z y x 0, dy := grad D z y x 1, dz := if dim = 3 then grad D z y x 2 else 0
    dxx := hess D z y x 0 0, dyy := hess D z y x 1 1, dzz := if dim = 3 then hess D z y x 2 2 else 0
    dxy := hess D z y x 0 1, dxz := if dim = 3 then hess D z y x 0 2 else 0, dyz := if dim = 3 then hess D z y x 1 2 else 0 }

theorem derivs3_spec {map : List K} {D : Int → Int → Int → K} {w h L : Nat} (hD : Holds map D w h L) {q z y x : Int} (hq : q = x + w * y + w * h * z)
    (hz : 1 ≤ z) (hz' : z + 1 < L) (hy : 1 ≤ y) (hy' : y + 1 < h) (hx : 1 ≤ x) (hx' : x + 1 < w) :
    derivs3 map w h q = some (derivsOf 3 D z y x) := by
  have hrd : ∀ dx dy ds : Int, -1 ≤ dx → dx ≤ 1 → -1 ≤ dy → dy ≤ 1 → -1 ≤ ds → ds ≤ 1 →
      rdI map (q + dx * 1 + dy * w + ds * (w * h)) = some (D (z + ds) (y + dy) (x + dx)) := by
    intro dx dy ds a1 a2 a3 a4 a5 a6
    exact hD _ _ _ _ (by rw [hq]; ring) (by omega) (by omega) (by omega) (by omega) (by omega) (by omega)
  unfold derivs3
  simp only [hrd 0 0 0 (by decide) (by decide) (by decide) (by decide) (by decide) (by decide),
    hrd 1 0 0 (by decide) (by decide) (by decide) (by decide) (by decide) (by decide),
    hrd (-1) 0 0 (by decide) (by decide) (by decide) (by decide) (by decide) (by decide),
    hrd 0 1 0 (by decide) (by decide) (by decide) (by decide) (by decide) (by decide),
    hrd 0 (-1) 0 (by decide) (by decide) (by decide) (by decide) (by decide) (by decide),
    hrd 0 0 1 (by decide) (by decide) (by decide) (by decide) (by decide) (by decide),
    hrd 0 0 (-1) (by decide) (by decide) (by decide) (by decide) (by decide) (by decide),
    hrd 1 1 0 (by decide) (by decide) (by decide) (by decide) (by decide) (by decide),
    hrd (-1) (-1) 0 (by decide) (by decide) (by decide) (by decide) (by decide) (by decide),
    hrd (-1) 1 0 (by decide) (by decide) (by decide) (by decide) (by decide) (by decide),
    hrd 1 (-1) 0 (by decide) (by decide) (by decide) (by decide) (by decide) (by decide),
    hrd 1 0 1 (by decide) (by decide) (by decide) (by decide) (by decide) (by decide),
    hrd (-1) 0 (-1) (by decide) (by decide) (by decide) (by decide) (by decide) (by decide),
    hrd (-1) 0 1 (by decide) (by decide) (by decide) (by decide) (by decide) (by decide),
    hrd 1 0 (-1) (by decide) (by decide) (by decide) (by decide) (by decide) (by decide),
    hrd 0 1 1 (by decide) (by decide) (by decide) (by decide) (by decide) (by decide),
    hrd 0 (-1) (-1) (by decide) (by decide) (by decide) (by decide) (by decide) (by decide),
    hrd 0 (-1) 1 (by decide) (by decide) (by decide) (by decide) (by decide) (by decide),
    hrd 0 1 (-1) (by decide) (by decide) (by decide) (by decide) (by decide) (by decide),
    Option.bind_eq_bind, Option.bind_some]
  simp only [derivsOf, grad, hess, add_zero, Int.sub_eq_add_neg, if_true]
  congr 1
  simp only [Derivs.mk.injEq]
  constructorm* _ ∧ _ <;> first | trivial | ring

theorem derivs2_spec {map : List K} {D : Int → Int → Int → K} {w h : Nat} {z : Int} (hD : ∀ y x : Int, 0 ≤ y → y < h → 0 ≤ x → x < w → rdI map (w * y + x) = some (D z y x)) {q y x : Int} (hq : q = x + w * y)
    (hy : 1 ≤ y) (hy' : y + 1 < h) (hx : 1 ≤ x) (hx' : x + 1 < w) :
    derivs2 map w q = some (derivsOf 2 D z y x) := by
  have hrd : ∀ dx dy : Int, -1 ≤ dx → dx ≤ 1 → -1 ≤ dy → dy ≤ 1 →
      rdI map (q + dx * 1 + dy * w) = some (D z (y + dy) (x + dx)) := by
    intro dx dy a1 a2 a3 a4
    rw [← hD (y + dy) (x + dx) (by omega) (by omega) (by omega) (by omega)]
    congr 1
    rw [hq]; ring
  unfold derivs2
  simp only [hrd 0 0 (by decide) (by decide) (by decide) (by decide),
    hrd 1 0 (by decide) (by decide) (by decide) (by decide),
    hrd (-1) 0 (by decide) (by decide) (by decide) (by decide),
    hrd 0 1 (by decide) (by decide) (by decide) (by decide),
    hrd 0 (-1) (by decide) (by decide) (by decide) (by decide),
    hrd 1 1 (by decide) (by decide) (by decide) (by decide),
    hrd (-1) (-1) (by decide) (by decide) (by decide) (by decide),
    hrd (-1) 1 (by decide) (by decide) (by decide) (by decide),
    hrd 1 (-1) (by decide) (by decide) (by decide) (by decide),
    Option.bind_eq_bind, Option.bind_some]
  simp only [derivsOf, grad, hess, add_zero, Int.sub_eq_add_neg, if_neg (show ¬ 2 = 3 by decide)]
  congr 1
  simp only [Derivs.mk.injEq]
  constructorm* _ ∧ _ <;> first | trivial | ring

/-- What a solution of the linear system gives. -/
def Solved (tau : K) (dim : Nat) (D : Int → Int → Int → K) (z y x : Int) (s : Option (Bool × List K)) : Prop :=
  ∃ err b, s = some (err, b) ∧ b.length = dim ∧ (err = false → IsOffset dim D z y x (fun i => b.getD i 0)) ∧ (err = true → NearlySingular tau dim D z y x)

theorem solveAt3_spec {tau : K} (htau : 0 < tau) (D : Int → Int → Int → K) (z y x : Int) : Solved tau 3 D z y x (solveAt3 tau (derivsOf 3 D z y x)) := by
  have hA : ∀ i < 3, ∀ k < 3, Linear.ent [hess D z y x 0 0, hess D z y x 0 1, hess D z y x 0 2, hess D z y x 0 1, hess D z y x 1 1, hess D z y x 1 2, hess D z y x 0 2, hess D z y x 1 2, hess D z y x 2 2] 3 i k = hess D z y x i k := by
    intro i hi k hk
    obtain rfl | rfl | rfl : i = 0 ∨ i = 1 ∨ i = 2 := by omega
    all_goals
      obtain rfl | rfl | rfl : k = 0 ∨ k = 1 ∨ k = 2 := by omega
      all_goals simp [Linear.ent, hess]
  have hb : ∀ i < 3, [- grad D z y x 0, - grad D z y x 1, - grad D z y x 2].getD i 0 = - grad D z y x i := by
    intro i hi
    obtain rfl | rfl | rfl : i = 0 ∨ i = 1 ∨ i = 2 := by omega
    all_goals simp
  have hsum : ∀ (u : Nat → K), ∀ i < 3, ∑ k ∈ range 3, Linear.ent [hess D z y x 0 0, hess D z y x 0 1, hess D z y x 0 2, hess D z y x 0 1, hess D z y x 1 1, hess D z y x 1 2, hess D z y x 0 2, hess D z y x 1 2, hess D z y x 2 2] 3 i k * u k = ∑ k ∈ range 3, hess D z y x i k * u k :=
    fun u i hi => Finset.sum_congr rfl fun k hk => by rw [hA i hi k (Finset.mem_range.1 hk)]
  obtain ⟨err, b, e, hl, h1, h2⟩ := Linear.solve3_correct tau htau [hess D z y x 0 0, hess D z y x 0 1, hess D z y x 0 2, hess D z y x 0 1, hess D z y x 1 1, hess D z y x 1 2, hess D z y x 0 2, hess D z y x 1 2, hess D z y x 2 2]
    [- grad D z y x 0, - grad D z y x 1, - grad D z y x 2] rfl rfl
  refine ⟨err, b, ?_, hl, fun he u => ?_, fun he => ?_⟩
  · simpa only [solveAt3, derivsOf, if_true] using e
  · rw [← h1 he u]
    exact forall₂_congr fun i hi => by rw [hsum u i hi, hb i hi]
  · obtain ⟨u, hu, h3⟩ := h2 he
    exact ⟨u, hu, fun i hi => by rw [← hsum u i hi]; exact h3 i hi⟩

theorem solveAt2_spec {tau : K} (htau : 0 < tau) (D : Int → Int → Int → K) (z y x : Int) : Solved tau 2 D z y x (solveAt2 tau (derivsOf 2 D z y x)) := by
  have hA : ∀ i < 2, ∀ k < 2, Linear.ent [hess D z y x 0 0, hess D z y x 0 1, hess D z y x 0 1, hess D z y x 1 1] 2 i k = hess D z y x i k := by
    intro i hi k hk
    obtain rfl | rfl : i = 0 ∨ i = 1 := by omega
    all_goals
      obtain rfl | rfl : k = 0 ∨ k = 1 := by omega
      all_goals simp [Linear.ent, hess]
  have hb : ∀ i < 2, [- grad D z y x 0, - grad D z y x 1].getD i 0 = - grad D z y x i := by
    intro i hi
    obtain rfl | rfl : i = 0 ∨ i = 1 := by omega
    all_goals simp
  have hsum : ∀ (u : Nat → K), ∀ i < 2, ∑ k ∈ range 2, Linear.ent [hess D z y x 0 0, hess D z y x 0 1, hess D z y x 0 1, hess D z y x 1 1] 2 i k * u k = ∑ k ∈ range 2, hess D z y x i k * u k :=
    fun u i hi => Finset.sum_congr rfl fun k hk => by rw [hA i hi k (Finset.mem_range.1 hk)]
  obtain ⟨err, b, e, hl, h1, h2⟩ := Linear.solve2_correct tau htau [hess D z y x 0 0, hess D z y x 0 1, hess D z y x 0 1, hess D z y x 1 1]
    [- grad D z y x 0, - grad D z y x 1] rfl rfl
  refine ⟨err, b, ?_, hl, fun he u => ?_, fun he => ?_⟩
  · simpa only [solveAt2, derivsOf] using e
  · rw [← h1 he u]
    exact forall₂_congr fun i hi => by rw [hsum u i hi, hb i hi]
  · obtain ⟨u, hu, h3⟩ := h2 he
    exact ⟨u, hu, fun i hi => by rw [← hsum u i hi]; exact h3 i hi⟩

theorem moveOf_eq (b : K) (x : Int) (n : Nat) :
    (if b > 6 / 10 ∧ x < (n : Int) - 2 then (1 : Int) else 0) + (if b < - (6 / 10) ∧ x > 1 then -1 else 0) = moveOf b x n := by
  unfold moveOf
  by_cases h1 : 6 / 10 < b
  · have h2 : ¬ b < - (6 / 10) := by intro h; linarith
    simp only [gt_iff_lt, h1, h2, true_and, false_and, if_false, add_zero]
  · simp only [gt_iff_lt, h1, false_and, if_false, zero_add]

theorem moveOf_bound (b : K) (x : Int) (n : Nat) (h1 : 1 ≤ x) (h2 : x + 1 < n) :
    1 ≤ x + moveOf b x n ∧ x + moveOf b x n + 1 < n ∧ -1 ≤ moveOf b x n ∧ moveOf b x n ≤ 1 := by
  unfold moveOf
  split_ifs with c1 c2
  · omega
  · omega
  · omega

/-- A walk of `k` moves stays off the border and goes at most `k` pixels away. -/
theorem Walk.dist {tau : K} {dim : Nat} {D : Int → Int → Int → K} {w h : Nat} {z : Int} {k : Nat} {y x y' x' : Int} {r : Option (Nat → K)} (hw : Walk tau dim D w h z k y x y' x' r)
    (hy : 1 ≤ y) (hy' : y + 1 < h) (hx : 1 ≤ x) (hx' : x + 1 < w) :
    1 ≤ y' ∧ y' + 1 < h ∧ 1 ≤ x' ∧ x' + 1 < w ∧ |x' - x| ≤ k ∧ |y' - y| ≤ k := by
  induction hw with
  | stop k y x b _ _ => exact ⟨hy, hy', hx, hx', by simp, by simp⟩
  | fail k y x _ => exact ⟨hy, hy', hx, hx', by simp, by simp⟩
  | move k y x b y' x' b' _ _ _ ih =>
    obtain ⟨a1, a2, a3, a4⟩ := moveOf_bound (b 1) y h hy hy'
    obtain ⟨c1, c2, c3, c4⟩ := moveOf_bound (b 0) x w hx hx'
    obtain ⟨i1, i2, i3, i4, i5, i6⟩ := ih a1 a2 c1 c2
    refine ⟨i1, i2, i3, i4, ?_, ?_⟩
    · rw [abs_le] at i5 ⊢; push_cast; omega
    · rw [abs_le] at i6 ⊢; push_cast; omega

/-- The rounds follow a walk. -/
theorem refineLoop_spec {tau : K} {dim : Nat} (hdim : 2 ≤ dim) {D : Int → Int → Int → K} {w h : Nat} {z : Int} (ders : Int → Int → Option (Derivs K)) (der : Int → Int → Derivs K) (solve : Derivs K → Option (Bool × List K))
    (hders : ∀ y x : Int, 1 ≤ y → y + 1 < h → 1 ≤ x → x + 1 < w → ders x y = some (der y x)) (hsolve : ∀ y x : Int, Solved tau dim D z y x (solve (der y x)))
    (k : Nat) : ∀ (y x : Int), 1 ≤ y → y + 1 < h → 1 ≤ x → x + 1 < w →
    ∃ s, refineLoop ders solve dim w h (k + 1) x y = some s ∧ s.d = der s.y s.x ∧ s.b.length = dim ∧
      ((s.err = true ∧ Walk tau dim D w h z k y x s.y s.x none) ∨ (s.err = false ∧ Walk tau dim D w h z k y x s.y s.x (some fun i => s.b.getD i 0))) := by
  induction k with
  | zero =>
    intro y x hy hy' hx hx'
    obtain ⟨err, b, e, hl, ho, hs⟩ := hsolve y x
    unfold refineLoop
    rw [hders y x hy hy' hx hx', Option.bind_eq_bind, Option.bind_some, e, Option.bind_eq_bind, Option.bind_some]
    cases err with
    | true =>
      simp only [if_true]
      exact ⟨_, rfl, rfl, by simp, Or.inl ⟨rfl, Walk.fail 0 y x (hs rfl)⟩⟩
    | false =>
      simp only [if_false, Bool.false_eq_true, Option.bind_eq_bind]
      rw [rd_getElem?, List.getElem?_eq_getElem (by omega), Option.bind_some, rd_getElem?, List.getElem?_eq_getElem (by omega), Option.bind_some, if_pos (Or.inr trivial)]
      exact ⟨_, rfl, rfl, hl, Or.inr ⟨rfl, Walk.stop 0 y x _ (ho rfl) (Or.inl rfl)⟩⟩
  | succ k ih =>
    intro y x hy hy' hx hx'
    obtain ⟨err, b, e, hl, ho, hs⟩ := hsolve y x
    unfold refineLoop
    rw [hders y x hy hy' hx hx', Option.bind_eq_bind, Option.bind_some, e, Option.bind_eq_bind, Option.bind_some]
    cases err with
    | true =>
      simp only [if_true]
      exact ⟨_, rfl, rfl, by simp, Or.inl ⟨rfl, Walk.fail _ y x (hs rfl)⟩⟩
    | false =>
      simp only [if_false, Bool.false_eq_true, Option.bind_eq_bind]
      have g0 : rd b 0 = some (b.getD 0 0) := by rw [rd_getElem?, List.getD_eq_getElem?_getD, List.getElem?_eq_getElem (by omega)]; rfl
      have g1 : rd b 1 = some (b.getD 1 0) := by rw [rd_getElem?, List.getD_eq_getElem?_getD, List.getElem?_eq_getElem (by omega)]; rfl
      rw [g0, Option.bind_some, g1, Option.bind_some]
      rw [moveOf_eq, moveOf_eq]
      by_cases hm : moveOf (b.getD 0 0) x w = 0 ∧ moveOf (b.getD 1 0) y h = 0
      · rw [if_pos (Or.inl hm)]
        exact ⟨_, rfl, rfl, hl, Or.inr ⟨rfl, Walk.stop _ y x _ (ho rfl) (Or.inr hm)⟩⟩
      · rw [if_neg (by rintro (h | h); exact hm h; omega)]
        obtain ⟨a1, a2, _, _⟩ := moveOf_bound (b.getD 1 0) y h hy hy'
        obtain ⟨c1, c2, _, _⟩ := moveOf_bound (b.getD 0 0) x w hx hx'
        obtain ⟨s, e', h1, h2, h3⟩ := ih _ _ a1 a2 c1 c2
        refine ⟨s, e', h1, h2, ?_⟩
        rcases h3 with ⟨h3, h4⟩ | ⟨h3, h4⟩
        · exact Or.inl ⟨h3, Walk.move k y x _ _ _ _ (ho rfl) hm h4⟩
        · exact Or.inr ⟨h3, Walk.move k y x _ _ _ _ (ho rfl) hm h4⟩

/-- The edge score -/
theorem edgeScore_spec {sqrt : K → K} (hs : ∀ x, 0 ≤ x → 0 ≤ sqrt x ∧ sqrt x * sqrt x = x) (dim : Nat) (D : Int → Int → Int → K) (z y x : Int) : IsEdge D z y x (edgeScore sqrt (derivsOf dim D z y x)) := by
  have hadj : 4 * (hess D z y x 0 0 * hess D z y x 1 1 - hess D z y x 0 1 * hess D z y x 0 1) ≤ (hess D z y x 0 0 + hess D z y x 1 1) * (hess D z y x 0 0 + hess D z y x 1 1) := by
    nlinarith [sq_nonneg (hess D z y x 0 0 - hess D z y x 1 1), sq_nonneg (hess D z y x 0 1)]
  obtain ⟨t, htr⟩ : ∃ t, t = hess D z y x 0 0 + hess D z y x 1 1 := ⟨_, rfl⟩
  obtain ⟨d, hdet⟩ : ∃ d, d = hess D z y x 0 0 * hess D z y x 1 1 - hess D z y x 0 1 * hess D z y x 0 1 := ⟨_, rfl⟩
  have hE : edgeScore sqrt (derivsOf dim D z y x) = if d = 0 then ⊤ else if t * t / d < 0 then ⊤ else (((1 / 2 * (t * t / d) - 1) + sqrt (max (1 / 4 * (t * t / d) - 1) 0 * (t * t / d)) : K) : WithTop K) := by
    subst htr hdet
    rfl
  have h1 : det2 D z y x = d := by rw [hdet, det2, pow_two]
  have h2 : tr2 D z y x = t := by rw [htr, tr2]
  rw [← htr, ← hdet] at hadj
  unfold IsEdge
  rw [hE, h1, h2]
  clear hE h1 h2 htr hdet
  by_cases hd : d = 0
  · rw [if_pos hd]
    exact Or.inl ⟨hd, rfl⟩
  rw [if_neg hd]
  rcases lt_or_gt_of_ne hd with hneg | hpos
  · by_cases ht : t = 0
    · have ha : t * t / d = 0 := by rw [ht]; simp
      rw [ha, if_neg (lt_irrefl _)]
      refine Or.inr (Or.inr (Or.inl ⟨hneg, ht, ?_⟩))
      have hs0 : sqrt 0 = 0 := by
        have := (hs 0 le_rfl).2
        exact mul_self_eq_zero.1 this
      rw [mul_zero, mul_zero, hs0]
      simp
    · rw [if_pos (div_neg_of_pos_of_neg (mul_self_pos.2 ht) hneg)]
      exact Or.inr (Or.inl ⟨hneg, ht, rfl⟩)
  · obtain ⟨a, ha⟩ : ∃ a, a = t * t / d := ⟨_, rfl⟩
    have hat : a * d = t * t := by rw [ha]; field_simp
    have ha4 : 4 ≤ a := by
      rw [ha, le_div_iff₀ hpos]
      exact hadj
    rw [← ha, if_neg (by linarith), max_eq_left (by linarith)]
    obtain ⟨h1, h2⟩ := hs ((1 / 4 * a - 1) * a) (mul_nonneg (by linarith) (by linarith))
    refine Or.inr (Or.inr (Or.inr ⟨hpos, _, rfl, by linarith, ?_⟩))
    generalize sqrt ((1 / 4 * a - 1) * a) = s at h1 h2 ⊢
    rw [pow_two t, ← hat]
    linear_combination d * h2

/-- What the refinement of one extremum makes of it. -/
theorem outcome_of {tau : K} {dim : Nat} (hdim : dim = 2 ∨ dim = 3) {sqrt : K → K} (hs : ∀ x, 0 ≤ x → 0 ≤ sqrt x ∧ sqrt x * sqrt x = x) {D : Int → Int → Int → K} {w h depth : Nat} {z y x : Int} {peak edge step : K} {sig sig' : K → K} {s : Stop K}
    (hd : s.d = derivsOf dim D z s.y s.x) (hsig : ∀ v, sig' v = if dim = 3 then sig v else sig z)
    (hw : (s.err = true ∧ Walk tau dim D w h z 4 y x s.y s.x none) ∨ (s.err = false ∧ Walk tau dim D w h z 4 y x s.y s.x (some fun i => s.b.getD i 0)))
    (rz : K) (hrz : dim = 3 → rz = z + s.b.getD 2 0) (zi : Int) (peakScore : K) (hpeak : peakScore = peakAt dim D z s.y s.x (fun i => s.b.getD i 0)) (ok : Bool)
    (hok : ok = true ↔ s.err = false ∧ Stable dim w h depth z s.y s.x (fun i => s.b.getD i 0)) :
    Outcome tau dim D w h depth peak edge step sig (z, y, x) (makeFeature peak edge step sig' ⟨s.x, s.y, zi, s.x + s.b.getD 0 0, s.y + s.b.getD 1 0, rz, peakScore, edgeScore sqrt s.d, ok⟩) := by
  have he := edgeScore_spec hs dim D z s.y s.x
  rw [← hd] at he
  rcases hw with ⟨h1, h2⟩ | ⟨h1, h2⟩
  · refine ⟨s.y, s.x, none, _, h2, he, ?_⟩
    have hf : ok = false := by
      rw [← Bool.not_eq_true, hok, h1]
      simp
    simp [makeFeature, hf]
  · refine ⟨s.y, s.x, _, _, h2, he, ?_⟩
    simp only
    by_cases hc : Stable dim w h depth z s.y s.x (fun i => s.b.getD i 0) ∧ peak < |peakAt dim D z s.y s.x (fun i => s.b.getD i 0)| ∧ edgeScore sqrt s.d < (edge : WithTop K)
    · refine Or.inl ⟨hc.1, hc.2.1, hc.2.2, ?_⟩
      have hokt := hok.2 ⟨h1, hc.1⟩
      unfold makeFeature
      simp only [hokt, hpeak, gt_iff_lt, hc.2.1, hc.2.2, decide_true, Bool.and_self, if_true]
      unfold featureAt
      simp only [hsig]
      congr 2
      rcases hdim with rfl | rfl
      · simp
      · simp [hrz rfl]
    · refine Or.inr ⟨hc, ?_⟩
      unfold makeFeature
      rw [if_neg]
      simp only [Bool.and_eq_true, decide_eq_true_eq, gt_iff_lt, hok, hpeak]
      rintro ⟨⟨⟨-, a⟩, b⟩, c⟩
      exact hc ⟨a, b, c⟩

/-- `vl_refine_local_extreum_3` and the tests after it -/
theorem refine3_spec {tau : K} (htau : 0 < tau) {sqrt : K → K} (hs : ∀ x, 0 ≤ x → 0 ≤ sqrt x ∧ sqrt x * sqrt x = x) {map : List K} {D : Int → Int → Int → K} {w h depth : Nat} (hD : Holds map D w h depth) {z y x : Int}
    (hz : 1 ≤ z) (hz' : z + 1 < depth) (hy : 1 ≤ y) (hy' : y + 1 < h) (hx : 1 ≤ x) (hx' : x + 1 < w) (peak edge step : K) (sig : K → K) :
    ∃ r, refine3 tau sqrt map w h depth x y z = some r ∧ Outcome tau 3 D w h depth peak edge step sig (z, y, x) (makeFeature peak edge step sig r) := by
  obtain ⟨s, e, hd, hl, hw⟩ := refineLoop_spec (tau := tau) (dim := 3) (by omega) (D := D) (w := w) (h := h) (z := z) (fun x y => derivs3 map w h (x * 1 + y * w + z * (w * h)))
    (fun y x => derivsOf 3 D z y x) (solveAt3 tau) (fun y x h1 h2 h3 h4 => derivs3_spec hD (by ring) hz hz' h1 h2 h3 h4) (fun y x => solveAt3_spec htau D z y x) 4 y x hy hy' hx hx'
  have g : ∀ i < 3, rd s.b i = some (s.b.getD i 0) := by
    intro i hi
    rw [rd_getElem?, List.getD_eq_getElem?_getD, List.getElem?_eq_getElem (by omega)]; rfl
  unfold refine3
  have a1 : decide (1 ≤ x ∧ x ≤ (w : Int) - 2) = true := decide_eq_true (by omega)
  have a2 : decide (1 ≤ y ∧ y ≤ (h : Int) - 2) = true := decide_eq_true (by omega)
  have a3 : decide (1 ≤ z ∧ z ≤ (depth : Int) - 2) = true := decide_eq_true (by omega)
  simp only [a1, a2, a3, assert', if_true, Option.bind_eq_bind, Option.bind_some, e, g 0 (by omega), g 1 (by omega), g 2 (by omega)]
  refine ⟨_, rfl, outcome_of (Or.inr rfl) hs hd (fun v => by simp) hw _ (fun _ => rfl) _ _ ?_ _ ?_⟩
  · rw [hd]
    simp only [derivsOf, peakAt, Finset.sum_range_succ, Finset.sum_range_zero, if_true]
    ring
  · simp only [Bool.and_eq_true, decide_eq_true_eq, Bool.not_eq_true', Stable]
    constructor
    · rintro ⟨⟨⟨⟨⟨⟨⟨⟨⟨c1, c2⟩, c3⟩, c4⟩, c5⟩, c6⟩, c7⟩, c8⟩, c9⟩, c10⟩
      refine ⟨c1, fun i hi => ?_, c5, c6, c7, c8, fun _ => ⟨c9, c10⟩⟩
      obtain rfl | rfl | rfl : i = 0 ∨ i = 1 ∨ i = 2 := by omega
      · exact c2
      · exact c3
      · exact c4
    · rintro ⟨c1, c2, c5, c6, c7, c8, c9⟩
      exact ⟨⟨⟨⟨⟨⟨⟨⟨⟨c1, c2 0 (by omega)⟩, c2 1 (by omega)⟩, c2 2 (by omega)⟩, c5⟩, c6⟩, c7⟩, c8⟩, (c9 trivial).1⟩, (c9 trivial).2⟩

/-- `vl_refine_local_extreum_2` and the tests after it -/
theorem refine2_spec {tau : K} (htau : 0 < tau) {sqrt : K → K} (hs : ∀ x, 0 ≤ x → 0 ≤ sqrt x ∧ sqrt x * sqrt x = x) {map : List K} {D : Int → Int → Int → K} {w h : Nat} {z y x : Int}
    (hD : ∀ y x : Int, 0 ≤ y → y < h → 0 ≤ x → x < w → rdI map (w * y + x) = some (D z y x))
    (hy : 1 ≤ y) (hy' : y + 1 < h) (hx : 1 ≤ x) (hx' : x + 1 < w) (depth : Nat) (peak edge step : K) (sig : K → K) :
    ∃ r, refine2 tau sqrt map w h x y = some r ∧ Outcome tau 2 D w h depth peak edge step sig (z, y, x) (makeFeature peak edge step (fun _ => sig z) r) := by
  obtain ⟨s, e, hd, hl, hw⟩ := refineLoop_spec (tau := tau) (dim := 2) (by omega) (D := D) (w := w) (h := h) (z := z) (fun x y => derivs2 map w (x * 1 + y * w))
    (fun y x => derivsOf 2 D z y x) (solveAt2 tau) (fun y x h1 h2 h3 h4 => derivs2_spec hD (by ring) h1 h2 h3 h4) (fun y x => solveAt2_spec htau D z y x) 4 y x hy hy' hx hx'
  have g : ∀ i < 2, rd s.b i = some (s.b.getD i 0) := by
    intro i hi
    rw [rd_getElem?, List.getD_eq_getElem?_getD, List.getElem?_eq_getElem (by omega)]; rfl
  unfold refine2
  have a1 : decide (1 ≤ x ∧ x ≤ (w : Int) - 2) = true := decide_eq_true (by omega)
  have a2 : decide (1 ≤ y ∧ y ≤ (h : Int) - 2) = true := decide_eq_true (by omega)
  simp only [a1, a2, assert', if_true, Option.bind_eq_bind, Option.bind_some, e, g 0 (by omega), g 1 (by omega)]
  refine ⟨_, rfl, outcome_of (Or.inl rfl) hs hd (fun v => by simp) hw _ (fun h => by omega) _ _ ?_ _ ?_⟩
  · rw [hd]
    simp only [derivsOf, peakAt, Finset.sum_range_succ, Finset.sum_range_zero]
    ring
  · simp only [Bool.and_eq_true, decide_eq_true_eq, Bool.not_eq_true', Stable]
    constructor
    · rintro ⟨⟨⟨⟨⟨⟨c1, c2⟩, c3⟩, c5⟩, c6⟩, c7⟩, c8⟩
      refine ⟨c1, fun i hi => ?_, c5, c6, c7, c8, fun h => by omega⟩
      obtain rfl | rfl : i = 0 ∨ i = 1 := by omega
      · exact c2
      · exact c3
    · rintro ⟨c1, c2, c5, c6, c7, c8, -⟩
      exact ⟨⟨⟨⟨⟨⟨c1, c2 0 (by omega)⟩, c2 1 (by omega)⟩, c5⟩, c6⟩, c7⟩, c8⟩

end Verif.Covdet
