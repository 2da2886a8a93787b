import Verif.Sift.DetectLemmas
import Mathlib.Tactic.Positivity
import Mathlib.Algebra.Order.Field.Basic

/-!
# Lemmas on the refinement of SIFT keypoints
-/

namespace Verif.Sift

open Finset

/-- The derivatives as functions of the differences. -/
def derivsOf (D : Int → Int → Int → ℚ) (t y x : Int) : Derivs :=
  { v := D t y x
    dx := grad D t y x 0, dy := grad D t y x 1, ds := grad D t y x 2
    dxx := hess D t y x 0 0, dyy := hess D t y x 1 1, dss := hess D t y x 2 2
    dxy := hess D t y x 0 1, dxs := hess D t y x 0 2, dys := hess D t y x 1 2 }

theorem derivs_spec (dog : List ℚ) (D : Int → Int → Int → ℚ) (w h L : Nat) (hD : Holds dog D w h L) (q t y x : Int) (hq : q = x + w * y + w * h * t)
    (ht : 1 ≤ t) (ht' : t + 1 < L) (hy : 1 ≤ y) (hy' : y + 1 < h) (hx : 1 ≤ x) (hx' : x + 1 < w) :
    derivs dog w h q = some (derivsOf D t y x) := by
  have hrd : ∀ dx dy ds : Int, -1 ≤ dx → dx ≤ 1 → -1 ≤ dy → dy ≤ 1 → -1 ≤ ds → ds ≤ 1 →
      rdI dog (q + dx + dy * w + ds * (w * h)) = some (D (t + ds) (y + dy) (x + dx)) := by
    intro dx dy ds a1 a2 a3 a4 a5 a6
    exact hD _ _ _ _ (by rw [hq]; ring) (by omega) (by omega) (by omega) (by omega) (by omega) (by omega)
  unfold derivs
  simp only [hrd 0 0 0 (by decide) (by decide) (by decide) (by decide) (by decide) (by decide),
    hrd 1 0 0 (by decide) (by decide) (by decide) (by decide) (by decide) (by decide),
    hrd (-1) 0 0 (by decide) (by decide) (by decide) (by decide) (by decide) (by decide),
    hrd 0 1 0 (by decide) (by decide) (by decide) (by decide) (by decide) (by decide),
    hrd 0 (-1) 0 (by decide) (by decide) (by decide) (by decide) (by decide) (by decide),
    hrd 0 0 1 (by decide) (by decide) (by decide) (by decide) (by decide) (by decide),
    hrd 0 0 (-1) (by decide) (by decide) (by decide) (by decide) (by decide) (by decide),
    hrd 1 1 0 (by decide) (by decide) (by decide) (by decide) (by decide) (by decide),
    hrd (-1) (-1) 0 (by decide) (by decide) (by decide) (by decide) (by decide) (by decide),
    hrd (-1) 1 0 (by decide) (by decide) (by decide) (by decide) (by decide) (by decide),
    hrd 1 (-1) 0 (by decide) (by decide) (by decide) (by decide) (by decide) (by decide),
    hrd 1 0 1 (by decide) (by decide) (by decide) (by decide) (by decide) (by decide),
    hrd (-1) 0 (-1) (by decide) (by decide) (by decide) (by decide) (by decide) (by decide),
    hrd (-1) 0 1 (by decide) (by decide) (by decide) (by decide) (by decide) (by decide),
    hrd 1 0 (-1) (by decide) (by decide) (by decide) (by decide) (by decide) (by decide),
    hrd 0 1 1 (by decide) (by decide) (by decide) (by decide) (by decide) (by decide),
    hrd 0 (-1) (-1) (by decide) (by decide) (by decide) (by decide) (by decide) (by decide),
    hrd 0 (-1) 1 (by decide) (by decide) (by decide) (by decide) (by decide) (by decide),
    hrd 0 1 (-1) (by decide) (by decide) (by decide) (by decide) (by decide) (by decide),
    Option.bind_eq_bind, Option.bind_some]
  simp only [derivsOf, grad, hess, add_zero, Int.sub_eq_add_neg]
  congr 1
  simp only [Derivs.mk.injEq]
  constructorm* _ ∧ _ <;> first | trivial | ring

theorem system_A (D : Int → Int → Int → ℚ) (t y x : Int) (i j : Nat) (hi : i < 3) (hj : j < 3) : (system (derivsOf D t y x)).A i j = hess D t y x i j := by
  obtain rfl | rfl | rfl : i = 0 ∨ i = 1 ∨ i = 2 := by omega
  all_goals
    obtain rfl | rfl | rfl : j = 0 ∨ j = 1 ∨ j = 2 := by omega
    all_goals simp [system, derivsOf, hess]

theorem system_b (D : Int → Int → Int → ℚ) (t y x : Int) (i : Nat) (hi : i < 3) : (system (derivsOf D t y x)).b i = - grad D t y x i := by
  obtain rfl | rfl | rfl : i = 0 ∨ i = 1 ∨ i = 2 := by omega
  all_goals simp [system, derivsOf]

theorem offset_spec (eps : ℚ) (he : 0 < eps) (D : Int → Int → Int → ℚ) (t y x : Int) :
    ∃ b sg, solve 3 eps (system (derivsOf D t y x)) = some (b, sg) ∧ IsOffset eps D t y x b := by
  obtain ⟨b, sg, e, h1, h2⟩ := solve_correct 3 eps he (system (derivsOf D t y x)).A (system (derivsOf D t y x)).b
  have hsum : ∀ (u : Nat → ℚ), ∀ i < 3, ∑ k ∈ range 3, (system (derivsOf D t y x)).A i k * u k = ∑ k ∈ range 3, hess D t y x i k * u k := by
    intro u i hi
    apply Finset.sum_congr rfl
    intro k hk
    rw [system_A D t y x i k hi (Finset.mem_range.mp hk)]
  refine ⟨b, sg, e, ?_⟩
  cases sg with
  | false =>
    left
    intro i hi
    rw [← hsum b i hi, h1 rfl i hi, system_b D t y x i hi]
  | true =>
    right
    obtain ⟨h3, u, hu, h4⟩ := h2 rfl
    exact ⟨h3, u, hu, fun i hi => by rw [← hsum u i hi]; exact h4 i hi⟩

theorem moveOf_eq (b : ℚ) (x : Int) (n : Nat) :
    (if b > 6 / 10 ∧ x < (n : Int) - 2 then 1 else 0) + (if b < - (6 / 10) ∧ x > 1 then -1 else 0) = moveOf b x n := by
  unfold moveOf
  by_cases h1 : 6 / 10 < b
  · have h2 : ¬ b < - (6 / 10) := by intro h; linarith
    simp only [gt_iff_lt, h1, h2, true_and, false_and, if_false, add_zero]
  · simp only [gt_iff_lt, h1, false_and, if_false, zero_add]

theorem moveOf_bound (b : ℚ) (x : Int) (n : Nat) (h1 : 1 ≤ x) (h2 : x + 1 < n) :
    1 ≤ x + moveOf b x n ∧ x + moveOf b x n + 1 < n ∧ -1 ≤ moveOf b x n ∧ moveOf b x n ≤ 1 := by
  unfold moveOf
  split_ifs with c1 c2
  · omega
  · omega
  · omega

theorem Walk.dist {eps : ℚ} {D : Int → Int → Int → ℚ} {w h : Nat} {t : Int} {k : Nat} {y x y' x' : Int} {b : Nat → ℚ} (hw : Walk eps D w h t k y x y' x' b)
    (hy : 1 ≤ y) (hy' : y + 1 < h) (hx : 1 ≤ x) (hx' : x + 1 < w) :
    1 ≤ y' ∧ y' + 1 < h ∧ 1 ≤ x' ∧ x' + 1 < w ∧ |x' - x| ≤ k ∧ |y' - y| ≤ k := by
  induction hw with
  | stop k y x b _ _ => exact ⟨hy, hy', hx, hx', by simp, by simp⟩
  | move k y x b y' x' b' _ _ _ ih =>
    obtain ⟨a1, a2, a3, a4⟩ := moveOf_bound (b 1) y h hy hy'
    obtain ⟨c1, c2, c3, c4⟩ := moveOf_bound (b 0) x w hx hx'
    obtain ⟨i1, i2, i3, i4, i5, i6⟩ := ih a1 a2 c1 c2
    refine ⟨i1, i2, i3, i4, ?_, ?_⟩
    · rw [abs_le] at i5 ⊢; push_cast; omega
    · rw [abs_le] at i6 ⊢; push_cast; omega

theorem refineLoop_spec (eps : ℚ) (he : 0 < eps) (dog : List ℚ) (D : Int → Int → Int → ℚ) (w h L : Nat) (hD : Holds dog D w h L) (t : Int) (ht : 1 ≤ t) (ht' : t + 1 < L)
    (k : Nat) : ∀ (y x : Int), 1 ≤ y → y + 1 < h → 1 ≤ x → x + 1 < w →
    ∃ y' x' b, refineLoop eps dog w h t (k + 1) x y = some (x', y', derivsOf D t y' x', b) ∧ Walk eps D w h t k y x y' x' b := by
  induction k with
  | zero =>
    intro y x hy hy' hx hx'
    obtain ⟨b, sg, e, ho⟩ := offset_spec eps he D t y x
    unfold refineLoop
    simp only
    rw [derivs_spec dog D w h L hD _ t y x rfl ht ht' hy hy' hx hx']
    simp only [Option.bind_eq_bind, Option.bind_some]
    rw [e]
    simp only [Option.bind_some, or_true, if_true]
    exact ⟨y, x, b, rfl, Walk.stop 0 y x b ho (Or.inl rfl)⟩
  | succ k ih =>
    intro y x hy hy' hx hx'
    obtain ⟨b, sg, e, ho⟩ := offset_spec eps he D t y x
    unfold refineLoop
    simp only
    rw [derivs_spec dog D w h L hD _ t y x rfl ht ht' hy hy' hx hx']
    simp only [Option.bind_eq_bind, Option.bind_some]
    rw [e]
    simp only [Option.bind_some]
    rw [moveOf_eq, moveOf_eq]
    by_cases hm : moveOf (b 0) x w = 0 ∧ moveOf (b 1) y h = 0
    · rw [if_pos (Or.inl hm)]
      exact ⟨y, x, b, rfl, Walk.stop _ y x b ho (Or.inr hm)⟩
    · rw [if_neg (by rintro (h | h); exact hm h; omega)]
      obtain ⟨a1, a2, _, _⟩ := moveOf_bound (b 1) y h hy hy'
      obtain ⟨c1, c2, _, _⟩ := moveOf_bound (b 0) x w hx hx'
      obtain ⟨y', x', b', e', hw⟩ := ih _ _ a1 a2 c1 c2
      exact ⟨y', x', b', e', Walk.move k y x b y' x' b' ho hm hw⟩

/-- The tests of the code are those of the specification. -/
theorem accept_iff (D : Int → Int → Int → ℚ) (te tp : ℚ) (w h : Nat) (sMin sMax : Int) (s y x : Int) (b : Nat → ℚ) (d : Derivs) (hd : d = derivsOf D (s - sMin) y x) :
    (|d.v + 1 / 2 * (d.dx * b 0 + d.dy * b 1 + d.ds * b 2)| > tp ∧ d.dxx * d.dyy - d.dxy * d.dxy ≠ 0 ∧
      (d.dxx + d.dyy) * (d.dxx + d.dyy) / (d.dxx * d.dyy - d.dxy * d.dxy) < (te + 1) * (te + 1) / te ∧
      (d.dxx + d.dyy) * (d.dxx + d.dyy) / (d.dxx * d.dyy - d.dxy * d.dxy) ≥ 0 ∧ |b 0| < 3 / 2 ∧ |b 1| < 3 / 2 ∧ |b 2| < 3 / 2 ∧
      (x : ℚ) + b 0 ≥ 0 ∧ (x : ℚ) + b 0 ≤ (w : ℚ) - 1 ∧ (y : ℚ) + b 1 ≥ 0 ∧ (y : ℚ) + b 1 ≤ (h : ℚ) - 1 ∧ (s : ℚ) + b 2 ≥ sMin ∧ (s : ℚ) + b 2 ≤ sMax) ↔
    Accept D te tp w h (sMax - sMin) (s - sMin) y x b := by
  subst hd
  unfold Accept
  simp only [derivsOf, Finset.sum_range_succ, Finset.sum_range_zero, zero_add, gt_iff_lt, ge_iff_le]
  generalize hess D (s - sMin) y x 0 0 = a
  generalize hess D (s - sMin) y x 1 1 = c
  generalize hess D (s - sMin) y x 0 1 = e
  generalize D (s - sMin) y x = v
  generalize grad D (s - sMin) y x 0 = g0
  generalize grad D (s - sMin) y x 1 = g1
  generalize grad D (s - sMin) y x 2 = g2
  rw [show v + 1 / 2 * (g0 * b 0 + g1 * b 1 + g2 * b 2) = v + (g0 * b 0 + g1 * b 1 + g2 * b 2) / 2 by ring]
  rw [show a * c - e * e = a * c - e ^ 2 by ring, show (a + c) * (a + c) = (a + c) ^ 2 by ring, show (te + 1) * (te + 1) = (te + 1) ^ 2 by ring]
  generalize a * c - e ^ 2 = den
  generalize a + c = tr
  have h1 : (den ≠ 0 ∧ 0 ≤ tr ^ 2 / den) ↔ (0 < den ∨ (tr = 0 ∧ den ≠ 0)) := by
    constructor
    · rintro ⟨h1, h2⟩
      rcases lt_or_gt_of_ne h1 with h | h
      · right
        refine ⟨?_, h1⟩
        by_contra hne
        have : 0 < tr ^ 2 := by positivity
        have := div_neg_of_pos_of_neg this h
        linarith
      · exact Or.inl h
    · rintro (h | ⟨h, h'⟩)
      · exact ⟨ne_of_gt h, by positivity⟩
      · exact ⟨h', by rw [h]; simp⟩
  have h2 : (|b 0| < 3 / 2 ∧ |b 1| < 3 / 2 ∧ |b 2| < 3 / 2) ↔ ∀ i < 3, |b i| < 3 / 2 := by
    constructor
    · rintro ⟨h0, h1, h2⟩ i hi
      obtain rfl | rfl | rfl : i = 0 ∨ i = 1 ∨ i = 2 := by omega
      · exact h0
      · exact h1
      · exact h2
    · intro h
      exact ⟨h 0 (by omega), h 1 (by omega), h 2 (by omega)⟩
  have h3 : ((sMin : ℚ) ≤ s + b 2) ↔ 0 ≤ ((s - sMin : Int) : ℚ) + b 2 := by push_cast; constructor <;> intro h <;> linarith
  have h4 : ((s : ℚ) + b 2 ≤ sMax) ↔ ((s - sMin : Int) : ℚ) + b 2 ≤ ((sMax - sMin : Int) : ℚ) := by push_cast; constructor <;> intro h <;> linarith
  rw [← h1, ← h2, h3, h4]
  constructor
  · rintro ⟨c1, c2, c3, c4, c5, c6, c7, c8⟩
    exact ⟨c1, ⟨c2, c4⟩, c3, ⟨c5, c6, c7⟩, c8⟩
  · rintro ⟨c1, ⟨c2, c4⟩, c3, ⟨c5, c6, c7⟩, c8⟩
    exact ⟨c1, c2, c3, c4, c5, c6, c7, c8⟩

theorem refinePoint_spec (eps : ℚ) (he : 0 < eps) (xper : ℚ) (sig : ℚ → ℚ) (dog : List ℚ) (D : Int → Int → Int → ℚ) (w h : Nat) (sMin sMax oCur : Int)
    (hD : Holds dog D w h (sMax - sMin).toNat) (te tp : ℚ) (x y s : Int) (ht : 1 ≤ s - sMin) (ht' : s - sMin + 1 < sMax - sMin)
    (hy : 1 ≤ y) (hy' : y + 1 < h) (hx : 1 ≤ x) (hx' : x + 1 < w) :
    ∃ r y' x' b, refinePoint eps xper sig dog w h sMin sMax oCur te tp x y s = some r ∧ Walk eps D w h (s - sMin) 4 y x y' x' b ∧
      (Accept D te tp w h (sMax - sMin) (s - sMin) y' x' b →
        r = some { o := oCur, ix := x', iy := y', is := s, x := (x' + b 0) * xper, y := (y' + b 1) * xper, s := s + b 2, sigma := sig (s + b 2) * xper }) ∧
      (¬ Accept D te tp w h (sMax - sMin) (s - sMin) y' x' b → r = none) := by
  obtain ⟨y', x', b, e, hw⟩ := refineLoop_spec eps he dog D w h _ hD (s - sMin) ht (by omega) 4 y x hy hy' hx hx'
  unfold refinePoint
  rw [e]
  simp only [Option.bind_eq_bind, Option.bind_some]
  have hacc := accept_iff D te tp w h sMin sMax s y' x' b _ rfl
  by_cases ha : Accept D te tp w h (sMax - sMin) (s - sMin) y' x' b
  · rw [if_pos (hacc.mpr ha)]
    exact ⟨_, y', x', b, rfl, hw, fun _ => rfl, fun h => absurd ha h⟩
  · rw [if_neg (fun h => ha (hacc.mp h))]
    exact ⟨_, y', x', b, rfl, hw, fun h => absurd h ha, fun _ => rfl⟩

/-- The compaction keeps the keypoints that the refinement returns, in order. -/
theorem refineAll_spec (r : Int → Int → Int → Option (Option Keypoint)) (n : Nat) (keys : List Keypoint) (hn : n ≤ keys.length)
    (hr : ∀ k ∈ keys.take n, r k.ix k.iy k.is ≠ none) :
    ∃ keys' k, refineAll r n keys = some (keys', k) ∧ k ≤ n ∧ keys'.length = keys.length ∧
      keys'.take k = (keys.take n).filterMap (fun p => (r p.ix p.iy p.is).join) := by
  obtain ⟨⟨keys', k⟩, e, h1, h2, h3, h4⟩ := iter_inv (n := n) (f := fun i (st : List Keypoint × Nat) => (do
      let kp ← rd st.1 i
      match ← r kp.ix kp.iy kp.is with
      | some new => do
        let keys ← wr st.1 st.2 new
        some (keys, st.2 + 1)
      | none => some (st.1, st.2) : Option (List Keypoint × Nat))) (s := (keys, 0))
    (fun i (st : List Keypoint × Nat) => st.2 ≤ i ∧ st.1.length = keys.length ∧ st.1.take st.2 = (keys.take i).filterMap (fun p => (r p.ix p.iy p.is).join) ∧
      ∀ j, i ≤ j → st.1[j]? = keys[j]?) ⟨Nat.le_refl _, rfl, by simp, fun _ _ => rfl⟩ (by
    rintro i hi ⟨ks, k⟩ ⟨h1, h2, h3, h4⟩
    simp only at h1 h2 h3 h4 ⊢
    have hlt : i < keys.length := by omega
    have hget : ks[i]? = some keys[i] := by rw [h4 i (Nat.le_refl _), List.getElem?_eq_getElem hlt]
    rw [rd_getElem?, hget]
    simp only [Option.bind_eq_bind, Option.bind_some]
    have htake : keys.take (i + 1) = keys.take i ++ [keys[i]] := by rw [List.take_add_one, List.getElem?_eq_getElem hlt]; rfl
    have hne := hr keys[i] (by
      rw [List.mem_take_iff_getElem]
      exact ⟨i, by omega, rfl⟩)
    cases hrr : r keys[i].ix keys[i].iy keys[i].is with
    | none => exact absurd hrr hne
    | some o =>
      simp only [Option.bind_some]
      cases o with
      | none =>
        refine ⟨_, rfl, by simp only; omega, h2, ?_, fun j hj => h4 j (by omega)⟩
        simp only
        rw [htake, List.filterMap_append, ← h3]
        simp [hrr]
      | some new =>
        simp only
        rw [wr_of_lt (show k < ks.length by omega)]
        refine ⟨_, rfl, by simp only; omega, by simp [h2], ?_, ?_⟩
        · simp only
          rw [take_set _ _ _ (by omega), htake, List.filterMap_append, ← h3]
          simp [hrr]
        · intro j hj
          simp only
          rw [List.getElem?_set, if_neg (by omega)]
          exact h4 j (by omega))
  exact ⟨keys', k, e, h1, h2, h3⟩

end Verif.Sift
