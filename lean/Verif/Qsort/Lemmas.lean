import Verif.Qsort.Model
import Mathlib.Data.List.Perm.Basic

/-! # Auxiliary facts about the quicksort model -/

namespace Verif.Qsort

variable {α : Type}

/-- `a'` is obtained from `a` by rearranging the entries of the segment `[b, e]`. -/
structure SegPerm (a a' : List α) (b e : Nat) : Prop where
  perm : a'.Perm a
  out : ∀ k, k < b ∨ e < k → a'[k]? = a[k]?
  src : ∀ k, b ≤ k → k ≤ e → ∃ k', b ≤ k' ∧ k' ≤ e ∧ a'[k]? = a[k']?

theorem SegPerm.refl (a : List α) (b e : Nat) : SegPerm a a b e :=
  ⟨.refl _, fun _ _ => rfl, fun k h1 h2 => ⟨k, h1, h2, rfl⟩⟩

theorem SegPerm.trans {a a' a'' : List α} {b e : Nat} (h1 : SegPerm a a' b e) (h2 : SegPerm a' a'' b e) :
    SegPerm a a'' b e := by
  refine ⟨h2.perm.trans h1.perm, fun k hk => (h2.out k hk).trans (h1.out k hk), fun k hb he => ?_⟩
  obtain ⟨k', hb', he', hk'⟩ := h2.src k hb he
  obtain ⟨k'', hb'', he'', hk''⟩ := h1.src k' hb' he'
  exact ⟨k'', hb'', he'', hk'.trans hk''⟩

theorem SegPerm.mono {a a' : List α} {b e b' e' : Nat} (h : SegPerm a a' b' e') (hb : b ≤ b') (he : e' ≤ e) :
    SegPerm a a' b e := by
  refine ⟨h.perm, fun k hk => h.out k (by omega), fun k h1 h2 => ?_⟩
  by_cases hk : b' ≤ k ∧ k ≤ e'
  · obtain ⟨k', h3, h4, h5⟩ := h.src k hk.1 hk.2
    exact ⟨k', by omega, by omega, h5⟩
  · exact ⟨k, h1, h2, h.out k (by omega)⟩

theorem SegPerm.length {a a' : List α} {b e : Nat} (h : SegPerm a a' b e) : a'.length = a.length := h.perm.length_eq

theorem swp_seg {a a' : List α} {i j b e : Nat} (h : swp a i j = some a') (hi : b ≤ i ∧ i ≤ e) (hj : b ≤ j ∧ j ≤ e) :
    SegPerm a a' b e := by
  refine ⟨swp_perm h, fun k hk => ?_, fun k h1 h2 => ?_⟩
  · rw [swp_getElem? h, if_neg (by omega), if_neg (by omega)]
  · rw [swp_getElem? h]
    split
    · exact ⟨i, by omega, by omega, rfl⟩
    · split
      · exact ⟨j, by omega, by omega, rfl⟩
      · exact ⟨k, h1, h2, rfl⟩

theorem scan_spec {cmp : α → α → Int} (h : ThreeWay cmp) (m : Nat) (a : List α) (e b lo i : Nat) (hm : i + m = e)
    (hb : b ≤ lo) (hlo : lo ≤ i) (he : e < a.length)
    (hlow : ∀ k, b ≤ k → k < lo → ole cmp a[k]? a[e]?) (hhigh : ∀ k, lo ≤ k → k < i → ole cmp a[e]? a[k]?) :
    ∃ a' lo', scan cmp a e lo i m = some (a', lo') ∧ SegPerm a a' b e ∧ lo ≤ lo' ∧ lo' ≤ e ∧ a'[e]? = a[e]? ∧
      (∀ k, b ≤ k → k < lo' → ole cmp a'[k]? a'[e]?) ∧ (∀ k, lo' ≤ k → k < e → ole cmp a'[e]? a'[k]?) := by
  induction m generalizing a lo i with
  | zero =>
    obtain rfl : i = e := by omega
    exact ⟨a, lo, rfl, .refl _ _ _, Nat.le_refl _, hlo, rfl, hlow, hhigh⟩
  | succ m ih =>
    rw [scan, cmpAt_spec (by omega) he]
    simp only [Option.bind_eq_bind, Option.bind_some]
    split
    · rename_i hle
      have hsw := swp_of_lt (l := a) (i := lo) (j := i) (by omega) (by omega)
      rw [hsw]
      simp only [Option.bind_some]
      have hat := swp_getElem? hsw
      have hae : ((a.set lo a[i]).set i a[lo])[e]? = a[e]? := by rw [hat, if_neg (by omega), if_neg (by omega)]
      obtain ⟨a', lo', h1, h2, h3, h4, h5, h6, h7⟩ := ih _ (lo + 1) (i + 1) (by omega) (by omega) (by omega)
        (by rw [swp_length hsw]; exact he)
        (by
          intro k hk1 hk2
          rw [hae, hat]
          by_cases hkl : k = lo
          · subst hkl
            by_cases hki : k = i
            · subst hki
              rw [if_pos rfl, List.getElem?_eq_getElem (by omega), List.getElem?_eq_getElem he]; exact hle
            · rw [if_neg hki, if_pos rfl, List.getElem?_eq_getElem (by omega), List.getElem?_eq_getElem he]; exact hle
          · rw [if_neg (by omega), if_neg hkl]
            exact hlow k hk1 (by omega))
        (by
          intro k hk1 hk2
          rw [hae, hat]
          by_cases hki : k = i
          · rw [if_pos hki]
            exact hhigh lo (Nat.le_refl _) (by omega)
          · rw [if_neg hki, if_neg (by omega)]
            exact hhigh k (by omega) (by omega))
      refine ⟨a', lo', h1, ?_, by omega, h4, h5.trans hae, h6, h7⟩
      exact (swp_seg hsw (by omega) (by omega)).trans h2
    · rename_i hle
      obtain ⟨a', lo', h1, h2, h3, h4, h5, h6, h7⟩ := ih a lo (i + 1) (by omega) hb (by omega) he hlow
        (by
          intro k hk1 hk2
          by_cases hki : k = i
          · subst hki
            rw [List.getElem?_eq_getElem he, List.getElem?_eq_getElem (by omega)]
            exact (h.le_iff _ _).2 (by omega)
          · exact hhigh k hk1 (by omega))
      exact ⟨a', lo', h1, h2, h3, h4, h5, h6, h7⟩

theorem sortRecursive_spec {cmp : α → α → Int} (h : ThreeWay cmp) (fuel : Nat) (a : List α) (b e : Nat) (hbe : b ≤ e)
    (he : e < a.length) (hf : e - b < fuel) :
    ∃ a', sortRecursive cmp fuel a b e = some a' ∧ SegPerm a a' b e ∧
      (∀ i j, b ≤ i → i ≤ j → j ≤ e → ole cmp a'[i]? a'[j]?) := by
  induction fuel generalizing a b e with
  | zero => omega
  | succ fuel ih =>
    rw [sortRecursive]
    have hsw := swp_of_lt (l := a) (i := (e + b) / 2) (j := e) (by omega) (by omega)
    have hs1 := swp_seg hsw (b := b) (e := e) (by omega) (by omega)
    have hl1 := swp_length hsw
    simp only [assert', hbe, decide_true, if_true, hsw, Option.bind_eq_bind, Option.bind_some]
    generalize (a.set ((e + b) / 2) a[e]).set e a[(e + b) / 2] = a1 at *
    obtain ⟨a2, lo, h1, h2, h3, h4, h5, h6, h7⟩ := scan_spec h (e - b) a1 e b b b (by omega) (Nat.le_refl _)
      (Nat.le_refl _) (by omega) (by intro k _ _; omega) (by intro k _ _; omega)
    rw [h1]
    simp only [Option.bind_some]
    have hl2 := h2.length
    have hsw2 := swp_of_lt (l := a2) (i := lo) (j := e) (by omega) (by omega)
    have hs3 := swp_seg hsw2 (b := b) (e := e) (by omega) (by omega)
    have hl3 := swp_length hsw2
    have hat := swp_getElem? hsw2
    rw [hsw2]
    simp only [Option.bind_some]
    generalize (a2.set lo a2[e]).set e a2[lo] = a3 at *
    -- the pivot is in place
    have hlow : ∀ k, b ≤ k → k < lo → ole cmp a3[k]? a3[lo]? := by
      intro k hk1 hk2
      rw [hat, hat, if_neg (by omega), if_neg (by omega)]
      by_cases hle : lo = e
      · subst hle; rw [if_pos rfl]; exact h6 k hk1 hk2
      · rw [if_neg hle, if_pos rfl]; exact h6 k hk1 hk2
    have hhigh : ∀ k, lo < k → k ≤ e → ole cmp a3[lo]? a3[k]? := by
      intro k hk1 hk2
      rw [hat, hat, if_neg (by omega : ¬ lo = e), if_pos rfl]
      by_cases hke : k = e
      · rw [if_pos hke]; exact h7 lo (Nat.le_refl _) (by omega)
      · rw [if_neg hke, if_neg (by omega)]; exact h7 k (by omega) (by omega)
    -- left part
    obtain ⟨a4, g1, g2, g3⟩ : ∃ a4, (if lo > b then sortRecursive cmp fuel a3 b (lo - 1) else some a3) = some a4 ∧
        (SegPerm a3 a4 b (lo - 1) ∧ (∀ k, lo ≤ k → a4[k]? = a3[k]?)) ∧
        (∀ i j, b ≤ i → i ≤ j → j < lo → ole cmp a4[i]? a4[j]?) := by
      split
      · rename_i hgt
        obtain ⟨a4, g1, g2, g3⟩ := ih a3 b (lo - 1) (by omega) (by omega) (by omega)
        exact ⟨a4, g1, ⟨g2, fun k hk => g2.out k (by omega)⟩, fun i j hi hij hj => g3 i j hi hij (by omega)⟩
      · exact ⟨a3, rfl, ⟨.refl _ _ _, fun _ _ => rfl⟩, fun i j hi hij hj => by omega⟩
    rw [g1]
    simp only [Option.bind_some]
    have hl4 := g2.1.length
    have hlow4 : ∀ k, b ≤ k → k < lo → ole cmp a4[k]? a3[lo]? := by
      intro k hk1 hk2
      obtain ⟨k', h8, h9, h10⟩ := g2.1.src k hk1 (by omega)
      rw [h10]; exact hlow k' h8 (by omega)
    -- right part
    obtain ⟨a5, f1, f2, f3⟩ : ∃ a5, (if lo < e then sortRecursive cmp fuel a4 (lo + 1) e else some a4) = some a5 ∧
        (SegPerm a4 a5 (lo + 1) e) ∧
        (∀ i j, lo < i → i ≤ j → j ≤ e → ole cmp a5[i]? a5[j]?) := by
      split
      · rename_i hgt
        obtain ⟨a5, f1, f2, f3⟩ := ih a4 (lo + 1) e (by omega) (by omega) (by omega)
        exact ⟨a5, f1, f2, fun i j hi hij hj => f3 i j (by omega) hij hj⟩
      · exact ⟨a4, rfl, .refl _ _ _, fun i j hi hij hj => by omega⟩
    refine ⟨a5, f1, ?_, ?_⟩
    · refine ((hs1.trans h2).trans hs3).trans ?_
      by_cases hlob : b ≤ lo - 1
      · exact (g2.1.mono (Nat.le_refl _) (by omega)).trans (f2.mono (by omega) (Nat.le_refl _))
      · exact (g2.1.mono (Nat.le_refl _) (by omega)).trans (f2.mono (by omega) (Nat.le_refl _))
    · have e5 : ∀ k, k ≤ lo → a5[k]? = a4[k]? := fun k hk => f2.out k (by omega)
      have e4 : a4[lo]? = a3[lo]? := g2.2 lo (Nat.le_refl _)
      have high5 : ∀ k, lo < k → k ≤ e → ole cmp a3[lo]? a5[k]? := by
        intro k hk1 hk2
        obtain ⟨k', h8, h9, h10⟩ := f2.src k (by omega) hk2
        rw [h10, g2.2 k' (by omega)]
        exact hhigh k' (by omega) h9
      intro i j hi hij hj
      by_cases hjl : j < lo
      · rw [e5 i (by omega), e5 j (by omega)]; exact g3 i j hi hij hjl
      · by_cases hil : lo < i
        · exact f3 i j hil hij hj
        · have hi' : ole cmp a5[i]? a3[lo]? := by
            rw [e5 i (by omega)]
            by_cases hilo : i = lo
            · rw [hilo, e4]; exact ole_refl h _
            · exact hlow4 i hi (by omega)
          have hj' : ole cmp a3[lo]? a5[j]? := by
            by_cases hjlo : j = lo
            · rw [hjlo, e5 lo (Nat.le_refl _), e4]; exact ole_refl h _
            · exact high5 j (by omega) hj
          exact ole_trans h hi' hj'

end Verif.Qsort
