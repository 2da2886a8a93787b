import Verif.Flat
import Verif.Quickshift.Model
import Verif.Quickshift.Spec
import Verif.Sift.DescrLemmas
import Mathlib.Tactic.Linarith
import Mathlib.Tactic.Ring
import Mathlib.Tactic.Positivity

/-!
# Lemmas about quick shift
-/

namespace Verif.Quickshift

open Finset

theorem pix_lt {N1 N2 i1 i2 : Nat} (h1 : i1 < N1) (h2 : i2 < N2) : i1 + N1 * i2 < N1 * N2 := by
  have := Nat.mul_le_mul_left N1 (show i2 + 1 ≤ N2 by omega)
  rw [Nat.mul_succ] at this; omega

theorem pix_mod {N1 i1 i2 : Nat} (h1 : i1 < N1) : (i1 + N1 * i2) % N1 = i1 := by rw [Nat.add_mul_mod_self_left, Nat.mod_eq_of_lt h1]

theorem pix_div {N1 i1 i2 : Nat} (h1 : i1 < N1) : (i1 + N1 * i2) / N1 = i2 := by
  rw [Nat.add_mul_div_left _ _ (by omega), Nat.div_eq_of_lt h1, Nat.zero_add]

theorem distance_spec (I : List ℚ) (N1 N2 K i1 i2 j1 j2 : Nat) (hI : I.length = N1 * N2 * K) (hi1 : i1 < N1) (hi2 : i2 < N2) (hj1 : j1 < N1) (hj2 : j2 < N2) :
    distance I N1 N2 K i1 i2 j1 j2 = some (pixDist I N1 N2 K (i1 + N1 * i2) (j1 + N1 * j2)) := by
  have rdp : ∀ a1 a2 k : Nat, a1 < N1 → a2 < N2 → k < K → rdI I ((a1 : Int) + N1 * a2 + (N1 * N2) * k) = some (I.getD (a1 + N1 * a2 + N1 * N2 * k) 0) := by
    intro a1 a2 k h1 h2 h3
    have hlt : a1 + N1 * a2 + N1 * N2 * k < I.length := by rw [hI]; exact pix_lt (pix_lt h1 h2) h3
    rw [rdI_eq _ _ (a1 + N1 * a2 + N1 * N2 * k) (by push_cast; ring), rd_of_lt hlt]
    simp [List.getD, hlt]
  obtain ⟨d, e, h⟩ := iter_inv (n := K) (f := fun (k : Nat) (dist : ℚ) => (do
      let a ← rdI I ((i1 : Int) + N1 * i2 + (N1 * N2) * k)
      let b ← rdI I ((j1 : Int) + N1 * j2 + (N1 * N2) * k)
      let d := a - b
      some (dist + d * d) : Option ℚ)) (s := ((((j1 : Int) - i1) * ((j1 : Int) - i1) + ((j2 : Int) - i2) * ((j2 : Int) - i2) : Int) : ℚ))
    (fun k d => d = ((i1 : ℚ) - j1) ^ 2 + ((i2 : ℚ) - j2) ^ 2 +
      ∑ t ∈ range k, (I.getD (i1 + N1 * i2 + N1 * N2 * t) 0 - I.getD (j1 + N1 * j2 + N1 * N2 * t) 0) ^ 2) (by push_cast; simp; ring) (by
    intro k hk d hd
    rw [rdp i1 i2 k hi1 hi2 hk, rdp j1 j2 k hj1 hj2 hk]
    refine ⟨_, rfl, ?_⟩
    rw [Finset.sum_range_succ, hd]
    ring)
  unfold distance
  simp only [Option.bind_eq_bind] at e ⊢
  rw [e, h]
  unfold pixDist
  rw [pix_mod hi1, pix_mod hj1, pix_div hi1, pix_div hj1]

/-- Additions to one entry. -/
theorem foldlM_add {α : Type} {n p : Nat} (L : List α) (g : List ℚ → α → Option (List ℚ)) (w : α → ℚ)
    (h : ∀ a ∈ L, ∀ E f, Arr E n f → ∃ E', g E a = some E' ∧ Arr E' n (upd1 f p (f p + w a))) :
    ∀ E f, Arr E n f → ∃ E', L.foldlM g E = some E' ∧ Arr E' n (upd1 f p (f p + (L.map w).sum)) := by
  induction L with
  | nil =>
    intro E f hE
    refine ⟨E, rfl, hE.congr ?_⟩
    intro i _
    simp only [upd1]
    split_ifs with c
    · rw [c]; simp
    · rfl
  | cons a L ih =>
    intro E f hE
    obtain ⟨E1, e1, h1⟩ := h a (by simp) E f hE
    obtain ⟨E2, e2, h2⟩ := ih (fun b hb => h b (by simp [hb])) E1 _ h1
    refine ⟨E2, by rw [List.foldlM_cons, e1]; exact e2, h2.congr ?_⟩
    intro i _
    simp only [upd1, if_true, List.map_cons, List.sum_cons]
    split_ifs with c
    · rw [add_assoc]
    · rfl

theorem window (n : Nat) (R c : Int) (g : Int → ℚ) :
    ((intRange (max (c - R) 0) (min (c + R) (n - 1))).map g).sum = ∑ u ∈ range n, if |c - u| ≤ R then g u else 0 := by
  have h := Sift.window_sum' n 0 R c (fun d => g (c + d))
  have e : (intRange (max (c - R) 0) (min (c + R) (n - 1))).map g =
      (intRange (max (-R) (((0 : Nat) : Int) - c)) (min R ((n : Int) - c - 1 - ((0 : Nat) : Int)))).map (fun d => g (c + d)) := by
    unfold intRange
    rw [List.map_map, List.map_map]
    rw [show (min (c + R) ((n : Int) - 1) + 1 - max (c - R) 0).toNat =
      (min R ((n : Int) - c - 1 - ((0 : Nat) : Int)) + 1 - max (-R) (((0 : Nat) : Int) - c)).toNat by congr 1; omega]
    apply List.map_congr_left
    intro i _
    simp only [Function.comp]
    congr 1
    omega
  rw [e, h]
  apply Finset.sum_congr rfl
  intro u hu
  rw [Finset.mem_range] at hu
  rw [abs_sub_comm]
  by_cases c1 : |c - (u : Int)| ≤ R
  · rw [if_pos ⟨c1, by omega, by omega⟩, if_pos c1]
    congr 1; ring
  · rw [if_neg (fun h => c1 h.1), if_neg c1]

theorem mem_window {n : Nat} {c R a : Int} (h : a ∈ intRange (max (c - R) 0) (min (c + R) (n - 1))) : ∃ k : Nat, a = k ∧ k < n := by
  rw [mem_intRange] at h
  exact ⟨a.toNat, by omega, by omega⟩

theorem densities_spec (ex : ℚ → ℚ) (I : List ℚ) (N1 N2 K : Nat) (sigma : ℚ) (hs : sigma ≠ 0) (R : Int) (E : List ℚ) (f : Nat → ℚ) (hI : I.length = N1 * N2 * K)
    (hE : Arr E (N1 * N2) f) : ∃ E', densities ex I N1 N2 K sigma R E = some E' ∧ Arr E' (N1 * N2) (fun i => f i + parzen ex I N1 N2 K sigma R i) := by
  unfold densities
  rw [if_neg hs]
  have hpix : ∀ i1 < N1, ∀ i2 < N2, ∀ E g, Arr E (N1 * N2) g → ∃ E',
      forInt (max ((i2 : Int) - R) 0) (min ((i2 : Int) + R) (N2 - 1)) (fun j2 E =>
      forInt (max ((i1 : Int) - R) 0) (min ((i1 : Int) + R) (N1 - 1)) (fun j1 E => (do
        let Dij ← distance I N1 N2 K i1 i2 j1 j2
        let Fij := - ex (- Dij / (2 * sigma * sigma))
        let e ← rdI E (i1 + N1 * i2)
        wrI E (i1 + N1 * i2) (e - Fij) : Option (List ℚ))) E) E = some E' ∧
      Arr E' (N1 * N2) (upd1 g (i1 + N1 * i2) (g (i1 + N1 * i2) + parzen ex I N1 N2 K sigma R (i1 + N1 * i2))) := by
    intro i1 hi1 i2 hi2 E g hE
    have hp := pix_lt hi1 hi2
    have hval : ((intRange (max ((i2 : Int) - R) 0) (min ((i2 : Int) + R) (N2 - 1))).map (fun j2 =>
        ((intRange (max ((i1 : Int) - R) 0) (min ((i1 : Int) + R) (N1 - 1))).map (fun j1 =>
          ex (- pixDist I N1 N2 K (i1 + N1 * i2) (j1.toNat + N1 * j2.toNat) / (2 * sigma * sigma)))).sum)).sum = parzen ex I N1 N2 K sigma R (i1 + N1 * i2) := by
      rw [window]
      unfold parzen
      rw [pix_mod hi1, pix_div hi1]
      apply Finset.sum_congr rfl
      intro j2 _
      rw [window]
      by_cases c : |(i2 : Int) - j2| ≤ R
      · rw [if_pos c]
        apply Finset.sum_congr rfl
        intro j1 _
        by_cases c1 : |(i1 : Int) - j1| ≤ R
        · rw [if_pos c1, if_pos ⟨c, c1⟩]
          simp only [Int.toNat_natCast]
          rw [show 2 * sigma * sigma = 2 * sigma ^ 2 by ring]
        · rw [if_neg c1, if_neg (fun h => c1 h.2)]
      · rw [if_neg c]
        symm
        apply Finset.sum_eq_zero
        intro j1 _
        rw [if_neg (fun h => c h.1)]
    rw [← hval, forInt_eq]
    apply foldlM_add _ _ _ _ E g hE
    intro j2 hj2 E g hE
    rw [forInt_eq]
    apply foldlM_add _ _ _ _ E g hE
    intro j1 hj1 E g hE
    obtain ⟨b2, rfl, hb2⟩ := mem_window hj2
    obtain ⟨b1, rfl, hb1⟩ := mem_window hj1
    rw [distance_spec I N1 N2 K i1 i2 b1 b2 hI hi1 hi2 hb1 hb2]
    simp only [Option.bind_eq_bind, Option.bind_some]
    rw [rdI_eq _ _ (i1 + N1 * i2) (by push_cast; rfl), hE.rd hp]
    simp only [Option.bind_some]
    rw [wrI_eq _ _ (i1 + N1 * i2) _ (by push_cast; rfl)]
    obtain ⟨E', e, h⟩ := hE.wr hp (g (i1 + N1 * i2) - - ex (- pixDist I N1 N2 K (i1 + N1 * i2) (b1 + N1 * b2) / (2 * sigma * sigma)))
    refine ⟨E', e, ?_⟩
    simp only [Int.toNat_natCast]
    rw [sub_neg_eq_add] at h
    exact h
  obtain ⟨E', e, h⟩ := iter_inv (n := N2) (f := fun (i2 : Nat) (E : List ℚ) => iter N1 (fun (i1 : Nat) (E : List ℚ) =>
      forInt (max ((i2 : Int) - R) 0) (min ((i2 : Int) + R) (N2 - 1)) (fun j2 E =>
      forInt (max ((i1 : Int) - R) 0) (min ((i1 : Int) + R) (N1 - 1)) (fun j1 E => (do
        let Dij ← distance I N1 N2 K i1 i2 j1 j2
        let Fij := - ex (- Dij / (2 * sigma * sigma))
        let e ← rdI E (i1 + N1 * i2)
        wrI E (i1 + N1 * i2) (e - Fij) : Option (List ℚ))) E) E) E) (s := E)
    (fun i2 E => Arr E (N1 * N2) (fun i => f i + if i < N1 * i2 then parzen ex I N1 N2 K sigma R i else 0))
    (hE.congr (by intro i _; simp)) (by
    intro i2 hi2 E hE
    obtain ⟨E', e, h⟩ := iter_inv (n := N1) (f := fun (i1 : Nat) (E : List ℚ) =>
      forInt (max ((i2 : Int) - R) 0) (min ((i2 : Int) + R) (N2 - 1)) (fun j2 E =>
      forInt (max ((i1 : Int) - R) 0) (min ((i1 : Int) + R) (N1 - 1)) (fun j1 E => (do
        let Dij ← distance I N1 N2 K i1 i2 j1 j2
        let Fij := - ex (- Dij / (2 * sigma * sigma))
        let e ← rdI E (i1 + N1 * i2)
        wrI E (i1 + N1 * i2) (e - Fij) : Option (List ℚ))) E) E) (s := E)
      (fun i1 E => Arr E (N1 * N2) (fun i => f i + if i < i1 + N1 * i2 then parzen ex I N1 N2 K sigma R i else 0))
      (hE.congr (by intro i _; simp)) (by
      intro i1 hi1 E hE
      obtain ⟨E', e, h⟩ := hpix i1 hi1 i2 hi2 E _ hE
      refine ⟨E', e, h.congr ?_⟩
      intro i _
      simp only [upd1]
      by_cases c : i = i1 + N1 * i2
      · rw [if_pos c, if_neg (by omega), if_pos (by omega), c]; ring
      · rw [if_neg c]
        by_cases c1 : i < i1 + N1 * i2
        · rw [if_pos c1, if_pos (by omega)]
        · rw [if_neg c1, if_neg (by omega)])
    refine ⟨E', e, h.congr ?_⟩
    intro i _
    rw [Nat.mul_succ, Nat.add_comm])
  exact ⟨E', e, h.congr (by intro i hi; rw [if_pos hi])⟩

/-- What the search knows after the pixels of a list. -/
def Found (C : Int × Int → Prop) (D : Int × Int → ℚ) (lin : Int × Int → Int) (i1 i2 : Int) (L : List (Int × Int)) (b : Best) : Prop :=
  (b = ⟨⊤, i1, i2⟩ ∧ ∀ c ∈ L, ¬ C c) ∨
  ((b.j1, b.j2) ∈ L ∧ C (b.j1, b.j2) ∧ b.d = (D (b.j1, b.j2) : WithTop ℚ) ∧ (∀ c ∈ L, C c → D (b.j1, b.j2) ≤ D c) ∧
    ∀ c ∈ L, C c → D c = D (b.j1, b.j2) → lin (b.j1, b.j2) ≤ lin c)

theorem found_scan (C : Int × Int → Prop) [DecidablePred C] (D : Int × Int → ℚ) (lin : Int × Int → Int) (i1 i2 : Int) (L : List (Int × Int))
    (hs : L.Pairwise (fun a b => lin a < lin b)) (g : Best → Int × Int → Option Best)
    (hg : ∀ c ∈ L, ∀ b, g b c = some (if C c ∧ (D c : WithTop ℚ) < b.d then ⟨D c, c.1, c.2⟩ else b)) :
    ∃ b, L.foldlM g ⟨⊤, i1, i2⟩ = some b ∧ Found C D lin i1 i2 L b := by
  induction L using List.reverseRecOn with
  | nil => exact ⟨_, rfl, Or.inl ⟨rfl, by simp⟩⟩
  | append_singleton L a ih =>
    rw [List.pairwise_append] at hs
    obtain ⟨b, e, h⟩ := ih hs.1 (fun c hc => hg c (by simp [hc]))
    refine ⟨_, by rw [List.foldlM_append, e]; simp only [Option.bind_eq_bind, Option.bind_some, List.foldlM_cons, List.foldlM_nil]; rw [hg a (by simp)]; rfl, ?_⟩
    have hlt : ∀ c ∈ L, lin c < lin a := fun c hc => hs.2.2 c hc a (by simp)
    by_cases c1 : C a ∧ (D a : WithTop ℚ) < b.d
    · rw [if_pos c1]
      right
      refine ⟨by simp, c1.1, rfl, ?_, ?_⟩
      · intro c hc hC
        rcases List.mem_append.mp hc with hc | hc
        · rcases h with ⟨_, h⟩ | ⟨_, _, hd, h, _⟩
          · exact absurd hC (h c hc)
          · have h1 := c1.2
            rw [hd, WithTop.coe_lt_coe] at h1
            exact le_trans h1.le (h c hc hC)
        · rw [List.mem_singleton] at hc; rw [hc]
      · intro c hc hC hD
        rcases List.mem_append.mp hc with hc | hc
        · rcases h with ⟨_, h⟩ | ⟨_, _, hd, h, _⟩
          · exact absurd hC (h c hc)
          · have h1 := c1.2
            rw [hd, WithTop.coe_lt_coe] at h1
            have h2 := h c hc hC
            simp only at hD
            linarith
        · rw [List.mem_singleton] at hc; rw [hc]
    · rw [if_neg c1]
      rcases h with ⟨hb, h⟩ | ⟨hm, hC, hd, h, h'⟩
      · left
        refine ⟨hb, ?_⟩
        intro c hc
        rcases List.mem_append.mp hc with hc | hc
        · exact h c hc
        · rw [List.mem_singleton] at hc
          rw [hc]
          intro hCa
          exact c1 ⟨hCa, by rw [hb]; exact WithTop.coe_lt_top _⟩
      · right
        refine ⟨by simp [hm], hC, hd, ?_, ?_⟩
        · intro c hc hCc
          rcases List.mem_append.mp hc with hc | hc
          · exact h c hc hCc
          · rw [List.mem_singleton] at hc
            rw [hc] at hCc ⊢
            by_contra hlt'
            exact c1 ⟨hCc, by rw [hd, WithTop.coe_lt_coe]; exact not_le.mp hlt'⟩
        · intro c hc hCc hD
          rcases List.mem_append.mp hc with hc | hc
          · exact h' c hc hCc hD
          · rw [List.mem_singleton] at hc
            rw [hc]
            exact (hlt _ hm).le

theorem foldlM_flatMap {α β σ : Type} (L : List α) (M : α → List β) (g : σ → β → Option σ) : ∀ s,
    L.foldlM (fun s a => (M a).foldlM g s) s = (L.flatMap M).foldlM g s := by
  induction L with
  | nil => intro s; rfl
  | cons a L ih =>
    intro s
    rw [List.foldlM_cons, List.flatMap_cons, List.foldlM_append]
    congr 1; funext s; exact ih s

theorem intRange_sorted (lo hi : Int) : (intRange lo hi).Pairwise (· < ·) := by
  unfold intRange
  rw [List.pairwise_map]
  refine List.Pairwise.imp ?_ List.pairwise_lt_range
  intro a b h; omega

end Verif.Quickshift
