import Verif.Quickshift.Props
import Verif.Quickshift.MedoidLemmas
import Mathlib.Tactic.IntervalCases

/-!
# Properties of medoid shift

C172: `medoid_partial`, `medoid_claim_false`.
-/

namespace Verif.Quickshift

open Finset

/-- The weights of a window add up to the Parzen estimate. -/
theorem sum_weight (ex : ℚ → ℚ) (I : List ℚ) (N1 N2 K : Nat) (sigma : ℚ) (R : Int) (i : Nat) :
    ∑ k ∈ range (N1 * N2), weight ex I N1 N2 K sigma R i k = parzen ex I N1 N2 K sigma R i := by
  rw [← sum_pixels]
  unfold parzen
  apply Finset.sum_congr rfl
  intro j2 _
  apply Finset.sum_congr rfl
  intro j1 hj1
  rw [Finset.mem_range] at hj1
  unfold weight Near
  simp only [pix_mod hj1, pix_div hj1]

/-- C172, what holds.  On an object whose densities are zero, as they are in a new one, medoid shift stays within its blocks, leaves the Parzen estimate as the
densities, and every pixel gets as its parent the medoid of its window, the first pixel of least scatter, provided that scatter is less than the scatter of the
origin of the coordinates; if not, the pixel becomes a root, at distance zero.  Missing: the medoid in the second case, which is wrong. -/
theorem medoid_partial (ex : ℚ → ℚ) (q : QS) (hq : Ok q) (hs : q.sigma ≠ 0) (h0 : ∀ i < q.height * q.width, q.density.getD i 0 = 0) :
    ∃ r, processMedoid ex q = some r ∧ Ok r ∧ r.image = q.image ∧ r.height = q.height ∧ r.width = q.width ∧ r.channels = q.channels ∧ r.sigma = q.sigma ∧ r.tau = q.tau ∧
      (∀ i < q.height * q.width, r.density.getD i 0 = parzen ex q.image q.height q.width q.channels q.sigma ⌈3 * q.sigma⌉ i) ∧
      ∀ i < q.height * q.width, ∃ p : Nat, ∃ d : ℚ, r.parents[i]? = some (p : Int) ∧ r.dists[i]? = some (d : WithTop ℚ) ∧
        ((p = i ∧ d = 0 ∧ ∀ j < q.height * q.width, Near q.height ⌈3 * q.sigma⌉ i j →
            energy ex q.image q.height q.width q.channels q.sigma ⌈3 * q.sigma⌉ i ≤ scatter ex q.image q.height q.width q.channels q.sigma ⌈3 * q.sigma⌉ i j) ∨
         (IsMedoid (scatter ex q.image q.height q.width q.channels q.sigma ⌈3 * q.sigma⌉ i) (Near q.height ⌈3 * q.sigma⌉ i) (q.height * q.width) p ∧ 0 < d ∧
           d = energy ex q.image q.height q.width q.channels q.sigma ⌈3 * q.sigma⌉ i - scatter ex q.image q.height q.width q.channels q.sigma ⌈3 * q.sigma⌉ i p)) := by
  obtain ⟨n, en, hn⟩ := norms_spec q.image q.height q.width q.channels hq.image (List.replicate (q.height * q.width) 0) (fun _ => 0)
    ⟨by simp, by intro i hi; simp [hi]⟩
  obtain ⟨s, es, hE, hMl, hM⟩ := votes_spec ex q.image q.height q.width q.channels q.sigma hs ⌈3 * q.sigma⌉ hq.image q.density _ (Arr.ofList q.density _ hq.density 0)
  set W : Nat → Nat → ℚ := weight ex q.image q.height q.width q.channels q.sigma ⌈3 * q.sigma⌉ with hW
  set S : Nat → Nat → ℚ := scatter ex q.image q.height q.width q.channels q.sigma ⌈3 * q.sigma⌉ with hS
  set A : Nat → ℚ := energy ex q.image q.height q.width q.channels q.sigma ⌈3 * q.sigma⌉ with hA
  have hE' : Arr s.1 (q.height * q.width) (fun i => ∑ k ∈ range (q.height * q.width), W i k) := hE.congr (by
    intro i hi
    rw [h0 i hi, zero_add])
  have hQ : ∀ i1 < q.height, ∀ i2 < q.width, ∀ j1 < q.height, ∀ j2 < q.width, score q.image q.height q.width q.channels n s.1 s.2 i1 i2 j1 j2 =
      some ((fun i j => A i - S i j) (i1 + q.height * i2) (j1 + q.height * j2)) := by
    intro i1 hi1 i2 hi2 j1 hj1 j2 hj2
    rw [score_spec q.image q.height q.width q.channels hq.image n s.1 s.2 _ _ _ hn hE' hM i1 i2 j1 j2 hi1 hi2 hj1 hj2, score_algebra]
    simp only [hA, hS, energy, scatter, pixDist_coord, hW]
  let P : Nat → List Int × List (WithTop ℚ) → Prop := fun m s => s.1.length = q.height * q.width ∧ s.2.length = q.height * q.width ∧
    ∀ i < m, ∃ p : Nat, ∃ d : ℚ, s.1[i]? = some (p : Int) ∧ s.2[i]? = some (d : WithTop ℚ) ∧
      ((p = i ∧ d = 0 ∧ ∀ j < q.height * q.width, Near q.height ⌈3 * q.sigma⌉ i j → A i ≤ S i j) ∨
       (IsMedoid (S i) (Near q.height ⌈3 * q.sigma⌉ i) (q.height * q.width) p ∧ 0 < d ∧ d = A i - S i p))
  have hstep : ∀ i2 < q.width, ∀ i1 < q.height, ∀ t : List Int × List (WithTop ℚ), P (i1 + q.height * i2) t → ∃ t',
      (do
        let b ← medoidSearch q.image q.height q.width q.channels ⌈3 * q.sigma⌉ n s.1 s.2 i1 i2
        let parents ← wrI t.1 (i1 + q.height * i2) (b.j1 + q.height * b.j2)
        let dists ← wrI t.2 (i1 + q.height * i2) (b.sc : ℚ)
        some (parents, dists) : Option (List Int × List (WithTop ℚ))) = some t' ∧ P (i1 + q.height * i2 + 1) t' := by
    intro i2 hi2 i1 hi1 t ⟨ht1, ht2, hP⟩
    obtain ⟨b, eb, p, hp, hpe, hpar⟩ := medoidSearch_spec q.image q.height q.width q.channels ⌈3 * q.sigma⌉ n s.1 s.2 (fun i j => A i - S i j) hQ i1 i2 hi1 hi2
    have hlt := pix_lt hi1 hi2
    rw [eb]
    simp only [Option.bind_eq_bind, Option.bind_some]
    rw [wrI_eq _ _ (i1 + q.height * i2) _ (by push_cast; rfl), wr_of_lt (by rw [ht1]; exact hlt)]
    simp only [Option.bind_some]
    rw [wrI_eq _ _ (i1 + q.height * i2) _ (by push_cast; rfl), wr_of_lt (by rw [ht2]; exact hlt)]
    refine ⟨_, rfl, by simp [ht1], by simp [ht2], ?_⟩
    intro i hi
    by_cases c : i = i1 + q.height * i2
    · subst c
      refine ⟨p, b.sc, ?_, ?_, ?_⟩
      · simp only; rw [List.getElem?_set_self (by rw [ht1]; exact hlt), hpe]
      · simp only; rw [List.getElem?_set_self (by rw [ht2]; exact hlt)]
      · rcases hpar with ⟨h1, h2, h3⟩ | ⟨h1, h2, h3, h4⟩
        · left
          exact ⟨h1, h2, fun j hj hN => sub_nonpos.mp (h3 j hj hN)⟩
        · right
          refine ⟨⟨hp, h1, ?_, ?_⟩, h2, h3⟩
          · intro j hj hN
            have := (h4 j hj hN).1
            rw [h3] at this
            linarith
          · intro j hj hN he
            apply (h4 j hj hN).2
            rw [h3, he]
    · obtain ⟨p', d', g1, g2, g3⟩ := hP i (by omega)
      exact ⟨p', d', by simp only; rw [List.getElem?_set_ne (by omega)]; exact g1, by simp only; rw [List.getElem?_set_ne (by omega)]; exact g2, g3⟩
  obtain ⟨t, e2, hP⟩ := iter_inv (n := q.width) (f := fun (i2 : Nat) (t : List Int × List (WithTop ℚ)) => iter q.height (fun (i1 : Nat) (t : List Int × List (WithTop ℚ)) => (do
      let b ← medoidSearch q.image q.height q.width q.channels ⌈3 * q.sigma⌉ n s.1 s.2 i1 i2
      let parents ← wrI t.1 (i1 + q.height * i2) (b.j1 + q.height * b.j2)
      let dists ← wrI t.2 (i1 + q.height * i2) (b.sc : ℚ)
      some (parents, dists) : Option (List Int × List (WithTop ℚ)))) t) (s := (q.parents, q.dists)) (fun i2 t => P (q.height * i2) t)
    ⟨hq.parents, hq.dists, by simp⟩ (by
    intro i2 hi2 t hP
    obtain ⟨t', e, h⟩ := iter_inv (n := q.height) (f := fun (i1 : Nat) (t : List Int × List (WithTop ℚ)) => (do
      let b ← medoidSearch q.image q.height q.width q.channels ⌈3 * q.sigma⌉ n s.1 s.2 i1 i2
      let parents ← wrI t.1 (i1 + q.height * i2) (b.j1 + q.height * b.j2)
      let dists ← wrI t.2 (i1 + q.height * i2) (b.sc : ℚ)
      some (parents, dists) : Option (List Int × List (WithTop ℚ)))) (s := t) (fun i1 t => P (i1 + q.height * i2) t)
      (by simpa using hP) (by
      intro i1 hi1 t hP
      obtain ⟨t', e, h⟩ := hstep i2 hi2 i1 hi1 t hP
      exact ⟨t', e, by rw [show i1 + 1 + q.height * i2 = i1 + q.height * i2 + 1 by omega]; exact h⟩)
    exact ⟨t', e, by rw [Nat.mul_succ, Nat.add_comm]; exact h⟩)
  refine ⟨{ q with density := s.1, parents := t.1, dists := t.2 }, ?_, ⟨hq.image, hE.len, hP.1, hP.2.1⟩, rfl, rfl, rfl, rfl, rfl, rfl, ?_, hP.2.2⟩
  · unfold processMedoid
    simp only [Option.bind_eq_bind] at e2 ⊢
    rw [en]
    simp only [Option.bind_some]
    rw [es]
    simp only [Option.bind_some]
    rw [e2]
    rfl
  · intro i hi
    rw [← sum_weight]
    have := hE'.get i hi
    simp [List.getD, this, hW]

/-- C172 in full, for an exponential `ex`: on a new object the parent of every pixel is the medoid of its window. -/
def MedoidClaim (ex : ℚ → ℚ) : Prop := ∀ (image : List ℚ) (height width channels : Nat) (sigma : ℚ), image.length = height * width * channels → 0 < sigma →
  ∃ r, processMedoid ex { new image height width channels with sigma := sigma } = some r ∧ ∀ i < height * width, ∃ p : Nat, r.parents[i]? = some (p : Int) ∧
    IsMedoid (scatter ex image height width channels sigma ⌈3 * sigma⌉ i) (Near height ⌈3 * sigma⌉ i) (height * width) p

theorem scatter_three (ex : ℚ → ℚ) (j : Nat) : scatter ex [-1, 2, -1] 3 1 1 10 ⌈3 * (10 : ℚ)⌉ 1 j =
    ex (- (10 : ℚ) / 200) * pixDist [-1, 2, -1] 3 1 1 j 0 + ex 0 * pixDist [-1, 2, -1] 3 1 1 j 1 + ex (- (10 : ℚ) / 200) * pixDist [-1, 2, -1] 3 1 1 j 2 := by
  have hw : ∀ k ∈ List.range 3, Near 3 ⌈3 * (10 : ℚ)⌉ 1 k := by decide +kernel
  have h0 : - pixDist [-1, 2, -1] 3 1 1 1 0 / (2 * 10 ^ 2) = - (10 : ℚ) / 200 := by decide +kernel
  have h1 : - pixDist [-1, 2, -1] 3 1 1 1 1 / (2 * 10 ^ 2) = (0 : ℚ) := by decide +kernel
  have h2 : - pixDist [-1, 2, -1] 3 1 1 1 2 / (2 * 10 ^ 2) = - (10 : ℚ) / 200 := by decide +kernel
  unfold scatter
  simp only [show 3 * 1 = 3 from rfl, Finset.sum_range_succ, Finset.sum_range_zero, zero_add, weight, if_pos (hw 0 (by decide)), if_pos (hw 1 (by decide)),
    if_pos (hw 2 (by decide)), h0, h1, h2]

theorem energy_three (ex : ℚ → ℚ) : energy ex [-1, 2, -1] 3 1 1 10 ⌈3 * (10 : ℚ)⌉ 1 = ex (- (10 : ℚ) / 200) * 1 + ex 0 * 5 + ex (- (10 : ℚ) / 200) * 5 := by
  have hw : ∀ k ∈ List.range 3, Near 3 ⌈3 * (10 : ℚ)⌉ 1 k := by decide +kernel
  have h0 : - pixDist [-1, 2, -1] 3 1 1 1 0 / (2 * 10 ^ 2) = - (10 : ℚ) / 200 := by decide +kernel
  have h1 : - pixDist [-1, 2, -1] 3 1 1 1 1 / (2 * 10 ^ 2) = (0 : ℚ) := by decide +kernel
  have h2 : - pixDist [-1, 2, -1] 3 1 1 1 2 / (2 * 10 ^ 2) = - (10 : ℚ) / 200 := by decide +kernel
  have c0 : ∑ t ∈ range (1 + 2), coord [-1, 2, -1] 3 1 t 0 ^ 2 = 1 := by decide +kernel
  have c1 : ∑ t ∈ range (1 + 2), coord [-1, 2, -1] 3 1 t 1 ^ 2 = 5 := by decide +kernel
  have c2 : ∑ t ∈ range (1 + 2), coord [-1, 2, -1] 3 1 t 2 ^ 2 = 5 := by decide +kernel
  unfold energy
  rw [show 3 * 1 = 3 from rfl, Finset.sum_range_succ, Finset.sum_range_succ, Finset.sum_range_succ, Finset.sum_range_zero, c0, c1, c2]
  simp only [zero_add, weight, if_pos (hw 0 (by decide)), if_pos (hw 1 (by decide)), if_pos (hw 2 (by decide)), h0, h1, h2]

/-- It is false for every function between `1 + x` and one for `x` at most zero, which the exponential is: the score of the code is compared to zero, the score of the
origin of the coordinates.  A column of three pixels of values -1, 2, -1 and `sigma` ten: the one in the middle becomes a root although it has the largest scatter. -/
theorem medoid_claim_false (ex : ℚ → ℚ) (hex : ∀ x ≤ 0, 1 + x ≤ ex x ∧ ex x ≤ 1) : ¬ MedoidClaim ex := by
  intro h
  obtain ⟨r, e, hr⟩ := h [-1, 2, -1] 3 1 1 10 rfl (by norm_num)
  have hn := new_ok [-1, 2, -1] 3 1 1 rfl
  obtain ⟨r', e', _, _, _, _, _, _, _, _, hp⟩ := medoid_partial ex { new [-1, 2, -1] 3 1 1 with sigma := 10 } ⟨hn.image, hn.density, hn.parents, hn.dists⟩ (by norm_num)
    (by intro i hi; have hi' : i < 3 := hi; interval_cases i <;> rfl)
  rw [e] at e'
  cases e'
  obtain ⟨p, hp1, _, _, hmin, _⟩ := hr 1 (by decide)
  obtain ⟨p', d, hp1', _, hd⟩ := hp 1 (by decide)
  rw [hp1] at hp1'
  obtain rfl : p = p' := by simpa using hp1'
  dsimp only at hd
  have a0 : ex 0 = 1 := le_antisymm (hex 0 le_rfl).2 (by simpa using (hex 0 le_rfl).1)
  obtain ⟨a1, a2⟩ := hex (- (10 : ℚ) / 200) (by norm_num)
  obtain ⟨w, hw⟩ : ∃ w, w = ex (- (10 : ℚ) / 200) := ⟨_, rfl⟩
  rw [← hw] at a1 a2
  norm_num at a1
  have s0 : scatter ex [-1, 2, -1] 3 1 1 10 ⌈3 * (10 : ℚ)⌉ 1 0 = 10 + 4 * w := by
    rw [scatter_three, a0, ← hw, show pixDist [-1, 2, -1] 3 1 1 0 0 = 0 by decide +kernel, show pixDist [-1, 2, -1] 3 1 1 0 1 = 10 by decide +kernel,
      show pixDist [-1, 2, -1] 3 1 1 0 2 = 4 by decide +kernel]; ring
  have s1 : scatter ex [-1, 2, -1] 3 1 1 10 ⌈3 * (10 : ℚ)⌉ 1 1 = 20 * w := by
    rw [scatter_three, a0, ← hw, show pixDist [-1, 2, -1] 3 1 1 1 0 = 10 by decide +kernel, show pixDist [-1, 2, -1] 3 1 1 1 1 = 0 by decide +kernel,
      show pixDist [-1, 2, -1] 3 1 1 1 2 = 10 by decide +kernel]; ring
  have hE : energy ex [-1, 2, -1] 3 1 1 10 ⌈3 * (10 : ℚ)⌉ 1 = 5 + 6 * w := by rw [energy_three, a0, ← hw]; ring
  have near : ∀ k ∈ List.range 3, Near 3 ⌈3 * (10 : ℚ)⌉ 1 k := by decide +kernel
  have m0 := hmin 0 (by decide) (near 0 (by decide))
  rcases hd with ⟨rfl, _⟩ | ⟨_, hpos, hval⟩
  · rw [s0, s1] at m0
    linarith
  · have hE' : d = energy ex [-1, 2, -1] 3 1 1 10 ⌈3 * (10 : ℚ)⌉ 1 - scatter ex [-1, 2, -1] 3 1 1 10 ⌈3 * (10 : ℚ)⌉ 1 p := hval
    have s2 : scatter ex [-1, 2, -1] 3 1 1 10 ⌈3 * (10 : ℚ)⌉ 1 2 = 10 + 4 * w := by
      rw [scatter_three, a0, ← hw, show pixDist [-1, 2, -1] 3 1 1 2 0 = 4 by decide +kernel, show pixDist [-1, 2, -1] 3 1 1 2 1 = 10 by decide +kernel,
        show pixDist [-1, 2, -1] 3 1 1 2 2 = 0 by decide +kernel]; ring
    have hp3 : p < 3 := ‹p < 3 * 1›
    rw [hE] at hE'
    interval_cases p
    · rw [s0] at hE'; linarith
    · rw [s1] at hE'; linarith
    · rw [s2] at hE'; linarith

/-- A function as in `medoid_claim_false`. -/
example : ∀ x : ℚ, x ≤ 0 → 1 + x ≤ 1 / (1 - x) ∧ 1 / (1 - x) ≤ 1 := by
  intro x hx
  have : 0 < 1 - x := by linarith
  constructor
  · rw [le_div_iff₀ this]; nlinarith [sq_nonneg x]
  · rw [div_le_one this]; linarith

/-- The hypotheses of `medoid_partial` are met by a new object, and the second case occurs: in a column of three pixels the one in the middle is the medoid. -/
example : Ok (new [0, 1, 2] 3 1 1) ∧ (new [0, 1, 2] 3 1 1).sigma ≠ 0 ∧ (∀ i ∈ List.range 3, (new [0, 1, 2] 3 1 1).density.getD i 0 = 0) ∧
    (processMedoid (fun x => 1 / (1 - x)) { new [0, 1, 2] 3 1 1 with sigma := 10 }).map (fun r => r.parents) = some [1, 1, 1] :=
  ⟨new_ok _ _ _ _ rfl, by decide +kernel, by decide +kernel, by decide +kernel⟩

end Verif.Quickshift
