import Verif.Quickshift.Lemmas
import Mathlib.Data.Finset.Card
import Mathlib.Data.Fintype.Basic

/-!
# Properties of quick shift

C35: `process_correct`, `process_forest`.  C81: `new_density`, `process_density_partial`, `processDensity_claim_false`.
-/

namespace Verif.Quickshift

open Finset

/-- The sizes of the blocks of the object. -/
structure Ok (q : QS) : Prop where
  image : q.image.length = q.height * q.width * q.channels
  density : q.density.length = q.height * q.width
  parents : q.parents.length = q.height * q.width
  dists : q.dists.length = q.height * q.width

theorem new_ok (image : List ℚ) (height width channels : Nat) (h : image.length = height * width * channels) : Ok (new image height width channels) :=
  ⟨h, by simp [new], by simp [new], by simp [new]⟩

theorem Arr.ofList {α : Type} [Inhabited α] (l : List α) (n : Nat) (h : l.length = n) (d : α) : Arr l n (fun i => l.getD i d) := by
  subst h
  refine ⟨rfl, ?_⟩
  intro i hi
  simp [List.getD, hi]

/-- The window of the search contains every pixel that is near enough. -/
theorem window_covers (I : List ℚ) (N1 N2 K : Nat) (tau : ℚ) (ht : 0 ≤ tau) (i j : Nat) (h : pixDist I N1 N2 K i j ≤ tau ^ 2) :
    |((i % N1 : Nat) : Int) - (j % N1 : Nat)| ≤ ⌈tau⌉ ∧ |((i / N1 : Nat) : Int) - (j / N1 : Nat)| ≤ ⌈tau⌉ := by
  unfold pixDist at h
  have hs : 0 ≤ ∑ k ∈ range K, (I.getD (i + N1 * N2 * k) 0 - I.getD (j + N1 * N2 * k) 0) ^ 2 := Finset.sum_nonneg (fun k _ => sq_nonneg _)
  have key : ∀ a b : Nat, ((a : ℚ) - b) ^ 2 ≤ tau ^ 2 → |(a : Int) - b| ≤ ⌈tau⌉ := by
    intro a b hab
    have h1 := abs_le_of_sq_le_sq hab ht
    have h2 : (|(a : Int) - b| : Int) ≤ tau := by
      push_cast
      exact h1
    have h3 := le_trans h2 (Int.le_ceil tau)
    exact_mod_cast h3
  exact ⟨key _ _ (by nlinarith [sq_nonneg (((i / N1 : Nat) : ℚ) - (j / N1 : Nat))]), key _ _ (by nlinarith [sq_nonneg (((i % N1 : Nat) : ℚ) - (j % N1 : Nat))])⟩

/-- One search finds the parent. -/
theorem search_spec (sq : ℚ → ℚ) (I : List ℚ) (N1 N2 K : Nat) (tau : ℚ) (ht : 0 ≤ tau) (E : List ℚ) (f : Nat → ℚ) (hI : I.length = N1 * N2 * K) (hE : Arr E (N1 * N2) f)
    (i1 i2 : Nat) (hi1 : i1 < N1) (hi2 : i2 < N2) :
    ∃ b, search I N1 N2 K (tau * tau) ⌈tau⌉ E i1 i2 = some b ∧ ∃ p : Nat, p < N1 * N2 ∧ b.j1 + N1 * b.j2 = (p : Int) ∧
      IsParent sq f (pixDist I N1 N2 K) tau (N1 * N2) (i1 + N1 * i2) p (b.d.map sq) := by
  have hi := pix_lt hi1 hi2
  unfold search
  rw [rdI_eq _ _ (i1 + N1 * i2) (by push_cast; rfl), hE.rd hi]
  simp only [Option.bind_eq_bind, Option.bind_some]
  -- one list of candidates
  let L : List (Int × Int) := (intRange (max ((i2 : Int) - ⌈tau⌉) 0) (min ((i2 : Int) + ⌈tau⌉) (N2 - 1))).flatMap (fun j2 =>
    (intRange (max ((i1 : Int) - ⌈tau⌉) 0) (min ((i1 : Int) + ⌈tau⌉) (N1 - 1))).map (fun j1 => (j1, j2)))
  have hmem : ∀ c, c ∈ L → ∃ a1 a2 : Nat, c = ((a1 : Int), (a2 : Int)) ∧ a1 < N1 ∧ a2 < N2 := by
    intro c hc
    simp only [L, List.mem_flatMap, List.mem_map] at hc
    obtain ⟨j2, h2, j1, h1, rfl⟩ := hc
    obtain ⟨b2, rfl, hb2⟩ := mem_window h2
    obtain ⟨b1, rfl, hb1⟩ := mem_window h1
    exact ⟨b1, b2, rfl, hb1, hb2⟩
  have hin : ∀ a1 a2 : Nat, a1 < N1 → a2 < N2 → |(i1 : Int) - a1| ≤ ⌈tau⌉ → |(i2 : Int) - a2| ≤ ⌈tau⌉ → ((a1 : Int), (a2 : Int)) ∈ L := by
    intro a1 a2 h1 h2 h3 h4
    rw [abs_le] at h3 h4
    simp only [L, List.mem_flatMap, List.mem_map]
    exact ⟨a2, by rw [mem_intRange]; omega, a1, by rw [mem_intRange]; omega, rfl⟩
  let lin : Int × Int → Int := fun c => c.1 + N1 * c.2
  let nat : Int × Int → Nat := fun c => c.1.toNat + N1 * c.2.toNat
  have hnat : ∀ a1 a2 : Nat, nat ((a1 : Int), (a2 : Int)) = a1 + N1 * a2 := by intro a1 a2; simp [nat]
  have hlin : ∀ a1 a2 : Nat, lin ((a1 : Int), (a2 : Int)) = ((a1 + N1 * a2 : Nat) : Int) := by intro a1 a2; simp [lin]
  have hsort : L.Pairwise (fun a b => lin a < lin b) := by
    simp only [L]
    rw [List.pairwise_flatMap]
    refine ⟨?_, ?_⟩
    · intro j2 _
      rw [List.pairwise_map]
      refine (intRange_sorted _ _).imp ?_
      intro a b h
      simp only [lin]; omega
    · have := intRange_sorted (max ((i2 : Int) - ⌈tau⌉) 0) (min ((i2 : Int) + ⌈tau⌉) (N2 - 1))
      refine List.Pairwise.imp_of_mem ?_ this
      intro a b ha hb hab x hx y hy
      rw [List.mem_map] at hx hy
      obtain ⟨x1, hx, rfl⟩ := hx
      obtain ⟨y1, hy, rfl⟩ := hy
      obtain ⟨k1, rfl, hk1⟩ := mem_window hx
      obtain ⟨k2, rfl, hk2⟩ := mem_window hy
      have : (N1 : Int) * (a + 1) ≤ N1 * b := Int.mul_le_mul_of_nonneg_left (by omega) (by omega)
      rw [Int.mul_add] at this
      simp only [lin]; omega
  let C : Int × Int → Prop := fun c => f (i1 + N1 * i2) < f (nat c) ∧ pixDist I N1 N2 K (i1 + N1 * i2) (nat c) ≤ tau * tau
  obtain ⟨b, e, hb⟩ := found_scan C (fun c => pixDist I N1 N2 K (i1 + N1 * i2) (nat c)) lin i1 i2 L hsort
    (fun (best : Best) (c : Int × Int) => (do
      let e ← rdI E (c.1 + N1 * c.2)
      if e > f (i1 + N1 * i2) then do
        let Dij ← distance I N1 N2 K i1 i2 c.1 c.2
        if Dij ≤ tau * tau ∧ (Dij : WithTop ℚ) < best.d then some ⟨Dij, c.1, c.2⟩ else some best
      else some best : Option Best)) (by
    intro c hc b
    obtain ⟨a1, a2, rfl, h1, h2⟩ := hmem c hc
    have hr : rdI E ((a1 : Int) + N1 * a2) = some (f (a1 + N1 * a2)) := by
      rw [rdI_eq _ _ (a1 + N1 * a2) (by push_cast; rfl), hE.rd (pix_lt h1 h2)]
    simp only [C, hnat]
    rw [hr, distance_spec I N1 N2 K i1 i2 a1 a2 hI hi1 hi2 h1 h2]
    simp only [Option.bind_eq_bind, Option.bind_some, gt_iff_lt]
    by_cases c1 : f (i1 + N1 * i2) < f (a1 + N1 * a2)
    · rw [if_pos c1]
      by_cases c2 : pixDist I N1 N2 K (i1 + N1 * i2) (a1 + N1 * a2) ≤ tau * tau ∧ ((pixDist I N1 N2 K (i1 + N1 * i2) (a1 + N1 * a2) : ℚ) : WithTop ℚ) < b.d
      · rw [if_pos c2, if_pos ⟨⟨c1, c2.1⟩, c2.2⟩]
      · rw [if_neg c2, if_neg (fun h => c2 ⟨h.1.2, h.2⟩)]
    · rw [if_neg c1, if_neg (fun h => c1 h.1.1)])
  refine ⟨b, ?_, ?_⟩
  · rw [← e, forInt_eq]
    simp only [L]
    rw [← foldlM_flatMap]
    congr 1
    funext s j2
    rw [forInt_eq, List.foldlM_map]
    rfl
  -- every admissible pixel is a candidate
  have hall : ∀ j, Higher f (pixDist I N1 N2 K) tau (N1 * N2) (i1 + N1 * i2) j → (((j % N1 : Nat) : Int), ((j / N1 : Nat) : Int)) ∈ L ∧
      C (((j % N1 : Nat) : Int), ((j / N1 : Nat) : Int)) ∧ nat (((j % N1 : Nat) : Int), ((j / N1 : Nat) : Int)) = j := by
    intro j ⟨hj, hE', hD⟩
    have hj1 : j % N1 < N1 := Nat.mod_lt _ (by omega)
    have hj2 : j / N1 < N2 := Nat.div_lt_of_lt_mul hj
    have hn : nat (((j % N1 : Nat) : Int), ((j / N1 : Nat) : Int)) = j := by rw [hnat, Nat.mod_add_div]
    have hw := window_covers I N1 N2 K tau ht _ _ hD
    rw [pix_mod hi1, pix_div hi1] at hw
    refine ⟨hin _ _ hj1 hj2 hw.1 hw.2, ?_, hn⟩
    simp only [C, hn]
    exact ⟨hE', by rw [← pow_two]; exact hD⟩
  rcases hb with ⟨rfl, hb⟩ | ⟨hm, hC, hd, h1, h2⟩
  · refine ⟨i1 + N1 * i2, hi, by push_cast; rfl, Or.inl ⟨?_, rfl, rfl⟩⟩
    intro j hj
    obtain ⟨g1, g2, _⟩ := hall j hj
    exact hb _ g1 g2
  · obtain ⟨a1, a2, hc, ha1, ha2⟩ := hmem _ hm
    rw [hc] at hC hd h1 h2
    simp only [hnat] at hd h1 h2
    simp only [C, hnat] at hC
    obtain ⟨e1, e2⟩ := Prod.mk.inj hc
    refine ⟨a1 + N1 * a2, pix_lt ha1 ha2, by rw [e1, e2]; push_cast; rfl, Or.inr ⟨⟨pix_lt ha1 ha2, hC.1, by rw [pow_two]; exact hC.2⟩, ?_, ?_, by rw [hd]; rfl⟩⟩
    · intro j hj
      obtain ⟨g1, g2, g3⟩ := hall j hj
      have := h1 _ g1 g2
      rwa [g3] at this
    · intro j hj hD
      obtain ⟨g1, g2, g3⟩ := hall j hj
      have := h2 _ g1 g2 (by rw [g3]; exact hD)
      rw [hlin, hlin, Nat.mod_add_div] at this
      exact_mod_cast this

/-- C35.  On every object, with a non-zero kernel and a maximum distance that is not negative, quick shift stays within its blocks, and every pixel gets as its
parent the nearest pixel of strictly higher density among those at distance `tau` at most; a pixel without one is a root, at infinite distance.  The
densities are those the object holds on return: the ones it held before plus the Parzen estimate. -/
theorem process_correct (ex sq : ℚ → ℚ) (q : QS) (hq : Ok q) (hs : q.sigma ≠ 0) (ht : 0 ≤ q.tau) :
    ∃ r, process ex sq q = some r ∧ Ok r ∧ r.image = q.image ∧ r.height = q.height ∧ r.width = q.width ∧ r.channels = q.channels ∧ r.sigma = q.sigma ∧ r.tau = q.tau ∧
      (∀ i < q.height * q.width, r.density.getD i 0 = q.density.getD i 0 + parzen ex q.image q.height q.width q.channels q.sigma ⌈3 * q.sigma⌉ i) ∧
      ∀ i < q.height * q.width, ∃ p : Nat, ∃ d, r.parents[i]? = some (p : Int) ∧ r.dists[i]? = some d ∧
        IsParent sq (fun j => r.density.getD j 0) (pixDist q.image q.height q.width q.channels) q.tau (q.height * q.width) i p d := by
  obtain ⟨E, e1, hE⟩ := densities_spec ex q.image q.height q.width q.channels q.sigma hs ⌈3 * q.sigma⌉ q.density _ hq.image (Arr.ofList q.density _ hq.density 0)
  set f : Nat → ℚ := fun i => q.density.getD i 0 + parzen ex q.image q.height q.width q.channels q.sigma ⌈3 * q.sigma⌉ i with hf
  have hEq : ∀ i < q.height * q.width, E.getD i 0 = f i := by
    intro i hi
    have := hE.get i hi
    simp [List.getD, this]
  let P : Nat → List Int × List (WithTop ℚ) → Prop := fun m s => s.1.length = q.height * q.width ∧ s.2.length = q.height * q.width ∧
    ∀ i < m, ∃ p : Nat, ∃ d, p < q.height * q.width ∧ s.1[i]? = some (p : Int) ∧ s.2[i]? = some d ∧
      IsParent sq f (pixDist q.image q.height q.width q.channels) q.tau (q.height * q.width) i p d
  have hstep : ∀ i2 < q.width, ∀ i1 < q.height, ∀ s : List Int × List (WithTop ℚ), P (i1 + q.height * i2) s → ∃ s',
      (do
        let b ← search q.image q.height q.width q.channels (q.tau * q.tau) ⌈q.tau⌉ E i1 i2
        let parents ← wrI s.1 (i1 + q.height * i2) (b.j1 + q.height * b.j2)
        let dists ← wrI s.2 (i1 + q.height * i2) (b.d.map sq)
        some (parents, dists) : Option (List Int × List (WithTop ℚ))) = some s' ∧ P (i1 + q.height * i2 + 1) s' := by
    intro i2 hi2 i1 hi1 s ⟨hs1, hs2, hP⟩
    obtain ⟨b, eb, p, hp, hpe, hpar⟩ := search_spec sq q.image q.height q.width q.channels q.tau ht E f hq.image hE i1 i2 hi1 hi2
    have hlt := pix_lt hi1 hi2
    rw [eb]
    simp only [Option.bind_eq_bind, Option.bind_some]
    rw [wrI_eq _ _ (i1 + q.height * i2) _ (by push_cast; rfl), wr_of_lt (by rw [hs1]; exact hlt)]
    simp only [Option.bind_some]
    rw [wrI_eq _ _ (i1 + q.height * i2) _ (by push_cast; rfl), wr_of_lt (by rw [hs2]; exact hlt)]
    refine ⟨_, rfl, by simp [hs1], by simp [hs2], ?_⟩
    intro i hi
    by_cases c : i = i1 + q.height * i2
    · subst c
      refine ⟨p, _, hp, ?_, ?_, hpar⟩
      · simp only; rw [List.getElem?_set_self (by rw [hs1]; exact hlt), hpe]
      · simp only; rw [List.getElem?_set_self (by rw [hs2]; exact hlt)]
    · obtain ⟨p', d', g0, g1, g2, g3⟩ := hP i (by omega)
      exact ⟨p', d', g0, by simp only; rw [List.getElem?_set_ne (by omega)]; exact g1, by simp only; rw [List.getElem?_set_ne (by omega)]; exact g2, g3⟩
  obtain ⟨s, e2, hP⟩ := iter_inv (n := q.width) (f := fun (i2 : Nat) (s : List Int × List (WithTop ℚ)) => iter q.height (fun (i1 : Nat) (s : List Int × List (WithTop ℚ)) => (do
      let b ← search q.image q.height q.width q.channels (q.tau * q.tau) ⌈q.tau⌉ E i1 i2
      let parents ← wrI s.1 (i1 + q.height * i2) (b.j1 + q.height * b.j2)
      let dists ← wrI s.2 (i1 + q.height * i2) (b.d.map sq)
      some (parents, dists) : Option (List Int × List (WithTop ℚ)))) s) (s := (q.parents, q.dists)) (fun i2 s => P (q.height * i2) s)
    ⟨hq.parents, hq.dists, by simp⟩ (by
    intro i2 hi2 s hP
    obtain ⟨s', e, h⟩ := iter_inv (n := q.height) (f := fun (i1 : Nat) (s : List Int × List (WithTop ℚ)) => (do
      let b ← search q.image q.height q.width q.channels (q.tau * q.tau) ⌈q.tau⌉ E i1 i2
      let parents ← wrI s.1 (i1 + q.height * i2) (b.j1 + q.height * b.j2)
      let dists ← wrI s.2 (i1 + q.height * i2) (b.d.map sq)
      some (parents, dists) : Option (List Int × List (WithTop ℚ)))) (s := s) (fun i1 s => P (i1 + q.height * i2) s)
      (by simpa using hP) (by
      intro i1 hi1 s hP
      obtain ⟨s', e, h⟩ := hstep i2 hi2 i1 hi1 s hP
      exact ⟨s', e, by rw [show i1 + 1 + q.height * i2 = i1 + q.height * i2 + 1 by omega]; exact h⟩)
    exact ⟨s', e, by rw [Nat.mul_succ, Nat.add_comm]; exact h⟩)
  refine ⟨{ q with density := E, parents := s.1, dists := s.2 }, ?_, ⟨hq.image, hE.len, hP.1, hP.2.1⟩, rfl, rfl, rfl, rfl, rfl, rfl, hEq, ?_⟩
  · unfold process
    simp only [Option.bind_eq_bind] at e2 ⊢
    rw [e1]
    simp only [Option.bind_some]
    rw [e2]
    rfl
  · intro i hi
    obtain ⟨p, d, hp, g1, g2, g3⟩ := hP.2.2 i hi
    refine ⟨p, d, g1, g2, ?_⟩
    have hh : ∀ j, Higher (fun j => E.getD j 0) (pixDist q.image q.height q.width q.channels) q.tau (q.height * q.width) i j ↔
        Higher f (pixDist q.image q.height q.width q.channels) q.tau (q.height * q.width) i j := by
      intro j
      unfold Higher
      constructor
      · rintro ⟨h1, h2, h3⟩; simp only [hEq i hi, hEq j h1] at h2; exact ⟨h1, h2, h3⟩
      · rintro ⟨h1, h2, h3⟩; exact ⟨h1, by simp only [hEq i hi, hEq j h1]; exact h2, h3⟩
    unfold IsParent at g3 ⊢
    simp only [hh]
    exact g3

/-- Following strictly increasing values ends. -/
theorem increasing_ends (n : Nat) (E : Nat → ℚ) (par : Nat → Nat) (hp : ∀ i < n, par i < n) (h : ∀ i < n, par i = i ∨ E i < E (par i)) :
    ∀ m, ∀ i < n, ((range n).filter (fun j => E i < E j)).card ≤ m → ∃ k ≤ m, par (par^[k] i) = par^[k] i := by
  intro m
  induction m with
  | zero =>
    intro i hi hc
    refine ⟨0, le_rfl, ?_⟩
    rcases h i hi with h1 | h1
    · exact h1
    · exfalso
      rw [Nat.le_zero, Finset.card_eq_zero, Finset.filter_eq_empty_iff] at hc
      exact hc (Finset.mem_range.mpr (hp i hi)) h1
  | succ m ih =>
    intro i hi hc
    rcases h i hi with h1 | h1
    · exact ⟨0, by omega, h1⟩
    · have hss : (range n).filter (fun j => E (par i) < E j) ⊂ (range n).filter (fun j => E i < E j) := by
        rw [Finset.ssubset_iff_of_subset]
        · exact ⟨par i, by simp [hp i hi, h1], by simp⟩
        · intro j hj
          rw [Finset.mem_filter] at hj ⊢
          exact ⟨hj.1, lt_trans h1 hj.2⟩
      have := Finset.card_lt_card hss
      obtain ⟨k, hk, e⟩ := ih (par i) (hp i hi) (by omega)
      exact ⟨k + 1, by omega, by rw [Function.iterate_succ_apply]; exact e⟩

/-- C35.  The parents are a forest: each is the pixel itself or a pixel of strictly higher density within distance `tau`, and following the parents from any
pixel arrives at a root in fewer steps than there are pixels. -/
theorem process_forest (ex sq : ℚ → ℚ) (q : QS) (hq : Ok q) (hs : q.sigma ≠ 0) (ht : 0 ≤ q.tau) :
    ∃ r, process ex sq q = some r ∧ ∃ par : Nat → Nat, r.parents = (List.range (q.height * q.width)).map (fun i => (par i : Int)) ∧
      (∀ i < q.height * q.width, par i < q.height * q.width ∧
        (par i = i ∨ (r.density.getD i 0 < r.density.getD (par i) 0 ∧ pixDist q.image q.height q.width q.channels i (par i) ≤ q.tau ^ 2))) ∧
      ∀ i < q.height * q.width, ∃ k < q.height * q.width, par (par^[k] i) = par^[k] i := by
  obtain ⟨r, e, hr, hi, hh, hw, _, _, _, _, h⟩ := process_correct ex sq q hq hs ht
  have hlen := hr.parents
  rw [hh, hw] at hlen
  have hpar : ∀ i < q.height * q.width, (r.parents.getD i 0).toNat < q.height * q.width ∧ r.parents[i]? = some ((r.parents.getD i 0).toNat : Int) ∧
      ((r.parents.getD i 0).toNat = i ∨ (r.density.getD i 0 < r.density.getD (r.parents.getD i 0).toNat 0 ∧
        pixDist q.image q.height q.width q.channels i (r.parents.getD i 0).toNat ≤ q.tau ^ 2)) := by
    intro i hi
    obtain ⟨p, d, h1, _, h3⟩ := h i hi
    have hp : (r.parents.getD i 0).toNat = p := by simp [List.getD, h1]
    rw [hp]
    rcases h3 with ⟨_, h3, _⟩ | ⟨⟨h4, h5, h6⟩, _⟩
    · exact ⟨by omega, h1, Or.inl h3⟩
    · exact ⟨h4, h1, Or.inr ⟨h5, h6⟩⟩
  refine ⟨r, e, fun i => (r.parents.getD i 0).toNat, ?_, fun i hi => ⟨(hpar i hi).1, (hpar i hi).2.2⟩, ?_⟩
  · apply List.ext_getElem?
    intro i
    by_cases c : i < q.height * q.width
    · rw [(hpar i c).2.1]; simp [c]
    · rw [List.getElem?_eq_none (by omega), List.getElem?_eq_none (by simp; omega)]
  · intro i hi
    obtain ⟨k, hk, e⟩ := increasing_ends (q.height * q.width) (fun j => r.density.getD j 0) (fun i => (r.parents.getD i 0).toNat) (fun i hi => (hpar i hi).1)
      (fun i hi => (hpar i hi).2.2.imp id And.left) _ i hi le_rfl
    refine ⟨k, lt_of_le_of_lt hk ?_, e⟩
    calc _ < (range (q.height * q.width)).card := by
          apply Finset.card_lt_card
          rw [Finset.ssubset_iff_of_subset (Finset.filter_subset _ _)]
          exact ⟨i, Finset.mem_range.mpr hi, by simp⟩
      _ = _ := by simp

/-- C81.  The densities of a new object are zero, so its first run leaves the Parzen estimate in them. -/
theorem new_density (ex sq : ℚ → ℚ) (image : List ℚ) (height width channels : Nat) (h : image.length = height * width * channels) (sigma tau : ℚ) (hs : sigma ≠ 0)
    (ht : 0 ≤ tau) :
    ∃ r, process ex sq { new image height width channels with sigma := sigma, tau := tau } = some r ∧
      ∀ i < height * width, r.density.getD i 0 = parzen ex image height width channels sigma ⌈3 * sigma⌉ i := by
  have hn := new_ok image height width channels h
  obtain ⟨r, e, _, _, _, _, _, _, _, h1, _⟩ := process_correct ex sq { new image height width channels with sigma := sigma, tau := tau }
    ⟨hn.image, hn.density, hn.parents, hn.dists⟩ hs ht
  refine ⟨r, e, ?_⟩
  intro i hi
  rw [h1 i hi]
  simp [new, List.getD, hi]

/-- C81, what holds of any run: the estimate is added to the densities the object already has. -/
theorem process_density_partial (ex sq : ℚ → ℚ) (q : QS) (hq : Ok q) (hs : q.sigma ≠ 0) (ht : 0 ≤ q.tau) :
    ∃ r, process ex sq q = some r ∧
      ∀ i < q.height * q.width, r.density.getD i 0 = q.density.getD i 0 + parzen ex q.image q.height q.width q.channels q.sigma ⌈3 * q.sigma⌉ i := by
  obtain ⟨r, e, _, _, _, _, _, _, _, h1, _⟩ := process_correct ex sq q hq hs ht
  exact ⟨r, e, h1⟩

/-- C81 in full: whatever the object did before, after a run its densities are the Parzen estimate for its image and its `sigma`. -/
def ProcessDensityClaim : Prop := ∀ (ex sq : ℚ → ℚ) (q : QS), Ok q → q.sigma ≠ 0 → 0 ≤ q.tau → ∃ r, process ex sq q = some r ∧
  ∀ i < q.height * q.width, r.density.getD i 0 = parzen ex q.image q.height q.width q.channels q.sigma ⌈3 * q.sigma⌉ i

/-- It is false: the second run on a new object doubles the densities.  An image of one pixel. -/
theorem processDensity_claim_false : ¬ ProcessDensityClaim := by
  intro h
  obtain ⟨r, e, hr, r1, r2, r3, r4, r5, r6, h1, _⟩ := process_correct (fun _ => 1) id (new [0] 1 1 1) (new_ok _ _ _ _ rfl) (by decide +kernel) (by decide +kernel)
  have hr0 := h1 0 (by decide)
  obtain ⟨r', e', h2⟩ := h (fun _ => 1) id r hr (by rw [r5]; decide +kernel) (by rw [r6]; decide +kernel)
  obtain ⟨r'', e'', h3⟩ := process_density_partial (fun _ => 1) id r hr (by rw [r5]; decide +kernel) (by rw [r6]; decide +kernel)
  rw [e'] at e''
  cases e''
  have a := h2 0 (by rw [r2, r3]; decide)
  have b := h3 0 (by rw [r2, r3]; decide)
  rw [a, hr0] at b
  rw [r1, r2, r3, r4, r5] at b
  have hz : parzen (fun _ => 1) (new [0] 1 1 1).image (new [0] 1 1 1).height (new [0] 1 1 1).width (new [0] 1 1 1).channels (new [0] 1 1 1).sigma ⌈3 * (new [0] 1 1 1).sigma⌉ 0 = 1 := by decide +kernel
  rw [hz] at b
  exact absurd b (by decide +kernel)

/-- The hypotheses are met: a new object. -/
example : Ok (new [0, 1, 5] 3 1 1) ∧ (new [0, 1, 5] 3 1 1).sigma ≠ 0 ∧ 0 ≤ (new [0, 1, 5] 3 1 1).tau := ⟨new_ok _ _ _ _ rfl, by decide +kernel, by decide +kernel⟩

/-- And a run: `1 / (1 - x)` in place of the exponential; the middle pixel has the highest density and is the root. -/
example : (process (fun x => 1 / (1 - x)) id { new [0, 1, 5] 3 1 1 with sigma := 1, tau := 10 }).map (fun r => r.parents) = some [1, 1, 1] := by decide +kernel

end Verif.Quickshift
