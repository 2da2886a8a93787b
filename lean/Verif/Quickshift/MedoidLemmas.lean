import Verif.Quickshift.Lemmas
import Verif.Quickshift.MedoidModel
import Verif.Quickshift.MedoidSpec

/-!
# Lemmas about medoid shift
-/

namespace Verif.Quickshift

open Finset

/-- A step that adds `δ` to what the state holds. -/
def Adds {σ ι : Type} (R : σ → (ι → ℚ) → Prop) (g : σ → Option σ) (δ : ι → ℚ) : Prop :=
  ∀ s f, R s f → ∃ s', g s = some s' ∧ R s' (fun x => f x + δ x)

theorem Adds.foldlM {σ ι α : Type} {R : σ → (ι → ℚ) → Prop} {g : σ → α → Option σ} {δ : α → ι → ℚ} (L : List α) (h : ∀ a ∈ L, Adds R (fun s => g s a) (δ a)) :
    Adds R (fun s => L.foldlM g s) (fun x => (L.map (fun a => δ a x)).sum) := by
  induction L with
  | nil => intro s f hs; exact ⟨s, rfl, by simpa using hs⟩
  | cons a L ih =>
    intro s f hs
    obtain ⟨s1, e1, h1⟩ := h a (by simp) s f hs
    obtain ⟨s2, e2, h2⟩ := ih (fun b hb => h b (by simp [hb])) s1 _ h1
    refine ⟨s2, by simp only [List.foldlM_cons]; dsimp only at e1; rw [e1]; exact e2, ?_⟩
    simp only [List.map_cons, List.sum_cons]
    simpa only [add_assoc] using h2

theorem Adds.iter {σ ι : Type} {R : σ → (ι → ℚ) → Prop} {g : Nat → σ → Option σ} {δ : Nat → ι → ℚ} (n : Nat) (h : ∀ a < n, Adds R (g a) (δ a)) :
    Adds R (Verif.iter n g) (fun x => ∑ a ∈ range n, δ a x) := by
  induction n with
  | zero => intro s f hs; exact ⟨s, rfl, by simpa using hs⟩
  | succ n ih =>
    intro s f hs
    obtain ⟨s1, e1, h1⟩ := ih (fun a ha => h a (by omega)) s f hs
    obtain ⟨s2, e2, h2⟩ := h n (by omega) s1 _ h1
    refine ⟨s2, ?_, ?_⟩
    · show (Verif.iter n g s).bind (g n) = _
      rw [e1]; exact e2
    · simp only [Finset.sum_range_succ]
      simpa only [add_assoc] using h2

theorem Adds.congr {σ ι : Type} {R : σ → (ι → ℚ) → Prop} {g : σ → Option σ} {δ δ' : ι → ℚ} (h : Adds R g δ) (e : ∀ x, δ x = δ' x) : Adds R g δ' := by
  rwa [show δ' = δ from funext fun x => (e x).symm]

theorem Adds.bind {σ ι : Type} {R : σ → (ι → ℚ) → Prop} {g g' : σ → Option σ} {δ δ' : ι → ℚ} (h : Adds R g δ) (h' : Adds R g' δ') :
    Adds R (fun s => (g s).bind g') (fun x => δ x + δ' x) := by
  intro s f hs
  obtain ⟨s1, e1, h1⟩ := h s f hs
  obtain ⟨s2, e2, h2⟩ := h' s1 _ h1
  refine ⟨s2, by simp only; rw [e1]; exact e2, ?_⟩
  simpa only [add_assoc] using h2

theorem addTo_adds (n p : Nat) (P : Int) (hP : P = p) (hp : p < n) (v : ℚ) : Adds (fun (M : List ℚ) f => Arr M n f) (fun M => addTo M P v) (fun x => if x = p then v else 0) := by
  intro M f hM
  subst hP
  unfold addTo
  dsimp only
  rw [rdI_eq _ _ p rfl, hM.rd hp]
  simp only [Option.bind_eq_bind, Option.bind_some]
  rw [wrI_eq _ _ p _ rfl]
  obtain ⟨M', e, h⟩ := hM.wr hp (f p + v)
  refine ⟨M', e, h.congr ?_⟩
  intro i _
  simp only [upd1]
  split_ifs with c
  · rw [c]
  · rw [add_zero]

theorem image_rd {I : List ℚ} {N1 N2 K : Nat} (hI : I.length = N1 * N2 * K) {a1 a2 k : Nat} (h1 : a1 < N1) (h2 : a2 < N2) (h3 : k < K) (P : Int)
    (hP : P = ((a1 + N1 * a2 + N1 * N2 * k : Nat) : Int)) : rdI I P = some (coord I N1 N2 (k + 2) (a1 + N1 * a2)) := by
  have hlt : a1 + N1 * a2 + N1 * N2 * k < I.length := by rw [hI]; exact pix_lt (pix_lt h1 h2) h3
  rw [rdI_eq _ _ _ hP, rd_of_lt hlt]
  simp [coord, List.getD, hlt]

theorem coord_zero (I : List ℚ) {N1 N2 a1 a2 : Nat} (h1 : a1 < N1) : coord I N1 N2 0 (a1 + N1 * a2) = a1 := by
  simp only [coord]; rw [pix_mod h1]

theorem coord_one (I : List ℚ) {N1 N2 a1 a2 : Nat} (h1 : a1 < N1) : coord I N1 N2 1 (a1 + N1 * a2) = a2 := by
  simp only [coord]; rw [pix_div h1]

theorem sum_two {f : Nat → ℚ} (K : Nat) : ∑ t ∈ range (K + 2), f t = f 0 + f 1 + ∑ k ∈ range K, f (k + 2) := by
  rw [Finset.sum_range_succ', Finset.sum_range_succ']; ring

/-- The distance is the sum of the squared differences of the coordinates. -/
theorem pixDist_coord (I : List ℚ) (N1 N2 K i j : Nat) : pixDist I N1 N2 K i j = ∑ t ∈ range (K + 2), (coord I N1 N2 t i - coord I N1 N2 t j) ^ 2 := by
  rw [sum_two]; rfl

theorem inner_spec (I : List ℚ) (N1 N2 K i1 i2 : Nat) (hI : I.length = N1 * N2 * K) (hi1 : i1 < N1) (hi2 : i2 < N2) :
    inner I N1 N2 K i1 i2 i1 i2 = some (∑ t ∈ range (K + 2), coord I N1 N2 t (i1 + N1 * i2) ^ 2) := by
  unfold inner
  obtain ⟨d, e, h⟩ := iter_inv (n := K) (f := fun (k : Nat) (ker : ℚ) => (do
      let a ← rdI I ((i1 : Int) + N1 * i2 + (N1 * N2) * k)
      let b ← rdI I ((i1 : Int) + N1 * i2 + (N1 * N2) * k)
      some (ker + a * b) : Option ℚ)) (s := (((i1 : Int) * i1 + i2 * i2 : Int) : ℚ))
    (fun k d => d = (i1 : ℚ) ^ 2 + (i2 : ℚ) ^ 2 + ∑ t ∈ range k, coord I N1 N2 (t + 2) (i1 + N1 * i2) ^ 2) (by push_cast; simp; ring) (by
    intro k hk d hd
    rw [image_rd hI hi1 hi2 hk _ (by push_cast; ring)]
    refine ⟨_, rfl, ?_⟩
    rw [Finset.sum_range_succ, hd]; ring)
  rw [e, h, sum_two, coord_zero I hi1, coord_one I hi1]

theorem norms_spec (I : List ℚ) (N1 N2 K : Nat) (hI : I.length = N1 * N2 * K) (n : List ℚ) (f : Nat → ℚ) (hn : Arr n (N1 * N2) f) :
    ∃ n', norms I N1 N2 K n = some n' ∧ Arr n' (N1 * N2) (fun j => ∑ t ∈ range (K + 2), coord I N1 N2 t j ^ 2) := by
  let V : Nat → ℚ := fun j => ∑ t ∈ range (K + 2), coord I N1 N2 t j ^ 2
  obtain ⟨E', e, h⟩ := iter_inv (n := N2) (f := fun (i2 : Nat) (n : List ℚ) => iter N1 (fun (i1 : Nat) (n : List ℚ) => (do
      let v ← inner I N1 N2 K i1 i2 i1 i2
      wrI n (i1 + N1 * i2) v : Option (List ℚ))) n) (s := n)
    (fun i2 n => Arr n (N1 * N2) (fun i => if i < N1 * i2 then V i else f i)) (hn.congr (by intro i _; simp)) (by
    intro i2 hi2 n hn
    obtain ⟨E', e, h⟩ := iter_inv (n := N1) (f := fun (i1 : Nat) (n : List ℚ) => (do
      let v ← inner I N1 N2 K i1 i2 i1 i2
      wrI n (i1 + N1 * i2) v : Option (List ℚ))) (s := n)
      (fun i1 n => Arr n (N1 * N2) (fun i => if i < i1 + N1 * i2 then V i else f i)) (hn.congr (by intro i _; simp)) (by
      intro i1 hi1 n hn
      rw [inner_spec I N1 N2 K i1 i2 hI hi1 hi2]
      simp only [Option.bind_eq_bind, Option.bind_some]
      rw [wrI_eq _ _ (i1 + N1 * i2) _ (by push_cast; rfl)]
      obtain ⟨n', e, h⟩ := hn.wr (pix_lt hi1 hi2) (∑ t ∈ range (K + 2), coord I N1 N2 t (i1 + N1 * i2) ^ 2)
      refine ⟨n', e, h.congr ?_⟩
      intro i _
      simp only [upd1]
      by_cases c : i = i1 + N1 * i2
      · rw [if_pos c, if_pos (by omega), c]
      · rw [if_neg c]
        by_cases c1 : i < i1 + N1 * i2
        · rw [if_pos c1, if_pos (by omega)]
        · rw [if_neg c1, if_neg (by omega)])
    refine ⟨E', e, h.congr ?_⟩
    intro i _
    rw [Nat.mul_succ, Nat.add_comm])
  exact ⟨E', e, h.congr (by intro i hi; rw [if_pos hi])⟩

theorem vote_adds (I : List ℚ) (N1 N2 K i1 i2 j1 j2 : Nat) (hI : I.length = N1 * N2 * K) (hi1 : i1 < N1) (hi2 : i2 < N2) (hj1 : j1 < N1) (hj2 : j2 < N2) (F : ℚ) :
    Adds (fun (M : List ℚ) f => Arr M (N1 * N2 * (2 + K)) f) (vote I N1 N2 K i1 i2 j1 j2 F)
      (fun x => ∑ t ∈ range (K + 2), if x = i1 + N1 * i2 + N1 * N2 * t then coord I N1 N2 t (j1 + N1 * j2) * F else 0) := by
  have hp := pix_lt hi1 hi2
  have h0 := addTo_adds (N1 * N2 * (2 + K)) (i1 + N1 * i2 + N1 * N2 * 0) (i1 + N1 * i2 + (N1 * N2) * 0) (by push_cast; ring) (pix_lt hp (by omega)) (((j1 : Nat) : Int) * F)
  have h1 := addTo_adds (N1 * N2 * (2 + K)) (i1 + N1 * i2 + N1 * N2 * 1) (i1 + N1 * i2 + (N1 * N2) * 1) (by push_cast; ring) (pix_lt hp (by omega)) (((j2 : Nat) : Int) * F)
  have h2 : Adds (fun (M : List ℚ) f => Arr M (N1 * N2 * (2 + K)) f) (Verif.iter K (fun k M => (do
      let a ← rdI I ((j1 : Int) + N1 * j2 + (N1 * N2) * k)
      addTo M (i1 + N1 * i2 + (N1 * N2) * (k + 2)) (a * F) : Option (List ℚ))))
      (fun x => ∑ k ∈ range K, if x = i1 + N1 * i2 + N1 * N2 * (k + 2) then coord I N1 N2 (k + 2) (j1 + N1 * j2) * F else 0) := by
    apply Adds.iter
    intro k hk
    rw [image_rd hI hj1 hj2 hk _ (by push_cast; ring)]
    simp only [Option.bind_eq_bind, Option.bind_some]
    exact addTo_adds _ _ _ (by push_cast; ring) (pix_lt hp (by omega)) _
  intro s f hs
  obtain ⟨s', e, h'⟩ := ((h0.bind h1).bind h2) s f hs
  refine ⟨s', ?_, ?_⟩
  · rw [← e]; unfold vote
    simp only [Option.bind_eq_bind, Option.bind_assoc]
  · simp only [sum_two, coord_zero I hj1, coord_one I hj1]
    exact h'

/-- What `E` and `M` hold. -/
def Holds (n m : Nat) (s : List ℚ × List ℚ) (f : Nat ⊕ Nat → ℚ) : Prop := Arr s.1 n (fun x => f (Sum.inl x)) ∧ Arr s.2 m (fun x => f (Sum.inr x))

/-- What one pixel of the window adds. -/
def pull (I : List ℚ) (N1 N2 K i j : Nat) (F : ℚ) : Nat ⊕ Nat → ℚ
  | Sum.inl x => if x = i then - F else 0
  | Sum.inr x => ∑ t ∈ range (K + 2), if x = i + N1 * N2 * t then coord I N1 N2 t j * F else 0

theorem voteStep_adds (ex : ℚ → ℚ) (I : List ℚ) (N1 N2 K : Nat) (sigma : ℚ) (i1 i2 j1 j2 : Nat) (hI : I.length = N1 * N2 * K) (hi1 : i1 < N1) (hi2 : i2 < N2) (hj1 : j1 < N1)
    (hj2 : j2 < N2) :
    Adds (Holds (N1 * N2) (N1 * N2 * (2 + K))) (voteStep ex I N1 N2 K sigma i1 i2 j1 j2)
      (pull I N1 N2 K (i1 + N1 * i2) (j1 + N1 * j2) (- ex (- pixDist I N1 N2 K (i1 + N1 * i2) (j1 + N1 * j2) / (2 * sigma * sigma)))) := by
  intro s f hs
  unfold voteStep
  rw [distance_spec I N1 N2 K i1 i2 j1 j2 hI hi1 hi2 hj1 hj2]
  simp only [Option.bind_eq_bind, Option.bind_some]
  have hp := pix_lt hi1 hi2
  rw [rdI_eq _ _ (i1 + N1 * i2) (by push_cast; rfl), hs.1.rd hp]
  simp only [Option.bind_some]
  rw [wrI_eq _ _ (i1 + N1 * i2) _ (by push_cast; rfl)]
  obtain ⟨E', e, h⟩ := hs.1.wr hp (f (Sum.inl (i1 + N1 * i2)) - - ex (- pixDist I N1 N2 K (i1 + N1 * i2) (j1 + N1 * j2) / (2 * sigma * sigma)))
  rw [e]
  simp only [Option.bind_some]
  obtain ⟨M', e', h'⟩ := vote_adds I N1 N2 K i1 i2 j1 j2 hI hi1 hi2 hj1 hj2 (- ex (- pixDist I N1 N2 K (i1 + N1 * i2) (j1 + N1 * j2) / (2 * sigma * sigma))) s.2 _ hs.2
  rw [e']
  refine ⟨_, rfl, h.congr ?_, h'⟩
  intro i _
  simp only [upd1, pull]
  split_ifs with c
  · rw [c]; ring
  · rw [add_zero]

theorem sum_pixels (N1 N2 : Nat) (f : Nat → ℚ) : ∑ j2 ∈ range N2, ∑ j1 ∈ range N1, f (j1 + N1 * j2) = ∑ k ∈ range (N1 * N2), f k := by
  induction N2 with
  | zero => simp
  | succ n ih =>
    rw [Finset.sum_range_succ, ih, Nat.mul_succ, Finset.sum_range_add]
    congr 1
    apply Finset.sum_congr rfl
    intro i _
    rw [Nat.add_comm]

theorem near_iff {N1 i1 i2 j1 j2 : Nat} {R : Int} (hi1 : i1 < N1) (hj1 : j1 < N1) :
    Near N1 R (i1 + N1 * i2) (j1 + N1 * j2) ↔ |(i2 : Int) - j2| ≤ R ∧ |(i1 : Int) - j1| ≤ R := by
  unfold Near
  rw [pix_mod hi1, pix_div hi1, pix_mod hj1, pix_div hj1]

/-- A sum over the window of a pixel. -/
theorem sum_window (N1 N2 i1 i2 : Nat) (hi1 : i1 < N1) (R : Int) (g : Nat → ℚ) :
    ((intRange (max ((i2 : Int) - R) 0) (min ((i2 : Int) + R) (N2 - 1))).map (fun j2 =>
      ((intRange (max ((i1 : Int) - R) 0) (min ((i1 : Int) + R) (N1 - 1))).map (fun j1 => g (j1.toNat + N1 * j2.toNat))).sum)).sum =
    ∑ k ∈ range (N1 * N2), if Near N1 R (i1 + N1 * i2) k then g k else 0 := by
  rw [window, ← sum_pixels]
  apply Finset.sum_congr rfl
  intro j2 _
  rw [window]
  by_cases c : |(i2 : Int) - j2| ≤ R
  · rw [if_pos c]
    apply Finset.sum_congr rfl
    intro j1 hj1
    rw [Finset.mem_range] at hj1
    simp only [near_iff hi1 hj1, c, true_and, Int.toNat_natCast]
  · rw [if_neg c]
    symm
    apply Finset.sum_eq_zero
    intro j1 hj1
    rw [Finset.mem_range] at hj1
    rw [if_neg]
    rw [near_iff hi1 hj1]
    exact fun h => c h.1

theorem forInt_adds {σ ι : Type} {R : σ → (ι → ℚ) → Prop} {lo hi : Int} {g : Int → σ → Option σ} {δ : Int → ι → ℚ} (h : ∀ a ∈ intRange lo hi, Adds R (g a) (δ a)) :
    Adds R (fun s => forInt lo hi g s) (fun x => ((intRange lo hi).map (fun a => δ a x)).sum) := by
  have := Adds.foldlM (g := fun s a => g a s) (intRange lo hi) h
  intro s f hs
  obtain ⟨s', e, h'⟩ := this s f hs
  exact ⟨s', by simp only; rw [forInt_eq]; exact e, h'⟩

theorem votes_spec (ex : ℚ → ℚ) (I : List ℚ) (N1 N2 K : Nat) (sigma : ℚ) (hs : sigma ≠ 0) (R : Int) (hI : I.length = N1 * N2 * K) (E : List ℚ) (f : Nat → ℚ)
    (hE : Arr E (N1 * N2) f) :
    ∃ s, votes ex I N1 N2 K sigma R (E, List.replicate (N1 * N2 * (2 + K)) 0) = some s ∧
      Arr s.1 (N1 * N2) (fun i => f i + ∑ k ∈ range (N1 * N2), weight ex I N1 N2 K sigma R i k) ∧
      s.2.length = N1 * N2 * (2 + K) ∧
      ∀ i < N1 * N2, ∀ t < K + 2, s.2[i + N1 * N2 * t]? = some (- ∑ k ∈ range (N1 * N2), weight ex I N1 N2 K sigma R i k * coord I N1 N2 t k) := by
  let F : Nat → Nat → ℚ := fun i k => - ex (- pixDist I N1 N2 K i k / (2 * sigma * sigma))
  have hall : Adds (Holds (N1 * N2) (N1 * N2 * (2 + K))) (fun s => iter N2 (fun (i2 : Nat) s => iter N1 (fun (i1 : Nat) s =>
      forInt (max ((i2 : Int) - R) 0) (min ((i2 : Int) + R) (N2 - 1)) (fun j2 s =>
      forInt (max ((i1 : Int) - R) 0) (min ((i1 : Int) + R) (N1 - 1)) (fun j1 s =>
        voteStep ex I N1 N2 K sigma i1 i2 j1 j2 s) s) s) s) s)
      (fun x => ∑ i2 ∈ range N2, ∑ i1 ∈ range N1, ∑ k ∈ range (N1 * N2), if Near N1 R (i1 + N1 * i2) k then pull I N1 N2 K (i1 + N1 * i2) k (F (i1 + N1 * i2) k) x else 0) := by
    apply Adds.iter
    intro i2 hi2
    apply Adds.iter
    intro i1 hi1
    refine Adds.congr (δ := fun x => ((intRange (max ((i2 : Int) - R) 0) (min ((i2 : Int) + R) (N2 - 1))).map (fun j2 =>
      ((intRange (max ((i1 : Int) - R) 0) (min ((i1 : Int) + R) (N1 - 1))).map (fun j1 =>
        pull I N1 N2 K (i1 + N1 * i2) (j1.toNat + N1 * j2.toNat) (F (i1 + N1 * i2) (j1.toNat + N1 * j2.toNat)) x)).sum)).sum) ?_ ?_
    · apply forInt_adds
      intro j2 hj2
      apply forInt_adds
      intro j1 hj1
      obtain ⟨b2, rfl, hb2⟩ := mem_window hj2
      obtain ⟨b1, rfl, hb1⟩ := mem_window hj1
      simp only [Int.toNat_natCast]
      exact voteStep_adds ex I N1 N2 K sigma i1 i2 b1 b2 hI hi1 hi2 hb1 hb2
    · intro x
      exact sum_window N1 N2 i1 i2 hi1 R (fun k => pull I N1 N2 K (i1 + N1 * i2) k (F (i1 + N1 * i2) k) x)
  obtain ⟨s, e, h1, h2⟩ := hall (E, List.replicate (N1 * N2 * (2 + K)) 0) (fun x => match x with | Sum.inl x => f x | Sum.inr _ => 0)
    ⟨hE, by simp, by intro i hi; simp [hi]⟩
  refine ⟨s, by unfold votes; rw [if_neg hs]; exact e, h1.congr ?_, h2.len, ?_⟩
  · intro i _
    dsimp only
    congr 1
    rw [sum_pixels N1 N2 (fun p => ∑ k ∈ range (N1 * N2), if Near N1 R p k then pull I N1 N2 K p k (F p k) (Sum.inl i) else 0)]
    rw [Finset.sum_eq_single i]
    · apply Finset.sum_congr rfl
      intro k _
      simp only [pull, weight, F, neg_neg, if_true]
      rw [show 2 * sigma * sigma = 2 * sigma ^ 2 by ring]
    · intro p _ hp
      apply Finset.sum_eq_zero
      intro k _
      simp only [pull]
      simp [Ne.symm hp]
    · intro h; exact absurd (Finset.mem_range.mpr ‹_›) h
  · intro i hi t ht
    rw [h2.get _ (pix_lt hi (by omega))]
    dsimp only
    congr 1
    rw [zero_add, sum_pixels N1 N2 (fun p => ∑ k ∈ range (N1 * N2), if Near N1 R p k then pull I N1 N2 K p k (F p k) (Sum.inr (i + N1 * N2 * t)) else 0)]
    rw [Finset.sum_eq_single i]
    · rw [← Finset.sum_neg_distrib]
      apply Finset.sum_congr rfl
      intro k _
      simp only [pull, weight, F]
      rw [Finset.sum_eq_single t]
      · rw [if_pos rfl, show 2 * sigma * sigma = 2 * sigma ^ 2 by ring]
        split_ifs <;> ring
      · intro u _ hu
        rw [if_neg]
        intro h
        have : N1 * N2 * t = N1 * N2 * u := by omega
        exact hu (Nat.eq_of_mul_eq_mul_left (by omega) this).symm
      · intro h; exact absurd (Finset.mem_range.mpr ht) h
    · intro p hp hne
      rw [Finset.mem_range] at hp
      apply Finset.sum_eq_zero
      intro k _
      simp only [pull]
      rw [Finset.sum_eq_zero, ite_self]
      intro u _
      rw [if_neg]
      intro h
      have := congrArg (· % (N1 * N2)) h
      simp only [Nat.add_mul_mod_self_left, Nat.mod_eq_of_lt hi, Nat.mod_eq_of_lt hp] at this
      exact hne this.symm
    · intro h; exact absurd (Finset.mem_range.mpr hi) h

/-- The score without the density the object starts with is the energy less the scatter. -/
theorem score_algebra (N K : Nat) (w : Nat → ℚ) (c : Nat → Nat → ℚ) (j : Nat) :
    - (∑ t ∈ range K, c t j ^ 2) * (∑ k ∈ range N, w k) - 2 * ∑ t ∈ range K, c t j * (- ∑ k ∈ range N, w k * c t k) =
      (∑ k ∈ range N, w k * ∑ t ∈ range K, c t k ^ 2) - ∑ k ∈ range N, w k * ∑ t ∈ range K, (c t j - c t k) ^ 2 := by
  have h : ∑ t ∈ range K, c t j * (- ∑ k ∈ range N, w k * c t k) = - ∑ k ∈ range N, w k * ∑ t ∈ range K, c t j * c t k := by
    rw [← Finset.sum_neg_distrib]
    simp only [Finset.mul_sum, ← Finset.sum_neg_distrib, mul_neg]
    rw [Finset.sum_comm]
    apply Finset.sum_congr rfl
    intro k _
    apply Finset.sum_congr rfl
    intro t _
    ring
  rw [h, ← Finset.sum_sub_distrib, Finset.mul_sum]
  rw [mul_neg, sub_neg_eq_add, Finset.mul_sum, ← Finset.sum_add_distrib]
  apply Finset.sum_congr rfl
  intro k _
  have : ∑ t ∈ range K, (c t j - c t k) ^ 2 = ∑ t ∈ range K, c t j ^ 2 + ∑ t ∈ range K, c t k ^ 2 - 2 * ∑ t ∈ range K, c t j * c t k := by
    rw [Finset.mul_sum, ← Finset.sum_add_distrib, ← Finset.sum_sub_distrib]
    apply Finset.sum_congr rfl
    intro t _
    ring
  rw [this]; ring

theorem score_spec (I : List ℚ) (N1 N2 K : Nat) (hI : I.length = N1 * N2 * K) (n E M : List ℚ) (f g : Nat → ℚ) (m : Nat → Nat → ℚ) (hn : Arr n (N1 * N2) f)
    (hE : Arr E (N1 * N2) g) (hM : ∀ i < N1 * N2, ∀ t < K + 2, M[i + N1 * N2 * t]? = some (m i t)) (i1 i2 j1 j2 : Nat) (hi1 : i1 < N1) (hi2 : i2 < N2) (hj1 : j1 < N1)
    (hj2 : j2 < N2) :
    score I N1 N2 K n E M i1 i2 j1 j2 = some (- f (j1 + N1 * j2) * g (i1 + N1 * i2) - 2 * ∑ t ∈ range (K + 2), coord I N1 N2 t (j1 + N1 * j2) * m (i1 + N1 * i2) t) := by
  have hp := pix_lt hi1 hi2
  have rdM : ∀ t < K + 2, ∀ P : Int, P = ((i1 + N1 * i2 + N1 * N2 * t : Nat) : Int) → rdI M P = some (m (i1 + N1 * i2) t) := by
    intro t ht P hP
    rw [rdI_eq _ _ _ hP, rd_getElem?]
    exact hM _ hp t ht
  unfold score
  rw [rdI_eq n _ (j1 + N1 * j2) (by push_cast; ring), hn.rd (pix_lt hj1 hj2), rdI_eq E _ (i1 + N1 * i2) (by push_cast; ring), hE.rd hp,
    rdM 0 (by omega) _ (by push_cast; ring), rdM 1 (by omega) _ (by push_cast; ring)]
  simp only [Option.bind_eq_bind, Option.bind_some]
  obtain ⟨d, e, h⟩ := iter_inv (n := K) (f := fun (k : Nat) (Q : ℚ) => (rdI I ((j1 : Int) + j2 * N1 + (N1 * N2) * k)).bind (fun b =>
      (rdI M ((i1 : Int) + i2 * N1 + (N1 * N2) * (k + 2))).bind (fun m => some (Q - 2 * b * m))))
      (s := - f (j1 + N1 * j2) * g (i1 + N1 * i2) - 2 * ((j1 : Int) : ℚ) * m (i1 + N1 * i2) 0 - 2 * ((j2 : Int) : ℚ) * m (i1 + N1 * i2) 1)
    (fun k d => d = - f (j1 + N1 * j2) * g (i1 + N1 * i2) - 2 * (coord I N1 N2 0 (j1 + N1 * j2) * m (i1 + N1 * i2) 0 + coord I N1 N2 1 (j1 + N1 * j2) * m (i1 + N1 * i2) 1 +
      ∑ t ∈ range k, coord I N1 N2 (t + 2) (j1 + N1 * j2) * m (i1 + N1 * i2) (t + 2)))
    (by rw [coord_zero I hj1, coord_one I hj1]; push_cast; simp; ring) (by
    intro k hk d hd
    rw [image_rd hI hj1 hj2 hk _ (by push_cast; ring), rdM (k + 2) (by omega) _ (by push_cast; ring)]
    refine ⟨_, rfl, ?_⟩
    rw [Finset.sum_range_succ, hd]; ring)
  rw [e, h, sum_two]

/-- What the search knows after the pixels of a list. -/
def MFound (G : Int × Int → ℚ) (lin : Int × Int → Int) (i1 i2 : Int) (L : List (Int × Int)) (b : MBest) : Prop :=
  (b = ⟨0, i1, i2⟩ ∧ ∀ c ∈ L, G c ≤ 0) ∨
  ((b.j1, b.j2) ∈ L ∧ 0 < b.sc ∧ b.sc = G (b.j1, b.j2) ∧ (∀ c ∈ L, G c ≤ b.sc) ∧ ∀ c ∈ L, G c = b.sc → lin (b.j1, b.j2) ≤ lin c)

theorem mfound_scan (G : Int × Int → ℚ) (lin : Int × Int → Int) (i1 i2 : Int) (L : List (Int × Int)) (hs : L.Pairwise (fun a b => lin a < lin b))
    (g : MBest → Int × Int → Option MBest) (hg : ∀ c ∈ L, ∀ b, g b c = some (if G c > b.sc then ⟨G c, c.1, c.2⟩ else b)) :
    ∃ b, L.foldlM g ⟨0, i1, i2⟩ = some b ∧ MFound G lin i1 i2 L b := by
  induction L using List.reverseRecOn with
  | nil => exact ⟨_, rfl, Or.inl ⟨rfl, by simp⟩⟩
  | append_singleton L a ih =>
    rw [List.pairwise_append] at hs
    obtain ⟨b, e, h⟩ := ih hs.1 (fun c hc => hg c (by simp [hc]))
    refine ⟨_, by rw [List.foldlM_append, e]; simp only [Option.bind_eq_bind, Option.bind_some, List.foldlM_cons, List.foldlM_nil]; rw [hg a (by simp)]; rfl, ?_⟩
    have hlt : ∀ c ∈ L, lin c < lin a := fun c hc => hs.2.2 c hc a (by simp)
    have h0 : 0 ≤ b.sc ∧ ∀ c ∈ L, G c ≤ b.sc := by
      rcases h with ⟨rfl, h⟩ | ⟨_, h1, _, h2, _⟩
      · exact ⟨le_rfl, h⟩
      · exact ⟨h1.le, h2⟩
    by_cases c1 : G a > b.sc
    · rw [if_pos c1]
      right
      refine ⟨by simp, lt_of_le_of_lt h0.1 c1, rfl, ?_, ?_⟩
      · intro c hc
        rcases List.mem_append.mp hc with hc | hc
        · exact le_trans (h0.2 c hc) c1.le
        · rw [List.mem_singleton] at hc; rw [hc]
      · intro c hc hG
        rcases List.mem_append.mp hc with hc | hc
        · have := h0.2 c hc
          simp only at hG
          linarith
        · rw [List.mem_singleton] at hc; rw [hc]
    · rw [if_neg c1]
      rcases h with ⟨rfl, h⟩ | ⟨hm, hp, hd, h1, h2⟩
      · left
        refine ⟨rfl, ?_⟩
        intro c hc
        rcases List.mem_append.mp hc with hc | hc
        · exact h c hc
        · rw [List.mem_singleton] at hc; rw [hc]; exact not_lt.mp c1
      · right
        refine ⟨by simp [hm], hp, hd, ?_, ?_⟩
        · intro c hc
          rcases List.mem_append.mp hc with hc | hc
          · exact h1 c hc
          · rw [List.mem_singleton] at hc; rw [hc]; exact not_lt.mp c1
        · intro c hc hG
          rcases List.mem_append.mp hc with hc | hc
          · exact h2 c hc hG
          · rw [List.mem_singleton] at hc; rw [hc]; exact (hlt _ hm).le

/-- The search, for scores that are a function of the pixels. -/
theorem medoidSearch_spec (I : List ℚ) (N1 N2 K : Nat) (R : Int) (n E M : List ℚ) (Q : Nat → Nat → ℚ)
    (hQ : ∀ i1 < N1, ∀ i2 < N2, ∀ j1 < N1, ∀ j2 < N2, score I N1 N2 K n E M i1 i2 j1 j2 = some (Q (i1 + N1 * i2) (j1 + N1 * j2)))
    (i1 i2 : Nat) (hi1 : i1 < N1) (hi2 : i2 < N2) :
    ∃ b, medoidSearch I N1 N2 K R n E M i1 i2 = some b ∧ ∃ p : Nat, p < N1 * N2 ∧ b.j1 + N1 * b.j2 = (p : Int) ∧
      ((p = i1 + N1 * i2 ∧ b.sc = 0 ∧ ∀ j < N1 * N2, Near N1 R (i1 + N1 * i2) j → Q (i1 + N1 * i2) j ≤ 0) ∨
       (Near N1 R (i1 + N1 * i2) p ∧ 0 < b.sc ∧ b.sc = Q (i1 + N1 * i2) p ∧ ∀ j < N1 * N2, Near N1 R (i1 + N1 * i2) j → Q (i1 + N1 * i2) j ≤ b.sc ∧
          (Q (i1 + N1 * i2) j = b.sc → p ≤ j))) := by
  unfold medoidSearch
  let L : List (Int × Int) := (intRange (max ((i2 : Int) - R) 0) (min ((i2 : Int) + R) (N2 - 1))).flatMap (fun j2 =>
    (intRange (max ((i1 : Int) - R) 0) (min ((i1 : Int) + R) (N1 - 1))).map (fun j1 => (j1, j2)))
  have hmem : ∀ c, c ∈ L → ∃ a1 a2 : Nat, c = ((a1 : Int), (a2 : Int)) ∧ a1 < N1 ∧ a2 < N2 ∧ |(i1 : Int) - a1| ≤ R ∧ |(i2 : Int) - a2| ≤ R := by
    intro c hc
    simp only [L, List.mem_flatMap, List.mem_map] at hc
    obtain ⟨j2, h2, j1, h1, rfl⟩ := hc
    obtain ⟨b2, rfl, hb2⟩ := mem_window h2
    obtain ⟨b1, rfl, hb1⟩ := mem_window h1
    rw [mem_intRange] at h1 h2
    exact ⟨b1, b2, rfl, hb1, hb2, by rw [abs_le]; omega, by rw [abs_le]; omega⟩
  have hin : ∀ a1 a2 : Nat, a1 < N1 → a2 < N2 → |(i1 : Int) - a1| ≤ R → |(i2 : Int) - a2| ≤ R → ((a1 : Int), (a2 : Int)) ∈ L := by
    intro a1 a2 h1 h2 h3 h4
    rw [abs_le] at h3 h4
    simp only [L, List.mem_flatMap, List.mem_map]
    exact ⟨a2, by rw [mem_intRange]; omega, a1, by rw [mem_intRange]; omega, rfl⟩
  let lin : Int × Int → Int := fun c => c.1 + N1 * c.2
  let nat : Int × Int → Nat := fun c => c.1.toNat + N1 * c.2.toNat
  have hnat : ∀ a1 a2 : Nat, nat ((a1 : Int), (a2 : Int)) = a1 + N1 * a2 := by intro a1 a2; simp [nat]
  have hlin : ∀ a1 a2 : Nat, lin ((a1 : Int), (a2 : Int)) = ((a1 + N1 * a2 : Nat) : Int) := by intro a1 a2; simp [lin]
  have hsort : L.Pairwise (fun a b => lin a < lin b) := by
    simp only [L]
    rw [List.pairwise_flatMap]
    refine ⟨?_, ?_⟩
    · intro j2 _
      rw [List.pairwise_map]
      refine (intRange_sorted _ _).imp ?_
      intro a b h
      simp only [lin]; omega
    · have := intRange_sorted (max ((i2 : Int) - R) 0) (min ((i2 : Int) + R) (N2 - 1))
      refine List.Pairwise.imp_of_mem ?_ this
      intro a b ha hb hab x hx y hy
      rw [List.mem_map] at hx hy
      obtain ⟨x1, hx, rfl⟩ := hx
      obtain ⟨y1, hy, rfl⟩ := hy
      obtain ⟨k1, rfl, hk1⟩ := mem_window hx
      obtain ⟨k2, rfl, hk2⟩ := mem_window hy
      have : (N1 : Int) * (a + 1) ≤ N1 * b := Int.mul_le_mul_of_nonneg_left (by omega) (by omega)
      rw [Int.mul_add] at this
      simp only [lin]; omega
  obtain ⟨b, e, hb⟩ := mfound_scan (fun c => Q (i1 + N1 * i2) (nat c)) lin i1 i2 L hsort
    (fun (best : MBest) (c : Int × Int) => (do
      let Q ← score I N1 N2 K n E M i1 i2 c.1 c.2
      if Q > best.sc then some ⟨Q, c.1, c.2⟩ else some best : Option MBest)) (by
    intro c hc b
    obtain ⟨a1, a2, rfl, h1, h2, _⟩ := hmem c hc
    simp only [hnat]
    rw [hQ i1 hi1 i2 hi2 a1 h1 a2 h2]
    simp only [Option.bind_eq_bind, Option.bind_some]
    split_ifs <;> rfl)
  have hall : ∀ j < N1 * N2, Near N1 R (i1 + N1 * i2) j → (((j % N1 : Nat) : Int), ((j / N1 : Nat) : Int)) ∈ L ∧
      nat (((j % N1 : Nat) : Int), ((j / N1 : Nat) : Int)) = j := by
    intro j hj hN
    have hj1 : j % N1 < N1 := Nat.mod_lt _ (by omega)
    have hj2 : j / N1 < N2 := Nat.div_lt_of_lt_mul hj
    unfold Near at hN
    rw [pix_mod hi1, pix_div hi1] at hN
    exact ⟨hin _ _ hj1 hj2 hN.2 hN.1, by rw [hnat, Nat.mod_add_div]⟩
  refine ⟨b, ?_, ?_⟩
  · rw [← e, forInt_eq]
    simp only [L]
    rw [← foldlM_flatMap]
    congr 1
    funext s j2
    rw [forInt_eq, List.foldlM_map]
  rcases hb with ⟨rfl, hb⟩ | ⟨hm, hp, hd, h1, h2⟩
  · refine ⟨i1 + N1 * i2, pix_lt hi1 hi2, by push_cast; rfl, Or.inl ⟨rfl, rfl, ?_⟩⟩
    intro j hj hN
    obtain ⟨g1, g2⟩ := hall j hj hN
    have := hb _ g1
    simp only [g2] at this
    exact this
  · obtain ⟨a1, a2, hc, ha1, ha2, hw1, hw2⟩ := hmem _ hm
    obtain ⟨e1, e2⟩ := Prod.mk.inj hc
    rw [hc] at hd h2
    simp only [hnat] at hd
    refine ⟨a1 + N1 * a2, pix_lt ha1 ha2, by rw [e1, e2]; push_cast; rfl, Or.inr ⟨?_, hp, hd, ?_⟩⟩
    · unfold Near
      rw [pix_mod hi1, pix_div hi1, pix_mod ha1, pix_div ha1]
      exact ⟨hw2, hw1⟩
    · intro j hj hN
      obtain ⟨g1, g2⟩ := hall j hj hN
      have a := h1 _ g1
      have b := h2 _ g1
      simp only [g2, hlin, Nat.mod_add_div] at a b
      exact ⟨a, fun h => by exact_mod_cast b h⟩

end Verif.Quickshift
