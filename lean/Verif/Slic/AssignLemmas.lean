import Verif.Slic.SegLemmas

/-!
# The assignment and the update of the centres in SLIC
-/

namespace Verif.Slic

open Finset

section
variable {I : List ℚ} {w h K rs : Nat}

theorem assignPixel_spec (hI : I.length = w * h * K) (hrs : 1 ≤ rs) (hn : w * h ≤ 2 ^ 32) (factor : ℚ) (C : List ℚ)
    (hC : C.length = (2 + K) * (gridSize w rs * gridSize h rs)) {x y : Nat} (hx : x < w) (hy : y < h) (s : List Nat × ℚ) (hs : s.1.length = w * h) :
    ∃ r, IsNearest w h rs (dist I w h K factor C) (x + y * w) r ∧
      assignPixel I w h K rs factor C x y s = some (s.1.set (x + y * w) r, s.2 + dist I w h K factor C (x + y * w) r) := by
  have hp := pix_lt hx hy
  unfold assignPixel
  simp only [numRegions1_eq _ rs hrs]
  rw [forInt_pairs]
  set L := (intRange (max 0 ⌊(y : ℚ) / rs - 1 / 2⌋) (min ((gridSize h rs : Int) - 1) (⌊(y : ℚ) / rs - 1 / 2⌋ + 1))).flatMap (fun yp =>
    (intRange (max 0 ⌊(x : ℚ) / rs - 1 / 2⌋) (min ((gridSize w rs : Int) - 1) (⌊(x : ℚ) / rs - 1 / 2⌋ + 1))).map (fun xp => (xp, yp))) with hL
  have hmem : ∀ c : Int × Int, c ∈ L ↔ ∃ u v : Nat, c = ((u : Int), (v : Int)) ∧ u < gridSize w rs ∧ v < gridSize h rs ∧ Near rs x u ∧ Near rs y v := by
    intro c
    rw [hL, List.mem_flatMap]
    constructor
    · rintro ⟨a, ha, hc⟩
      rw [List.mem_map] at hc
      obtain ⟨b, hb, rfl⟩ := hc
      rw [mem_near _ _ _ hrs] at ha hb
      obtain ⟨v, rfl, h1, h2⟩ := ha
      obtain ⟨u, rfl, h3, h4⟩ := hb
      exact ⟨u, v, rfl, h3, h1, h4, h2⟩
    · rintro ⟨u, v, rfl, h1, h2, h3, h4⟩
      refine ⟨v, (mem_near _ _ _ hrs _).mpr ⟨v, rfl, h2, h4⟩, ?_⟩
      rw [List.mem_map]
      exact ⟨u, (mem_near _ _ _ hrs _).mpr ⟨u, rfl, h1, h3⟩, rfl⟩
  have hne : L ≠ [] := by
    obtain ⟨u, h1, h2⟩ := exists_near w rs x hrs hx
    obtain ⟨v, h3, h4⟩ := exists_near h rs y hrs hy
    have := (hmem ((u : Int), (v : Int))).mpr ⟨u, v, rfl, h1, h3, h2, h4⟩
    intro e
    rw [e] at this
    simp at this
  let reg : Int × Int → Nat := fun c => c.1.toNat + c.2.toNat * gridSize w rs
  have hreg : ∀ u v : Nat, reg ((u : Int), (v : Int)) = u + v * gridSize w rs := by intro u v; simp [reg]
  let D : Int × Int → ℚ := fun c => dist I w h K factor C (x + y * w) (reg c)
  let emb : Option (Int × Int) → List Nat × WithTop ℚ := fun o =>
    match o with
    | none => (s.1, ⊤)
    | some c => (s.1.set (x + y * w) (reg c), (D c : WithTop ℚ))
  have hu : ∀ u < gridSize w rs, ∀ v < gridSize h rs, u32 (((u : Int) + v * (gridSize w rs : Int)).toNat) = u + v * gridSize w rs := by
    intro u h1 v h2
    have : (u : Int) + v * (gridSize w rs : Int) = ((u + v * gridSize w rs : Nat) : Int) := by push_cast; rfl
    rw [this, Int.toNat_natCast]
    apply Nat.mod_eq_of_lt
    have h3 := pix_lt h1 h2
    have h4 := Nat.mul_le_mul (gridSize_le w rs hrs) (gridSize_le h rs hrs)
    omega
  have hd : ∀ u < gridSize w rs, ∀ v < gridSize h rs, distance I w h K factor C x y ((u : Int) + v * (gridSize w rs : Int)) =
      some (dist I w h K factor C (x + y * w) (u + v * gridSize w rs)) := by
    intro u h1 v h2
    have : (u : Int) + v * (gridSize w rs : Int) = ((u + v * gridSize w rs : Nat) : Int) := by push_cast; rfl
    rw [this]
    exact distance_spec hI factor C hC hx hy (pix_lt h1 h2)
  have hscan := scan_min D (fun c => c.1 + c.2 * (gridSize w rs : Int)) emb
    (fun (r : List Nat × WithTop ℚ) (c : Int × Int) => (do
      let d ← distance I w h K factor C x y (c.1 + c.2 * (gridSize w rs : Int))
      if r.2 > (d : WithTop ℚ) then do
        let seg ← wr r.1 (x + y * w) (u32 (c.1 + c.2 * (gridSize w rs : Int)).toNat)
        some (seg, (d : WithTop ℚ))
      else some r : Option (List Nat × WithTop ℚ))) L
    (by
      rw [hL]
      apply pairs_sorted
      intro a ha
      rw [mem_near _ _ _ hrs] at ha
      obtain ⟨k, rfl, h1, _⟩ := ha
      omega)
    (by
      intro c hc
      obtain ⟨u, v, rfl, h1, h2, _⟩ := (hmem c).mp hc
      simp only [hd u h1 v h2, hu u h1 v h2, Option.bind_eq_bind, Option.bind_some, emb, gt_iff_lt, WithTop.coe_lt_top, if_true]
      rw [wr_of_lt (by rw [hs]; exact hp)]
      simp only [Option.bind_some, D, hreg])
    (by
      intro a ha c hc
      obtain ⟨u, v, rfl, h1, h2, _⟩ := (hmem c).mp hc
      obtain ⟨u', v', rfl, h3, h4, _⟩ := (hmem a).mp ha
      simp only [hd u h1 v h2, hu u h1 v h2, Option.bind_eq_bind, Option.bind_some, emb, gt_iff_lt, WithTop.coe_lt_coe, D, hreg]
      by_cases c1 : dist I w h K factor C (x + y * w) (u + v * gridSize w rs) < dist I w h K factor C (x + y * w) (u' + v' * gridSize w rs)
      · simp only [if_pos c1]
        rw [wr_of_lt (by rw [List.length_set, hs]; exact hp)]
        simp only [Option.bind_some, List.set_set, hreg]
      · simp only [if_neg c1, hreg])
  rcases hscan with ⟨h1, _⟩ | ⟨c, hc, e, h1, h2⟩
  · exact absurd h1 hne
  obtain ⟨u, v, rfl, hu1, hv1, hu2, hv2⟩ := (hmem c).mp hc
  refine ⟨u + v * gridSize w rs, ⟨⟨pix_lt hu1 hv1, ?_, ?_⟩, ?_, ?_⟩, ?_⟩
  · rw [pix_mod hx, pix_mod hu1]; exact hu2
  · rw [pix_div hx, pix_div hu1]; exact hv2
  · intro r' ⟨hr1, hr2, hr3⟩
    rw [pix_mod hx] at hr2
    rw [pix_div hx] at hr3
    have := h1 (((r' % gridSize w rs : Nat) : Int), ((r' / gridSize w rs : Nat) : Int)) ((hmem _).mpr ⟨_, _, rfl, pix_col hr1, pix_row hr1, hr2, hr3⟩)
    simp only [D, hreg] at this
    rwa [Nat.mul_comm (r' / _), Nat.mod_add_div] at this
  · intro r' ⟨hr1, hr2, hr3⟩ hD
    rw [pix_mod hx] at hr2
    rw [pix_div hx] at hr3
    have e' : r' % gridSize w rs + r' / gridSize w rs * gridSize w rs = r' := by rw [Nat.mul_comm, Nat.mod_add_div]
    have := h2 (((r' % gridSize w rs : Nat) : Int), ((r' / gridSize w rs : Nat) : Int)) ((hmem _).mpr ⟨_, _, rfl, pix_col hr1, pix_row hr1, hr2, hr3⟩)
      (by simp only [D, hreg, e']; exact hD)
    simp only at this
    have e'' : ((r' % gridSize w rs : Nat) : Int) + ((r' / gridSize w rs : Nat) : Int) * (gridSize w rs : Int) = (r' : Int) := by exact_mod_cast e'
    rw [e''] at this
    exact_mod_cast this
  · simp only [Option.bind_eq_bind] at e ⊢
    have e0 : emb none = (s.1, (⊤ : WithTop ℚ)) := rfl
    rw [e0] at e
    rw [e]
    simp only [Option.bind_some, emb, D, hreg]

theorem assign_spec (hI : I.length = w * h * K) (hrs : 1 ≤ rs) (hn : w * h ≤ 2 ^ 32) (reg : ℚ) (C : List ℚ)
    (hC : C.length = (2 + K) * (gridSize w rs * gridSize h rs)) (seg : List Nat) (hs : seg.length = w * h) :
    ∃ seg' e, assign I w h K rs reg C seg = some (seg', e) ∧ seg'.length = w * h ∧
      (∀ p < w * h, IsNearest w h rs (dist I w h K (reg / (rs * rs)) C) p (seg'.getD p 0)) ∧
      e = ∑ p ∈ range (w * h), dist I w h K (reg / (rs * rs)) C p (seg'.getD p 0) := by
  obtain ⟨s, e, h1, h2, h3⟩ := iter2_inv (n := h) (m := w) (f := fun (y x : Nat) (s : List Nat × ℚ) => assignPixel I w h K rs (reg / (rs * rs)) C x y s) (s := (seg, 0))
    (fun m s => s.1.length = w * h ∧ (∀ p < m, IsNearest w h rs (dist I w h K (reg / (rs * rs)) C) p (s.1.getD p 0)) ∧
      s.2 = ∑ p ∈ range m, dist I w h K (reg / (rs * rs)) C p (s.1.getD p 0)) ⟨hs, by simp, by simp⟩ (by
    intro y hy x hx s ⟨h1, h2, h3⟩
    obtain ⟨r, hr, e⟩ := assignPixel_spec hI hrs hn (reg / (rs * rs)) C hC hx hy s h1
    rw [Nat.add_comm (y * w) x] at h2 h3 ⊢
    have hp := pix_lt hx hy
    have hsame : ∀ p < x + y * w, (s.1.set (x + y * w) r).getD p 0 = s.1.getD p 0 := by
      intro p hp'
      simp only [List.getD]
      rw [List.getElem?_set_ne (by omega)]
    have hnew : (s.1.set (x + y * w) r).getD (x + y * w) 0 = r := by
      simp only [List.getD]
      rw [List.getElem?_set_self (by rw [h1]; exact hp)]
      rfl
    refine ⟨_, e, by simp [h1], ?_, ?_⟩
    · intro p hp'
      by_cases c : p = x + y * w
      · rw [c]; simp only; rw [hnew]; exact hr
      · simp only; rw [hsame p (by omega)]; exact h2 p (by omega)
    · simp only
      rw [Finset.sum_range_succ, hnew, h3]
      congr 1
      apply Finset.sum_congr rfl
      intro p hp'
      rw [hsame p (Finset.mem_range.mp hp')])
  rw [Nat.mul_comm h w] at h2 h3
  exact ⟨s.1, s.2, by unfold assign; exact e, h1, h2, h3⟩

theorem mass_succ (seg : List Nat) (m r : Nat) : mass (m + 1) seg r = mass m seg r + if seg.getD m 0 = r then 1 else 0 := by
  unfold mass
  rw [Finset.range_add_one, Finset.filter_insert]
  split_ifs with c
  · rw [Finset.card_insert_of_notMem (by simp)]
  · rfl

theorem mass_le (seg : List Nat) (m r : Nat) : mass m seg r ≤ m := by
  unfold mass
  exact (Finset.card_filter_le _ _).trans (by simp)

/-- The sum of one feature over the pixels of a region. -/
def featSum (I : List ℚ) (w h : Nat) (seg : List Nat) (m r j : Nat) : ℚ := ∑ p ∈ range m, if seg.getD p 0 = r then feat I w h p j else 0

theorem sums_spec (hI : I.length = w * h * K) (hn : w * h < 2 ^ 32) (n : Nat) (hnn : n ≤ w * h) (seg : List Nat) (hs : seg.length = w * h) (hr : ∀ p < w * h, seg.getD p 0 < n) :
    ∃ s, sums I w h K n seg = some s ∧ Arr s.1 (w * h) (fun r => mass (w * h) seg r) ∧ Flat s.2 n (2 + K) (fun r j => featSum I w h seg (w * h) r j) := by
  have hseg : ∀ p < w * h, rd seg p = some (seg.getD p 0) := by
    intro p hp
    rw [rd_of_lt (by omega)]; simp [List.getD, show p < seg.length by omega]
  obtain ⟨s, e, h1, h2⟩ := iter2_inv (n := h) (m := w) (f := fun (y x : Nat) (s : List Nat × List ℚ) => (do
      let region ← rd seg (x + y * w)
      let m ← rd s.1 region
      let masses ← wr s.1 region (u32 (m + 1))
      let a ← rd s.2 (region * (2 + K) + 0)
      let centers ← wr s.2 (region * (2 + K) + 0) (a + x)
      let a ← rd centers (region * (2 + K) + 1)
      let centers ← wr centers (region * (2 + K) + 1) (a + y)
      let centers ← iter K (fun k centers => do
        let a ← rd centers (region * (2 + K) + k + 2)
        let z ← rd I (x + y * w + k * w * h)
        wr centers (region * (2 + K) + k + 2) (a + z)) centers
      some (masses, centers) : Option (List Nat × List ℚ))) (s := (List.replicate (w * h) 0, List.replicate ((2 + K) * n) 0))
    (fun m s => Arr s.1 (w * h) (fun r => mass m seg r) ∧ Flat s.2 n (2 + K) (fun r j => featSum I w h seg m r j))
    ⟨(Arr.replicate _ _).congr (by intro i _; simp [mass]), by
      simp only; rw [Nat.mul_comm]
      exact (Flat.replicate _ _ _).congr (by intro i _ j _; simp [featSum])⟩ (by
    intro y hy x hx s ⟨h1, h2⟩
    rw [Nat.add_comm (y * w) x] at h1 h2 ⊢
    have hp := pix_lt hx hy
    set p := x + y * w with hpdef
    have hrp := hr p hp
    rw [hseg p hp]
    simp only [Option.bind_eq_bind, Option.bind_some]
    set r := seg.getD p 0 with hrdef
    rw [h1.rd (show r < w * h by omega)]
    simp only [Option.bind_some]
    have hm := mass_le seg p r
    rw [show u32 (mass p seg r + 1) = mass p seg r + 1 from Nat.mod_eq_of_lt (by omega)]
    obtain ⟨ms, e1, h3⟩ := h1.wr (show r < w * h by omega) (mass p seg r + 1)
    rw [e1]
    simp only [Option.bind_some]
    rw [h2.rd hrp (show 0 < 2 + K by omega)]
    simp only [Option.bind_some]
    obtain ⟨c1, e2, h4⟩ := h2.wr hrp (show 0 < 2 + K by omega) (featSum I w h seg p r 0 + x)
    rw [e2]
    simp only [Option.bind_some]
    rw [h4.rd hrp (show 1 < 2 + K by omega)]
    simp only [Option.bind_some]
    obtain ⟨c2, e3, h5⟩ := h4.wr hrp (show 1 < 2 + K by omega) (upd2 (fun r j => featSum I w h seg p r j) r 0 (featSum I w h seg p r 0 + x) r 1 + y)
    rw [e3]
    simp only [Option.bind_some]
    obtain ⟨c3, e4, h6⟩ := iter_inv (n := K) (f := fun (k : Nat) (centers : List ℚ) => (do
        let a ← rd centers (r * (2 + K) + k + 2)
        let z ← rd I (p + k * w * h)
        wr centers (r * (2 + K) + k + 2) (a + z) : Option (List ℚ))) (s := c2)
      (fun k c => Flat c n (2 + K) (fun a b => featSum I w h seg p a b + if a = r ∧ b < 2 + k then feat I w h p b else 0))
      (h5.congr (by
        intro a _ b _
        simp only [upd2]
        by_cases ca : a = r
        · subst ca
          rcases b with _ | _ | b
          · simp [feat, hpdef, pix_mod hx]
          · simp [feat, hpdef, pix_div hx]
          · simp
        · simp [ca])) (by
      intro k hk c hc
      have e' : r * (2 + K) + k + 2 = r * (2 + K) + (k + 2) := by omega
      rw [e', hc.rd hrp (show k + 2 < 2 + K by omega), image_rd hI hp hk]
      simp only [Option.bind_eq_bind, Option.bind_some]
      obtain ⟨c', e, hc'⟩ := hc.wr hrp (show k + 2 < 2 + K by omega) (featSum I w h seg p r (k + 2) + (if r = r ∧ k + 2 < 2 + k then feat I w h p (k + 2) else 0) + feat I w h p (k + 2))
      refine ⟨c', by simpa using e, hc'.congr ?_⟩
      intro a _ b _
      simp only [upd2]
      by_cases ca : a = r
      · subst ca
        by_cases cb : b = k + 2
        · subst cb
          rw [if_pos ⟨rfl, rfl⟩, if_neg (by omega), if_pos (by omega)]; ring
        · rw [if_neg (by tauto)]
          by_cases cc : b < 2 + k
          · rw [if_pos ⟨rfl, cc⟩, if_pos (by omega)]
          · rw [if_neg (by tauto), if_neg (by omega)]
      · rw [if_neg (by tauto), if_neg (by tauto), if_neg (by tauto)])
    simp only [Option.bind_eq_bind] at e4
    rw [e4]
    refine ⟨_, rfl, h3.congr ?_, h6.congr ?_⟩
    · intro i _
      rw [mass_succ, ← hrdef]
      simp only [upd1]
      by_cases c : i = r
      · rw [if_pos c, if_pos c.symm, c]
      · rw [if_neg c, if_neg (fun e => c e.symm)]; omega
    · intro a _ b hb
      unfold featSum
      rw [Finset.sum_range_succ, ← hrdef]
      congr 1
      by_cases c : a = r
      · rw [if_pos ⟨c, hb⟩, if_pos c.symm]
      · rw [if_neg (by tauto), if_neg (fun e => c e.symm)])
  rw [Nat.mul_comm h w] at h1 h2
  exact ⟨s, e, h1, h2⟩

theorem recompute_spec (hI : I.length = w * h * K) (hn : w * h < 2 ^ 32) (n : Nat) (hnn : n ≤ w * h) (seg : List Nat) (hs : seg.length = w * h) (hr : ∀ p < w * h, seg.getD p 0 < n) :
    ∃ C, recompute I w h K n seg = some C ∧ C.length = (2 + K) * n ∧
      ∀ r < n, ∀ j < 2 + K, C.getD ((2 + K) * r + j) 0 = featSum I w h seg (w * h) r j / max (mass (w * h) seg r : ℚ) (1 / 10 ^ 8) := by
  obtain ⟨s, e1, h1, h2⟩ := sums_spec hI hn n hnn seg hs hr
  unfold recompute
  rw [e1]
  simp only [Option.bind_eq_bind, Option.bind_some]
  obtain ⟨C, e2, h3⟩ := iter_inv (n := n) (f := fun (region : Nat) (centers : List ℚ) => (rd s.1 region).bind fun m =>
      iter (2 + K) (fun j centers => (rd centers ((2 + K) * region + j)).bind fun c =>
        wr centers ((2 + K) * region + j) (c / max (m : ℚ) (1 / 10 ^ 8))) centers) (s := s.2)
    (fun r0 c => Flat c n (2 + K) (fun r j => if r < r0 then featSum I w h seg (w * h) r j / max (mass (w * h) seg r : ℚ) (1 / 10 ^ 8) else featSum I w h seg (w * h) r j))
    (h2.congr (by intro i _ j _; simp)) (by
    intro r hr c hc
    rw [h1.rd (show r < w * h by omega)]
    simp only [Option.bind_some]
    obtain ⟨c', e, hc'⟩ := iter_inv (n := 2 + K) (f := fun (j : Nat) (centers : List ℚ) => (rd centers ((2 + K) * r + j)).bind fun c =>
        wr centers ((2 + K) * r + j) (c / max (mass (w * h) seg r : ℚ) (1 / 10 ^ 8))) (s := c)
      (fun j0 c => Flat c n (2 + K) (fun a j => if a < r ∨ (a = r ∧ j < j0) then featSum I w h seg (w * h) a j / max (mass (w * h) seg a : ℚ) (1 / 10 ^ 8) else featSum I w h seg (w * h) a j))
      (hc.congr (by intro i _ j _; simp)) (by
      intro j hj c hc
      rw [Nat.mul_comm (2 + K) r, hc.rd hr hj]
      simp only [Option.bind_some]
      obtain ⟨c', e, hc'⟩ := hc.wr hr hj ((if r < r ∨ (r = r ∧ j < j) then featSum I w h seg (w * h) r j / max (mass (w * h) seg r : ℚ) (1 / 10 ^ 8) else featSum I w h seg (w * h) r j) / max (mass (w * h) seg r : ℚ) (1 / 10 ^ 8))
      refine ⟨c', by simpa using e, hc'.congr ?_⟩
      intro a _ b _
      simp only [upd2]
      by_cases ca : a = r ∧ b = j
      · obtain ⟨rfl, rfl⟩ := ca
        rw [if_pos ⟨rfl, rfl⟩, if_neg (by omega), if_pos (by omega)]
      · rw [if_neg ca]
        by_cases cb : a < r ∨ (a = r ∧ b < j)
        · rw [if_pos cb, if_pos (by omega)]
        · rw [if_neg cb, if_neg (by omega)])
    refine ⟨c', e, hc'.congr ?_⟩
    intro a _ j hj
    by_cases ca : a < r + 1
    · rw [if_pos (by omega), if_pos ca]
    · rw [if_neg (by omega), if_neg ca])
  refine ⟨C, e2, by rw [h3.len, Nat.mul_comm], ?_⟩
  intro r hr j hj
  have := h3.get r hr j hj
  rw [if_pos hr] at this
  rw [Nat.mul_comm (2 + K) r]
  simp [List.getD, this]

end

end Verif.Slic
