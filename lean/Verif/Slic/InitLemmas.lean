import Verif.Slic.AssignLemmas

/-!
# The initial centres of SLIC
-/

namespace Verif.Slic

open Finset

/-- Additions to distinct entries. -/
theorem foldlM_cells {α : Type} {n : Nat} (addr : α → Nat) (V : Nat → ℚ) (g : List ℚ → α → Option (List ℚ)) : ∀ (L : List α),
    L.Pairwise (fun a b => addr a ≠ addr b) →
    (∀ a ∈ L, ∀ E f, Arr E n f → ∃ E', g E a = some E' ∧ Arr E' n (upd1 f (addr a) (f (addr a) + V (addr a)))) →
    ∀ E f, Arr E n f → ∃ E', L.foldlM g E = some E' ∧ Arr E' n (fun p => f p + if p ∈ L.map addr then V p else 0) := by
  intro L
  induction L with
  | nil => intro _ _ E f hE; exact ⟨E, rfl, hE.congr (by simp)⟩
  | cons a L ih =>
    intro hd h E f hE
    rw [List.pairwise_cons] at hd
    obtain ⟨E1, e1, h1⟩ := h a (by simp) E f hE
    obtain ⟨E2, e2, h2⟩ := ih hd.2 (fun b hb => h b (by simp [hb])) E1 _ h1
    refine ⟨E2, by rw [List.foldlM_cons, e1]; exact e2, h2.congr ?_⟩
    intro p _
    simp only [upd1, List.map_cons, List.mem_cons]
    by_cases c : p = addr a
    · have : p ∉ L.map addr := by
        rw [List.mem_map]
        rintro ⟨b, hb, e⟩
        exact hd.1 b hb (by rw [← c, e])
      rw [if_pos c, if_neg this, if_pos (Or.inl c), c]; ring
    · rw [if_neg c]
      by_cases m : p ∈ L.map addr
      · rw [if_pos m, if_pos (Or.inr m)]
      · rw [if_neg m, if_neg (by tauto)]

section
variable {I : List ℚ} {w h K rs : Nat}

theorem edgeMap_spec (hI : I.length = w * h * K) : ∃ E, edgeMap I w h K = some E ∧ Arr E (w * h) (edge I w h K) := by
  have rdp : ∀ k < K, ∀ q : Nat, q < w * h → ∀ z : Int, z = q → rdI I (z + k * w * h) = some (I.getD (q + k * w * h) 0) := by
    intro k hk q hq z hz
    rw [rdI_eq _ _ (q + k * w * h) (by rw [hz]; push_cast; rfl), image_rd hI hq hk]
    rfl
  have hwin : ∀ (n : Nat) (a : Int), a ∈ intRange 1 ((n : Int) - 2) ↔ ∃ k : Nat, a = k ∧ 1 ≤ k ∧ k + 1 < n := by
    intro n a
    rw [mem_intRange]
    constructor
    · intro h; exact ⟨a.toNat, by omega, by omega, by omega⟩
    · rintro ⟨k, rfl, h1, h2⟩; omega
  unfold edgeMap
  obtain ⟨E, e, hE⟩ := iter_inv (n := K) (f := fun (k : Nat) (e : List ℚ) => forInt 1 ((h : Int) - 2) (fun y e => forInt 1 ((w : Int) - 2) (fun x e => (do
      let at' := fun (x y : Int) => rdI I (x + y * w + k * w * h)
      let a ← at' (x - 1) y
      let b ← at' (x + 1) y
      let c ← at' x (y + 1)
      let d ← at' x (y - 1)
      let o ← rdI e (x + y * w)
      wrI e (x + y * w) (o + ((a - b) * (a - b) + (c - d) * (c - d))) : Option (List ℚ))) e) e) (s := List.replicate (w * h) 0)
    (fun m E => Arr E (w * h) (edge I w h m)) ((Arr.replicate _ _).congr (by intro i _; simp [edge])) (by
    intro k hk E hE
    rw [forInt_pairs]
    obtain ⟨E', e, hE'⟩ := foldlM_cells (n := w * h) (fun (c : Int × Int) => (c.1 + c.2 * w).toNat)
      (fun p => (I.getD (p - 1 + k * w * h) 0 - I.getD (p + 1 + k * w * h) 0) ^ 2 + (I.getD (p + w + k * w * h) 0 - I.getD (p - w + k * w * h) 0) ^ 2)
      (fun (e : List ℚ) (c : Int × Int) => (do
      let a ← rdI I (c.1 - 1 + c.2 * w + k * w * h)
      let b ← rdI I (c.1 + 1 + c.2 * w + k * w * h)
      let c' ← rdI I (c.1 + (c.2 + 1) * w + k * w * h)
      let d ← rdI I (c.1 + (c.2 - 1) * w + k * w * h)
      let o ← rdI e (c.1 + c.2 * w)
      wrI e (c.1 + c.2 * w) (o + ((a - b) * (a - b) + (c' - d) * (c' - d))) : Option (List ℚ)))
      ((intRange 1 ((h : Int) - 2)).flatMap (fun y => (intRange 1 ((w : Int) - 2)).map (fun x => (x, y)))) (by
        have hsort := pairs_sorted 1 ((h : Int) - 2) 1 ((w : Int) - 2) w (by
          intro x hx
          obtain ⟨k, rfl, h1, h2⟩ := (hwin w x).mp hx
          omega)
        refine List.Pairwise.imp_of_mem ?_ hsort
        intro a b ha hb hab
        have nn : ∀ c ∈ (intRange 1 ((h : Int) - 2)).flatMap (fun y => (intRange 1 ((w : Int) - 2)).map (fun x => (x, y))), 0 ≤ c.1 + c.2 * w := by
          intro c hc
          rw [List.mem_flatMap] at hc
          obtain ⟨y, hy, hc⟩ := hc
          rw [List.mem_map] at hc
          obtain ⟨x, hx, rfl⟩ := hc
          obtain ⟨k1, rfl, _⟩ := (hwin h y).mp hy
          obtain ⟨k2, rfl, _⟩ := (hwin w x).mp hx
          positivity
        have := nn a ha
        have := nn b hb
        omega) (by
        intro c hc E f hE
        rw [List.mem_flatMap] at hc
        obtain ⟨y', hy', hc⟩ := hc
        rw [List.mem_map] at hc
        obtain ⟨x', hx', rfl⟩ := hc
        obtain ⟨y, rfl, hy1, hy2⟩ := (hwin h y').mp hy'
        obtain ⟨x, rfl, hx1, hx2⟩ := (hwin w x').mp hx'
        have hp := pix_lt (show x < w by omega) (show y < h by omega)
        have hp1 := pix_lt (show x - 1 < w by omega) (show y < h by omega)
        have hp2 := pix_lt (show x + 1 < w by omega) (show y < h by omega)
        have hp3 := pix_lt (show x < w by omega) (show y + 1 < h by omega)
        have hp4 := pix_lt (show x < w by omega) (show y - 1 < h by omega)
        have e1 : x - 1 + y * w = x + y * w - 1 := by omega
        have e2 : x + 1 + y * w = x + y * w + 1 := by omega
        have e3 : x + (y + 1) * w = x + y * w + w := by ring
        have e4 : x + (y - 1) * w = x + y * w - w := by
          obtain ⟨z, rfl⟩ := Nat.exists_eq_succ_of_ne_zero (show y ≠ 0 by omega)
          simp only [Nat.succ_eq_add_one, Nat.add_sub_cancel, Nat.add_mul, Nat.one_mul]
          omega
        have hpp : (((x : Int), (y : Int)).1 + ((x : Int), (y : Int)).2 * (w : Int)).toNat = x + y * w := by
          simp only
          have : (x : Int) + y * (w : Int) = ((x + y * w : Nat) : Int) := by push_cast; rfl
          rw [this, Int.toNat_natCast]
        simp only [hpp]
        rw [rdp k hk _ hp1 _ (by push_cast [Nat.cast_sub hx1]; ring), rdp k hk _ hp2 _ (by push_cast; ring), rdp k hk _ hp3 _ (by push_cast; ring),
          rdp k hk _ hp4 _ (by push_cast [Nat.cast_sub hy1]; ring)]
        simp only [Option.bind_eq_bind, Option.bind_some]
        rw [rdI_eq _ _ (x + y * w) (by push_cast; rfl), hE.rd hp]
        simp only [Option.bind_some]
        rw [wrI_eq _ _ (x + y * w) _ (by push_cast; rfl)]
        rw [e1, e2, e3, e4]
        obtain ⟨E', e, h⟩ := hE.wr hp (f (x + y * w) + ((I.getD (x + y * w - 1 + k * w * h) 0 - I.getD (x + y * w + 1 + k * w * h) 0) * (I.getD (x + y * w - 1 + k * w * h) 0 - I.getD (x + y * w + 1 + k * w * h) 0) + (I.getD (x + y * w + w + k * w * h) 0 - I.getD (x + y * w - w + k * w * h) 0) * (I.getD (x + y * w + w + k * w * h) 0 - I.getD (x + y * w - w + k * w * h) 0)))
        refine ⟨E', e, h.congr ?_⟩
        intro i _
        simp only [upd1]
        split_ifs with ci
        · ring
        · rfl) E _ hE
    refine ⟨E', e, hE'.congr ?_⟩
    intro p hp
    have hmem : p ∈ ((intRange 1 ((h : Int) - 2)).flatMap (fun y => (intRange 1 ((w : Int) - 2)).map (fun x => (x, y)))).map (fun (c : Int × Int) => (c.1 + c.2 * w).toNat) ↔
        (1 ≤ p % w ∧ p % w + 1 < w ∧ 1 ≤ p / w ∧ p / w + 1 < h) := by
      rw [List.mem_map]
      have key : ∀ x y : Nat, (((x : Int), (y : Int)).1 + ((x : Int), (y : Int)).2 * (w : Int)).toNat = x + y * w := by
        intro x y
        simp only
        have : (x : Int) + y * (w : Int) = ((x + y * w : Nat) : Int) := by push_cast; rfl
        rw [this, Int.toNat_natCast]
      constructor
      · rintro ⟨c, hc, e⟩
        rw [List.mem_flatMap] at hc
        obtain ⟨y', hy', hc⟩ := hc
        rw [List.mem_map] at hc
        obtain ⟨x', hx', rfl⟩ := hc
        obtain ⟨y, rfl, hy1, hy2⟩ := (hwin h y').mp hy'
        obtain ⟨x, rfl, hx1, hx2⟩ := (hwin w x').mp hx'
        rw [key] at e
        rw [← e, pix_mod (by omega), pix_div (by omega)]
        omega
      · rintro ⟨h1, h2, h3, h4⟩
        refine ⟨(((p % w : Nat) : Int), ((p / w : Nat) : Int)), ?_, by rw [key, Nat.mul_comm, Nat.mod_add_div]⟩
        rw [List.mem_flatMap]
        refine ⟨_, (hwin h _).mpr ⟨_, rfl, h3, h4⟩, ?_⟩
        rw [List.mem_map]
        exact ⟨_, (hwin w _).mpr ⟨_, rfl, h1, h2⟩, rfl⟩
    unfold edge
    by_cases c : 1 ≤ p % w ∧ p % w + 1 < w ∧ 1 ≤ p / w ∧ p / w + 1 < h
    · rw [if_pos c, if_pos (hmem.mpr c), if_pos c, Finset.sum_range_succ]
    · rw [if_neg c, if_neg (fun hh => c (hmem.mp hh)), if_neg c, add_zero])
  exact ⟨E, e, hE⟩

theorem gridPos_eq (size rs u : Nat) (hs : 1 ≤ size) : max (min ⌊(rs : ℚ) * (u + 1 / 2) + 1 / 2⌋ ((size : Int) - 1)) 0 = (gridPos size rs u : Int) := by
  have : ⌊(rs : ℚ) * (u + 1 / 2) + 1 / 2⌋ = (((2 * rs * u + rs + 1) / 2 : Nat) : Int) := by
    have e := Nat.div_add_mod (2 * rs * u + rs + 1) 2
    have hm := Nat.mod_lt (2 * rs * u + rs + 1) (show 0 < 2 by omega)
    set n := (2 * rs * u + rs + 1) / 2
    have e' : (2 : ℚ) * n + ((2 * rs * u + rs + 1) % 2 : Nat) = 2 * rs * u + rs + 1 := by exact_mod_cast e
    have hm' : (((2 * rs * u + rs + 1) % 2 : Nat) : ℚ) ≤ 1 := by exact_mod_cast (by omega : (2 * rs * u + rs + 1) % 2 ≤ 1)
    have h0 : (0 : ℚ) ≤ (((2 * rs * u + rs + 1) % 2 : Nat) : ℚ) := by positivity
    rw [Int.floor_eq_iff]
    push_cast
    constructor <;> linarith
  rw [this]
  unfold gridPos
  omega

theorem seed_spec (E : List ℚ) (hw : 1 ≤ w) (hh : 1 ≤ h) (hE : Arr E (w * h) (edge I w h K)) {u v : Nat} (hu : u < gridSize w rs) :
    ∃ s, seed E w h rs u v = some s ∧ ∃ x y : Nat, x < w ∧ y < h ∧ s.x = x ∧ s.y = y ∧ IsSeed I w h K rs (u + v * gridSize w rs) (x + y * w) := by
  unfold seed
  simp only [gridPos_eq w rs u hw, gridPos_eq h rs v hh]
  rw [forInt_pairs]
  set X := gridPos w rs u with hX
  set Y := gridPos h rs v with hY
  have hXw : X < w := by rw [hX]; unfold gridPos; omega
  have hYh : Y < h := by rw [hY]; unfold gridPos; omega
  set L := (intRange (max 0 ((Y : Int) - 1)) (min ((h : Int) - 1) ((Y : Int) + 1))).flatMap (fun yp => (intRange (max 0 ((X : Int) - 1)) (min ((w : Int) - 1) ((X : Int) + 1))).map (fun xp => (xp, yp))) with hL
  have hwin : ∀ (n Z : Nat) (a : Int), a ∈ intRange (max 0 ((Z : Int) - 1)) (min ((n : Int) - 1) ((Z : Int) + 1)) ↔ ∃ k : Nat, a = k ∧ k < n ∧ |(k : Int) - Z| ≤ 1 := by
    intro n Z a
    rw [mem_intRange]
    constructor
    · intro h; exact ⟨a.toNat, by omega, by omega, by rw [abs_le]; omega⟩
    · rintro ⟨k, rfl, h1, h2⟩; rw [abs_le] at h2; omega
  have hmem : ∀ c : Int × Int, c ∈ L ↔ ∃ x y : Nat, c = ((x : Int), (y : Int)) ∧ x < w ∧ y < h ∧ |(x : Int) - X| ≤ 1 ∧ |(y : Int) - Y| ≤ 1 := by
    intro c
    rw [hL, List.mem_flatMap]
    constructor
    · rintro ⟨a, ha, hc⟩
      rw [List.mem_map] at hc
      obtain ⟨b, hb, rfl⟩ := hc
      rw [hwin] at ha hb
      obtain ⟨y, rfl, h1, h2⟩ := ha
      obtain ⟨x, rfl, h3, h4⟩ := hb
      exact ⟨x, y, rfl, h3, h1, h4, h2⟩
    · rintro ⟨x, y, rfl, h1, h2, h3, h4⟩
      refine ⟨y, (hwin _ _ _).mpr ⟨y, rfl, h2, h4⟩, ?_⟩
      rw [List.mem_map]
      exact ⟨x, (hwin _ _ _).mpr ⟨x, rfl, h1, h3⟩, rfl⟩
  have hne : L ≠ [] := by
    have := (hmem ((X : Int), (Y : Int))).mpr ⟨X, Y, rfl, hXw, hYh, by simp, by simp⟩
    intro e
    rw [e] at this
    simp at this
  let pix : Int × Int → Nat := fun c => c.1.toNat + c.2.toNat * w
  have hpix : ∀ x y : Nat, pix ((x : Int), (y : Int)) = x + y * w := by intro x y; simp [pix]
  let D : Int × Int → ℚ := fun c => edge I w h K (pix c)
  let emb : Option (Int × Int) → Seed := fun o =>
    match o with
    | none => ⟨⊤, 0, 0⟩
    | some c => ⟨(D c : WithTop ℚ), c.1, c.2⟩
  have hrd : ∀ x < w, ∀ y < h, rdI E ((x : Int) + y * (w : Int)) = some (edge I w h K (x + y * w)) := by
    intro x hx y hy
    rw [rdI_eq _ _ (x + y * w) (by push_cast; rfl), hE.rd (pix_lt hx hy)]
  have hscan := scan_min D (fun c => c.1 + c.2 * (w : Int)) emb
    (fun (s : Seed) (c : Int × Int) => (do
      let t ← rdI E (c.1 + c.2 * (w : Int))
      if (t : WithTop ℚ) < s.value then some ⟨t, c.1, c.2⟩ else some s : Option Seed)) L
    (by
      rw [hL]
      apply pairs_sorted
      intro a ha
      rw [hwin] at ha
      obtain ⟨k, rfl, h1, _⟩ := ha
      omega)
    (by
      intro c hc
      obtain ⟨x, y, rfl, h1, h2, _⟩ := (hmem c).mp hc
      simp only [hrd x h1 y h2, Option.bind_eq_bind, Option.bind_some, emb, WithTop.coe_lt_top, if_true, D, hpix])
    (by
      intro a ha c hc
      obtain ⟨x, y, rfl, h1, h2, _⟩ := (hmem c).mp hc
      obtain ⟨x', y', rfl, h3, h4, _⟩ := (hmem a).mp ha
      simp only [hrd x h1 y h2, Option.bind_eq_bind, Option.bind_some, emb, WithTop.coe_lt_coe, D, hpix]
      by_cases c1 : edge I w h K (x + y * w) < edge I w h K (x' + y' * w)
      · simp only [if_pos c1, hpix]
      · simp only [if_neg c1, hpix])
  rcases hscan with ⟨h1, _⟩ | ⟨c, hc, e, h1, h2⟩
  · exact absurd h1 hne
  obtain ⟨x, y, rfl, hx, hy, hx2, hy2⟩ := (hmem c).mp hc
  have har : ∀ q, Around w h rs (u + v * gridSize w rs) q ↔ q < w * h ∧ |((q % w : Nat) : Int) - X| ≤ 1 ∧ |((q / w : Nat) : Int) - Y| ≤ 1 := by
    intro q
    unfold Around
    rw [pix_mod hu, pix_div hu, ← hX, ← hY]
  refine ⟨_, e, x, y, hx, hy, rfl, rfl, ?_, ?_, ?_⟩
  · rw [har, pix_mod hx, pix_div hx]; exact ⟨pix_lt hx hy, hx2, hy2⟩
  · intro q hq
    rw [har] at hq
    have := h1 (((q % w : Nat) : Int), ((q / w : Nat) : Int)) ((hmem _).mpr ⟨_, _, rfl, pix_col hq.1, pix_row hq.1, hq.2.1, hq.2.2⟩)
    simp only [D, hpix] at this
    rwa [Nat.mul_comm (q / _), Nat.mod_add_div] at this
  · intro q hq hD
    rw [har] at hq
    have e' : q % w + q / w * w = q := by rw [Nat.mul_comm, Nat.mod_add_div]
    have := h2 (((q % w : Nat) : Int), ((q / w : Nat) : Int)) ((hmem _).mpr ⟨_, _, rfl, pix_col hq.1, pix_row hq.1, hq.2.1, hq.2.2⟩)
      (by simp only [D, hpix, e']; exact hD)
    simp only at this
    have e'' : ((q % w : Nat) : Int) + ((q / w : Nat) : Int) * (w : Int) = (q : Int) := by exact_mod_cast e'
    rw [e''] at this
    exact_mod_cast this

theorem initCenters_spec (hI : I.length = w * h * K) (hw : 1 ≤ w) (hh : 1 ≤ h) (hrs : 1 ≤ rs) (E : List ℚ) (hE : Arr E (w * h) (edge I w h K)) (C0 : List ℚ)
    (hC0 : C0.length = (2 + K) * (gridSize w rs * gridSize h rs)) :
    ∃ C, initCenters I E w h K rs C0 = some C ∧ C.length = (2 + K) * (gridSize w rs * gridSize h rs) ∧
      ∀ r < gridSize w rs * gridSize h rs, ∃ p, IsSeed I w h K rs r p ∧ ∀ j < 2 + K, C.getD ((2 + K) * r + j) 0 = feat I w h p j := by
  set n := gridSize w rs * gridSize h rs with hn
  unfold initCenters
  simp only [numRegions1_eq _ rs hrs]
  obtain ⟨s, e, h1, h2, h3⟩ := iter2_inv (n := gridSize h rs) (m := gridSize w rs) (f := fun (v u : Nat) (s : List ℚ × Nat) => (do
      let c ← seed E w h rs u v
      let centers ← wr s.1 s.2 (c.x : ℚ)
      let centers ← wr centers (s.2 + 1) (c.y : ℚ)
      iter K (fun (k : Nat) (s : List ℚ × Nat) => do
        let z ← rdI I (c.x + c.y * w + k * w * h)
        let centers ← wr s.1 s.2 z
        some (centers, s.2 + 1)) (centers, s.2 + 2) : Option (List ℚ × Nat))) (s := (C0, 0))
    (fun m s => s.1.length = n * (2 + K) ∧ s.2 = m * (2 + K) ∧ ∀ r < m, ∃ p, IsSeed I w h K rs r p ∧ ∀ j < 2 + K, s.1[r * (2 + K) + j]? = some (feat I w h p j))
    ⟨by rw [hC0, Nat.mul_comm], by simp, by simp⟩ (by
    intro v hv u hu s ⟨h1, h2, h3⟩
    rw [Nat.add_comm (v * _) u] at h2 h3 ⊢
    obtain ⟨c, ec, x, y, hx, hy, cx, cy, hseed⟩ := seed_spec (I := I) (K := K) E hw hh hE (v := v) hu
    have hr : u + v * gridSize w rs < n := pix_lt hu hv
    set r := u + v * gridSize w rs with hrdef
    have hp := pix_lt hx hy
    rw [ec]
    simp only [Option.bind_eq_bind, Option.bind_some]
    have haddr : ∀ j < 2 + K, r * (2 + K) + j < n * (2 + K) := fun j hj => Flat.addr_lt hr hj
    have a0 := haddr 0 (by omega)
    have a1 := haddr 1 (by omega)
    rw [h2, wr_of_lt (by rw [h1]; exact a0)]
    simp only [Option.bind_some]
    rw [wr_of_lt (by rw [List.length_set, h1]; exact a1)]
    simp only [Option.bind_some]
    set C1 := (s.1.set (r * (2 + K)) (c.x : ℚ)).set (r * (2 + K) + 1) (c.y : ℚ) with hC1
    have hC1len : C1.length = n * (2 + K) := by rw [hC1]; simp [h1]
    have hC1lt : ∀ q < r * (2 + K), C1[q]? = s.1[q]? := by
      intro q hq
      rw [hC1, List.getElem?_set_ne (by omega), List.getElem?_set_ne (by omega)]
    have hC1new : ∀ j < 2, C1[r * (2 + K) + j]? = some (feat I w h (x + y * w) j) := by
      intro j hj
      rcases j with _ | _ | j
      · rw [hC1, List.getElem?_set_ne (by omega), Nat.add_zero, List.getElem?_set_self (by rw [h1]; exact a0), cx]
        simp [feat, pix_mod hx]
      · rw [hC1, List.getElem?_set_self (by rw [List.length_set, h1]; exact a1), cy]
        simp [feat, pix_div hx]
      · omega
    obtain ⟨s', e', g1, g2, g3, g4⟩ := iter_inv (n := K) (f := fun (k : Nat) (s : List ℚ × Nat) => (do
        let z ← rdI I (c.x + c.y * w + k * w * h)
        let centers ← wr s.1 s.2 z
        some (centers, s.2 + 1) : Option (List ℚ × Nat))) (s := (C1, r * (2 + K) + 2))
      (fun k t => t.1.length = n * (2 + K) ∧ t.2 = r * (2 + K) + 2 + k ∧ (∀ q < r * (2 + K), t.1[q]? = s.1[q]?) ∧
        ∀ j < 2 + k, t.1[r * (2 + K) + j]? = some (feat I w h (x + y * w) j)) ⟨hC1len, rfl, hC1lt, hC1new⟩ (by
      intro k hk t ⟨g1, g2, g3, g4⟩
      have ak := haddr (2 + k) (by omega)
      rw [cx, cy, rdI_eq _ _ (x + y * w + k * w * h) (by push_cast; rfl), image_rd hI hp hk]
      simp only [Option.bind_eq_bind, Option.bind_some]
      rw [g2, wr_of_lt (by rw [g1]; omega)]
      refine ⟨_, rfl, by simp [g1], by simp only; omega, ?_, ?_⟩
      · intro q hq
        simp only
        rw [List.getElem?_set_ne (by omega)]
        exact g3 q hq
      · intro j hj
        simp only
        by_cases cj : j = 2 + k
        · subst cj
          rw [← Nat.add_assoc, List.getElem?_set_self (by rw [g1]; omega), Nat.add_comm 2 k]
        · rw [List.getElem?_set_ne (by omega)]
          exact g4 j (by omega))
    simp only [Option.bind_eq_bind] at e'
    refine ⟨s', e', g1, by rw [g2, Nat.add_mul r 1 (2 + K), Nat.one_mul, Nat.add_assoc], ?_⟩
    intro r' hr'
    by_cases cr : r' = r
    · subst cr
      exact ⟨x + y * w, hseed, fun j hj => g4 j hj⟩
    · obtain ⟨p, hp1, hp2⟩ := h3 r' (by omega)
      refine ⟨p, hp1, fun j hj => ?_⟩
      have hlt : r' * (2 + K) + j < r * (2 + K) := Flat.addr_lt (show r' < r by omega) hj
      rw [g3 _ hlt]
      exact hp2 j hj)
  simp only [Option.bind_eq_bind] at e ⊢
  rw [e]
  refine ⟨s.1, rfl, by rw [h1, Nat.mul_comm], ?_⟩
  intro r hr
  obtain ⟨p, hp1, hp2⟩ := h3 r (by rw [Nat.mul_comm]; exact hr)
  refine ⟨p, hp1, fun j hj => ?_⟩
  have := hp2 j hj
  rw [Nat.mul_comm (2 + K) r]
  simp [List.getD, this]

end

end Verif.Slic
