import Verif.Hog.ExtCell
import Verif.Hog.AccProps
import Verif.Hog.PermProps

/-!
# Extraction of HOG features
-/

namespace Verif.Hog

open Finset

/-- The loop over the cells, once the norms are known. -/
theorem cells_spec (E : Cfg) (b : Bufs) (out : List ℚ) (hb : Fits E.O b) (hO : 1 ≤ E.O) (hsq : ∀ a, 0 < a → E.sq a ≠ 0) (N : Nat → Nat → ℚ)
    (hN : ∀ X < b.w, ∀ Y < b.h, b.norm[X + Y * b.w]? = some (N X Y)) (hNpos : ∀ X < b.w, ∀ Y < b.h, 0 ≤ N X Y) (hl : dimension E.variant E.O * (b.w * b.h) ≤ out.length) :
    ∃ out', iter b.h (fun y => iter b.w (fun x => extractCell E b x y)) out = some out' ∧
      out'.length = out.length ∧ (∀ q, dimension E.variant E.O * (b.w * b.h) ≤ q → out'[q]? = out[q]?) ∧
      ∀ X < b.w, ∀ Y < b.h, ∀ d < dimension E.variant E.O, entry out' b.w b.h X Y d =
        some (feature E.variant E.O E.sq (blockOf N E.transposed b.w b.h X Y) (hist b.hog b.w b.h X Y) d) := by
  set D := dimension E.variant E.O with hD
  set v : Nat → Nat → ℚ := fun d q => feature E.variant E.O E.sq (blockOf N E.transposed b.w b.h (q % b.w) (q / b.w)) (hist b.hog b.w b.h (q % b.w) (q / b.w)) d with hv
  have hqv : ∀ x y d, x < b.w → v d (x + b.w * y) = feature E.variant E.O E.sq (blockOf N E.transposed b.w b.h x y) (hist b.hog b.w b.h x y) d := by
    intro x y d hx
    simp only [hv]
    rw [show (x + b.w * y) % b.w = x by rw [Nat.add_mul_mod_self_left, Nat.mod_eq_of_lt hx], show (x + b.w * y) / b.w = y by
      rw [Nat.add_mul_div_left _ _ (by omega), Nat.div_eq_of_lt hx, Nat.zero_add]]
  obtain ⟨out', h1, h2⟩ := iter_inv (n := b.h) (f := fun y => iter b.w (fun x => extractCell E b x y)) (s := out)
    (fun y l => Filled out l D (b.w * b.h) v (fun _ q => q < b.w * y)) (Filled.start out D (b.w * b.h) v (by intro i _ j _; omega)) (by
      intro y hy l hF
      obtain ⟨l', h1, h2⟩ := iter_inv (n := b.w) (f := fun x => extractCell E b x y) (s := l)
        (fun x l => Filled out l D (b.w * b.h) v (fun _ q => q < x + b.w * y)) (by simpa using hF) (by
          intro x hx l hF
          obtain ⟨l', h1, h2⟩ := extractCell_spec E b hb hO N hN hNpos hsq out l hl v x y hx hy (fun d _ => hqv x y d hx) hF
          exact ⟨l', h1, h2.mono (by intro i _ j _ h; omega)⟩)
      refine ⟨l', h1, h2.mono ?_⟩
      intro i _ j _ h
      have : b.w * (y + 1) = b.w * y + b.w := by ring
      omega)
  refine ⟨out', h1, h2.len, h2.rest, ?_⟩
  intro X hX Y hY d hd
  have hq : X + b.w * Y < b.w * b.h := by
    have := Flat.addr_lt hY hX
    rw [mul_comm b.w Y, mul_comm b.w b.h]; omega
  have := h2.get d hd (X + b.w * Y) hq hq
  unfold entry
  rw [show X + Y * b.w + d * (b.w * b.h) = d * (b.w * b.h) + (X + b.w * Y) by ring, this, hqv X Y d hX]

/-- What the extraction does from any norms `b.norm`: it adds to them the squared norms of the cells, and the features are normalised by the result. -/
theorem extract_any (E : Cfg) (b : Bufs) (out : List ℚ) (hb : Fits E.O b) (hO : 1 ≤ E.O) (hsq : ∀ a, 0 < a → E.sq a ≠ 0) (hpos : ∀ a ∈ b.norm, 0 ≤ a)
    (hl : dimension E.variant E.O * (b.w * b.h) ≤ out.length) :
    ∃ norm' out', extract E b out = some ({ b with norm := norm' }, out') ∧ Fits E.O { b with norm := norm' } ∧ (∀ a ∈ norm', 0 ≤ a) ∧
      (∀ X < b.w, ∀ Y < b.h, norm'.getD (X + Y * b.w) 0 = b.norm.getD (X + Y * b.w) 0 + cellNorm E.O (hist b.hog b.w b.h X Y)) ∧
      out'.length = out.length ∧ (∀ q, dimension E.variant E.O * (b.w * b.h) ≤ q → out'[q]? = out[q]?) ∧
      ∀ X < b.w, ∀ Y < b.h, ∀ d < dimension E.variant E.O, entry out' b.w b.h X Y d =
        some (feature E.variant E.O E.sq (blockOf (fun X Y => b.norm.getD (X + Y * b.w) 0 + cellNorm E.O (hist b.hog b.w b.h X Y)) E.transposed b.w b.h X Y) (hist b.hog b.w b.h X Y) d) := by
  obtain ⟨norm', e1, e2, e3⟩ := foldNorms_spec E.O b hb
  have hNpos : ∀ X < b.w, ∀ Y < b.h, 0 ≤ b.norm.getD (X + Y * b.w) 0 + cellNorm E.O (hist b.hog b.w b.h X Y) := by
    intro X hX Y hY
    have h1 : 0 ≤ b.norm.getD (X + Y * b.w) 0 := by
      rw [List.getD_eq_getElem?_getD]
      cases h : b.norm[X + Y * b.w]? with
      | none => simp
      | some a => exact hpos a (List.mem_of_getElem? h)
    have h2 : 0 ≤ cellNorm E.O (hist b.hog b.w b.h X Y) := by unfold cellNorm; positivity
    exact add_nonneg h1 h2
  obtain ⟨out', h1, h2, h3, h4⟩ := cells_spec E { b with norm := norm' } out ⟨hb.1, e2⟩ hO hsq
    (fun X Y => b.norm.getD (X + Y * b.w) 0 + cellNorm E.O (hist b.hog b.w b.h X Y)) e3 hNpos hl
  refine ⟨norm', out', ?_, ⟨hb.1, e2⟩, ?_, ?_, h2, h3, h4⟩
  · unfold extract
    rw [e1]
    simp only [Option.bind_eq_bind, Option.bind_some]
    simp only at h1
    rw [h1]
    rfl
  · intro a ha
    obtain ⟨i, hi, rfl⟩ := List.getElem_of_mem ha
    have hi' : i < b.h * b.w := by rw [e2] at hi; rw [mul_comm]; exact hi
    have hw : 0 < b.w := by
      rcases Nat.eq_zero_or_pos b.w with h | h
      · rw [h] at hi'; omega
      · exact h
    have hX := Nat.mod_lt i hw
    have hY : i / b.w < b.h := Nat.div_lt_of_lt_mul (by rw [mul_comm]; exact hi')
    have h1 := e3 _ hX _ hY
    have h2 := hNpos _ hX _ hY
    have hii : i % b.w + i / b.w * b.w = i := by rw [mul_comm]; exact Nat.mod_add_div i b.w
    rw [hii, List.getElem?_eq_getElem hi, Option.some_inj] at h1
    rw [hii] at h2
    rw [h1]
    exact h2
  · intro X hX Y hY
    rw [List.getD_eq_getElem?_getD, e3 X hX Y hY, Option.getD_some]

/-- The first extraction after an image or a field has been added never accesses memory outside the buffers, fills the array of features with the documented values, and writes nothing else. -/
theorem extract_correct (E : Cfg) (b : Bufs) (out : List ℚ) (hb : Fits E.O b) (hnorm : b.norm = List.replicate (b.w * b.h) 0) (hO : 1 ≤ E.O) (hsq : ∀ a, 0 < a → E.sq a ≠ 0)
    (hl : dimension E.variant E.O * (b.w * b.h) ≤ out.length) :
    ∃ b' out', extract E b out = some (b', out') ∧ b'.hog = b.hog ∧ out'.length = out.length ∧ (∀ q, dimension E.variant E.O * (b.w * b.h) ≤ q → out'[q]? = out[q]?) ∧
      ∀ X < b.w, ∀ Y < b.h, ∀ d < dimension E.variant E.O, entry out' b.w b.h X Y d =
        some (feature E.variant E.O E.sq (blockOf (fun X Y => cellNorm E.O (hist b.hog b.w b.h X Y)) E.transposed b.w b.h X Y) (hist b.hog b.w b.h X Y) d) := by
  obtain ⟨norm', out', h1, -, -, -, h5, h6, h7⟩ := extract_any E b out hb hO hsq (by rw [hnorm]; intro a ha; rw [List.mem_replicate] at ha; exact ha.2.ge) hl
  refine ⟨_, out', h1, rfl, h5, h6, ?_⟩
  intro X hX Y hY d hd
  rw [h7 X hX Y hY d hd]
  have : ∀ q : Nat, b.norm.getD q 0 = 0 := by
    intro q
    rw [hnorm, List.getD_eq_getElem?_getD, List.getElem?_replicate]
    split_ifs <;> rfl
  simp only [this, zero_add]

theorem saturated_bounds (sq : ℚ → ℚ) (hsq : ∀ a, 0 < a → 0 < sq a) {n v : ℚ} (hn : 0 < n) (hv : 0 ≤ v) : 0 ≤ saturated sq n v ∧ saturated sq n v ≤ 1 / 5 :=
  ⟨le_min (by norm_num) (div_nonneg hv (le_of_lt (hsq n hn))), min_le_left _ _⟩

theorem blockOf_pos (N : Nat → Nat → ℚ) (hN : ∀ X Y, 0 ≤ N X Y) (t : Bool) (w h x y i : Nat) : 0 < blockOf N t w h x y i := by
  have bp : ∀ r d, 0 < blockNorm N w h x y r d := by
    intro r d
    unfold blockNorm
    have h1 := hN x y
    have h2 := hN (neighbour w x r) y
    have h3 := hN x (neighbour h y d)
    have h4 := hN (neighbour w x r) (neighbour h y d)
    linarith
  unfold blockOf
  simp only
  cases t
  · exact bp _ _
  · exact bp _ _

/-- On histograms that are not negative, no feature is negative; histogram features are at most 1/5 for the Dalal-Triggs variant and 2/5 for the UoCTTI one. -/
theorem feature_bounds (v : Variant) (O : Nat) (sq : ℚ → ℚ) (N : Nat → Nat → ℚ) (f : Nat → ℚ) (t : Bool) (w h x y d : Nat) (hsq : ∀ a, 0 < a → 0 < sq a) (hN : ∀ X Y, 0 ≤ N X Y) (hf : ∀ p, 0 ≤ f p) :
    0 ≤ feature v O sq (blockOf N t w h x y) f d ∧
    (v = .dalalTriggs → feature v O sq (blockOf N t w h x y) f d ≤ 1 / 5) ∧
    (v = .uoctti → d < 3 * O → feature v O sq (blockOf N t w h x y) f d ≤ 2 / 5) ∧
    (v = .uoctti → 3 * O ≤ d → feature v O sq (blockOf N t w h x y) f d ≤ 1 / sq 18 * (O / 5)) := by
  have hb := fun i => blockOf_pos N hN t w h x y i
  have hu : ∀ k, 0 ≤ undirected O f k := fun k => add_nonneg (hf _) (hf _)
  have h18 : 0 < 1 / sq 18 := one_div_pos.2 (hsq 18 (by norm_num))
  have hsum : ∀ g : Nat → ℚ, (∀ i, 0 ≤ g i ∧ g i ≤ 1 / 5) → 0 ≤ 1 / 2 * ∑ i ∈ range 4, g i ∧ 1 / 2 * ∑ i ∈ range 4, g i ≤ 2 / 5 := by
    intro g hg
    simp only [Finset.sum_range_succ, Finset.sum_range_zero]
    have h0 := hg 0
    have h1 := hg 1
    have h2 := hg 2
    have h3 := hg 3
    constructor <;> linarith
  cases v with
  | dalalTriggs =>
    have h := saturated_bounds sq hsq (hb (d / O)) (hu (d % O))
    refine ⟨h.1, fun _ => h.2, ?_, ?_⟩ <;> intro h <;> cases h
  | uoctti =>
    unfold feature
    simp only
    by_cases h1 : d < 2 * O
    · rw [if_pos h1]
      have h := hsum (fun i => saturated sq (blockOf N t w h x y i) (f d)) (fun i => saturated_bounds sq hsq (hb i) (hf d))
      exact ⟨h.1, by simp, fun _ _ => h.2, fun _ h' => by omega⟩
    · rw [if_neg h1]
      by_cases h2 : d < 3 * O
      · rw [if_pos h2]
        have h := hsum (fun i => saturated sq (blockOf N t w h x y i) (undirected O f (d - 2 * O))) (fun i => saturated_bounds sq hsq (hb i) (hu _))
        exact ⟨h.1, by simp, fun _ _ => h.2, fun _ h' => by omega⟩
      · rw [if_neg h2]
        refine ⟨mul_nonneg (le_of_lt h18) (Finset.sum_nonneg (fun k _ => (saturated_bounds sq hsq (hb _) (hu k)).1)), by simp, fun _ h' => by omega, fun _ _ => ?_⟩
        apply mul_le_mul_of_nonneg_left _ (le_of_lt h18)
        calc ∑ k ∈ range O, saturated sq (blockOf N t w h x y (d - 3 * O)) (undirected O f k) ≤ ∑ k ∈ range O, (1 / 5 : ℚ) :=
              Finset.sum_le_sum (fun k _ => (saturated_bounds sq hsq (hb _) (hu k)).2)
          _ = O / 5 := by rw [Finset.sum_const, Finset.card_range, nsmul_eq_mul]; ring

/-! ### Repeated extraction -/

/-- Two extractions in a row give the same features. -/
def RepeatClaim (sq : ℚ → ℚ) : Prop :=
  ∀ (E : Cfg) (b b1 b2 : Bufs) (out out1 out2 : List ℚ), E.sq = sq → 1 ≤ E.O → Fits E.O b → b.norm = List.replicate (b.w * b.h) 0 → out.length = dimension E.variant E.O * (b.w * b.h) →
    extract E b out = some (b1, out1) → extract E b1 out = some (b2, out2) → out2 = out1

/-- Two orientations, and one cell. -/
def repCfg (sq : ℚ → ℚ) : Cfg := { variant := .dalalTriggs, O := 2, transposed := false, bilinear := false, ox := [1, 0], oy := [0, 1], sq := sq, acos := id, pi := 3 }

/-- A cell with a large component and a small one. -/
def repBufs (n : List ℚ) : Bufs := { hog := [1, 1 / 100, 0, 0], norm := n, w := 1, h := 1 }

theorem rep_feature (sq : ℚ → ℚ) (n : List ℚ) (a : ℚ) (hn : n.getD 0 0 = a) :
    feature .dalalTriggs 2 sq (blockOf (fun X Y => n.getD (X + Y * 1) 0 + cellNorm 2 (hist [1, 1 / 100, 0, 0] 1 1 X Y)) false 1 1 0 0) (hist [1, 1 / 100, 0, 0] 1 1 0 0) 1 =
      saturated sq (4 * (a + 10001 / 10000) + 1 / 10000) (1 / 100) := by
  have hu : undirected 2 (hist [1, 1 / 100, 0, 0] 1 1 0 0) 1 = 1 / 100 := by decide +kernel
  have hc : cellNorm 2 (hist [1, 1 / 100, 0, 0] 1 1 0 0) = 10001 / 10000 := by decide +kernel
  have hb : blockOf (fun X Y => n.getD (X + Y * 1) 0 + cellNorm 2 (hist [1, 1 / 100, 0, 0] 1 1 X Y)) false 1 1 0 0 0 = 4 * (a + 10001 / 10000) + 1 / 10000 := by
    simp only [blockOf, blockNorm, neighbour, Nat.zero_mod, Nat.zero_div, Nat.zero_ne_one, decide_false, Bool.false_eq_true, if_false, lt_self_iff_false, Nat.zero_mul, Nat.add_zero, hc, hn]
    ring
  unfold feature
  simp only [show (1 : Nat) / 2 = 0 from rfl, show (1 : Nat) % 2 = 1 from rfl, hu, hb]

/-- The claim is false, because the extraction adds the squared norms of the cells to those left by the previous extraction. -/
theorem repeat_claim_false (sq : ℚ → ℚ) (h0 : sq 4 = 2) (hmono : ∀ a b, 0 < a → a < b → sq a < sq b) (hpos : ∀ a, 0 < a → 0 < sq a) : ¬ RepeatClaim sq := by
  intro hc
  obtain ⟨n1, o1, e1, f1, p1, g1, -, -, v1⟩ := extract_any (repCfg sq) (repBufs [0]) (List.replicate 8 0) ⟨rfl, rfl⟩ (Nat.le_succ 1) (fun a ha => (hpos a ha).ne') (by simp [repBufs]) (Nat.le_refl 8)
  obtain ⟨n2, o2, e2, f2, p2, g2, -, -, v2⟩ := extract_any (repCfg sq) (repBufs n1) (List.replicate 8 0) f1 (Nat.le_succ 1) (fun a ha => (hpos a ha).ne') p1 (Nat.le_refl 8)
  have heq := hc (repCfg sq) (repBufs [0]) _ _ (List.replicate 8 0) o1 o2 rfl (Nat.le_succ 1) ⟨rfl, rfl⟩ rfl rfl e1 e2
  have w1 := v1 0 Nat.zero_lt_one 0 Nat.zero_lt_one 1 (by simp [repCfg, dimension])
  have w2 := v2 0 Nat.zero_lt_one 0 Nat.zero_lt_one 1 (by simp [repCfg, dimension])
  have g1 := g1 0 Nat.zero_lt_one 0 Nat.zero_lt_one
  rw [heq] at w2
  have hw := w2.symm.trans w1
  rw [Option.some_inj] at hw
  have hn : n1.getD 0 0 = 10001 / 10000 := by
    have hc : cellNorm 2 (hist [1, 1 / 100, 0, 0] 1 1 0 0) = 10001 / 10000 := by decide +kernel
    have : n1.getD 0 0 = ([0] : List ℚ).getD 0 0 + cellNorm 2 (hist [1, 1 / 100, 0, 0] 1 1 0 0) := g1
    rw [this, hc]
    simp
  have hw' : saturated sq (4 * (10001 / 10000 + 10001 / 10000) + 1 / 10000) (1 / 100) = saturated sq (4 * (0 + 10001 / 10000) + 1 / 10000) (1 / 100) := by
    rw [← rep_feature sq n1 _ hn, ← rep_feature sq [0] 0 rfl]
    exact hw
  have hlt : ∀ n, 4 < n → saturated sq n (1 / 100) = 1 / 100 / sq n := by
    intro n hn
    apply min_eq_right
    have := hmono 4 n (by norm_num) hn
    rw [h0] at this
    rw [div_le_iff₀ (by linarith)]
    linarith
  rw [hlt _ (by norm_num), hlt _ (by norm_num)] at hw'
  have a1 := hmono (4 * (0 + 10001 / 10000) + 1 / 10000) (4 * (10001 / 10000 + 10001 / 10000) + 1 / 10000) (by norm_num) (by norm_num)
  have a2 := hpos (4 * (0 + 10001 / 10000) + 1 / 10000) (by norm_num)
  exact absurd hw' (ne_of_lt (div_lt_div_of_pos_left (by norm_num) a2 a1))

/-! ### Mirrored images -/

theorem sum_mirror (O : Nat) (F : Nat → ℚ) : ∑ k ∈ range O, F ((O - k) % O) = ∑ k ∈ range O, F k := by
  refine Finset.sum_nbij' (fun k => (O - k) % O) (fun k => (O - k) % O) ?_ ?_ ?_ ?_ ?_
  · intro k hk; rw [Finset.mem_range] at hk ⊢; exact (mirror_mod hk).1
  · intro k hk; rw [Finset.mem_range] at hk ⊢; exact (mirror_mod hk).1
  · intro k hk; rw [Finset.mem_range] at hk; exact mirror_mod_invol hk
  · intro k hk; rw [Finset.mem_range] at hk; exact mirror_mod_invol hk
  · intro k _; rfl

theorem neighbour_mirror (n i : Nat) (hi : i < n) (s : Bool) : neighbour n (n - 1 - i) s = n - 1 - neighbour n i (!s) := by
  unfold neighbour
  cases s
  · simp only [Bool.not_false, Bool.false_eq_true, if_true, if_false]
    split_ifs <;> omega
  · simp only [Bool.not_true, Bool.false_eq_true, if_true, if_false]
    split_ifs <;> omega

theorem neighbour_lt (n i : Nat) (hi : i < n) (s : Bool) : neighbour n i s < n := by
  unfold neighbour
  cases s
  · simp only [Bool.false_eq_true, if_false]
    split_ifs <;> omega
  · simp only [if_true]
    split_ifs <;> omega

/-- The histogram of a mirrored cell: each directed orientation is exchanged with the one at `π` minus its angle. -/
def MirrorHist (O : Nat) (f f' : Nat → ℚ) : Prop := ∀ p q, p < 2 * O → q < 2 * O → (p + q) % (2 * O) = O → f' p = f q

theorem undirected_mirror {O : Nat} {f f' : Nat → ℚ} (h : MirrorHist O f f') {k : Nat} (hk : k < O) : undirected O f' k = undirected O f ((O - k) % O) := by
  unfold undirected
  rcases Nat.eq_zero_or_pos k with rfl | hk0
  · rw [h 0 O (by omega) (by omega) (by rw [Nat.zero_add, Nat.mod_eq_of_lt (by omega)]), h (0 + O) 0 (by omega) (by omega) (by rw [Nat.zero_add, Nat.add_zero, Nat.mod_eq_of_lt (by omega)])]
    rw [Nat.sub_zero, Nat.mod_self, Nat.zero_add]
    ring
  · rw [h k (O - k) (by omega) (by omega) (by rw [show k + (O - k) = O by omega, Nat.mod_eq_of_lt (by omega)]),
      h (k + O) (2 * O - k) (by omega) (by omega) (by rw [show k + O + (2 * O - k) = O + 2 * O by omega, Nat.add_mod_right, Nat.mod_eq_of_lt (by omega)])]
    rw [Nat.mod_eq_of_lt (by omega : O - k < O), show O - k + O = 2 * O - k by omega]

theorem cellNorm_mirror {O : Nat} {f f' : Nat → ℚ} (h : MirrorHist O f f') : cellNorm O f' = cellNorm O f := by
  unfold cellNorm
  rw [← sum_mirror O (fun k => undirected O f k ^ 2)]
  apply Finset.sum_congr rfl
  intro k hk
  rw [undirected_mirror h (Finset.mem_range.1 hk)]

/-- The position of the cell `(X, Y)` in the mirrored image; the image is stored by columns when `transposed` holds. -/
def mirrorX (t : Bool) (w X : Nat) : Nat := if t then X else w - 1 - X
def mirrorY (t : Bool) (h Y : Nat) : Nat := if t then h - 1 - Y else Y

theorem blockOf_mirror {N N' : Nat → Nat → ℚ} {t : Bool} {w h : Nat} (hN : ∀ X < w, ∀ Y < h, N' X Y = N (mirrorX t w X) (mirrorY t h Y)) {X Y : Nat} (hX : X < w) (hY : Y < h) {i : Nat} (hi : i < 4) :
    blockOf N' t w h X Y i = blockOf N t w h (mirrorX t w X) (mirrorY t h Y) (swapBlock i) := by
  have key : ∀ r d, blockNorm N' w h X Y r d = blockNorm N w h (mirrorX t w X) (mirrorY t h Y) (if t then r else !r) (if t then !d else d) := by
    intro r d
    unfold blockNorm
    rw [hN X hX Y hY, hN _ (neighbour_lt w X hX r) Y hY, hN X hX _ (neighbour_lt h Y hY d), hN _ (neighbour_lt w X hX r) _ (neighbour_lt h Y hY d)]
    cases t
    · simp only [mirrorX, mirrorY, Bool.false_eq_true, if_false]
      rw [neighbour_mirror w X hX (!r), Bool.not_not]
    · simp only [mirrorX, mirrorY, if_true]
      rw [neighbour_mirror h Y hY (!d), Bool.not_not]
  have hi' : i = 0 ∨ i = 1 ∨ i = 2 ∨ i = 3 := by omega
  unfold blockOf
  simp only [key]
  rcases hi' with rfl | rfl | rfl | rfl <;> cases t <;> simp [swapBlock]

theorem feature_mirror (v : Variant) (O : Nat) (hO : 1 ≤ O) (sq : ℚ → ℚ) (n n' f f' : Nat → ℚ) (hn : ∀ i < 4, n' i = n (swapBlock i)) (hf : MirrorHist O f f') (buf perm : List Nat)
    (hbuf : buf.length = dimension v O) (hp : permutation v O buf = some perm) (d : Nat) (hd : d < dimension v O) :
    ∃ e, perm[d]? = some e ∧ e < dimension v O ∧ feature v O sq n' f' d = feature v O sq n f e := by
  cases v with
  | dalalTriggs =>
    simp only [dimension] at hbuf hd ⊢
    obtain ⟨p, h1, h2, h3⟩ := dalal_spec hO hbuf
    rw [hp] at h1
    cases h1
    have hd4 : d / O < 4 := Nat.div_lt_of_lt_mul (by rw [mul_comm]; exact hd)
    have hm := Nat.mod_lt d (show 0 < O by omega)
    have hs := swapBlock_spec hd4
    have hmm := mirror_mod hm
    have hdd : d % O + d / O * O = d := by rw [mul_comm]; exact Nat.mod_add_div d O
    refine ⟨(O - d % O) % O + swapBlock (d / O) * O, ?_, ?_, ?_⟩
    · rw [← h3 (d / O) hd4 (d % O) hm, hdd]
    · have := Flat.addr_lt hs.1 hmm.1
      omega
    · unfold feature
      simp only
      rw [Nat.add_mul_mod_self_right, Nat.mod_eq_of_lt hmm.1, Nat.add_mul_div_right _ _ (by omega), Nat.div_eq_of_lt hmm.1, Nat.zero_add, hn _ hd4, undirected_mirror hf hm]
  | uoctti =>
    simp only [dimension] at hbuf hd ⊢
    obtain ⟨p, h1, h2, h3, h4⟩ := uoctti_spec hO hbuf
    rw [hp] at h1
    cases h1
    have s4 : ∀ g : ℚ → ℚ, ∑ i ∈ range 4, g (n' i) = ∑ i ∈ range 4, g (n i) := by
      intro g
      simp only [Finset.sum_range_succ, Finset.sum_range_zero]
      rw [hn 0 (by omega), hn 1 (by omega), hn 2 (by omega), hn 3 (by omega)]
      simp only [swapBlock]
      norm_num
      ring
    by_cases d1 : d < 2 * O
    · have hq : ∃ q, perm[d]? = some q ∧ q < 2 * O ∧ (d + q) % (2 * O) = O := by
        by_cases d0 : d < O
        · refine ⟨O - d, (h3 d d0).1, by omega, ?_⟩
          rw [show d + (O - d) = O by omega, Nat.mod_eq_of_lt (by omega)]
        · have h5 := (h3 (d - O) (by omega)).2.1
          rw [show d - O + O = d by omega] at h5
          refine ⟨_, h5, Nat.mod_lt _ (by omega), ?_⟩
          rw [Nat.add_mod_mod, show d + (O - (d - O) + O) = O + 2 * O by omega, Nat.add_mod_right, Nat.mod_eq_of_lt (by omega)]
      obtain ⟨q, q1, q2, q3⟩ := hq
      refine ⟨q, q1, by omega, ?_⟩
      unfold feature
      simp only
      rw [if_pos d1, if_pos q2, hf d q d1 q2 q3, s4 (fun a => saturated sq a (f q))]
    · by_cases d2 : d < 3 * O
      · have h5 := (h3 (d - 2 * O) (by omega)).2.2
        rw [show d - 2 * O + 2 * O = d by omega] at h5
        have hm := mirror_mod (a := d - 2 * O) (O := O) (by omega)
        refine ⟨_, h5, by omega, ?_⟩
        unfold feature
        simp only
        rw [if_neg d1, if_pos d2, if_neg (by omega), if_pos (by omega), undirected_mirror hf (by omega), Nat.add_sub_cancel,
          s4 (fun a => saturated sq a (undirected O f ((O - (d - 2 * O)) % O)))]
      · have h5 := h4 (d - 3 * O) (by omega)
        rw [show d - 3 * O + O * 3 = d by omega] at h5
        have hs := swapBlock_spec (k := d - 3 * O) (by omega)
        refine ⟨_, h5, by omega, ?_⟩
        unfold feature
        simp only
        rw [if_neg d1, if_neg d2, if_neg (by omega), if_neg (by omega), show swapBlock (d - 3 * O) + O * 3 - 3 * O = swapBlock (d - 3 * O) by omega, hn _ (by omega)]
        congr 1
        rw [← sum_mirror O (fun k => saturated sq (n (swapBlock (d - 3 * O))) (undirected O f k))]
        apply Finset.sum_congr rfl
        intro k hk
        rw [undirected_mirror hf (Finset.mem_range.1 hk)]

/-- The features of mirrored histograms are obtained from the features of the histograms by mirroring the array of cells and by applying to each cell the permutation of the object. -/
theorem extract_mirror (E : Cfg) (b b' : Bufs) (out out' : List ℚ) (hb : Fits E.O b) (hb' : Fits E.O b') (hw : b'.w = b.w) (hh : b'.h = b.h)
    (hnorm : b.norm = List.replicate (b.w * b.h) 0) (hnorm' : b'.norm = List.replicate (b.w * b.h) 0) (hO : 1 ≤ E.O) (hsq : ∀ a, 0 < a → E.sq a ≠ 0)
    (hl : dimension E.variant E.O * (b.w * b.h) ≤ out.length) (hl' : dimension E.variant E.O * (b.w * b.h) ≤ out'.length)
    (hmir : ∀ X < b.w, ∀ Y < b.h, MirrorHist E.O (hist b.hog b.w b.h (mirrorX E.transposed b.w X) (mirrorY E.transposed b.h Y)) (hist b'.hog b.w b.h X Y))
    (buf perm : List Nat) (hbuf : buf.length = dimension E.variant E.O) (hp : permutation E.variant E.O buf = some perm) :
    ∃ r r' o o', extract E b out = some (r, o) ∧ extract E b' out' = some (r', o') ∧
      ∀ X < b.w, ∀ Y < b.h, ∀ d < dimension E.variant E.O, ∃ e, perm[d]? = some e ∧ e < dimension E.variant E.O ∧
        entry o' b.w b.h X Y d = entry o b.w b.h (mirrorX E.transposed b.w X) (mirrorY E.transposed b.h Y) e := by
  obtain ⟨r, o, h1, -, -, -, h5⟩ := extract_correct E b out hb hnorm hO hsq hl
  obtain ⟨r', o', h1', -, -, -, h5'⟩ := extract_correct E b' out' hb' (by rw [hw, hh]; exact hnorm') hO hsq (by rw [hw, hh]; exact hl')
  rw [hw, hh] at h5'
  refine ⟨r, r', o, o', h1, h1', ?_⟩
  intro X hX Y hY d hd
  have hX' : mirrorX E.transposed b.w X < b.w := by unfold mirrorX; split_ifs <;> omega
  have hY' : mirrorY E.transposed b.h Y < b.h := by unfold mirrorY; split_ifs <;> omega
  obtain ⟨e, e1, e2, e3⟩ := feature_mirror E.variant E.O hO E.sq
    (blockOf (fun X Y => cellNorm E.O (hist b.hog b.w b.h X Y)) E.transposed b.w b.h (mirrorX E.transposed b.w X) (mirrorY E.transposed b.h Y))
    (blockOf (fun X Y => cellNorm E.O (hist b'.hog b.w b.h X Y)) E.transposed b.w b.h X Y) _ _
    (fun i hi => blockOf_mirror (fun X hX Y hY => cellNorm_mirror (hmir X hX Y hY)) hX hY hi) (hmir X hX Y hY) buf perm hbuf hp d hd
  refine ⟨e, e1, e2, ?_⟩
  rw [h5' X hX Y hY d hd, h5 _ hX' _ hY' e e2, e3]

end Verif.Hog
