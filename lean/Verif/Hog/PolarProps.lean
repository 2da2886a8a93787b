import Verif.Hog.AccProps

/-!
# HOG histograms of a field in polar notation
-/

namespace Verif.Hog

open Finset

theorem wrapUp_spec (O : Nat) (hO : 1 ≤ O) (fuel : Nat) (bin : Int) (hf : bin.natAbs < fuel) :
    ∃ r : Int, wrapUp O fuel bin = some r ∧ 0 ≤ r ∧ ∃ k : Int, r = bin + k * (2 * O) := by
  induction fuel generalizing bin with
  | zero => omega
  | succ fuel ih =>
    unfold wrapUp
    by_cases h : bin < 0
    · rw [if_pos h]
      by_cases h2 : bin + O * 2 < 0
      · obtain ⟨r, h3, h4, k, h5⟩ := ih (bin + O * 2) (by omega)
        exact ⟨r, h3, h4, k + 1, by rw [h5]; ring⟩
      · obtain ⟨fuel, rfl⟩ : ∃ f, fuel = f + 1 := ⟨fuel - 1, by omega⟩
        refine ⟨bin + O * 2, ?_, by omega, 1, by ring⟩
        unfold wrapUp
        rw [if_neg h2]
    · rw [if_neg h]
      exact ⟨bin, rfl, by omega, 0, by ring⟩

/-- The number of orientations an angle is assigned to. -/
def period (O : Nat) (directed : Bool) : Nat := if directed then 2 * O else O

theorem tmod_period {O : Nat} {d : Bool} {r a k : Int} (hr : 0 ≤ r) (e : r = a + k * (2 * O)) : r.tmod (period O d : Int) = a % (period O d : Int) := by
  rw [Int.tmod_eq_emod_of_nonneg hr, e]
  cases d with
  | true =>
    have : a + k * (2 * O) = a + (period O true : Int) * k := by simp only [period, if_true]; push_cast; ring
    rw [this, Int.add_mul_emod_self_left]
  | false =>
    have : a + k * (2 * O) = a + (period O false : Int) * (2 * k) := by simp only [period, Bool.false_eq_true, if_false]; ring
    rw [this, Int.add_mul_emod_self_left]

theorem floor_half (a : ℚ) : ⌊a⌋ + (if 1 - (a - ⌊a⌋) > a - ⌊a⌋ then 0 else 1) = ⌊a + 1 / 2⌋ := by
  have h1 := Int.floor_le a
  have h2 := Int.lt_floor_add_one a
  symm
  rw [Int.floor_eq_iff]
  by_cases h : 1 - (a - ⌊a⌋) > a - ⌊a⌋
  · rw [if_pos h]
    push_cast
    constructor <;> linarith
  · rw [if_neg h]
    push_cast
    constructor <;> linarith

/-- What a vector of angle `a` (in steps) and modulus `m` gives to orientation `p`. -/
def given (E : Cfg) (directed : Bool) (m a : ℚ) (p : Nat) : ℚ :=
  if 0 < m then m * (if E.bilinear then squaredSoftAngle (period E.O directed) a p else hardAngle (period E.O directed) a p) else 0

theorem putVector_spec (E : Cfg) (modulus angle : List ℚ) (directed : Bool) (W H c x y : Nat) (hO : 1 ≤ E.O) (hm : modulus.length = W * H) (ha : angle.length = W * H)
    (hc : 0 < c) (hx : x < W) (hy : y < H) :
    ∃ l : List (Nat × ℚ), (∀ b : Bufs, b.w = cells c W → b.h = cells c H → putVector E modulus angle directed W c x y b = addBufs b l) ∧
      (∀ a ∈ l, a.1 < cells c W * cells c H * E.O * 2) ∧
      ∀ X < cells c W, ∀ Y < cells c H, ∀ p, contrib l (X + Y * cells c W + p * (cells c W * cells c H)) =
        given E directed (modulus.getD (y * W + x) 0) (angle.getD (y * W + x) 0 / (E.pi / E.O)) p * share c x y X Y := by
  have hlt : y * W + x < W * H := by rw [mul_comm W H]; exact Flat.addr_lt hy hx
  set m := modulus.getD (y * W + x) 0 with hmd
  set a := angle.getD (y * W + x) 0 with had
  have e1 : rd angle (y * W + x) = some a := by
    rw [rd_getElem?, had, List.getD_eq_getElem?_getD, List.getElem?_eq_getElem (by omega), Option.getD_some]
  have e2 : rd modulus (y * W + x) = some m := by
    rw [rd_getElem?, hmd, List.getD_eq_getElem?_getD, List.getElem?_eq_getElem (by omega), Option.getD_some]
  by_cases hm0 : m ≤ 0
  · refine ⟨[], ?_, by simp, ?_⟩
    · intro b _ _
      unfold putVector
      simp only [e1, e2, Option.bind_eq_bind, Option.bind_some]
      rw [if_pos hm0, addBufs_nil]
    · intro X _ Y _ p
      unfold given
      rw [if_neg (not_lt.2 hm0), contrib_nil, zero_mul]
  set ho := a / (E.pi / E.O) with hho
  obtain ⟨r, w1, w2, k, w3⟩ := wrapUp_spec E.O hO (⌊ho⌋.natAbs + 1) ⌊ho⌋ (by omega)
  have hper : ((E.O : Int) * (if directed = true then 2 else 1)) = (period E.O directed : Int) := by
    cases directed
    · simp [period]
    · simp [period]; ring
  have hperpos : 0 < (period E.O directed : Int) := by cases directed <;> simp [period] <;> omega
  have hperle : (period E.O directed : Int) ≤ 2 * E.O := by cases directed <;> simp [period]; omega
  set o : Bins := if E.bilinear then { b0 := r.tmod (period E.O directed : Int), b1 := (r + 1).tmod (period E.O directed : Int), w0 := 1 - (ho - ⌊ho⌋), w1 := ho - ⌊ho⌋ }
    else { b0 := (r + (if 1 - (ho - ⌊ho⌋) > ho - ⌊ho⌋ then 0 else 1)).tmod (period E.O directed : Int), w0 := 1, b1 := -1, w1 := 0 } with hodef
  set F : ℚ → ℚ → ℚ → ℚ := fun ow wx wy => m * (wx * ow) * (wy * ow) with hF
  refine ⟨binList (cells c W) (cells c H) c x y o.b0 o.w0 F ++ binList (cells c W) (cells c H) c x y o.b1 o.w1 F, ?_, ?_, ?_⟩
  · intro b hw hh
    unfold putVector
    simp only [e1, e2, Option.bind_eq_bind, Option.bind_some]
    rw [if_neg hm0, Sift.vlFloor_eq, ← hho, w1]
    simp only [Option.bind_some, hper]
    rw [← hodef]
    rw [splatBin_eq hc hx hy _ _ _ b hw hh, ← hw, ← hh]
    apply addBufs_bind
    intro b' h1 h2
    rw [splatBin_eq hc hx hy _ _ _ b' (h1.trans hw) (h2.trans hh), h1, h2]
  · have h0 : o.b0 < 2 * E.O := by
      rw [hodef]
      cases E.bilinear with
      | true =>
        simp only [if_true]
        exact lt_of_lt_of_le (Int.tmod_lt_of_pos _ hperpos) hperle
      | false =>
        simp only [Bool.false_eq_true, if_false]
        exact lt_of_lt_of_le (Int.tmod_lt_of_pos _ hperpos) hperle
    have h1 : o.b1 < 2 * E.O := by
      rw [hodef]
      cases E.bilinear with
      | true =>
        simp only [if_true]
        exact lt_of_lt_of_le (Int.tmod_lt_of_pos _ hperpos) hperle
      | false =>
        simp only [Bool.false_eq_true, if_false]
        omega
    intro a ha
    rcases List.mem_append.1 ha with ha | ha
    · exact binList_lt h0 _ _ a ha
    · exact binList_lt h1 _ _ a ha
  · intro X hX Y hY p
    rw [contrib_append, contrib_binList hX hY c x y o.b0 o.w0 (m * o.w0 ^ 2) F (fun _ _ => by simp only [hF]; ring),
      contrib_binList hX hY c x y o.b1 o.w1 (m * o.w1 ^ 2) F (fun _ _ => by simp only [hF]; ring)]
    unfold given
    rw [if_pos (not_le.1 hm0)]
    cases hB : E.bilinear with
    | true =>
      rw [hB] at hodef
      simp only [if_true] at hodef ⊢
      rw [hodef]
      simp only
      rw [tmod_period w2 w3, tmod_period (by omega : 0 ≤ r + 1) (a := ⌊ho⌋ + 1) (k := k) (by rw [w3]; ring)]
      unfold squaredSoftAngle
      split_ifs <;> ring
    | false =>
      rw [hB] at hodef
      simp only [Bool.false_eq_true, if_false] at hodef ⊢
      rw [hodef]
      simp only
      have hr' : 0 ≤ r + (if 1 - (ho - ⌊ho⌋) > ho - ⌊ho⌋ then 0 else 1) := by split_ifs <;> omega
      rw [tmod_period hr' (a := ⌊ho⌋ + (if 1 - (ho - ⌊ho⌋) > ho - ⌊ho⌋ then 0 else 1)) (k := k) (by rw [w3]; ring), floor_half, if_neg (by omega : ¬ (p : Int) = -1)]
      unfold hardAngle
      split_ifs <;> ring

/-- The function that adds a field in polar notation never accesses memory outside its buffers and the field, and leaves in entry `(X, Y, p)` of the histograms the sum over the vectors of
positive modulus of the modulus, times the weight of orientation `p` of `period` ones, times the bilinear weight of cell `(X, Y)`.  With the hard assignment to orientations, the weight is one for the
closest orientation.  With the soft assignment, it is the square of the interpolation weight: see `softPolar_claim_false`. -/
theorem putPolarField_partial (E : Cfg) (old : Option Bufs) (modulus angle : List ℚ) (directed : Bool) (W H c : Nat) (hO : 1 ≤ E.O)
    (hold : ∀ b, old = some b → Fits E.O b) (hm : modulus.length = W * H) (ha : angle.length = W * H) (hc : 0 < c) (hW : 3 < W) (hH : 3 < H) (hw : 0 < cells c W) (hh : 0 < cells c H) :
    ∃ b : Bufs, putPolarField E old modulus angle directed W H c = some b ∧ b.w = cells c W ∧ b.h = cells c H ∧ Fits E.O b ∧ b.norm = List.replicate (b.w * b.h) 0 ∧
      ∀ X < b.w, ∀ Y < b.h, ∀ p < 2 * E.O, entry b.hog b.w b.h X Y p =
        some (∑ y ∈ range H, ∑ x ∈ range W, given E directed (modulus.getD (y * W + x) 0) (angle.getD (y * W + x) 0 / (E.pi / E.O)) p * share c x y X Y) := by
  have hpix : ∀ x y, ∃ l : List (Nat × ℚ), x < W → y < H → (∀ b : Bufs, b.w = cells c W → b.h = cells c H → putVector E modulus angle directed W c x y b = addBufs b l) ∧
      (∀ a ∈ l, a.1 < cells c W * cells c H * E.O * 2) ∧
      ∀ X < cells c W, ∀ Y < cells c H, ∀ p, contrib l (X + Y * cells c W + p * (cells c W * cells c H)) =
        given E directed (modulus.getD (y * W + x) 0) (angle.getD (y * W + x) 0 / (E.pi / E.O)) p * share c x y X Y := by
    intro x y
    by_cases h : x < W ∧ y < H
    · obtain ⟨l, hl⟩ := putVector_spec E modulus angle directed W H c x y hO hm ha hc h.1 h.2
      exact ⟨l, fun _ _ => hl⟩
    · exact ⟨[], fun h1 h2 => absurd ⟨h1, h2⟩ h⟩
  choose l hl using hpix
  obtain ⟨m, h1, h2, h3⟩ := fill_spec E.O (cells c W) (cells c H) W H (fun y x => putVector E modulus angle directed W c x y) (fun y x => l x y)
    (fun y x X Y p => given E directed (modulus.getD (y * W + x) 0) (angle.getD (y * W + x) 0 / (E.pi / E.O)) p * share c x y X Y) (by
      intro y hy x hx
      exact hl x y hx hy)
  refine ⟨{ hog := m, norm := List.replicate (cells c W * cells c H) 0, w := cells c W, h := cells c H }, ?_, rfl, rfl, ⟨h2, by simp⟩, rfl, ?_⟩
  · unfold putPolarField
    rw [prepare_spec E.O old W H c hold hc hW hH hw hh]
    exact h1
  · intro X hX Y hY p hp
    exact h3 X hX Y hY p hp

/-- What the soft assignment should do: the weight of an orientation is the weight of linear interpolation. -/
def SoftPolarClaim : Prop :=
  ∀ (E : Cfg) (modulus angle : List ℚ) (directed : Bool) (W H c : Nat) (b : Bufs), 1 ≤ E.O → E.bilinear = true → 0 < E.pi → modulus.length = W * H → angle.length = W * H → 0 < c →
    putPolarField E none modulus angle directed W H c = some b →
      ∀ X < b.w, ∀ Y < b.h, ∀ p < 2 * E.O, entry b.hog b.w b.h X Y p =
        some (∑ y ∈ range H, ∑ x ∈ range W,
          max 0 (modulus.getD (y * W + x) 0) * softAngle (period E.O directed) (angle.getD (y * W + x) 0 / (E.pi / E.O)) p * share c x y X Y)

/-- One vector, half way between two orientations. -/
def halfWay : Cfg := { variant := .uoctti, O := 2, transposed := false, bilinear := true, ox := [1, 0], oy := [0, 1], sq := id, acos := id, pi := 22 / 7 }

/-- The claim is false: each cell receives the square of the weight, so that half of the modulus of a vector half way between two orientations is lost. -/
theorem softPolar_claim_false : ¬ SoftPolarClaim := by
  intro h
  have h1 := h halfWay ((List.replicate 16 0).set 5 1) (List.replicate 16 (11 / 14)) true 4 4 4
  have hb : (putPolarField halfWay none ((List.replicate 16 0).set 5 1) (List.replicate 16 (11 / 14)) true 4 4 4).map (fun b => (b.w, b.h, b.hog[0]?)) = some (1, 1, some (49 / 256)) := by
    decide +kernel
  obtain ⟨b, e, hb⟩ := Option.map_eq_some_iff.1 hb
  simp only [Prod.mk.injEq] at hb
  have h2 := h1 b (by decide) rfl (by decide +kernel) rfl rfl (by decide) e 0 (by omega) 0 (by omega) 0 (by decide)
  rw [hb.1, hb.2.1] at h2
  unfold entry at h2
  simp only [Nat.zero_mul, Nat.add_zero] at h2
  rw [hb.2.2] at h2
  revert h2
  decide +kernel

end Verif.Hog
