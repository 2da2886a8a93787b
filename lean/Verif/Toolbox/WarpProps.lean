import Verif.Toolbox.WarpModel
import Mathlib.Algebra.Order.Field.Basic
import Mathlib.Algebra.Order.Ring.Rat
import Mathlib.Algebra.Field.Rat
import Mathlib.Tactic.FieldSimp
import Mathlib.Tactic.Ring
import Mathlib.Tactic.Linarith

/-!
# `vl_imwbackward`: properties (C161, C162)
-/

namespace Verif.Toolbox

variable {K : Type} [Field K] [LinearOrder K]

/-! ## Specification -/

/-- The coordinate `x` is at the fraction `w` of the way from the grid coordinate `j` to `j1`, which is `j` itself or the next one. -/
def Between (X : List K) (x : K) (j j1 : Nat) (w : K) : Prop :=
  (j1 = j ∧ w = 0 ∧ X[j]? = some x) ∨
    (j1 = j + 1 ∧ 0 ≤ w ∧ w ≤ 1 ∧ ∃ a b, X[j]? = some a ∧ X[j + 1]? = some b ∧ x = (1 - w) * a + w * b)

/-- The pixel at row `i` and column `j` of an image with `M` rows stored by columns. -/
def gridPixel (I : List K) (M i j : Nat) : K := I.getD (j * M + i) 0

/-- The coordinate is not between the first and the last of the grid. -/
def Beyond (X : List K) (x : K) : Prop := (∀ a ∈ X, x < a) ∨ (∀ a ∈ X, a < x)

/-- The value at `(x, y)`: the bilinear interpolation in every cell that contains the point, nothing outside the grid. -/
def IsWarp (X Y I : List K) (x y : K) (z : Option K) : Prop :=
  (Beyond X x ∨ Beyond Y y → z = none) ∧
  (¬ Beyond X x → ¬ Beyond Y y → ∃ j j1 wx i i1 wy, Between X x j j1 wx ∧ Between Y y i i1 wy) ∧
  ∀ j j1 wx i i1 wy, Between X x j j1 wx → Between Y y i i1 wy →
    z = some ((1 - wy) * ((1 - wx) * gridPixel I Y.length i j + wx * gridPixel I Y.length i j1) +
      wy * ((1 - wx) * gridPixel I Y.length i1 j + wx * gridPixel I Y.length i1 j1))

/-! ## The search -/

omit [Field K] in
theorem sorted_lt {X : List K} (h : X.Pairwise (· < ·)) {i j : Nat} {a b : K} (hi : X[i]? = some a) (hj : X[j]? = some b) (hij : i < j) : a < b := by
  obtain ⟨h1, rfl⟩ := List.getElem?_eq_some_iff.mp hi
  obtain ⟨h2, rfl⟩ := List.getElem?_eq_some_iff.mp hj
  exact List.pairwise_iff_getElem.mp h i j h1 h2 hij

omit [Field K] in
theorem bisectCell_spec (x : K) (X : List K) : ∀ (fuel i j : Nat) (a b : K), i < j → j < X.length → j - i < fuel → X[i]? = some a → X[j]? = some b → a ≤ x → x < b →
    ∃ k c d, bisectCell x X fuel i j = some k ∧ k + 1 < X.length ∧ X[k]? = some c ∧ X[k + 1]? = some d ∧ c ≤ x ∧ x < d := by
  intro fuel
  induction fuel with
  | zero => intro i j a b _ _ h; omega
  | succ fuel ih =>
    intro i j a b hij hj hf ha hb hax hxb
    unfold bisectCell
    by_cases hc : i + 1 < j
    · rw [if_pos hc]
      have hp : (i + j) / 2 < X.length := by omega
      dsimp only
      rw [rd_of_lt hp]
      simp only [Option.bind_eq_bind, Option.bind_some]
      have hpv : X[(i + j) / 2]? = some X[(i + j) / 2] := List.getElem?_eq_getElem hp
      by_cases hx : x < X[(i + j) / 2]
      · rw [if_pos hx]
        exact ih i _ a _ (by omega) hp (by omega) ha hpv hax hx
      · rw [if_neg hx]
        exact ih _ j _ b (by omega) hj (by omega) hpv hb (not_lt.mp hx) hxb
    · rw [if_neg hc]
      have e : j = i + 1 := by omega
      subst e
      exact ⟨i, a, b, rfl, hj, ha, hb, hax, hxb⟩

variable [IsStrictOrderedRing K]

omit [Field K] [IsStrictOrderedRing K] in
/-- The cell that is found: half open, or the last grid coordinate. -/
theorem findNeighbor_spec {X : List K} {x a b : K} (ha : X[0]? = some a) (hb : X[X.length - 1]? = some b) (h1 : a ≤ x) (h2 : x ≤ b) :
    ∃ k : Nat, findNeighbor x X = some (k : Int) ∧ ∃ c, X[k]? = some c ∧
      ((k + 1 = X.length ∧ x = c) ∨ (k + 1 < X.length ∧ c ≤ x ∧ ∃ d, X[k + 1]? = some d ∧ x < d)) := by
  have hne : 0 < X.length := by
    by_contra h
    have : X = [] := List.length_eq_zero_iff.mp (by omega)
    rw [this] at ha; simp at ha
  unfold findNeighbor
  rw [rd_getElem?, rd_getElem?, ha, hb]
  simp only [Option.bind_eq_bind, Option.bind_some]
  rw [if_neg (not_lt.mpr h1)]
  by_cases hc : x ≥ b
  · rw [if_pos hc]
    exact ⟨X.length - 1, by congr 1; omega, b, hb, Or.inl ⟨by omega, le_antisymm h2 hc⟩⟩
  · rw [if_neg hc]
    have hlt : 0 < X.length - 1 := by
      by_contra h
      have e : X.length - 1 = 0 := by omega
      rw [e, ha] at hb
      cases hb
      exact hc h1
    obtain ⟨k, c, d, e, g1, g2, g3, g4, g5⟩ := bisectCell_spec x X (X.length + 1) 0 (X.length - 1) a b hlt (by omega) (by omega) ha hb h1 (not_le.mp hc)
    rw [e]
    exact ⟨k, rfl, c, g2, Or.inr ⟨g1, g4, d, g3, g5⟩⟩

/-- The weight of the cell. -/
theorem weight_spec {X : List K} (hX : X.Pairwise (· < ·)) {x a b : K} (ha : X[0]? = some a) (hb : X[X.length - 1]? = some b) (h1 : a ≤ x) (h2 : x ≤ b) :
    ∃ (k : Nat) (w : K), findNeighbor x X = some (k : Int) ∧ weight x X k = some w ∧ k < X.length ∧ (w ≠ 0 → k + 1 < X.length) ∧
      Between X x k (if k + 1 < X.length then k + 1 else k) w ∧
      (k + 1 < X.length → weightD x X k = some w) ∧
      ∀ j j1 v, Between X x j j1 v → ∀ f : Nat → K, (1 - w) * f k + w * f (k + 1) = (1 - v) * f j + v * f j1 := by
  obtain ⟨k, e, c, hc, h⟩ := findNeighbor_spec ha hb h1 h2
  rcases h with ⟨hk, rfl⟩ | ⟨hk, hcx, d, hd, hxd⟩
  · refine ⟨k, 0, e, ?_, by omega, fun h => absurd rfl h, Or.inl ⟨by rw [if_neg (by omega)], rfl, hc⟩, fun h => by omega, ?_⟩
    · unfold weight cellEnd
      rw [rdI_nat, rd_getElem?, hc]
      simp only [Option.bind_eq_bind, Option.bind_some]
      rw [if_neg (by omega)]
      simp [ratio]
    · rintro j j1 v (⟨rfl, rfl, hj⟩ | ⟨rfl, hv0, hv1, p, q, hp, hq, hx⟩) f
      · have : j1 = k := by
          rcases Nat.lt_trichotomy j1 k with h | h | h
          · exact absurd (sorted_lt hX hj hc h) (lt_irrefl _)
          · exact h
          · exact absurd (sorted_lt hX hc hj h) (lt_irrefl _)
        rw [this]; ring
      · have hjl : j + 1 < X.length := (List.getElem?_eq_some_iff.mp hq).1
        have hpq := sorted_lt hX hp hq (by omega)
        have hq' : q ≤ x := by
          rcases Nat.lt_or_ge (j + 1) k with h | h
          · exact (sorted_lt hX hq hc h).le
          · have : j + 1 = k := by omega
            subst this
            rw [hc] at hq
            exact le_of_eq (Option.some.inj hq).symm
        have hv : v = 1 := by
          have : (1 - v) * (q - p) ≤ 0 := by
            have e1 : x = q - (1 - v) * (q - p) := by rw [hx]; ring
            linarith
          have h3 : 1 - v ≤ 0 := by
            by_contra hcon
            have := mul_pos (not_le.mp hcon) (sub_pos.mpr hpq)
            linarith
          linarith
        subst hv
        have hxq : x = q := by rw [hx]; ring
        have : j + 1 = k := by
          rcases Nat.lt_trichotomy (j + 1) k with h | h | h
          · have := sorted_lt hX hq hc h
            rw [hxq] at this
            exact absurd this (lt_irrefl _)
          · exact h
          · omega
        rw [this]; ring
  · have hcd := sorted_lt hX hc hd (by omega)
    have hne : d - c ≠ 0 := (sub_pos.mpr hcd).ne'
    have hw0 : 0 ≤ (x - c) / (d - c) := div_nonneg (sub_nonneg.mpr hcx) (sub_pos.mpr hcd).le
    have hw1 : (x - c) / (d - c) < 1 := (div_lt_one (sub_pos.mpr hcd)).mpr (by linarith)
    have hxw : x = (1 - (x - c) / (d - c)) * c + (x - c) / (d - c) * d := by field_simp; ring
    have e2 : rdI X ((k : Int) + 1) = some d := by
      rw [rdI_eq X _ (k + 1) (by push_cast; rfl), rd_getElem?, hd]
    refine ⟨k, (x - c) / (d - c), e, ?_, by omega, fun _ => hk, Or.inr ⟨by rw [if_pos hk], hw0, hw1.le, c, d, hc, hd, hxw⟩, ?_, ?_⟩
    · unfold weight cellEnd
      rw [rdI_nat, rd_getElem?, hc]
      simp only [Option.bind_eq_bind, Option.bind_some]
      rw [if_pos (by omega), e2]
      simp [ratio, hne]
    · intro _
      unfold weightD
      rw [rdI_nat, rd_getElem?, hc]
      simp only [Option.bind_eq_bind, Option.bind_some]
      rw [e2]
      simp [ratio, hne]
    · obtain ⟨w, hw⟩ : ∃ w, w = (x - c) / (d - c) := ⟨_, rfl⟩
      rw [← hw] at hw0 hw1 hxw ⊢
      rintro j j1 v (⟨rfl, rfl, hj⟩ | ⟨rfl, hv0, hv1, p, q, hp, hq, hx⟩) f
      · have hjk : j1 = k := by
          rcases Nat.lt_trichotomy j1 k with h | h | h
          · exact absurd (sorted_lt hX hj hc h) (not_lt.mpr hcx)
          · exact h
          · rcases Nat.lt_or_ge (k + 1) j1 with h' | h'
            · exact absurd (sorted_lt hX hd hj h') (not_lt.mpr hxd.le)
            · have : k + 1 = j1 := by omega
              subst this
              rw [hd] at hj
              exact absurd hxd (by rw [Option.some.inj hj]; exact lt_irrefl _)
        subst hjk
        rw [hc] at hj
        have : c = x := Option.some.inj hj
        have hw' : w = 0 := by rw [hw, this]; simp
        rw [hw']; ring
      · have hpq := sorted_lt hX hp hq (by omega)
        have hpx : p ≤ x := by
          have := mul_nonneg hv0 (sub_pos.mpr hpq).le
          have e1 : x = p + v * (q - p) := by rw [hx]; ring
          linarith
        have hxq : x ≤ q := by
          have := mul_nonneg (sub_nonneg.mpr hv1) (sub_pos.mpr hpq).le
          have e1 : x = q - (1 - v) * (q - p) := by rw [hx]; ring
          linarith
        rcases Nat.lt_trichotomy j k with h | h | h
        · -- the end of the previous cell
          have hq' : q ≤ c := by
            rcases Nat.lt_or_ge (j + 1) k with h' | h'
            · exact (sorted_lt hX hq hc h').le
            · have : j + 1 = k := by omega
              subst this
              rw [hc] at hq
              exact le_of_eq (Option.some.inj hq).symm
          have hqc : q = c := by linarith
          have hxc : x = c := by linarith
          have hjk : j + 1 = k := by
            rcases Nat.lt_or_ge (j + 1) k with h' | h'
            · exact absurd (sorted_lt hX hq hc h') (by rw [hqc]; exact lt_irrefl _)
            · omega
          have hw' : w = 0 := by rw [hw, hxc]; simp
          have hv : v = 1 := by
            have e1 : (1 - v) * (q - p) = 0 := by
              have e1 : x = q - (1 - v) * (q - p) := by rw [hx]; ring
              linarith
            rcases mul_eq_zero.mp e1 with h3 | h3
            · linarith
            · linarith
          rw [hw', hv, hjk]; ring
        · subst h
          rw [hc] at hp
          rw [hd] at hq
          obtain rfl := Option.some.inj hp
          obtain rfl := Option.some.inj hq
          have hwv : w = v := by
            rw [hw, hx]
            field_simp
            ring
          rw [hwv]
        · exfalso
          have : d ≤ p := by
            rcases Nat.lt_or_ge (k + 1) j with h' | h'
            · exact (sorted_lt hX hd hp h').le
            · have : k + 1 = j := by omega
              subst this
              rw [hd] at hp
              exact le_of_eq (Option.some.inj hp)
          linarith

omit [LinearOrder K] [IsStrictOrderedRing K] in
theorem guarded_spec (I : List K) (c : Bool) (pt : Int) (q : Nat) (hpt : pt = q) (h : c = true → q < I.length) :
    ∃ z, guarded c I pt = some z ∧ (c = true → z = I.getD q 0) := by
  subst hpt
  unfold guarded
  cases c with
  | false => exact ⟨0, rfl, by simp⟩
  | true =>
    rw [if_pos rfl, rdI_nat, rd_of_lt (h rfl)]
    exact ⟨_, rfl, fun _ => by rw [List.getD_eq_getElem?_getD, List.getElem?_eq_getElem (h rfl)]; rfl⟩

omit [LinearOrder K] [IsStrictOrderedRing K] in
theorem corners_spec (I : List K) (M N i j : Nat) (hI : I.length = M * N) (hi : i < M) (hj : j < N) :
    ∃ z, corners I M N i j = some z ∧ z.1 = gridPixel I M i j ∧ (i + 1 < M → z.2.1 = gridPixel I M (i + 1) j) ∧
      (j + 1 < N → z.2.2.1 = gridPixel I M i (j + 1)) ∧ (i + 1 < M → j + 1 < N → z.2.2.2 = gridPixel I M (i + 1) (j + 1)) := by
  have lt : ∀ a b, a < M → b < N → b * M + a < I.length := by
    intro a b ha hb
    rw [hI]
    calc b * M + a < b * M + M := by omega
      _ = (b + 1) * M := by ring
      _ ≤ N * M := Nat.mul_le_mul_right _ hb
      _ = M * N := Nat.mul_comm _ _
  unfold corners
  dsimp only
  obtain ⟨z0, e0, h0⟩ := guarded_spec I (decide ((j : Int) > -1) && decide ((i : Int) > -1)) ((j : Int) * M + i) (j * M + i) (by push_cast; ring) (fun _ => lt i j hi hj)
  obtain ⟨z1, e1, h1⟩ := guarded_spec I (decide ((j : Int) > -1) && decide ((i : Int) < (M : Int) - 1)) ((j : Int) * M + i + 1) (j * M + (i + 1)) (by push_cast; ring)
    (fun h => lt _ _ (by simp at h; omega) hj)
  obtain ⟨z2, e2, h2⟩ := guarded_spec I (decide ((j : Int) < (N : Int) - 1) && decide ((i : Int) > -1)) ((j : Int) * M + i + 1 + ((M : Int) - 1)) ((j + 1) * M + i) (by push_cast; ring)
    (fun h => lt _ _ hi (by simp at h; omega))
  obtain ⟨z3, e3, h3⟩ := guarded_spec I (decide ((j : Int) < (N : Int) - 1) && decide ((i : Int) < (M : Int) - 1)) ((j : Int) * M + i + 1 + ((M : Int) - 1) + 1) ((j + 1) * M + (i + 1)) (by push_cast; ring)
    (fun h => lt _ _ (by simp at h; omega) (by simp at h; omega))
  rw [e0]; simp only [Option.bind_eq_bind, Option.bind_some]
  rw [e1]; simp only [Option.bind_some]
  rw [e2]; simp only [Option.bind_some]
  rw [e3]; simp only [Option.bind_some]
  refine ⟨_, rfl, h0 (by simp; omega), fun h => h1 (by simp; omega), fun h => h2 (by simp; omega), fun h h' => h3 (by simp; omega)⟩

omit [IsStrictOrderedRing K] in
/-- The interpolation of the found cell. -/
theorem blend_spec (I : List K) (M N i j : Nat) (z : K × K × K × K) (wx wy : K) (hx : wx ≠ 0 → j + 1 < N) (hy : wy ≠ 0 → i + 1 < M)
    (h0 : z.1 = gridPixel I M i j) (h1 : i + 1 < M → z.2.1 = gridPixel I M (i + 1) j) (h2 : j + 1 < N → z.2.2.1 = gridPixel I M i (j + 1))
    (h3 : i + 1 < M → j + 1 < N → z.2.2.2 = gridPixel I M (i + 1) (j + 1)) :
    blend wx wy z = (1 - wy) * ((1 - wx) * gridPixel I M i j + wx * gridPixel I M i (j + 1)) +
      wy * ((1 - wx) * gridPixel I M (i + 1) j + wx * gridPixel I M (i + 1) (j + 1)) := by
  unfold blend
  rw [h0]
  by_cases hwx : wx = 0
  · by_cases hwy : wy = 0
    · rw [hwx, hwy]; ring
    · rw [hwx, h1 (hy hwy)]; ring
  · by_cases hwy : wy = 0
    · rw [hwy, h2 (hx hwx)]; ring
    · rw [h1 (hy hwy), h2 (hx hwx), h3 (hy hwy) (hx hwx)]

omit [Field K] [IsStrictOrderedRing K] in
theorem ends {X : List K} (hX : X.Pairwise (· < ·)) (hne : X ≠ []) : ∃ a b, X[0]? = some a ∧ X[X.length - 1]? = some b ∧
    ∀ x, (Beyond X x ↔ ¬ (a ≤ x ∧ x ≤ b)) := by
  have hl : 0 < X.length := List.length_pos_iff.mpr hne
  have ha : X[0]? = some X[0] := List.getElem?_eq_getElem hl
  have hb : X[X.length - 1]? = some X[X.length - 1] := List.getElem?_eq_getElem (by omega)
  refine ⟨_, _, ha, hb, ?_⟩
  intro x
  constructor
  · rintro (h | h) ⟨h1, h2⟩
    · exact absurd (h _ (List.getElem_mem hl)) (not_lt.mpr h1)
    · exact absurd (h _ (List.getElem_mem (show X.length - 1 < X.length by omega))) (not_lt.mpr h2)
  · intro h
    by_cases h1 : X[0] ≤ x
    · right
      intro c hc
      have h2 : X[X.length - 1] < x := by
        by_contra hcon
        exact h ⟨h1, not_lt.mp hcon⟩
      obtain ⟨k, hk, rfl⟩ := List.mem_iff_getElem.mp hc
      rcases Nat.lt_or_ge k (X.length - 1) with h' | h'
      · exact lt_trans (sorted_lt hX (List.getElem?_eq_getElem hk) hb h') h2
      · have : k = X.length - 1 := by omega
        subst this; exact h2
    · left
      intro c hc
      obtain ⟨k, hk, rfl⟩ := List.mem_iff_getElem.mp hc
      rcases Nat.eq_zero_or_pos k with h' | h'
      · subst h'; exact not_le.mp h1
      · exact lt_trans (not_le.mp h1) (sorted_lt hX ha (List.getElem?_eq_getElem hk) h')

omit [Field K] [IsStrictOrderedRing K] in
theorem inGrid_spec {X Y : List K} {a b c d : K} (ha : X[0]? = some a) (hb : X[X.length - 1]? = some b) (hc : Y[0]? = some c) (hd : Y[Y.length - 1]? = some d) (x y : K) :
    inGrid X Y x y = some (decide (a ≤ x ∧ x ≤ b ∧ c ≤ y ∧ y ≤ d)) := by
  unfold inGrid
  rw [rd_getElem?, rd_getElem?, rd_getElem?, rd_getElem?, ha, hb, hc, hd]
  simp only [Option.bind_eq_bind, Option.bind_some, Option.some.injEq]
  rw [Bool.eq_iff_iff]
  simp [and_assoc]

/-- C161: the value at a point is the bilinear interpolation of the image in the cell of the grid that contains it, and the NaN outside. -/
theorem warpPoint_correct (X Y I : List K) (hX : X.Pairwise (· < ·)) (hY : Y.Pairwise (· < ·)) (hX0 : X ≠ []) (hY0 : Y ≠ [])
    (hI : I.length = Y.length * X.length) (x y : K) : ∃ z, warpPoint X Y I x y = some z ∧ IsWarp X Y I x y z := by
  obtain ⟨a, b, ha, hb, hbx⟩ := ends hX hX0
  obtain ⟨c, d, hc, hd, hby⟩ := ends hY hY0
  unfold warpPoint
  rw [inGrid_spec ha hb hc hd]
  simp only [Option.bind_eq_bind, Option.bind_some]
  by_cases hin : a ≤ x ∧ x ≤ b ∧ c ≤ y ∧ y ≤ d
  · rw [if_pos (by simpa using hin)]
    obtain ⟨j, wx, f1, w1, l1, n1, b1, _, s1⟩ := weight_spec hX ha hb hin.1 hin.2.1
    obtain ⟨i, wy, f2, w2, l2, n2, b2, _, s2⟩ := weight_spec hY hc hd hin.2.2.1 hin.2.2.2
    obtain ⟨z, e, z0, z1, z2, z3⟩ := corners_spec I Y.length X.length i j hI l2 l1
    rw [f1]; simp only [Option.bind_some]
    rw [f2]; simp only [Option.bind_some]
    rw [w1]; simp only [Option.bind_some]
    rw [w2]; simp only [Option.bind_some]
    rw [e]; simp only [Option.bind_some]
    refine ⟨_, rfl, ?_, fun _ _ => ⟨_, _, _, _, _, _, b1, b2⟩, ?_⟩
    · rintro (h | h)
      · exact absurd ⟨hin.1, hin.2.1⟩ ((hbx x).mp h)
      · exact absurd hin.2.2 ((hby y).mp h)
    · intro j' j1' wx' i' i1' wy' hbj hbi
      rw [blend_spec I Y.length X.length i j z wx wy n1 n2 z0 z1 z2 z3, s1 j' j1' wx' hbj (fun j => gridPixel I Y.length i j),
        s1 j' j1' wx' hbj (fun j => gridPixel I Y.length (i + 1) j)]
      congr 1
      exact s2 i' i1' wy' hbi (fun i => (1 - wx') * gridPixel I Y.length i j' + wx' * gridPixel I Y.length i j1')
  · rw [if_neg (by simpa using hin)]
    have hbe : ∀ j j1 wx i i1 wy, Between X x j j1 wx → Between Y y i i1 wy → False := by
      have key : ∀ (X : List K) (x a b : K), X.Pairwise (· < ·) → X[0]? = some a → X[X.length - 1]? = some b → ∀ j j1 w, Between X x j j1 w → a ≤ x ∧ x ≤ b := by
        intro X x a b hX ha hb j j1 w hbt
        have bd : ∀ (k : Nat) (p : K), X[k]? = some p → a ≤ p ∧ p ≤ b := by
          intro k p hp
          have hk := (List.getElem?_eq_some_iff.mp hp).1
          constructor
          · rcases Nat.eq_zero_or_pos k with h | h
            · subst h; rw [ha] at hp; exact le_of_eq (Option.some.inj hp)
            · exact (sorted_lt hX ha hp h).le
          · rcases Nat.lt_or_ge k (X.length - 1) with h | h
            · exact (sorted_lt hX hp hb h).le
            · have : k = X.length - 1 := by omega
              subst this; rw [hb] at hp; exact le_of_eq (Option.some.inj hp).symm
        rcases hbt with ⟨_, _, hj⟩ | ⟨_, hv0, hv1, p, q, hp, hq, rfl⟩
        · exact bd _ _ hj
        · obtain ⟨p1, p2⟩ := bd _ _ hp
          obtain ⟨q1, q2⟩ := bd _ _ hq
          have e1 : (1 - w) * p + w * q - a = (1 - w) * (p - a) + w * (q - a) := by ring
          have e2 : b - ((1 - w) * p + w * q) = (1 - w) * (b - p) + w * (b - q) := by ring
          have t1 := mul_nonneg (sub_nonneg.mpr hv1) (sub_nonneg.mpr p1)
          have t2 := mul_nonneg hv0 (sub_nonneg.mpr q1)
          have t3 := mul_nonneg (sub_nonneg.mpr hv1) (sub_nonneg.mpr p2)
          have t4 := mul_nonneg hv0 (sub_nonneg.mpr q2)
          constructor <;> linarith
      intro j j1 wx i i1 wy h1 h2
      obtain ⟨g1, g2⟩ := key X x a b hX ha hb _ _ _ h1
      exact hin ⟨g1, g2, key Y y c d hY hc hd _ _ _ h2⟩
    refine ⟨none, rfl, fun _ => rfl, ?_, fun j j1 wx i i1 wy h1 h2 => (hbe j j1 wx i i1 wy h1 h2).elim⟩
    intro h1 h2
    rw [hbx, not_not] at h1
    rw [hby, not_not] at h2
    exact absurd ⟨h1.1, h1.2, h2⟩ hin

theorem pointer_loop {β : Type} (Mp Np : Nat) (v : Nat → β) (step : Nat → Nat → List β × Nat → Option (List β × Nat)) (out : List β) (hl : out.length = Mp * Np)
    (hs : ∀ jp < Np, ∀ ip < Mp, ∀ o : List β, step jp ip (o, jp * Mp + ip) = (wr o (jp * Mp + ip) (v (jp * Mp + ip))).bind fun o => some (o, jp * Mp + ip + 1)) :
    ∃ o, iter Np (fun jp => iter Mp (fun ip => step jp ip)) (out, 0) = some (o, Mp * Np) ∧ o = (List.range (Mp * Np)).map v := by
  obtain ⟨s, e, h1, h2, h3⟩ := iter_inv (n := Np) (f := fun jp => iter Mp (fun ip => step jp ip)) (s := (out, 0))
    (fun jp s => s.2 = jp * Mp ∧ s.1.length = Mp * Np ∧ ∀ k < jp * Mp, s.1[k]? = some (v k)) ⟨by simp, hl, by simp⟩ (by
      rintro jp hjp s ⟨h1, h2, h3⟩
      obtain ⟨s', e, g1, g2, g3⟩ := iter_inv (n := Mp) (f := fun ip => step jp ip) (s := s)
        (fun ip s => s.2 = jp * Mp + ip ∧ s.1.length = Mp * Np ∧ ∀ k < jp * Mp + ip, s.1[k]? = some (v k)) ⟨h1, h2, h3⟩ (by
          rintro ip hip ⟨o, p⟩ ⟨i1, i2, i3⟩
          dsimp only at i1 i2 i3
          subst i1
          have hlt : jp * Mp + ip < o.length := by
            rw [i2]
            calc jp * Mp + ip < jp * Mp + Mp := by omega
              _ = (jp + 1) * Mp := by ring
              _ ≤ Np * Mp := Nat.mul_le_mul_right _ hjp
              _ = Mp * Np := Nat.mul_comm _ _
          refine ⟨(o.set (jp * Mp + ip) (v (jp * Mp + ip)), jp * Mp + ip + 1), ?_, rfl, by simpa using i2, ?_⟩
          · rw [hs jp hjp ip hip, wr_of_lt hlt]; rfl
          · intro k hk
            rw [List.getElem?_set]
            by_cases hkk : jp * Mp + ip = k
            · rw [if_pos hkk, if_pos hlt, hkk]
            · rw [if_neg hkk]; exact i3 k (by omega))
      refine ⟨s', e, by rw [g1]; ring, g2, ?_⟩
      intro k hk
      exact g3 k (by rw [Nat.add_mul, Nat.one_mul] at hk; exact hk))
  refine ⟨s.1, by rw [e]; congr 1; exact Prod.ext rfl (by rw [h1]; exact Nat.mul_comm _ _), ?_⟩
  apply List.ext_getElem?
  intro k
  rcases Nat.lt_or_ge k (Mp * Np) with hk | hk
  · rw [h3 k (by rw [Nat.mul_comm]; exact hk)]
    simp [hk]
  · rw [List.getElem?_eq_none (by omega), List.getElem?_eq_none (by simpa using hk)]

/-- C161: each element of the result is the value at the point with the coordinates given by the corresponding elements of the arguments. -/
theorem warp_correct (X Y I PX PY : List K) (Mp Np : Nat) (out : List (Option K)) (hX : X.Pairwise (· < ·)) (hY : Y.Pairwise (· < ·)) (hX0 : X ≠ []) (hY0 : Y ≠ [])
    (hI : I.length = Y.length * X.length) (hPX : PX.length = Mp * Np) (hPY : PY.length = Mp * Np) (hout : out.length = Mp * Np) :
    ∃ o, warp X Y I PX PY Mp Np out = some (o, Mp * Np) ∧ o.length = Mp * Np ∧
      ∀ (k : Nat) (x y : K), PX[k]? = some x → PY[k]? = some y → ∃ z, o[k]? = some z ∧ IsWarp X Y I x y z := by
  choose V hV using fun x y => warpPoint_correct X Y I hX hY hX0 hY0 hI x y
  obtain ⟨o, e, ho⟩ := pointer_loop Mp Np (fun k => V (PX.getD k 0) (PY.getD k 0)) (fun jp ip => warpStep X Y I PX PY Mp jp ip) out hout (by
    intro jp hjp ip hip o
    have hlt : jp * Mp + ip < Mp * Np := by
      calc jp * Mp + ip < jp * Mp + Mp := by omega
        _ = (jp + 1) * Mp := by ring
        _ ≤ Np * Mp := Nat.mul_le_mul_right _ hjp
        _ = Mp * Np := Nat.mul_comm _ _
    unfold warpStep
    dsimp only
    rw [rd_of_lt (show jp * Mp + ip < PX.length by omega), rd_of_lt (show jp * Mp + ip < PY.length by omega)]
    simp only [Option.bind_eq_bind, Option.bind_some]
    have e1 : PX.getD (jp * Mp + ip) 0 = PX[jp * Mp + ip]'(by omega) := by
      rw [List.getD_eq_getElem?_getD, List.getElem?_eq_getElem (by omega)]; rfl
    have e2 : PY.getD (jp * Mp + ip) 0 = PY[jp * Mp + ip]'(by omega) := by
      rw [List.getD_eq_getElem?_getD, List.getElem?_eq_getElem (by omega)]; rfl
    rw [e1, e2, (hV _ _).1]
    rfl)
  refine ⟨o, e, by rw [ho]; simp, ?_⟩
  intro k x y hx hy
  have hk : k < Mp * Np := by rw [← hPX]; exact (List.getElem?_eq_some_iff.mp hx).1
  have hz := (hV (PX.getD k 0) (PY.getD k 0)).2
  refine ⟨V (PX.getD k 0) (PY.getD k 0), by rw [ho]; simp [hk], ?_⟩
  have e1 : PX.getD k 0 = x := by rw [List.getD_eq_getElem?_getD, hx]; rfl
  have e2 : PY.getD k 0 = y := by rw [List.getD_eq_getElem?_getD, hy]; rfl
  rw [e1, e2] at hz ⊢
  exact hz

/-- A 2 by 3 image on an irregular grid. -/
example : (([0, 1, 3] : List ℚ).Pairwise (· < ·) ∧ ([0, 2] : List ℚ).Pairwise (· < ·) ∧ ([1, 2, 3, 4, 5, 6] : List ℚ).length = 2 * 3) ∧
    warp ([0, 1, 3] : List ℚ) [0, 2] [1, 2, 3, 4, 5, 6] [0, 2, 3, 4] [0, 1, 2, 0] 2 2 [none, none, none, none] = some ([some 1, some (9 / 2), some 6, none], 4) := by
  refine ⟨⟨by decide, by decide, by decide⟩, by decide +kernel⟩

/-! ## The derivatives -/

/-- C162: left of the last column and above the last row the value is that of the function without derivatives, and the derivatives are the slopes of the
interpolated image in the cell, per cell and not per unit of length. -/
theorem warpPointD_correct (X Y I : List K) (hX : X.Pairwise (· < ·)) (hY : Y.Pairwise (· < ·)) (hI : I.length = Y.length * X.length) (j i : Nat) (x0 x1 y0 y1 x y : K)
    (hx0 : X[j]? = some x0) (hx1 : X[j + 1]? = some x1) (hy0 : Y[i]? = some y0) (hy1 : Y[i + 1]? = some y1) (h1 : x0 ≤ x) (h2 : x < x1) (h3 : y0 ≤ y) (h4 : y < y1) :
    ∃ z zx zy, warpPointD X Y I x y = some (some (z, zx, zy)) ∧ warpPoint X Y I x y = some (some z) ∧
      (∀ x', x0 ≤ x' → x' ≤ x1 → ∃ z', warpPoint X Y I x' y = some (some z') ∧ z' - z = zx * ((x' - x) / (x1 - x0))) ∧
      (∀ y', y0 ≤ y' → y' ≤ y1 → ∃ z', warpPoint X Y I x y' = some (some z') ∧ z' - z = zy * ((y' - y) / (y1 - y0))) := by
  have hjl := (List.getElem?_eq_some_iff.mp hx1).1
  have hil := (List.getElem?_eq_some_iff.mp hy1).1
  have hX0 : X ≠ [] := by rintro rfl; simp at hx0
  have hY0 : Y ≠ [] := by rintro rfl; simp at hy0
  have hxx := sorted_lt hX hx0 hx1 (by omega)
  have hyy := sorted_lt hY hy0 hy1 (by omega)
  -- the fraction of a coordinate in the cell
  have frac : ∀ (X : List K) (j : Nat) (x0 x1 x : K), X[j]? = some x0 → X[j + 1]? = some x1 → x0 < x1 → x0 ≤ x → x ≤ x1 → Between X x j (j + 1) ((x - x0) / (x1 - x0)) := by
    intro X j x0 x1 x e0 e1 hlt g1 g2
    have hne : x1 - x0 ≠ 0 := (sub_pos.mpr hlt).ne'
    refine Or.inr ⟨rfl, div_nonneg (sub_nonneg.mpr g1) (sub_pos.mpr hlt).le, (div_le_one (sub_pos.mpr hlt)).mpr (by linarith), x0, x1, e0, e1, ?_⟩
    field_simp
    ring
  have val : ∀ x y, x0 ≤ x → x ≤ x1 → y0 ≤ y → y ≤ y1 → warpPoint X Y I x y = some (some
      ((1 - (y - y0) / (y1 - y0)) * ((1 - (x - x0) / (x1 - x0)) * gridPixel I Y.length i j + (x - x0) / (x1 - x0) * gridPixel I Y.length i (j + 1)) +
        (y - y0) / (y1 - y0) * ((1 - (x - x0) / (x1 - x0)) * gridPixel I Y.length (i + 1) j + (x - x0) / (x1 - x0) * gridPixel I Y.length (i + 1) (j + 1)))) := by
    intro x y g1 g2 g3 g4
    obtain ⟨z, e, _, _, h⟩ := warpPoint_correct X Y I hX hY hX0 hY0 hI x y
    rw [e, h _ _ _ _ _ _ (frac X j x0 x1 x hx0 hx1 hxx g1 g2) (frac Y i y0 y1 y hy0 hy1 hyy g3 g4)]
  obtain ⟨a, b, ha, hb, hbx⟩ := ends hX hX0
  obtain ⟨c, d, hc, hd, hby⟩ := ends hY hY0
  have inx : a ≤ x ∧ x ≤ b := by
    by_contra hcon
    rcases (hbx x).mpr hcon with h | h
    · exact absurd (h x0 (List.mem_of_getElem? hx0)) (not_lt.mpr h1)
    · exact absurd (h x1 (List.mem_of_getElem? hx1)) (not_lt.mpr h2.le)
  have iny : c ≤ y ∧ y ≤ d := by
    by_contra hcon
    rcases (hby y).mpr hcon with h | h
    · exact absurd (h y0 (List.mem_of_getElem? hy0)) (not_lt.mpr h3)
    · exact absurd (h y1 (List.mem_of_getElem? hy1)) (not_lt.mpr h4.le)
  -- the cell that is found is this one
  have cell : ∀ (X : List K), X.Pairwise (· < ·) → ∀ (j k : Nat) (x0 x1 x w : K), X[j]? = some x0 → X[j + 1]? = some x1 → x0 ≤ x → x < x1 → j + 1 < X.length →
      findNeighbor x X = some (k : Int) → (∃ c, X[k]? = some c ∧ ((k + 1 = X.length ∧ x = c) ∨ (k + 1 < X.length ∧ c ≤ x ∧ ∃ d, X[k + 1]? = some d ∧ x < d))) → k = j := by
    intro X hX j k x0 x1 x w e0 e1 g1 g2 hl _ ⟨c, hc, h⟩
    rcases h with ⟨hk, rfl⟩ | ⟨hk, hcx, d, hd, hxd⟩
    · exfalso
      rcases Nat.lt_or_ge (j + 1) k with h' | h'
      · exact absurd (sorted_lt hX e1 hc h') (not_lt.mpr g2.le)
      · have : k = j + 1 := by omega
        subst this
        rw [hc] at e1
        exact absurd g2 (by rw [Option.some.inj e1]; exact lt_irrefl _)
    · rcases Nat.lt_trichotomy k j with h' | h' | h'
      · exfalso
        rcases Nat.lt_or_ge (k + 1) j with h'' | h''
        · exact absurd (lt_of_lt_of_le (lt_trans hxd (sorted_lt hX hd e0 h'')) g1) (lt_irrefl _)
        · have : k + 1 = j := by omega
          subst this
          rw [hd] at e0
          rw [← Option.some.inj e0] at g1
          exact absurd hxd (not_lt.mpr g1)
      · exact h'
      · exfalso
        rcases Nat.lt_or_ge (j + 1) k with h'' | h''
        · exact absurd (lt_of_lt_of_le (lt_trans g2 (sorted_lt hX e1 hc h'')) hcx) (lt_irrefl _)
        · have : j + 1 = k := by omega
          subst this
          rw [hc] at e1
          rw [← Option.some.inj e1] at g2
          exact absurd g2 (not_lt.mpr hcx)
  have wd : ∀ (X : List K) (j : Nat) (x0 x1 x : K), X[j]? = some x0 → X[j + 1]? = some x1 → x0 < x1 → weightD x X j = some ((x - x0) / (x1 - x0)) := by
    intro X j x0 x1 x e0 e1 hlt
    unfold weightD
    rw [rdI_nat, rd_getElem?, e0]
    simp only [Option.bind_eq_bind, Option.bind_some]
    rw [rdI_eq X _ (j + 1) (by push_cast; rfl), rd_getElem?, e1]
    simp [ratio, (sub_pos.mpr hlt).ne']
  obtain ⟨k, f1, cj⟩ := findNeighbor_spec ha hb inx.1 inx.2
  obtain rfl : k = j := cell X hX j k x0 x1 x 0 hx0 hx1 h1 h2 hjl f1 cj
  obtain ⟨l, f2, ci⟩ := findNeighbor_spec hc hd iny.1 iny.2
  obtain rfl : l = i := cell Y hY i l y0 y1 y 0 hy0 hy1 h3 h4 hil f2 ci
  obtain ⟨z, e, z0, z1, z2, z3⟩ := corners_spec I Y.length X.length l k hI (by omega) (by omega)
  have hpt := val x y h1 h2.le h3 h4.le
  have hbl := blend_spec I Y.length X.length l k z ((x - x0) / (x1 - x0)) ((y - y0) / (y1 - y0)) (fun _ => hjl) (fun _ => hil) z0 z1 z2 z3
  refine ⟨_, (1 - (y - y0) / (y1 - y0)) * (gridPixel I Y.length l (k + 1) - gridPixel I Y.length l k) +
      (y - y0) / (y1 - y0) * (gridPixel I Y.length (l + 1) (k + 1) - gridPixel I Y.length (l + 1) k),
    (1 - (x - x0) / (x1 - x0)) * (gridPixel I Y.length (l + 1) k - gridPixel I Y.length l k) +
      (x - x0) / (x1 - x0) * (gridPixel I Y.length (l + 1) (k + 1) - gridPixel I Y.length l (k + 1)), ?_, by rw [hpt, ← hbl], ?_, ?_⟩
  rotate_left
  · intro x' g1 g2
    refine ⟨_, val x' y g1 g2 h3 h4.le, ?_⟩
    rw [hbl]
    have hne : x1 - x0 ≠ 0 := (sub_pos.mpr hxx).ne'
    have e1 : (x' - x) / (x1 - x0) = (x' - x0) / (x1 - x0) - (x - x0) / (x1 - x0) := by field_simp; ring
    rw [e1]; ring
  · intro y' g1 g2
    refine ⟨_, val x y' h1 h2.le g1 g2, ?_⟩
    rw [hbl]
    have hne : y1 - y0 ≠ 0 := (sub_pos.mpr hyy).ne'
    have e1 : (y' - y) / (y1 - y0) = (y' - y0) / (y1 - y0) - (y - y0) / (y1 - y0) := by field_simp; ring
    rw [e1]; ring
  · unfold warpPointD
    rw [inGrid_spec ha hb hc hd]
    simp only [Option.bind_eq_bind, Option.bind_some]
    rw [if_pos (by simpa using ⟨inx.1, inx.2, iny⟩), f1]
    simp only [Option.bind_some]
    rw [f2]; simp only [Option.bind_some]
    rw [wd X k x0 x1 x hx0 hx1 hxx]; simp only [Option.bind_some]
    rw [wd Y l y0 y1 y hy0 hy1 hyy]; simp only [Option.bind_some]
    rw [e]; simp only [Option.bind_some]
    rw [z0, z1 hil, z2 hjl, z3 hil hjl]

omit [IsStrictOrderedRing K] in
/-- C162: with derivatives too each element of the results belongs to the corresponding elements of the arguments. -/
theorem warpD_points (X Y I PX PY : List K) (Mp Np : Nat) (out : List (Option (K × K × K))) (V : Nat → Option (K × K × K)) (hPX : PX.length = Mp * Np) (hPY : PY.length = Mp * Np)
    (hout : out.length = Mp * Np) (hV : ∀ k x y, PX[k]? = some x → PY[k]? = some y → warpPointD X Y I x y = some (V k)) :
    ∃ o, warpD X Y I PX PY Mp Np out = some (o, Mp * Np) ∧ o.length = Mp * Np ∧ ∀ k < Mp * Np, o[k]? = some (V k) := by
  obtain ⟨o, e, ho⟩ := pointer_loop Mp Np V (fun jp ip => warpStepD X Y I PX PY Mp jp ip) out hout (by
    intro jp hjp ip hip o
    have hlt : jp * Mp + ip < Mp * Np := by
      calc jp * Mp + ip < jp * Mp + Mp := by omega
        _ = (jp + 1) * Mp := by ring
        _ ≤ Np * Mp := Nat.mul_le_mul_right _ hjp
        _ = Mp * Np := Nat.mul_comm _ _
    unfold warpStepD
    dsimp only
    rw [rd_of_lt (show jp * Mp + ip < PX.length by omega), rd_of_lt (show jp * Mp + ip < PY.length by omega)]
    simp only [Option.bind_eq_bind, Option.bind_some]
    rw [hV (jp * Mp + ip) _ _ (List.getElem?_eq_getElem (by omega)) (List.getElem?_eq_getElem (by omega))]
    rfl)
  exact ⟨o, e, by rw [ho]; simp, fun k hk => by rw [ho]; simp [hk]⟩

/-- A cell of two units. -/
example : (([0, 2] : List ℚ).Pairwise (· < ·) ∧ ([0, 1] : List ℚ).Pairwise (· < ·)) ∧
    warpPointD ([0, 2] : List ℚ) [0, 1] [1, 2, 5, 6] 1 0 = some (some (3, 4, 1)) := by
  refine ⟨⟨by decide, by decide⟩, by decide +kernel⟩

/-- The derivatives can be computed wherever the value can. -/
def WarpDSafeClaim : Prop :=
  ∀ (X Y I : List ℚ), X.Pairwise (· < ·) → Y.Pairwise (· < ·) → X ≠ [] → Y ≠ [] → I.length = Y.length * X.length → ∀ x y, (warpPointD X Y I x y).isSome = true

/-- C162: on the last column the coordinates are read beyond their end. -/
theorem warpDSafe_claim_false : ¬ WarpDSafeClaim := by
  intro h
  have := h [0, 1] [0, 1] [1, 2, 5, 6] (by decide) (by decide) (by decide) (by decide) (by decide) 1 0
  revert this
  decide +kernel

/-- The derivatives are those of the interpolated image. -/
def WarpDClaim : Prop :=
  ∀ (X Y I : List ℚ), X.Pairwise (· < ·) → Y.Pairwise (· < ·) → I.length = Y.length * X.length → ∀ (j i : Nat) (x0 x1 y0 y1 x y : ℚ),
    X[j]? = some x0 → X[j + 1]? = some x1 → Y[i]? = some y0 → Y[i + 1]? = some y1 → x0 ≤ x → x < x1 → y0 ≤ y → y < y1 →
    ∀ z zx zy, warpPointD X Y I x y = some (some (z, zx, zy)) → ∀ x' z', x0 ≤ x' → x' ≤ x1 → warpPoint X Y I x' y = some (some z') → z' - z = zx * (x' - x)

/-- C162: they are not when the grid does not have unit steps. -/
theorem warpD_claim_false : ¬ WarpDClaim := by
  intro h
  have := h [0, 2] [0, 1] [1, 2, 5, 6] (by decide) (by decide) (by decide) 0 0 0 2 0 1 1 0 rfl rfl rfl rfl (by norm_num) (by norm_num) (by norm_num) (by norm_num)
    3 4 1 (by decide +kernel) 2 5 (by norm_num) (by norm_num) (by decide +kernel)
  norm_num at this

end Verif.Toolbox
