import Verif.Toolbox.ImdistModel
import Verif.Imop.DistProps

/-!
# `vl_imdisttf`: properties (C159, C160)
-/

namespace Verif.Toolbox

open Verif.Imop

variable {K : Type} [Field K] [LinearOrder K] [IsStrictOrderedRing K]

/-- The pixel at column `x` and row `y` of a matrix with `M` rows. -/
def pixel (I : List K) (M x y : Nat) : K := I.getD (y + x * M) 0

/-- The function `DT` is the transform of the image with the given parameters, and `ix`, if there is one, gives the pixels where the minima are
reached, counted from one along the columns. -/
def IsDistTransform (I : List K) (M N : Nat) (p0 p1 p2 p3 : K) (dt : List K) (ix : Option (List Nat)) : Prop :=
  dt.length = M * N ∧ (∀ l, ix = some l → l.length = M * N) ∧
    ∀ x < N, ∀ y < M, ∃ u < N, ∃ v < M, pixel dt M x y = pixel I M u v + p0 * ((x : K) - u - p1) ^ 2 + p2 * ((y : K) - v - p3) ^ 2 ∧
      (∀ l, ix = some l → l[y + x * M]? = some (v + u * M + 1)) ∧
      ∀ u' < N, ∀ v' < M, pixel dt M x y ≤ pixel I M u' v' + p0 * ((x : K) - u' - p1) ^ 2 + p2 * ((y : K) - v' - p3) ^ 2

/-- C159: the result is the minimum over the whole image of the pixel plus the weighted squared distance, and the second result the index of a
minimising pixel. -/
theorem imdisttf_correct (eps : K) (I : List K) (M N : Nat) (p0 p1 p2 p3 : K) (want : Bool) (hI : I.length = M * N) (heps : 0 ≤ eps)
    (h0 : p0 = 0 ∨ eps < p0) (h2 : p2 = 0 ∨ eps < p2) :
    ∃ dt ix, imdisttf eps I M N p0 p1 p2 p3 want = some (some (dt, ix)) ∧ (ix.isSome = want) ∧ IsDistTransform I M N p0 p1 p2 p3 dt ix := by
  obtain ⟨r1, r2, e1, e2, l2, k2, h⟩ := distanceTransform_2d_gen I (List.replicate (M * N) 0) (imdistIndexes (M * N) want) M N eps p2 p3 p0 p1 heps h2 h0 hI
    (by simp) (by
      intro l hl
      unfold imdistIndexes at hl
      split at hl
      · cases hl; simp
      · cases hl)
  have hn0 : ¬ (p0 < 0 ∨ p2 < 0) := by
    rintro (h' | h')
    · rcases h0 with rfl | h0
      · exact lt_irrefl _ h'
      · linarith
    · rcases h2 with rfl | h2
      · exact lt_irrefl _ h'
      · linarith
  refine ⟨r2.mem, r2.idx, ?_, ?_, l2, ?_, ?_⟩
  · unfold imdisttf
    rw [if_neg hn0]
    dsimp only
    rw [e1]
    simp only [Option.bind_eq_bind, Option.bind_some]
    rw [e2]
    rfl
  · unfold imdistIndexes at k2
    cases want <;> cases hr : r2.idx <;> rw [hr] at k2 <;> simp at k2 <;> rfl
  · intro l hl
    unfold imdistIndexes at k2
    rw [hl] at k2
    cases want <;> simp at k2
    exact k2
  · intro x hx y hy
    obtain ⟨d, v, u, f1, f2, f3, f4, f5, f6⟩ := h y hy x hx
    have hd : pixel r2.mem M x y = d := by rw [pixel, List.getD_eq_getElem?_getD, f3]; rfl
    refine ⟨u, f2, v, f1, ?_, ?_, ?_⟩
    · rw [hd, f5, pixel]; ring
    · intro l hl
      have hlt : v + u * M < M * N := by
        calc v + u * M < M + u * M := by omega
          _ = (u + 1) * M := by ring
          _ ≤ N * M := Nat.mul_le_mul_right _ f2
          _ = M * N := Nat.mul_comm _ _
      unfold imdistIndexes at f4 k2
      rw [hl] at f4 k2
      cases want
      · simp at k2
      · simp only [idxAt, if_true] at f4
        simpa [hlt] using f4
    · intro u' hu' v' hv'
      have := f6 v' hv' u' hu'
      rw [hd, pixel]
      linarith

omit [IsStrictOrderedRing K] in
/-- A negative weight is reported. -/
theorem imdisttf_negative (eps : K) (I : List K) (M N : Nat) (p0 p1 p2 p3 : K) (want : Bool) (h : p0 < 0 ∨ p2 < 0) :
    imdisttf eps I M N p0 p1 p2 p3 want = some none := by
  unfold imdisttf
  rw [if_pos h]

/-- A matrix with two rows and three columns. -/
example : (([9, 0, 9, 9, 1, 9] : List ℚ).length = 2 * 3 ∧ (0 : ℚ) ≤ 0 ∧ ((1 : ℚ) = 0 ∨ (0 : ℚ) < 1)) ∧
    imdisttf 0 ([9, 0, 9, 9, 1, 9] : List ℚ) 2 3 1 0 1 0 true = some (some ([1, 0, 2, 1, 1, 2], some [2, 2, 5, 2, 5, 5])) := by
  refine ⟨⟨by decide, by norm_num, by norm_num⟩, by decide +kernel⟩

/-- The documented transform, toolbox/imop/vl_imdisttf.m:12-16. -/
def ImdistDocClaim : Prop :=
  ∀ (I : List ℚ) (M N : Nat) (p0 p1 p2 p3 : ℚ), I.length = M * N → 1 ≤ p0 → 1 ≤ p2 →
    ∃ dt ix, imdisttf 0 I M N p0 p1 p2 p3 false = some (some (dt, ix)) ∧
      ∀ x < N, ∀ y < M, ∃ u < N, ∃ v < M, pixel dt M x y = pixel I M u v + p0 * ((u : ℚ) - x - p1) ^ 2 + p2 * ((v : ℚ) - y - p3) ^ 2

/-- C160: the claim is false, the offsets have the opposite sign. -/
theorem imdistDoc_claim_false : ¬ ImdistDocClaim := by
  intro h
  obtain ⟨dt, ix, e, hd⟩ := h [0, 5] 2 1 1 0 1 1 (by decide) (by norm_num) (by norm_num)
  have e1 : imdisttf 0 ([0, 5] : List ℚ) 2 1 1 0 1 1 false = some (some ([1, 0], none)) := by decide +kernel
  rw [e1] at e
  obtain ⟨rfl, rfl⟩ : dt = [1, 0] ∧ ix = none := by simpa [eq_comm] using e
  obtain ⟨u, hu, v, hv, hx⟩ := hd 0 (by decide) 1 (by decide)
  have h1 : u = 0 := by omega
  subst h1
  rcases (show v = 0 ∨ v = 1 by omega) with rfl | rfl <;> norm_num [pixel] at hx

/-- C160: the documented transform is computed with the opposite offsets. -/
theorem imdisttf_documented (eps : K) (I : List K) (M N : Nat) (p0 p1 p2 p3 : K) (want : Bool) (hI : I.length = M * N) (heps : 0 ≤ eps)
    (h0 : p0 = 0 ∨ eps < p0) (h2 : p2 = 0 ∨ eps < p2) :
    ∃ dt ix, imdisttf eps I M N p0 (-p1) p2 (-p3) want = some (some (dt, ix)) ∧
      ∀ x < N, ∀ y < M, ∃ u < N, ∃ v < M, pixel dt M x y = pixel I M u v + p0 * ((u : K) - x - p1) ^ 2 + p2 * ((v : K) - y - p3) ^ 2 ∧
        ∀ u' < N, ∀ v' < M, pixel dt M x y ≤ pixel I M u' v' + p0 * ((u' : K) - x - p1) ^ 2 + p2 * ((v' : K) - y - p3) ^ 2 := by
  obtain ⟨dt, ix, e, _, _, _, h⟩ := imdisttf_correct eps I M N p0 (-p1) p2 (-p3) want hI heps h0 h2
  refine ⟨dt, ix, e, ?_⟩
  intro x hx y hy
  obtain ⟨u, hu, v, hv, g1, _, g2⟩ := h x hx y hy
  have sw : ∀ (a b : Nat) (p : K), ((a : K) - b - -p) ^ 2 = ((b : K) - a - p) ^ 2 := fun a b p => by ring
  refine ⟨u, hu, v, hv, by rw [g1, sw, sw], fun u' hu' v' hv' => ?_⟩
  have := g2 u' hu' v' hv'
  rwa [sw, sw] at this

end Verif.Toolbox
