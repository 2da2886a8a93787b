import Verif.Rodrigues.AxisLemmas

/-!
# Lemmas about the inverse of Rodrigues' formula
-/

namespace Verif.Rodrigues

open Spec

theorem acosv_of {x : ℝ} (h1 : -1 ≤ x) (h2 : x ≤ 1) : acosv real x = some (Real.arccos x) := if_pos ⟨h1, h2⟩

theorem store3 {o : List ℝ} (h : o.length = 3) (x y z : ℝ) : store o [(0, x), (1, y), (2, z)] = some [x, y, z] := by
  obtain ⟨a0, a1, a2, rfl⟩ := exists3 h
  rfl

/-- The function, after the arc cosine -/
noncomputable def afterAcos (om : List ℝ) (dom : Option (List ℝ)) (r : Nat → ℝ) (th : ℝ) : Option (List ℝ × Dom ℝ) :=
  if |Real.sin th| < small ∧ Real.cos th < 0 then
    (irodriguesPi real om r th (Real.cos th)).bind fun om => some (om, match dom with | none => .null | some _ => .nan 27)
  else
    (ratio real th (Real.sin th)).bind fun a => (store om [(0, 1 / 2 * a * (r 5 - r 7)), (1, 1 / 2 * a * (r 6 - r 2)), (2, 1 / 2 * a * (r 1 - r 3))]).bind fun om =>
      (irodriguesD dom th (Real.sin th) (Real.cos th) (1 / 2 * a * (r 5 - r 7)) (1 / 2 * a * (r 6 - r 2)) (1 / 2 * a * (r 1 - r 3))).bind fun d => some (om, d)

theorem irodrigues_eq (om : List ℝ) (dom : Option (List ℝ)) {R : List ℝ} {r : Nat → ℝ} (hR : R = [r 0, r 1, r 2, r 3, r 4, r 5, r 6, r 7, r 8]) (h1 : -1 ≤ r 0 + r 4 + r 8) (h2 : r 0 + r 4 + r 8 ≤ 3) :
    irodrigues real om dom R = afterAcos om dom (fun i => R.getD i 0) (Real.arccos ((r 0 + r 4 + r 8 - 1) / 2)) := by
  have e : (List.range 9).mapM (fun i => rd R i) = some R := by
    rw [hR]
    rfl
  unfold irodrigues
  rw [e]
  simp only [Option.bind_eq_bind, Option.bind_some]
  have e0 : R.getD 0 0 = r 0 := by rw [hR]; rfl
  have e4 : R.getD 4 0 = r 4 := by rw [hR]; rfl
  have e8 : R.getD 8 0 = r 8 := by rw [hR]; rfl
  rw [e0, e4, e8, max_eq_left h1, show 1 / 2 * (r 0 + r 4 + r 8 - 1) = (r 0 + r 4 + r 8 - 1) / 2 by ring, acosv_of (by linarith) (by linarith), Option.bind_some]
  unfold afterAcos
  generalize Real.arccos ((r 0 + r 4 + r 8 - 1) / 2) = th
  show (if |Real.sin th| < small ∧ Real.cos th < 0 then _ else _) = _
  by_cases hc : |Real.sin th| < small ∧ Real.cos th < 0
  · rw [if_pos hc, if_pos hc]
    cases dom <;> rfl
  · rw [if_neg hc, if_neg hc]
    rfl

/-- The sign of a component is found from its product with the largest component. -/
theorem sgn {m x y q : ℝ} (hm : 0 < m) : (0 < x → (if m * (x * y) ≥ 0 then q * |y| else -(q * |y|)) = q * y) ∧ (x < 0 → (if m * (x * y) ≥ 0 then q * |y| else -(q * |y|)) = -(q * y)) := by
  constructor
  · intro hx
    by_cases hy : 0 ≤ y
    · rw [if_pos (by positivity), abs_of_nonneg hy]
    · have hy := not_le.1 hy
      rw [if_neg (not_le.2 (mul_neg_of_pos_of_neg hm (mul_neg_of_pos_of_neg hx hy))), abs_of_neg hy]
      ring
  · intro hx
    by_cases hy : y ≤ 0
    · rw [if_pos (mul_nonneg hm.le (mul_nonneg_of_nonpos_of_nonpos hx.le hy)), abs_of_nonpos hy]
      ring
    · have hy := not_le.1 hy
      rw [if_neg (not_le.2 (mul_neg_of_pos_of_neg hm (mul_neg_of_neg_of_pos hx hy))), abs_of_pos hy]

/-- The vector of which the absolute values of the components are known, up to the sign: the largest component is positive. -/
theorem signs_eq {m x y z q : ℝ} (hm : 0 < m) (hq : 0 < q) (h0 : x ^ 2 + y ^ 2 + z ^ 2 = 1) :
    (signs (m * (x * y)) (m * (x * z)) (m * (y * z)) (q * |x|) (q * |y|) (q * |z|) = (q * x, q * y, q * z) ∧ ((0 < x ∧ |y| ≤ |x| ∧ |z| ≤ |x|) ∨ (0 < y ∧ |x| ≤ |y| ∧ |z| ≤ |y|) ∨ (0 < z ∧ |x| ≤ |z| ∧ |y| ≤ |z|))) ∨
    (signs (m * (x * y)) (m * (x * z)) (m * (y * z)) (q * |x|) (q * |y|) (q * |z|) = (-(q * x), -(q * y), -(q * z)) ∧ ((x < 0 ∧ |y| ≤ |x| ∧ |z| ≤ |x|) ∨ (y < 0 ∧ |x| ≤ |y| ∧ |z| ≤ |y|) ∨ (z < 0 ∧ |x| ≤ |z| ∧ |y| ≤ |z|))) := by
  have hle : ∀ {u v : ℝ}, q * |u| ≤ q * |v| ↔ |u| ≤ |v| := fun {u v} => mul_le_mul_iff_right₀ hq
  have hnz : ∀ {u v t : ℝ}, u ^ 2 + v ^ 2 + t ^ 2 = 1 → |v| ≤ |u| → |t| ≤ |u| → u ≠ 0 := by
    intro u v t h hv ht hu
    rw [hu, abs_zero] at hv ht
    have hv := abs_nonpos_iff.1 hv
    have ht := abs_nonpos_iff.1 ht
    rw [hu, hv, ht] at h
    norm_num at h
  unfold signs
  by_cases c1 : q * |x| ≥ q * |y| ∧ q * |x| ≥ q * |z|
  · rw [if_pos c1]
    have l1 := hle.1 c1.1
    have l2 := hle.1 c1.2
    rcases lt_or_gt_of_ne (hnz h0 l1 l2) with hx | hx
    · right
      rw [(sgn (y := y) hm).2 hx, (sgn (y := z) hm).2 hx, abs_of_neg hx]
      exact ⟨by rw [mul_neg], Or.inl ⟨hx, by rwa [← abs_of_neg hx], by rwa [← abs_of_neg hx]⟩⟩
    · left
      rw [(sgn (y := y) hm).1 hx, (sgn (y := z) hm).1 hx, abs_of_pos hx]
      exact ⟨rfl, Or.inl ⟨hx, by rwa [← abs_of_pos hx], by rwa [← abs_of_pos hx]⟩⟩
  · rw [if_neg c1]
    by_cases c2 : q * |y| ≥ q * |x| ∧ q * |y| ≥ q * |z|
    · rw [if_pos c2]
      have l1 := hle.1 c2.1
      have l2 := hle.1 c2.2
      rcases lt_or_gt_of_ne (hnz (by linarith) l1 l2) with hx | hx
      · right
        rw [mul_comm x y, (sgn (y := x) hm).2 hx, (sgn (y := z) hm).2 hx, abs_of_neg hx]
        exact ⟨by rw [mul_neg], Or.inr (Or.inl ⟨hx, by rwa [← abs_of_neg hx], by rwa [← abs_of_neg hx]⟩)⟩
      · left
        rw [mul_comm x y, (sgn (y := x) hm).1 hx, (sgn (y := z) hm).1 hx, abs_of_pos hx]
        exact ⟨rfl, Or.inr (Or.inl ⟨hx, by rwa [← abs_of_pos hx], by rwa [← abs_of_pos hx]⟩)⟩
    · rw [if_neg c2]
      have l : |x| ≤ |z| ∧ |y| ≤ |z| := by
        rw [ge_iff_le, ge_iff_le, hle, hle, not_and_or, not_le, not_le] at c1 c2
        rcases c1 with c1 | c1 <;> rcases c2 with c2 | c2
        · exact absurd c1 (not_lt.2 c2.le)
        · exact ⟨(c1.trans c2).le, c2.le⟩
        · exact ⟨c1.le, (c2.trans c1).le⟩
        · exact ⟨c1.le, c2.le⟩
      rcases lt_or_gt_of_ne (hnz (by linarith) l.1 l.2) with hx | hx
      · right
        rw [mul_comm x z, mul_comm y z, (sgn (y := x) hm).2 hx, (sgn (y := y) hm).2 hx, abs_of_neg hx]
        exact ⟨by rw [mul_neg], Or.inr (Or.inr ⟨hx, by rw [← abs_of_neg hx]; exact l.1, by rw [← abs_of_neg hx]; exact l.2⟩)⟩
      · left
        rw [mul_comm x z, mul_comm y z, (sgn (y := x) hm).1 hx, (sgn (y := y) hm).1 hx, abs_of_pos hx]
        exact ⟨rfl, Or.inr (Or.inr ⟨hx, by rw [← abs_of_pos hx]; exact l.1, by rw [← abs_of_pos hx]; exact l.2⟩)⟩

theorem sqrt_abs {m x q : ℝ} (hq : q = Real.sqrt m) (hm : 0 ≤ m) (u : ℝ) (hu : u = m * x ^ 2) : sqrtv real u = some (q * |x|) := by
  rw [sqrtv_of (by rw [hu]; positivity), hu, Real.sqrt_mul hm, Real.sqrt_sq_eq_abs, hq]

end Verif.Rodrigues
