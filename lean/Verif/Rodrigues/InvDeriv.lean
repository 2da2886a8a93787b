import Verif.Rodrigues.InvProps
import Mathlib.Analysis.SpecialFunctions.Trigonometric.InverseDeriv

/-!
# The derivative of the inverse of Rodrigues' formula
-/

set_option linter.unusedSimpArgs false

namespace Verif.Rodrigues

open Spec

theorem has_trace (v : Fin 9 → ℝ) : Has (fun v : Fin 9 → ℝ => (v 0 + v 4 + v 8 - 1) / 2) ![1 / 2, 0, 0, 0, 1 / 2, 0, 0, 0, 1 / 2] v := by
  have h := ((((Has.coord 0 v).add (Has.coord 4 v)).add (Has.coord 8 v)).sub (Has.const 1 v)).mul (Has.const (1 / 2) v)
  refine HasFDerivAt.congr_of_eventuallyEq (h.congr fun k => ?_) (Filter.Eventually.of_forall fun u => by ring)
  fin_cases k <;> simp

theorem has_skew (v : Fin 9 → ℝ) (k : Fin 3) : Has (fun v : Fin 9 → ℝ => ![v 5 - v 7, v 6 - v 2, v 1 - v 3] k) (![![0, 0, 0, 0, 0, 1, 0, -1, 0], ![0, 0, -1, 0, 0, 0, 1, 0, 0], ![0, 1, 0, -1, 0, 0, 0, 0, 0]] k) v := by
  fin_cases k
  · refine ((Has.coord 5 v).sub (Has.coord 7 v)).congr fun n => ?_
    fin_cases n <;> simp
  · refine ((Has.coord 6 v).sub (Has.coord 2 v)).congr fun n => ?_
    fin_cases n <;> simp
  · refine ((Has.coord 1 v).sub (Has.coord 3 v)).congr fun n => ?_
    fin_cases n <;> simp

theorem has_ratio {t : ℝ} (hs : Real.sin t ≠ 0) : HasDerivAt (fun t => t / (2 * Real.sin t)) ((2 * Real.sin t - t * (2 * Real.cos t)) / (2 * Real.sin t) ^ 2) t := by
  have h := (hasDerivAt_id t).div ((Real.hasDerivAt_sin t).const_mul 2) (mul_ne_zero two_ne_zero hs)
  refine h.congr_deriv ?_
  simp

theorem has_vecOf {v : Fin 9 → ℝ} (hs : Real.sin (angle v) ≠ 0) (h1 : -1 < v 0 + v 4 + v 8) (h2 : v 0 + v 4 + v 8 < 3) (k : Fin 3) :
    Has (fun v => vecOf v k) (fun n => angle v / (2 * Real.sin (angle v)) * (![![0, 0, 0, 0, 0, 1, 0, -1, 0], ![0, 0, -1, 0, 0, 0, 1, 0, 0], ![0, 1, 0, -1, 0, 0, 0, 0, 0]] k n) +
      ![v 5 - v 7, v 6 - v 2, v 1 - v 3] k * ((2 * Real.sin (angle v) - angle v * (2 * Real.cos (angle v))) / (2 * Real.sin (angle v)) ^ 2 * (-(1 / Real.sin (angle v)) * ![1 / 2, 0, 0, 0, 1 / 2, 0, 0, 0, 1 / 2] n))) v := by
  have ha := Real.hasDerivAt_arccos (x := (v 0 + v 4 + v 8 - 1) / 2) (by linarith) (by linarith)
  rw [← Real.sin_arccos] at ha
  have hang : Has angle (fun n => -(1 / Real.sin (angle v)) * ![1 / 2, 0, 0, 0, 1 / 2, 0, 0, 0, 1 / 2] n) v := (has_trace v).comp ha
  exact ((hang.comp (has_ratio hs)).mul (has_skew v k))

theorem store27d {l : List ℝ} (h : l.length = 27) (a b x y z : ℝ) : store l (assignDom a b x y z) = some ((assignDom a b x y z).map Prod.snd) :=
  store_seq (assignDom a b x y z) [] l h rfl

/-- **The derivative given by the inverse is the derivative of the vector of the rotation with respect to the entries of the matrix.** -/
theorem irodrigues_deriv {v : Fin 9 → ℝ} {R om dom : List ℝ} (hR : R = List.ofFn v) (ho : om.length = 3) (hd : dom.length = 27) (h1 : -1 < v 0 + v 4 + v 8) (h2 : v 0 + v 4 + v 8 < 3)
    (hs : 1 / 1000000 ≤ Real.sin (angle v)) :
    ∃ om' D' D, irodrigues real om (some dom) R = some (om', .mat D') ∧ IsVec om' (vecOf v) ∧ IsDer' D' D ∧ ∀ k, HasFDerivAt (fun u => vecOf u k) (lin (D k)) v := by
  have hs0 : Real.sin (angle v) ≠ 0 := by
    intro h
    rw [h] at hs
    norm_num at hs
  have hR' : R = [v 0, v 1, v 2, v 3, v 4, v 5, v 6, v 7, v 8] := hR
  have hn : ¬ |Real.sin (angle v)| < (small : ℝ) := not_lt.2 (le_trans hs (le_abs_self _))
  have ht0 : angle v ≠ 0 := by
    intro h
    rw [h, Real.sin_zero] at hs0
    exact hs0 rfl
  have e := irodrigues_eq om (some dom) (R := R) (r := fun i => R.getD i 0) (by rw [hR']; rfl) (by rw [hR']; exact h1.le) (by rw [hR']; exact h2.le)
  have et : Real.arccos ((R.getD 0 0 + R.getD 4 0 + R.getD 8 0 - 1) / 2) = angle v := by
    rw [hR']
    rfl
  rw [e, et]
  unfold afterAcos
  rw [if_neg fun h => hn h.1, ratio, if_neg hn, show divv (angle v) (real.sin (angle v)) = some (angle v / Real.sin (angle v)) from divv_of hs0, Option.bind_some, store3 ho, Option.bind_some, irodriguesD, factors, if_neg hn,
    divv_of (mul_ne_zero two_ne_zero hs0)]
  simp only [Option.bind_eq_bind, Option.bind_some]
  rw [divv_of (mul_ne_zero (mul_ne_zero two_ne_zero hs0) hs0), Option.bind_some, divv_of ht0, Option.bind_some, Option.pure_def, Option.bind_some, store27d hd, Option.bind_some, Option.pure_def, Option.bind_some, hR']
  refine ⟨_, _, _, rfl, ?_, ⟨rfl, fun k n => ?_⟩, fun k => has_vecOf hs0 h1 h2 k⟩
  · have e : ∀ d : ℝ, 1 / 2 * (angle v / Real.sin (angle v)) * d = angle v / (2 * Real.sin (angle v)) * d := fun d => by ring
    rw [e, e, e]
    rfl
  · generalize angle v = t at *
    generalize Real.sin t = s at *
    generalize Real.cos t = c at *
    have key : ∀ (o d : ℝ), 1 / 2 * (t / s) * d = o → (t * c - s) / (2 * s * s) / t * o = d * ((2 * s - t * (2 * c)) / (2 * s) ^ 2 * (-(1 / s) * (1 / 2))) := by
      intro o d h
      rw [← h]
      field_simp
      ring
    have k0 := key _ (v 5 - v 7) rfl
    have k1 := key _ (v 6 - v 2) rfl
    have k2 := key _ (v 1 - v 3) rfl
    fin_cases k <;> fin_cases n
    · show some ((t * c - s) / (2 * s * s) / t * (1 / 2 * (t / s) * (v 5 - v 7))) = some (t / (2 * s) * 0 + (v 5 - v 7) * ((2 * s - t * (2 * c)) / (2 * s) ^ 2 * (-(1 / s) * (1 / 2))))
      rw [mul_zero, zero_add, k0]
    · show some (0) = some (t / (2 * s) * 0 + (v 5 - v 7) * ((2 * s - t * (2 * c)) / (2 * s) ^ 2 * (-(1 / s) * 0)))
      simp only [mul_zero, add_zero, mul_one, mul_neg_one]
    · show some (0) = some (t / (2 * s) * 0 + (v 5 - v 7) * ((2 * s - t * (2 * c)) / (2 * s) ^ 2 * (-(1 / s) * 0)))
      simp only [mul_zero, add_zero, mul_one, mul_neg_one]
    · show some (0) = some (t / (2 * s) * 0 + (v 5 - v 7) * ((2 * s - t * (2 * c)) / (2 * s) ^ 2 * (-(1 / s) * 0)))
      simp only [mul_zero, add_zero, mul_one, mul_neg_one]
    · show some ((t * c - s) / (2 * s * s) / t * (1 / 2 * (t / s) * (v 5 - v 7))) = some (t / (2 * s) * 0 + (v 5 - v 7) * ((2 * s - t * (2 * c)) / (2 * s) ^ 2 * (-(1 / s) * (1 / 2))))
      rw [mul_zero, zero_add, k0]
    · show some (t / (2 * s)) = some (t / (2 * s) * 1 + (v 5 - v 7) * ((2 * s - t * (2 * c)) / (2 * s) ^ 2 * (-(1 / s) * 0)))
      simp only [mul_zero, add_zero, mul_one, mul_neg_one]
    · show some (0) = some (t / (2 * s) * 0 + (v 5 - v 7) * ((2 * s - t * (2 * c)) / (2 * s) ^ 2 * (-(1 / s) * 0)))
      simp only [mul_zero, add_zero, mul_one, mul_neg_one]
    · show some (-(t / (2 * s))) = some (t / (2 * s) * -1 + (v 5 - v 7) * ((2 * s - t * (2 * c)) / (2 * s) ^ 2 * (-(1 / s) * 0)))
      simp only [mul_zero, add_zero, mul_one, mul_neg_one]
    · show some ((t * c - s) / (2 * s * s) / t * (1 / 2 * (t / s) * (v 5 - v 7))) = some (t / (2 * s) * 0 + (v 5 - v 7) * ((2 * s - t * (2 * c)) / (2 * s) ^ 2 * (-(1 / s) * (1 / 2))))
      rw [mul_zero, zero_add, k0]
    · show some ((t * c - s) / (2 * s * s) / t * (1 / 2 * (t / s) * (v 6 - v 2))) = some (t / (2 * s) * 0 + (v 6 - v 2) * ((2 * s - t * (2 * c)) / (2 * s) ^ 2 * (-(1 / s) * (1 / 2))))
      rw [mul_zero, zero_add, k1]
    · show some (0) = some (t / (2 * s) * 0 + (v 6 - v 2) * ((2 * s - t * (2 * c)) / (2 * s) ^ 2 * (-(1 / s) * 0)))
      simp only [mul_zero, add_zero, mul_one, mul_neg_one]
    · show some (-(t / (2 * s))) = some (t / (2 * s) * -1 + (v 6 - v 2) * ((2 * s - t * (2 * c)) / (2 * s) ^ 2 * (-(1 / s) * 0)))
      simp only [mul_zero, add_zero, mul_one, mul_neg_one]
    · show some (0) = some (t / (2 * s) * 0 + (v 6 - v 2) * ((2 * s - t * (2 * c)) / (2 * s) ^ 2 * (-(1 / s) * 0)))
      simp only [mul_zero, add_zero, mul_one, mul_neg_one]
    · show some ((t * c - s) / (2 * s * s) / t * (1 / 2 * (t / s) * (v 6 - v 2))) = some (t / (2 * s) * 0 + (v 6 - v 2) * ((2 * s - t * (2 * c)) / (2 * s) ^ 2 * (-(1 / s) * (1 / 2))))
      rw [mul_zero, zero_add, k1]
    · show some (0) = some (t / (2 * s) * 0 + (v 6 - v 2) * ((2 * s - t * (2 * c)) / (2 * s) ^ 2 * (-(1 / s) * 0)))
      simp only [mul_zero, add_zero, mul_one, mul_neg_one]
    · show some (t / (2 * s)) = some (t / (2 * s) * 1 + (v 6 - v 2) * ((2 * s - t * (2 * c)) / (2 * s) ^ 2 * (-(1 / s) * 0)))
      simp only [mul_zero, add_zero, mul_one, mul_neg_one]
    · show some (0) = some (t / (2 * s) * 0 + (v 6 - v 2) * ((2 * s - t * (2 * c)) / (2 * s) ^ 2 * (-(1 / s) * 0)))
      simp only [mul_zero, add_zero, mul_one, mul_neg_one]
    · show some ((t * c - s) / (2 * s * s) / t * (1 / 2 * (t / s) * (v 6 - v 2))) = some (t / (2 * s) * 0 + (v 6 - v 2) * ((2 * s - t * (2 * c)) / (2 * s) ^ 2 * (-(1 / s) * (1 / 2))))
      rw [mul_zero, zero_add, k1]
    · show some ((t * c - s) / (2 * s * s) / t * (1 / 2 * (t / s) * (v 1 - v 3))) = some (t / (2 * s) * 0 + (v 1 - v 3) * ((2 * s - t * (2 * c)) / (2 * s) ^ 2 * (-(1 / s) * (1 / 2))))
      rw [mul_zero, zero_add, k2]
    · show some (t / (2 * s)) = some (t / (2 * s) * 1 + (v 1 - v 3) * ((2 * s - t * (2 * c)) / (2 * s) ^ 2 * (-(1 / s) * 0)))
      simp only [mul_zero, add_zero, mul_one, mul_neg_one]
    · show some (0) = some (t / (2 * s) * 0 + (v 1 - v 3) * ((2 * s - t * (2 * c)) / (2 * s) ^ 2 * (-(1 / s) * 0)))
      simp only [mul_zero, add_zero, mul_one, mul_neg_one]
    · show some (-(t / (2 * s))) = some (t / (2 * s) * -1 + (v 1 - v 3) * ((2 * s - t * (2 * c)) / (2 * s) ^ 2 * (-(1 / s) * 0)))
      simp only [mul_zero, add_zero, mul_one, mul_neg_one]
    · show some ((t * c - s) / (2 * s * s) / t * (1 / 2 * (t / s) * (v 1 - v 3))) = some (t / (2 * s) * 0 + (v 1 - v 3) * ((2 * s - t * (2 * c)) / (2 * s) ^ 2 * (-(1 / s) * (1 / 2))))
      rw [mul_zero, zero_add, k2]
    · show some (0) = some (t / (2 * s) * 0 + (v 1 - v 3) * ((2 * s - t * (2 * c)) / (2 * s) ^ 2 * (-(1 / s) * 0)))
      simp only [mul_zero, add_zero, mul_one, mul_neg_one]
    · show some (0) = some (t / (2 * s) * 0 + (v 1 - v 3) * ((2 * s - t * (2 * c)) / (2 * s) ^ 2 * (-(1 / s) * 0)))
      simp only [mul_zero, add_zero, mul_one, mul_neg_one]
    · show some (0) = some (t / (2 * s) * 0 + (v 1 - v 3) * ((2 * s - t * (2 * c)) / (2 * s) ^ 2 * (-(1 / s) * 0)))
      simp only [mul_zero, add_zero, mul_one, mul_neg_one]
    · show some ((t * c - s) / (2 * s * s) / t * (1 / 2 * (t / s) * (v 1 - v 3))) = some (t / (2 * s) * 0 + (v 1 - v 3) * ((2 * s - t * (2 * c)) / (2 * s) ^ 2 * (-(1 / s) * (1 / 2))))
      rw [mul_zero, zero_add, k2]

end Verif.Rodrigues
