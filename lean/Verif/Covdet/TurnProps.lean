import Verif.Covdet.TurnModel
import Verif.Covdet.AffineProps

/-! # C239: the axes of an oriented frame follow the orientation found in its patch -/

namespace Verif.Covdet

open Matrix

/-! ## Specification -/

/-- The axis of a frame that the orientation refers to: the first, or the second for transposed images. -/
def Frame.mainAxis (transposed : Bool) (g : Frame ℝ) : Fin 2 → ℝ := if transposed then ![g.a12, g.a22] else ![g.a11, g.a21]

/-- The other axis, turned by a right angle: the second, or the first, reversed, for transposed images. -/
def Frame.sideAxis (transposed : Bool) (g : Frame ℝ) : Fin 2 → ℝ := if transposed then ![-g.a11, -g.a21] else ![g.a12, g.a22]

/-- The matrices that the decomposition of C127 handles: the first column is not null, and the product of the columns is not enormous. -/
def Decomposes (eps : ℝ) (f : Frame ℝ) : Prop :=
  (f.a11 ≠ 0 ∨ f.a21 ≠ 0) ∧ eps * |f.a11 * f.a12 + f.a21 * f.a22| ≤ max (f.a11 ^ 2 + f.a21 ^ 2) |f.a11 * f.a22 - f.a12 * f.a21|

/-! ## Theorem -/

/-- C239: the patch is warped with a matrix `W` that differs from the matrix of the frame by a rotation, so that it shows the same ellipse, with the
axes of the ellipse along those of the patch; if
the orientation `phi` is found in the patch then the main axis of the oriented frame is the image under `W` of the unit vector in direction `phi`, and the
other axis that of the vector at a right angle; the centre and the area do not change. -/
theorem turn_correct (eps : ℝ) (he : 0 < eps) (f : Feature ℝ) (hf : Decomposes eps f.frame) :
    ∃ (w11 w21 w12 w22 theta0 : ℝ) (R : Mat2), oriWarp eps f.frame = some ([w11, w21, w12, w22], theta0) ∧
      IsRot R ∧ !![w11, w12; w21, w22] = f.frame.mat * R ∧ w11 * w12 + w21 * w22 = 0 ∧
      ∀ (transposed : Bool) (phi score : ℝ),
        (turned transposed theta0 phi score f).frame.mainAxis transposed = !![w11, w12; w21, w22] *ᵥ ![Real.cos phi, Real.sin phi] ∧
        (turned transposed theta0 phi score f).frame.sideAxis transposed = !![w11, w12; w21, w22] *ᵥ ![-Real.sin phi, Real.cos phi] ∧
        (turned transposed theta0 phi score f).frame.x = f.frame.x ∧ (turned transposed theta0 phi score f).frame.y = f.frame.y ∧
        (turned transposed theta0 phi score f).frame.mat.det = f.frame.mat.det ∧
        (turned transposed theta0 phi score f).orientationScore = score := by
  obtain ⟨S, U, V, s, u, v, e, hS, hU, hV, ⟨cu, su, hu, u00, u10, u01, u11⟩, ⟨cv, sv, hv, v00, v10, v01, v11⟩, s01, s10, -, -, hp⟩ :=
    Mathop.svd2_exact he (fun i j : Fin 2 => if j = 0 then (if i = 0 then f.frame.a11 else f.frame.a21) else (if i = 0 then f.frame.a12 else f.frame.a22))
      (by simpa using hf.1) (by simpa using hf.2) [f.frame.a11, f.frame.a21, f.frame.a12, f.frame.a22] (by simp [Mathop.Stores])
  have p00 := hp 0 0
  have p10 := hp 1 0
  have p01 := hp 0 1
  have p11 := hp 1 1
  simp only [Fin.sum_univ_two, s01, s10, u00, u10, u01, u11, v00, v10, v01, v11, Fin.isValue, if_true, one_ne_zero, if_false] at p00 p10 p01 p11
  rw [hS, hU, hV, u00, u10, u01, u11, v00, v10, v01, v11, s01, s10] at e
  generalize s 0 0 = d0 at *
  generalize s 1 1 = d3 at *
  have hne : (⟨cv, sv⟩ : ℂ) ≠ 0 := by
    intro h
    have h1 : cv = 0 := congrArg Complex.re h
    have h2 : sv = 0 := congrArg Complex.im h
    rw [h1, h2] at hv
    norm_num at hv
  have hn : ‖(⟨cv, sv⟩ : ℂ)‖ = 1 := by
    rw [Complex.norm_eq_sqrt_sq_add_sq]
    simp [hv]
  have hc : Real.cos (angleOf sv cv) = cv := by rw [angleOf, Complex.cos_arg hne, hn]; simp
  have hs : Real.sin (angleOf sv cv) = sv := by rw [angleOf, Complex.sin_arg, hn]; simp
  have q11 : cu * d0 = f.frame.a11 * cv + f.frame.a12 * sv := by linear_combination (-cv) * p00 - sv * p01 - cu * d0 * hv
  have q12 : -su * d3 = -f.frame.a11 * sv + f.frame.a12 * cv := by linear_combination sv * p00 - cv * p01 + su * d3 * hv
  have q21 : su * d0 = f.frame.a21 * cv + f.frame.a22 * sv := by linear_combination (-cv) * p10 - sv * p11 - su * d0 * hv
  have q22 : cu * d3 = -f.frame.a21 * sv + f.frame.a22 * cv := by linear_combination sv * p10 - cv * p11 - cu * d3 * hv
  have hw : oriWarp eps f.frame = some ([cu * d0, su * d0, -su * d3, cu * d3], angleOf sv cv) := by
    simp [oriWarp, e, rd]
  have ho : cu * d0 * (-su * d3) + su * d0 * (cu * d3) = 0 := by ring
  clear p00 p10 p01 p11 e hp
  rw [q11, q12, q21, q22] at hw ho
  refine ⟨_, _, _, _, _, !![cv, -sv; sv, cv], hw, ⟨?_, ?_⟩, ?_, ho, fun transposed phi score => ?_⟩
  · ext i j
    fin_cases i <;> fin_cases j <;> simp [Matrix.mul_apply, Fin.sum_univ_two]
    · linear_combination hv
    · ring
    · ring
    · linear_combination hv
  · simp [Matrix.det_fin_two]
    linear_combination hv
  · ext i j
    fin_cases i <;> fin_cases j <;> simp [Frame.mat, Matrix.mul_apply, Fin.sum_univ_two]
  · have ht := Real.sin_sq_add_cos_sq phi
    cases transposed
    · simp only [Frame.mainAxis, Frame.sideAxis, turned, oriAngle, orient, Real.cos_add, Real.sin_add, hc, hs, Bool.false_eq_true, if_false, Frame.mat,
        Matrix.det_fin_two_of, and_true, true_and]
      refine ⟨?_, ?_, ?_⟩
      · ext i
        fin_cases i <;> simp [Matrix.mulVec, dotProduct, Fin.sum_univ_two] <;> ring
      · ext i
        fin_cases i <;> simp [Matrix.mulVec, dotProduct, Fin.sum_univ_two] <;> ring
      · linear_combination (f.frame.a11 * f.frame.a22 - f.frame.a12 * f.frame.a21) * (hv + (cv ^ 2 + sv ^ 2) * ht)
    · simp only [Frame.mainAxis, Frame.sideAxis, turned, oriAngle, orient, Real.cos_sub_pi_div_two, Real.sin_sub_pi_div_two, Real.cos_add, Real.sin_add, hc,
        hs, if_true, Frame.mat, Matrix.det_fin_two_of, and_true, true_and]
      refine ⟨?_, ?_, ?_⟩
      · ext i
        fin_cases i <;> simp [Matrix.mulVec, dotProduct, Fin.sum_univ_two] <;> ring
      · ext i
        fin_cases i <;> simp [Matrix.mulVec, dotProduct, Fin.sum_univ_two] <;> ring
      · linear_combination (f.frame.a11 * f.frame.a22 - f.frame.a12 * f.frame.a21) * (hv + (cv ^ 2 + sv ^ 2) * ht)

/-- Not vacuous: a sheared ellipse. -/
example : Decomposes (1 / 4) { x := 3, y := 4, a11 := 2, a21 := 1, a12 := -1, a22 := 3 } := by
  constructor
  · left; norm_num
  · norm_num

end Verif.Covdet
