import Verif.Covdet.AffineModel
import Verif.Covdet.FeatLemmas
import Verif.Mathop.SvdProps
import Verif.Linear.Props
import Mathlib.LinearAlgebra.Matrix.Notation
import Mathlib.LinearAlgebra.Matrix.Determinant.Basic
import Mathlib.LinearAlgebra.Matrix.Trace
import Mathlib.Analysis.SpecialFunctions.Trigonometric.Basic

/-!
# Affine adaptation
-/

namespace Verif.Covdet

open Matrix Finset
open Mathop (quot svd2 quot_of)

/-! ### Specification -/

abbrev Mat2 := Matrix (Fin 2) (Fin 2) ℝ

/-- The linear part of a frame. -/
def Frame.mat (f : Frame ℝ) : Mat2 := !![f.a11, f.a12; f.a21, f.a22]

/-- A rotation. -/
def IsRot (R : Mat2) : Prop := R * Rᵀ = 1 ∧ R.det = 1

/-- `A` has the singular values `d1 ≥ d2 > 0` and preserves the orientation of the plane. -/
def HasSvd (A : Mat2) (d1 d2 : ℝ) : Prop := 0 < d2 ∧ d2 ≤ d1 ∧ ∃ U V, IsRot U ∧ IsRot V ∧ A = U * diagonal ![d1, d2] * Vᵀ

/-- The second moment matrix of the gradient images `gx`, `gy`. -/
noncomputable def momentMat (n : Nat) (mask gx gy : List ℝ) : Mat2 :=
  !![∑ k ∈ range n, gx.getD k 0 ^ 2 * mask.getD k 0, ∑ k ∈ range n, gx.getD k 0 * gy.getD k 0 * mask.getD k 0;
     ∑ k ∈ range n, gx.getD k 0 * gy.getD k 0 * mask.getD k 0, ∑ k ∈ range n, gy.getD k 0 ^ 2 * mask.getD k 0]

/-- The second moment matrix of the patch of the matrix `A` with singular values `d1, d2`, if the patch can be extracted. -/
noncomputable def momentsOf (c : AffineConf) (A : Mat2) (d1 d2 : ℝ) : Option Mat2 :=
  (c.grad [A 0 0, A 1 0, A 0 1, A 1 1] d1 d2).map fun g => momentMat c.n c.mask g.1 g.2

/-- The documented iteration.  `Adapted moments F e n A r` says that `r` is a result of the adaptation that has done `n` iterations and
has reached `A`; `F` is the initial matrix and `e` its smallest singular value; the result is `none` for an error.  A step multiplies `A`
by a matrix that whitens the second moments, and a rotation, and then sets the smallest singular value to `e`. -/
inductive Adapted (moments : Mat2 → ℝ → ℝ → Option Mat2) (F : Mat2) (e : ℝ) : Nat → Mat2 → Option Mat2 → Prop
  | limit {n A} (hn : 15 ≤ n) : Adapted moments F e n A (some A)
  | error {n A d1 d2} (hn : n < 15) (hA : HasSvd A d1 d2) (hm : moments A d1 d2 = none) : Adapted moments F e n A none
  | flat {n A d1 d2 M} (hn : n < 15) (hA : HasSvd A d1 d2) (hm : moments A d1 d2 = some M) (h0 : M 0 0 = 0 ∨ M 1 1 = 0) :
      Adapted moments F e n A (some F)
  | converged {n A d1 d2 M q1 q2} (hn : n < 15) (hA : HasSvd A d1 d2) (hm : moments A d1 d2 = some M) (h0 : ¬ (M 0 0 = 0 ∨ M 1 1 = 0))
      (hM : HasSvd M q1 q2) (hq : q1 < 1001 / 1000 * q2) : Adapted moments F e n A (some A)
  | diverged {n A d1 d2 M q1 q2 dA b1 b2} (hn : n < 15) (hA : HasSvd A d1 d2) (hm : moments A d1 d2 = some M) (h0 : ¬ (M 0 0 = 0 ∨ M 1 1 = 0))
      (hM : HasSvd M q1 q2) (hq : ¬ q1 < 1001 / 1000 * q2) (hw : dAᵀ * M * dA = 1) (hB : HasSvd (A * dA) b1 b2) (hb : 5 * b2 < b1) :
      Adapted moments F e n A (some A)
  | step {n A d1 d2 M q1 q2 dA b1 b2 R r} (hn : n < 15) (hA : HasSvd A d1 d2) (hm : moments A d1 d2 = some M) (h0 : ¬ (M 0 0 = 0 ∨ M 1 1 = 0))
      (hM : HasSvd M q1 q2) (hq : ¬ q1 < 1001 / 1000 * q2) (hw : dAᵀ * M * dA = 1) (hB : HasSvd (A * dA) b1 b2) (hb : b1 ≤ 5 * b2)
      (hR : IsRot R) (hs : Adapted moments F e (n + 1) ((e / b2) • (A * dA * R)) r) : Adapted moments F e n A r

/-- The axis that points up is not rotated: the second axis, or the first for transposed images. -/
def Upright (transposed : Bool) (g : Frame ℝ) : Prop := if transposed then g.a21 = 0 ∧ 0 < g.a11 else g.a12 = 0 ∧ 0 < g.a22

/-- The assumptions: small constants, a mask that is not negative, gradients of the right size, and no second moment matrix that is nearly
singular without being flat. -/
structure AffineOk (c : AffineConf) : Prop where
  eps0 : 0 < c.eps
  eps1 : c.eps ≤ 1 / 25
  tau0 : 0 < c.tau
  mask : c.n ≤ c.mask.length
  maskPos : ∀ m ∈ c.mask, 0 ≤ m
  size : ∀ A d1 d2 gx gy, c.grad A d1 d2 = some (gx, gy) → c.n ≤ gx.length ∧ c.n ≤ gy.length
  regular : ∀ A d1 d2 M, momentsOf c A d1 d2 = some M → M 0 0 = 0 ∨ M 1 1 = 0 ∨ c.eps * (M 0 0 + M 1 1) ^ 2 ≤ M.det

/-! ### Matrices -/

/-- The matrix stored by columns in a list. -/
def lmat (a b c d : ℝ) : Mat2 := !![a, c; b, d]

/-- The rotation by an angle of cosine `c` and sine `s`. -/
def rot (c s : ℝ) : Mat2 := !![c, -s; s, c]

theorem isRot_rot {c s : ℝ} (h : c ^ 2 + s ^ 2 = 1) : IsRot (rot c s) := by
  constructor
  · ext i j; fin_cases i <;> fin_cases j <;> simp [rot, Matrix.mul_apply, Fin.sum_univ_two] <;> linarith
  · rw [rot, det_fin_two_of]; linarith

theorem isRot_tr {R : Mat2} (h : IsRot R) : Rᵀ * R = 1 := mul_eq_one_comm.mp h.1

theorem isRot_transpose {R : Mat2} (h : IsRot R) : IsRot Rᵀ := ⟨by rw [transpose_transpose]; exact isRot_tr h, by rw [det_transpose]; exact h.2⟩

theorem isRot_mul {R S : Mat2} (h : IsRot R) (h' : IsRot S) : IsRot (R * S) :=
  ⟨by rw [transpose_mul, Matrix.mul_assoc, ← Matrix.mul_assoc S, h'.1, Matrix.one_mul, h.1], by rw [det_mul, h.2, h'.2, one_mul]⟩

theorem isRot_one : IsRot (1 : Mat2) := ⟨by rw [transpose_one, Matrix.one_mul], det_one⟩

/-- Multiplying by a rotation does not change the singular values. -/
theorem hasSvd_mul_rot {A R : Mat2} {d1 d2 : ℝ} (h : HasSvd A d1 d2) (hR : IsRot R) : HasSvd (A * R) d1 d2 := by
  obtain ⟨h0, h1, U, V, hU, hV, e⟩ := h
  exact ⟨h0, h1, U, Rᵀ * V, hU, isRot_mul (isRot_transpose hR) hV, by rw [e, transpose_mul, transpose_transpose, ← Matrix.mul_assoc]⟩

theorem hasSvd_smul {A : Mat2} {d1 d2 k : ℝ} (h : HasSvd A d1 d2) (hk : 0 < k) : HasSvd (k • A) (k * d1) (k * d2) := by
  obtain ⟨h0, h1, U, V, hU, hV, e⟩ := h
  refine ⟨mul_pos hk h0, mul_le_mul_of_nonneg_left h1 hk.le, U, V, hU, hV, ?_⟩
  have : diagonal ![k * d1, k * d2] = k • diagonal ![d1, d2] := by
    ext i j; fin_cases i <;> fin_cases j <;> simp
  rw [this, e, Matrix.mul_smul, Matrix.smul_mul]

theorem hasSvd_det {A : Mat2} {d1 d2 : ℝ} (h : HasSvd A d1 d2) : A.det = d1 * d2 := by
  obtain ⟨_, _, U, V, hU, hV, e⟩ := h
  rw [e, det_mul, det_mul, det_transpose, hU.2, hV.2, det_diagonal, Fin.prod_univ_two]
  simp

theorem hasSvd_trace {A : Mat2} {d1 d2 : ℝ} (h : HasSvd A d1 d2) : (Aᵀ * A).trace = d1 ^ 2 + d2 ^ 2 := by
  obtain ⟨_, _, U, V, hU, hV, e⟩ := h
  rw [e, transpose_mul, transpose_mul, transpose_transpose, diagonal_transpose]
  rw [show V * (diagonal ![d1, d2] * Uᵀ) * (U * diagonal ![d1, d2] * Vᵀ) = V * (diagonal ![d1, d2] * (Uᵀ * U) * diagonal ![d1, d2] * Vᵀ) by
    simp only [Matrix.mul_assoc]]
  rw [trace_mul_comm, Matrix.mul_assoc _ Vᵀ V, isRot_tr hV, isRot_tr hU, Matrix.mul_one, Matrix.mul_one, diagonal_mul_diagonal, trace_diagonal]
  simp [Fin.sum_univ_two]; ring

/-- The singular values are unique. -/
theorem hasSvd_unique {A : Mat2} {d1 d2 e1 e2 : ℝ} (h : HasSvd A d1 d2) (h' : HasSvd A e1 e2) : d1 = e1 ∧ d2 = e2 := by
  have hd : d1 * d2 = e1 * e2 := by rw [← hasSvd_det h, hasSvd_det h']
  have ht : d1 ^ 2 + d2 ^ 2 = e1 ^ 2 + e2 ^ 2 := by rw [← hasSvd_trace h, hasSvd_trace h']
  have p0 := h.1; have p1 := h.2.1; have p2 := h'.1; have p3 := h'.2.1
  have hs : d1 + d2 = e1 + e2 := by
    have : (d1 + d2) ^ 2 = (e1 + e2) ^ 2 := by linear_combination ht + 2 * hd
    exact (pow_left_inj₀ (by linarith) (by linarith) two_ne_zero).mp this
  have hm : d1 - d2 = e1 - e2 := by
    have : (d1 - d2) ^ 2 = (e1 - e2) ^ 2 := by linear_combination ht - 2 * hd
    exact (pow_left_inj₀ (by linarith) (by linarith) two_ne_zero).mp this
  exact ⟨by linarith, by linarith⟩

/-! ### The decomposition -/

/-- A matrix for which the decomposition is exact. -/
structure Good (eps a b c d : ℝ) : Prop where
  det : 0 < a * d - c * b
  cond : eps * (a ^ 2 + b ^ 2 + c ^ 2 + d ^ 2) ≤ a * d - c * b

theorem svd_good {eps a b c d : ℝ} (he : 0 < eps) (h : Good eps a b c d) : ∃ d1 d2 cu su cv sv, svd2 Real.sqrt eps [a, b, c, d] = some ([d1, 0, 0, d2], [cu, su, -su, cu], [cv, sv, -sv, cv]) ∧
    cu ^ 2 + su ^ 2 = 1 ∧ cv ^ 2 + sv ^ 2 = 1 ∧ 0 < d2 ∧ d2 ≤ d1 ∧ a = cu * d1 * cv + su * d2 * sv ∧ b = su * d1 * cv - cu * d2 * sv ∧ c = cu * d1 * sv - su * d2 * cv ∧ d = su * d1 * sv + cu * d2 * cv := by
  have hdet := h.det
  have hcond := h.cond
  obtain ⟨S, U, V, s, u, v, e, hS, hU, hV, ⟨cu, su, hu, u00, u10, u01, u11⟩, ⟨cv, sv, hv, v00, v10, v01, v11⟩, s01, s10, -, hpos, hp⟩ :=
    Mathop.svd2_exact he (fun i j : Fin 2 => if j = 0 then (if i = 0 then a else b) else (if i = 0 then c else d)) (by
      by_contra hn
      simp at hn
      rw [hn.1, hn.2] at hdet
      simp at hdet) (by
      simp only [Fin.isValue, if_true, one_ne_zero, if_false]
      refine le_trans ?_ (le_max_right _ _)
      rw [abs_of_pos hdet]
      refine le_trans (mul_le_mul_of_nonneg_left ?_ he.le) hcond
      rw [abs_le]
      constructor <;> nlinarith [sq_nonneg (a + c), sq_nonneg (b + d), sq_nonneg (a - c), sq_nonneg (b - d), sq_nonneg a, sq_nonneg b, sq_nonneg c, sq_nonneg d]) [a, b, c, d] (by rw [Mathop.Stores]; rfl)
  have p00 := hp 0 0
  have p10 := hp 1 0
  have p01 := hp 0 1
  have p11 := hp 1 1
  simp only [Fin.sum_univ_two, s01, s10, u00, u10, u01, u11, v00, v10, v01, v11, Fin.isValue, if_true, one_ne_zero, if_false] at p00 p10 p01 p11
  have hpos' := hpos (by simpa using hdet.le)
  have e00 : a = cu * s 0 0 * cv + su * s 1 1 * sv := by linear_combination p00
  have e10 : b = su * s 0 0 * cv - cu * s 1 1 * sv := by linear_combination p10
  have e01 : c = cu * s 0 0 * sv - su * s 1 1 * cv := by linear_combination p01
  have e11 : d = su * s 0 0 * sv + cu * s 1 1 * cv := by linear_combination p11
  have hdd : a * d - c * b = s 0 0 * s 1 1 := by
    rw [e00, e10, e01, e11]
    linear_combination (s 0 0 * s 1 1) * (cu ^ 2 + su ^ 2) * hv + (s 0 0 * s 1 1) * hu
  refine ⟨s 0 0, s 1 1, cu, su, cv, sv, ?_, hu, hv, ?_, hpos'.2, e00, e10, e01, e11⟩
  · rw [e, hS, hU, hV, s01, s10, u00, u10, u01, u11, v00, v10, v01, v11]
  · refine lt_of_le_of_ne hpos'.1 fun h0 => ?_
    rw [hdd, ← h0, mul_zero] at hdet
    exact lt_irrefl _ hdet

theorem diag2 (x y : ℝ) : diagonal ![x, y] = !![x, 0; 0, y] := by
  ext i j; fin_cases i <;> fin_cases j <;> simp

theorem hasSvd_good {a b c d d1 d2 cu su cv sv : ℝ} (hu : cu ^ 2 + su ^ 2 = 1) (hv : cv ^ 2 + sv ^ 2 = 1) (h0 : 0 < d2) (h1 : d2 ≤ d1) (ea : a = cu * d1 * cv + su * d2 * sv)
    (eb : b = su * d1 * cv - cu * d2 * sv) (ec : c = cu * d1 * sv - su * d2 * cv) (ed : d = su * d1 * sv + cu * d2 * cv) : HasSvd (lmat a b c d) d1 d2 := by
  refine ⟨h0, h1, rot cu su, rot cv sv, isRot_rot hu, isRot_rot hv, ?_⟩
  rw [diag2]
  ext i j
  fin_cases i <;> fin_cases j <;> simp [lmat, rot, Matrix.mul_apply, Fin.sum_univ_two]
  · rw [ea]
  · rw [ec]; ring
  · rw [eb]; ring
  · rw [ed]

/-- The first part of an iteration. -/
theorem affineScale_spec {c : AffineConf} (hce : 0 < c.eps) (it : Nat) (ref : ℝ) {a0 a1 a2 a3 : ℝ} (h : Good c.eps a0 a1 a2 a3) :
    ∃ d1 d2, HasSvd (lmat a0 a1 a2 a3) d1 d2 ∧ ((5 * d2 < d1 ∧ affineScale c it ref [a0, a1, a2, a3] = some none) ∨
      (d1 ≤ 5 * d2 ∧ ∃ k cu su R, k = (if it = 0 then 1 else ref / d2) ∧ cu ^ 2 + su ^ 2 = 1 ∧ IsRot R ∧
        lmat (cu * (d1 * k)) (su * (d1 * k)) (-su * (d2 * k)) (cu * (d2 * k)) = k • (lmat a0 a1 a2 a3 * R) ∧
        affineScale c it ref [a0, a1, a2, a3] = some (some ⟨if it = 0 then d2 else ref, [cu * (d1 * k), su * (d1 * k), -su * (d2 * k), cu * (d2 * k)], d1 * k, d2 * k⟩))) := by
  obtain ⟨d1, d2, cu, su, cv, sv, e, hu, hv, h0, h1, ea, eb, ec, ed⟩ := svd_good hce h
  have hd1 : 0 < d1 := lt_of_lt_of_le h0 h1
  refine ⟨d1, d2, hasSvd_good hu hv h0 h1 ea eb ec ed, ?_⟩
  have hmax : max (d1 / d2) (d2 / d1) = d1 / d2 := max_eq_left (by
    rw [div_le_div_iff₀ hd1 h0]; nlinarith)
  have hmin : min d1 d2 = d2 := min_eq_right h1
  have run : affineScale c it ref [a0, a1, a2, a3] = if d1 / d2 > 5 then some none else
      (if it = 0 then some 1 else quot (if it = 0 then d2 else ref) d2).bind fun k => some (some ⟨if it = 0 then d2 else ref, [cu * (d1 * k), su * (d1 * k), -su * (d2 * k), cu * (d2 * k)], d1 * k, d2 * k⟩) := by
    simp only [affineScale, e, Option.bind_eq_bind, Option.bind_some, rd, List.getElem?_cons_zero, List.getElem?_cons_succ, quot_of h0.ne', quot_of hd1.ne', hmax, hmin]
    split
    · rfl
    · split <;> rfl
  by_cases h5 : d1 / d2 > 5
  · left
    refine ⟨?_, by rw [run, if_pos h5]⟩
    rwa [gt_iff_lt, lt_div_iff₀ h0] at h5
  · right
    refine ⟨?_, if it = 0 then 1 else ref / d2, cu, su, rot cv sv, rfl, hu, isRot_rot hv, ?_, ?_⟩
    · rw [gt_iff_lt, lt_div_iff₀ h0, not_lt] at h5; exact h5
    · generalize (if it = 0 then (1 : ℝ) else ref / d2) = k
      ext i j
      fin_cases i <;> fin_cases j <;> simp [lmat, rot, -mul_eq_mul_left_iff, -mul_eq_mul_right_iff]
      · rw [ea, ec]; linear_combination (-(cu * d1 * k)) * hv
      · rw [ea, ec]; linear_combination (su * d2 * k) * hv
      · rw [eb, ed]; linear_combination (-(su * d1 * k)) * hv
      · rw [eb, ed]; linear_combination (-(cu * d2 * k)) * hv
    · rw [run, if_neg h5]
      by_cases hi : it = 0
      · simp [hi]
      · simp only [hi, if_false, quot_of h0.ne', Option.bind_some]

/-- The sums are those of the second moment matrix. -/
theorem secondMoment_spec {n : Nat} {gx gy mask : List ℝ} (hx : n ≤ gx.length) (hy : n ≤ gy.length) (hm : n ≤ mask.length) :
    secondMoment n gx gy mask = some (momentMat n mask gx gy 0 0, momentMat n mask gx gy 0 1, momentMat n mask gx gy 1 1) := by
  obtain ⟨s, hs, h⟩ : ∃ s, secondMoment n gx gy mask = some s ∧ s = (momentMat n mask gx gy 0 0, momentMat n mask gx gy 0 1, momentMat n mask gx gy 1 1) := iter_inv (n := n)
    (P := fun i (s : ℝ × ℝ × ℝ) => s = (momentMat i mask gx gy 0 0, momentMat i mask gx gy 0 1, momentMat i mask gx gy 1 1))
    (by simp [momentMat]) (fun i hi s hP => by
      have r (l : List ℝ) (hl : n ≤ l.length) : rd l i = some (l.getD i 0) := by
        have : i < l.length := lt_of_lt_of_le hi hl
        rw [rd, List.getD_eq_getElem?_getD, List.getElem?_eq_getElem this]; rfl
      refine ⟨_, by rw [r gx hx, r gy hy, r mask hm]; rfl, ?_⟩
      rw [hP]
      refine Prod.ext ?_ (Prod.ext ?_ ?_) <;> simp [momentMat, Finset.sum_range_succ, -mul_eq_mul_right_iff] <;> ring)
  rw [hs, h]

theorem momentMat_nonneg {c : AffineConf} (ok : AffineOk c) (gx gy : List ℝ) : 0 ≤ momentMat c.n c.mask gx gy 0 0 ∧ 0 ≤ momentMat c.n c.mask gx gy 1 1 := by
  have hm (k : Nat) : 0 ≤ c.mask.getD k 0 := by
    rw [List.getD_eq_getElem?_getD]
    by_cases h : k < c.mask.length
    · rw [List.getElem?_eq_getElem h]; exact ok.maskPos _ (List.getElem_mem h)
    · rw [List.getElem?_eq_none (not_lt.mp h)]; exact le_refl _
  constructor
  · change 0 ≤ ∑ k ∈ range c.n, gx.getD k 0 ^ 2 * c.mask.getD k 0
    exact Finset.sum_nonneg fun k _ => mul_nonneg (sq_nonneg _) (hm k)
  · change 0 ≤ ∑ k ∈ range c.n, gy.getD k 0 ^ 2 * c.mask.getD k 0
    exact Finset.sum_nonneg fun k _ => mul_nonneg (sq_nonneg _) (hm k)

/-- The decomposition of a symmetric positive matrix is that into eigenvectors. -/
theorem svd_symm {a b d q1 q2 cu su cv sv : ℝ} (hu : cu ^ 2 + su ^ 2 = 1) (hv : cv ^ 2 + sv ^ 2 = 1) (h0 : 0 < q2) (h1 : q2 ≤ q1) (ht : 0 < a + d) (ea : a = cu * q1 * cv + su * q2 * sv)
    (eb : b = su * q1 * cv - cu * q2 * sv) (ec : b = cu * q1 * sv - su * q2 * cv) (ed : d = su * q1 * sv + cu * q2 * cv) : cv = cu ∧ sv = su := by
  have hq : 0 < q1 + q2 := by linarith
  have hs : su * cv - cu * sv = 0 := by
    have : (q1 + q2) * (su * cv - cu * sv) = 0 := by linear_combination ec - eb
    exact (mul_eq_zero.mp this).resolve_left hq.ne'
  have hc : cu * cv + su * sv = 1 := by
    have h2 : (cu * cv + su * sv) ^ 2 = 1 := by linear_combination (cv ^ 2 + sv ^ 2) * hu + hv - (su * cv - cu * sv) * hs
    have h3 : 0 < (q1 + q2) * (cu * cv + su * sv) := by
      have : (q1 + q2) * (cu * cv + su * sv) = a + d := by rw [ea, ed]; ring
      rw [this]; exact ht
    have h4 : 0 < cu * cv + su * sv := pos_of_mul_pos_right h3 hq.le
    nlinarith
  exact ⟨by linear_combination cu * hc + su * hs - cv * hu, by linear_combination su * hc - cu * hs - sv * hu⟩

theorem whiten {k t s1 s2 r0 r1 : ℝ} (hk : k ^ 2 + t ^ 2 = 1) (h0 : 0 < r0) (h1 : 0 < r1) (e0 : r0 ^ 2 = s1) (e1 : r1 ^ 2 = s2) :
    (!![k / r0, -t / r1; t / r0, k / r1] : Mat2)ᵀ * lmat (k * s1 * k + t * s2 * t) (t * s1 * k - k * s2 * t) (t * s1 * k - k * s2 * t) (t * s1 * t + k * s2 * k) * !![k / r0, -t / r1; t / r0, k / r1] = 1 := by
  subst e0 e1
  ext i j
  fin_cases i <;> fin_cases j <;> simp [lmat, Matrix.mul_apply, Fin.sum_univ_two] <;> field_simp
  · linear_combination r0 ^ 2 * (k ^ 2 + t ^ 2 + 1) * hk
  · ring
  · ring
  · linear_combination r1 ^ 2 * (k ^ 2 + t ^ 2 + 1) * hk

theorem frob_step {cu su x y k t r0 r1 s1 s2 : ℝ} (hu : cu ^ 2 + su ^ 2 = 1) (hk : k ^ 2 + t ^ 2 = 1) (hy : 0 < y) (hyx : y ≤ x)
    (h0 : 0 < r0) (h1 : 0 < r1) (e0 : r0 ^ 2 = s1) (e1 : r1 ^ 2 = s2) :
    ((cu * x * k + -su * y * t) / r0) ^ 2 + ((su * x * k + cu * y * t) / r0) ^ 2 + ((cu * x * -t + -su * y * k) / r1) ^ 2 + ((su * x * -t + cu * y * k) / r1) ^ 2
      ≤ x ^ 2 * (s1 + s2) / (r0 * r1) ^ 2 := by
  have c0 : ((cu * x * k + -su * y * t) / r0) ^ 2 + ((su * x * k + cu * y * t) / r0) ^ 2 = (x ^ 2 * k ^ 2 + y ^ 2 * t ^ 2) / r0 ^ 2 := by
    rw [div_pow, div_pow, ← add_div]
    congr 1
    linear_combination (x ^ 2 * k ^ 2 + y ^ 2 * t ^ 2) * hu
  have c1 : ((cu * x * -t + -su * y * k) / r1) ^ 2 + ((su * x * -t + cu * y * k) / r1) ^ 2 = (x ^ 2 * t ^ 2 + y ^ 2 * k ^ 2) / r1 ^ 2 := by
    rw [div_pow, div_pow, ← add_div]
    congr 1
    linear_combination (x ^ 2 * t ^ 2 + y ^ 2 * k ^ 2) * hu
  have hxy : y ^ 2 ≤ x ^ 2 := pow_le_pow_left₀ hy.le hyx 2
  have d0 : (x ^ 2 * k ^ 2 + y ^ 2 * t ^ 2) / r0 ^ 2 ≤ x ^ 2 / r0 ^ 2 := by
    refine div_le_div_of_nonneg_right ?_ (by positivity)
    have := mul_le_mul_of_nonneg_right hxy (sq_nonneg t)
    have : x ^ 2 * k ^ 2 + x ^ 2 * t ^ 2 = x ^ 2 := by linear_combination x ^ 2 * hk
    linarith
  have d1 : (x ^ 2 * t ^ 2 + y ^ 2 * k ^ 2) / r1 ^ 2 ≤ x ^ 2 / r1 ^ 2 := by
    refine div_le_div_of_nonneg_right ?_ (by positivity)
    have := mul_le_mul_of_nonneg_right hxy (sq_nonneg k)
    have : x ^ 2 * k ^ 2 + x ^ 2 * t ^ 2 = x ^ 2 := by linear_combination x ^ 2 * hk
    linarith
  have e : x ^ 2 * (s1 + s2) / (r0 * r1) ^ 2 = x ^ 2 / r0 ^ 2 + x ^ 2 / r1 ^ 2 := by
    rw [← e0, ← e1]; field_simp; ring
  linarith

theorem good_step {eps cu su x y k t r0 r1 s1 s2 : ℝ} (he : 0 < eps) (he1 : eps ≤ 1 / 25) (hu : cu ^ 2 + su ^ 2 = 1) (hk : k ^ 2 + t ^ 2 = 1) (hy : 0 < y) (hyx : y ≤ x) (hx5 : x ≤ 5 * y)
    (h0 : 0 < r0) (h1 : 0 < r1) (e0 : r0 ^ 2 = s1) (e1 : r1 ^ 2 = s2) (hc : eps * (s1 + s2) ^ 2 ≤ (r0 * r1) ^ 2) :
    Good eps ((cu * x * k + -su * y * t) / r0) ((su * x * k + cu * y * t) / r0) ((cu * x * -t + -su * y * k) / r1) ((su * x * -t + cu * y * k) / r1) := by
  have hdet : (cu * x * k + -su * y * t) / r0 * ((su * x * -t + cu * y * k) / r1) - (cu * x * -t + -su * y * k) / r1 * ((su * x * k + cu * y * t) / r0) = x * y / (r0 * r1) := by
    field_simp
    linear_combination (x * y * (k ^ 2 + t ^ 2)) * hu + x * y * hk
  have hx : 0 < x := lt_of_lt_of_le hy hyx
  have hD : 0 < r0 * r1 := mul_pos h0 h1
  refine ⟨by rw [hdet]; positivity, ?_⟩
  rw [hdet]
  have hk' : k ^ 2 ≤ 1 := by nlinarith [sq_nonneg t]
  have hfrob := frob_step hu hk hy hyx h0 h1 e0 e1
  refine le_trans (mul_le_mul_of_nonneg_left hfrob he.le) ?_
  have hs : 0 < s1 + s2 := by rw [← e0, ← e1]; positivity
  have key : 5 * eps * (s1 + s2) ≤ r0 * r1 := by
    refine le_of_sq_le_sq ?_ hD.le
    refine le_trans ?_ hc
    have : eps * (25 * eps) ≤ eps * 1 := mul_le_mul_of_nonneg_left (by linarith) he.le
    nlinarith [sq_nonneg (s1 + s2)]
  rw [mul_div_assoc', div_le_div_iff₀ (by positivity) hD]
  have k2 : x * (eps * (s1 + s2)) ≤ y * (r0 * r1) := by
    have : x * (eps * (s1 + s2)) ≤ 5 * y * (eps * (s1 + s2)) := mul_le_mul_of_nonneg_right hx5 (by positivity)
    nlinarith [mul_le_mul_of_nonneg_left key hy.le]
  nlinarith [mul_le_mul_of_nonneg_left k2 (by positivity : 0 ≤ x * (r0 * r1))]

/-- The second part of an iteration. -/
theorem affineNext_spec {c : AffineConf} (ok : AffineOk c) {cu su x y : ℝ} (hu : cu ^ 2 + su ^ 2 = 1) (hy : 0 < y) (hyx : y ≤ x) (hx5 : x ≤ 5 * y) :
    ∃ r, affineNext c [cu * x, su * x, -su * y, cu * y] x y = some r ∧
      ((r = .error ∧ momentsOf c (lmat (cu * x) (su * x) (-su * y) (cu * y)) x y = none) ∨
       ∃ M, momentsOf c (lmat (cu * x) (su * x) (-su * y) (cu * y)) x y = some M ∧ ((r = .flat ∧ (M 0 0 = 0 ∨ M 1 1 = 0)) ∨
        (¬ (M 0 0 = 0 ∨ M 1 1 = 0) ∧ ∃ q1 q2, HasSvd M q1 q2 ∧ ((r = .converged ∧ q1 < 1001 / 1000 * q2) ∨
          (¬ q1 < 1001 / 1000 * q2 ∧ ∃ n0 n1 n2 n3 dA, r = .next [n0, n1, n2, n3] ∧ dAᵀ * M * dA = 1 ∧ lmat n0 n1 n2 n3 = lmat (cu * x) (su * x) (-su * y) (cu * y) * dA ∧
            Good c.eps n0 n1 n2 n3))))) := by
  have hm : momentsOf c (lmat (cu * x) (su * x) (-su * y) (cu * y)) x y = (c.grad [cu * x, su * x, -su * y, cu * y] x y).map fun g => momentMat c.n c.mask g.1 g.2 := by
    simp [momentsOf, lmat]
  unfold affineNext
  cases hg : c.grad [cu * x, su * x, -su * y, cu * y] x y with
  | none => exact ⟨.error, rfl, Or.inl ⟨rfl, by rw [hm, hg]; rfl⟩⟩
  | some g =>
    obtain ⟨gx, gy⟩ := g
    obtain ⟨lx, ly⟩ := ok.size _ _ _ _ _ hg
    obtain ⟨M, eM⟩ : ∃ M, M = momentMat c.n c.mask gx gy := ⟨_, rfl⟩
    rw [hg, Option.map_some] at hm
    change _ = some (momentMat c.n c.mask gx gy) at hm
    rw [← eM] at hm
    obtain ⟨p0, p1⟩ := momentMat_nonneg ok gx gy
    rw [← eM] at p0 p1
    have hsym : M 1 0 = M 0 1 := by rw [eM]; rfl
    have hreg := ok.regular _ _ _ _ hm
    obtain ⟨a, ha⟩ : ∃ a, a = M 0 0 := ⟨_, rfl⟩
    obtain ⟨b, hb⟩ : ∃ a, a = M 0 1 := ⟨_, rfl⟩
    obtain ⟨d, hd⟩ : ∃ a, a = M 1 1 := ⟨_, rfl⟩
    have hsm : secondMoment c.n gx gy c.mask = some (a, b, d) := by rw [secondMoment_spec lx ly ok.mask, ← eM, ha, hb, hd]
    dsimp only
    rw [hsm]
    dsimp only [Option.bind_eq_bind, Option.bind_some]
    by_cases hf : M 0 0 = 0 ∨ M 1 1 = 0
    · exact ⟨.flat, by rw [ha, hd, if_pos hf], Or.inr ⟨M, hm, Or.inl ⟨rfl, hf⟩⟩⟩
    · have hf1 := hf
      rw [← ha, ← hd] at hf1
      rw [if_neg hf1]
      have hf' := hf
      rw [not_or] at hf'
      have hreg := (hreg.resolve_left hf'.1).resolve_left hf'.2
      have q0 : 0 < M 0 0 := lt_of_le_of_ne p0 (Ne.symm hf'.1)
      have q3 : 0 < M 1 1 := lt_of_le_of_ne p1 (Ne.symm hf'.2)
      rw [det_fin_two, hsym] at hreg
      have hML : M = lmat a b b d := by
        ext i j; fin_cases i <;> fin_cases j <;> simp [lmat, ha, hb, hd, hsym]
      rw [← ha, ← hb, ← hd] at hreg
      rw [← ha] at q0
      rw [← hd] at q3
      have he := ok.eps0
      have hdet : 0 < a * d - b * b := lt_of_lt_of_le (mul_pos he (by positivity)) hreg
      have G : Good c.eps a b b d := ⟨hdet, le_trans (mul_le_mul_of_nonneg_left (by nlinarith) he.le) hreg⟩
      obtain ⟨s1, s2, ku, tu, kv, tv, e, hku, hkv, h0, h1, ea, eb, ec, ed⟩ := svd_good he G
      have hS : HasSvd M s1 s2 := hML ▸ hasSvd_good hku hkv h0 h1 ea eb ec ed
      obtain ⟨e1, e2⟩ := svd_symm hku hkv h0 h1 (add_pos q0 q3) ea eb ec ed
      subst e1 e2
      have hs1 : 0 < s1 := lt_of_lt_of_le h0 h1
      have hr0 : s2 / s1 < 1001 / 1000 := by rw [div_lt_iff₀ hs1]; linarith
      have hr1 : s1 / s2 < 1001 / 1000 ↔ s1 < 1001 / 1000 * s2 := by rw [div_lt_iff₀ h0]
      simp only [e, Option.bind_some, rd, List.getElem?_cons_zero, List.getElem?_cons_succ, quot_of h0.ne', quot_of hs1.ne', hr0, true_and, hr1]
      by_cases hc : s1 < 1001 / 1000 * s2
      · exact ⟨.converged, by rw [if_pos hc], Or.inr ⟨M, hm, Or.inr ⟨hf, s1, s2, hS, Or.inl ⟨rfl, hc⟩⟩⟩⟩
      · rw [if_neg hc]
        obtain ⟨r0, er0⟩ : ∃ r, r = √s1 := ⟨_, rfl⟩
        obtain ⟨r1, er1⟩ : ∃ r, r = √s2 := ⟨_, rfl⟩
        have hr0 : 0 < r0 := er0 ▸ Real.sqrt_pos.mpr hs1
        have hr1 : 0 < r1 := er1 ▸ Real.sqrt_pos.mpr h0
        have sq0 : r0 ^ 2 = s1 := by rw [er0]; exact Real.sq_sqrt hs1.le
        have sq1 : r1 ^ 2 = s2 := by rw [er1]; exact Real.sq_sqrt h0.le
        rw [← er0, ← er1, quot_of hr0.ne', quot_of hr0.ne', quot_of hr1.ne', quot_of hr1.ne']
        refine ⟨_, rfl, Or.inr ⟨M, hm, Or.inr ⟨hf, s1, s2, hS, Or.inr ⟨hc, _, _, _, _, !![kv / r0, -tv / r1; tv / r0, kv / r1], rfl, ?_, ?_, ?_⟩⟩⟩⟩
        · rw [hML, ea, eb, ed]
          exact whiten hku hr0 hr1 sq0 sq1
        · ext i j
          fin_cases i <;> fin_cases j <;> simp [lmat, Matrix.mul_apply, Fin.sum_univ_two] <;> ring
        · have hD : (r0 * r1) ^ 2 = a * d - b * b := by
            rw [mul_pow, sq0, sq1, ea, eb, ed]; linear_combination (-(s1 * s2)) * (kv ^ 2 + tv ^ 2 + 1) * hku
          have hT : s1 + s2 = a + d := by rw [ea, ed]; linear_combination (-(s1 + s2)) * hku
          exact good_step he ok.eps1 hu hku hy hyx hx5 hr0 hr1 sq0 sq1 (by rw [hD, hT]; exact hreg)

/-! ### The loop -/

/-- The matrix stored in a list. -/
def toMat (L : List ℝ) : Mat2 := lmat (L.getD 0 0) (L.getD 1 0) (L.getD 2 0) (L.getD 3 0)

/-- What is known of the result of the loop when it enters an iteration, not the first, with a matrix that is not too anisotropic once decomposed. -/
def LoopSpec (c : AffineConf) (FL : List ℝ) (e : ℝ) (fuel it : Nat) : Prop := ∀ (a0 a1 a2 a3 : ℝ) (adL : List ℝ), adL.length = 4 → Good c.eps a0 a1 a2 a3 →
  ∃ r, affineLoop c FL fuel it e [a0, a1, a2, a3] adL = some r ∧ (∀ L, r = some L → L.length = 4) ∧
    ((∃ d1 d2, HasSvd (lmat a0 a1 a2 a3) d1 d2 ∧ 5 * d2 < d1 ∧ r = some adL) ∨
     ∃ d1 d2 R, HasSvd (lmat a0 a1 a2 a3) d1 d2 ∧ d1 ≤ 5 * d2 ∧ IsRot R ∧
      Adapted (momentsOf c) (toMat FL) e (it + 1) ((e / d2) • (lmat a0 a1 a2 a3 * R)) (r.map toMat))

theorem loop_after {c : AffineConf} (ok : AffineOk c) {FL : List ℝ} (hF : FL.length = 4) {e : ℝ} {fuel it : Nat} (IH : it + 1 < 15 → LoopSpec c FL e fuel (it + 1)) {cu su x y : ℝ}
    (hu : cu ^ 2 + su ^ 2 = 1) (hy : 0 < y) (hyx : y ≤ x) (hx5 : x ≤ 5 * y) :
    ∃ r, (if it + 1 ≥ 15 then some (some [cu * x, su * x, -su * y, cu * y])
      else do
        let r ← affineNext c [cu * x, su * x, -su * y, cu * y] x y
        match r with
        | .error => some none
        | .flat => some (some FL)
        | .converged => some (some [cu * x, su * x, -su * y, cu * y])
        | .next A => affineLoop c FL fuel (it + 1) e A [cu * x, su * x, -su * y, cu * y]) = some r ∧ (∀ L, r = some L → L.length = 4) ∧
      Adapted (momentsOf c) (toMat FL) e (it + 1) (lmat (cu * x) (su * x) (-su * y) (cu * y)) (r.map toMat) := by
  have hA : HasSvd (lmat (cu * x) (su * x) (-su * y) (cu * y)) x y := hasSvd_good (cv := 1) (sv := 0) hu (by norm_num) hy hyx (by ring) (by ring) (by ring) (by ring)
  by_cases hit : it + 1 ≥ 15
  · exact ⟨_, by rw [if_pos hit], fun L hL => by cases hL; rfl, Adapted.limit hit⟩
  · have hlt := not_le.mp hit
    rw [if_neg hit]
    obtain ⟨r, er, h⟩ := affineNext_spec ok hu hy hyx hx5
    rw [er]
    rcases h with ⟨rfl, hm⟩ | ⟨M, hm, ⟨rfl, h0⟩ | ⟨h0, q1, q2, hM, ⟨rfl, hq⟩ | ⟨hq, n0, n1, n2, n3, dA, rfl, hw, hn, hg⟩⟩⟩
    · exact ⟨none, rfl, by simp, Adapted.error hlt hA hm⟩
    · exact ⟨some FL, rfl, fun L hL => by cases hL; exact hF, Adapted.flat hlt hA hm h0⟩
    · exact ⟨_, rfl, fun L hL => by cases hL; rfl, Adapted.converged hlt hA hm h0 hM hq⟩
    · obtain ⟨r, er', hl, h⟩ := IH hlt n0 n1 n2 n3 [cu * x, su * x, -su * y, cu * y] rfl hg
      refine ⟨r, er', hl, ?_⟩
      rw [hn] at h
      rcases h with ⟨b1, b2, hB, hb, rfl⟩ | ⟨b1, b2, R, hB, hb, hR, hs⟩
      · exact Adapted.diverged hlt hA hm h0 hM hq hw hB hb
      · exact Adapted.step hlt hA hm h0 hM hq hw hB hb hR hs

theorem loop_spec {c : AffineConf} (ok : AffineOk c) {FL : List ℝ} (hF : FL.length = 4) {e : ℝ} (he : 0 < e) : ∀ fuel it : Nat, it + fuel = 16 → 1 ≤ it → it < 15 → LoopSpec c FL e fuel it := by
  intro fuel
  induction fuel with
  | zero => intro it h1 h2 h3; omega
  | succ fuel IH =>
    intro it h1 h2 h3 a0 a1 a2 a3 adL hL hg
    obtain ⟨d1, d2, hA, ⟨h5, es⟩ | ⟨h5, k, cu, su, R, hk, hu, hR, hm, es⟩⟩ := affineScale_spec ok.eps0 it e hg
    · exact ⟨some adL, by rw [affineLoop, es]; rfl, fun L h => by cases h; exact hL, Or.inl ⟨d1, d2, hA, h5, rfl⟩⟩
    · have hi : it ≠ 0 := by omega
      rw [if_neg hi] at es hk
      have d0 := hA.1
      have d01 := hA.2.1
      have hk0 : 0 < k := hk ▸ div_pos he d0
      obtain ⟨r, er, hl, ha⟩ := loop_after ok hF (fuel := fuel) (it := it) (e := e) (fun h => IH (it + 1) (by omega) (by omega) h) hu (mul_pos d0 hk0) (mul_le_mul_of_nonneg_right d01 hk0.le)
        (by nlinarith : d1 * k ≤ 5 * (d2 * k))
      refine ⟨r, ?_, hl, Or.inr ⟨d1, d2, R, hA, h5, hR, ?_⟩⟩
      · rw [affineLoop, es]
        exact er
      · rw [← hk, ← hm]; exact ha

/-! ### The upright frame -/

theorem upright_spec (c : AffineConf) (ht : 0 < c.tau) {a0 a1 a2 a3 d1 d2 : ℝ} (hA : HasSvd (lmat a0 a1 a2 a3) d1 d2) (h2 : 2 * c.tau ≤ d2) :
    ∃ b0 b1 b2 b3 R, upright c [a0, a1, a2, a3] = some [b0, b1, b2, b3] ∧ IsRot R ∧ lmat b0 b1 b2 b3 = lmat a0 a1 a2 a3 * R ∧
      (if c.transposed then b1 = 0 ∧ 0 < b0 else b2 = 0 ∧ 0 < b3) := by
  have hd := hasSvd_det hA
  have htr := hasSvd_trace hA
  have p2 := hA.1
  have p21 := hA.2.1
  have hd' : a0 * a3 - a2 * a1 = d1 * d2 := by rw [← hd, lmat, det_fin_two_of]
  have htr' : a0 ^ 2 + a1 ^ 2 + (a2 ^ 2 + a3 ^ 2) = d1 ^ 2 + d2 ^ 2 := by
    rw [← htr]; simp [lmat, trace_fin_two, Matrix.mul_apply, Fin.sum_univ_two]; ring
  -- the smallest singular value bounds the expansion
  have hexp (u v : ℝ) : d2 ^ 2 * (u ^ 2 + v ^ 2) ≤ (a0 * u + a2 * v) ^ 2 + (a1 * u + a3 * v) ^ 2 := by
    obtain ⟨_, _, U, V, hU, hV, e⟩ := hA
    have q : (lmat a0 a1 a2 a3)ᵀ * lmat a0 a1 a2 a3 = V * diagonal ![d1 ^ 2, d2 ^ 2] * Vᵀ := by
      rw [e, transpose_mul, transpose_mul, transpose_transpose, diagonal_transpose]
      rw [show V * (diagonal ![d1, d2] * Uᵀ) * (U * diagonal ![d1, d2] * Vᵀ) = V * (diagonal ![d1, d2] * (Uᵀ * U) * diagonal ![d1, d2]) * Vᵀ by
        simp only [Matrix.mul_assoc], isRot_tr hU, Matrix.mul_one, diagonal_mul_diagonal]
      congr 3
      ext i; fin_cases i <;> simp <;> ring
    have q00 := congrFun (congrFun q 0) 0
    have q01 := congrFun (congrFun q 0) 1
    have q11 := congrFun (congrFun q 1) 1
    have v00 := congrFun (congrFun hV.1 0) 0
    have v01 := congrFun (congrFun hV.1 0) 1
    have v11 := congrFun (congrFun hV.1 1) 1
    rw [diag2] at q00 q01 q11
    simp [lmat, Matrix.mul_apply, Fin.sum_univ_two] at q00 q01 q11 v00 v01 v11
    have e2 : (a0 * u + a2 * v) ^ 2 + (a1 * u + a3 * v) ^ 2 = d1 ^ 2 * (V 0 0 * u + V 1 0 * v) ^ 2 + d2 ^ 2 * (V 0 1 * u + V 1 1 * v) ^ 2 := by
      linear_combination u ^ 2 * q00 + 2 * u * v * q01 + v ^ 2 * q11
    have e3 : u ^ 2 + v ^ 2 = (V 0 0 * u + V 1 0 * v) ^ 2 + (V 0 1 * u + V 1 1 * v) ^ 2 := by
      linear_combination (-u ^ 2) * v00 - 2 * u * v * v01 - v ^ 2 * v11
    rw [e2, e3]
    have : d2 ^ 2 ≤ d1 ^ 2 := pow_le_pow_left₀ p2.le p21 2
    nlinarith [mul_le_mul_of_nonneg_right this (sq_nonneg (V 0 0 * u + V 1 0 * v))]
  obtain ⟨f0, e0⟩ : ∃ f : ℝ, f = if c.transposed then 1 else 0 := ⟨_, rfl⟩
  obtain ⟨f1, e1⟩ : ∃ f : ℝ, f = if c.transposed then 0 else 1 := ⟨_, rfl⟩
  obtain ⟨err, x, ex, lx, hok, herr⟩ := Linear.solve2_correct c.tau ht [a0, a1, a2, a3] [f0, f1] rfl rfl
  obtain ⟨x0, x1, rfl⟩ : ∃ x0 x1, x = [x0, x1] := by
    match x, lx with
    | [x0, x1], _ => exact ⟨_, _, rfl⟩
  have hno : err = false := by
    by_contra hne
    obtain ⟨u, ⟨k, hk, uk⟩, hs⟩ := herr (by simpa using hne)
    have s0 := hs 0 (by omega)
    have s1 := hs 1 (by omega)
    simp [Linear.ent, Finset.sum_range_succ] at s0 s1
    have hu : 1 ≤ u 0 ^ 2 + u 1 ^ 2 := by
      rcases (show k = 0 ∨ k = 1 by omega) with rfl | rfl
      · rw [uk]; nlinarith [sq_nonneg (u 1)]
      · rw [uk]; nlinarith [sq_nonneg (u 0)]
    have b0 : (a0 * u 0 + a2 * u 1) ^ 2 < c.tau ^ 2 := sq_lt_sq' (abs_lt.mp s0).1 (abs_lt.mp s0).2
    have b1 : (a1 * u 0 + a3 * u 1) ^ 2 < c.tau ^ 2 := sq_lt_sq' (abs_lt.mp s1).1 (abs_lt.mp s1).2
    have := hexp (u 0) (u 1)
    have h4 : (2 * c.tau) ^ 2 ≤ d2 ^ 2 := pow_le_pow_left₀ (by linarith) h2 2
    nlinarith [sq_nonneg d2]
  have hx := (hok hno (fun k => [x0, x1].getD k 0)).mpr (fun i _ => rfl)
  have hx0 : a0 * x0 + a2 * x1 = f0 := by simpa [Linear.ent, Finset.sum_range_succ] using hx 0 (by omega)
  have hx1 : a1 * x0 + a3 * x1 = f1 := by simpa [Linear.ent, Finset.sum_range_succ] using hx 1 (by omega)
  have hxne : (⟨x0, x1⟩ : ℂ) ≠ 0 := by
    intro h
    have h0 : x0 = 0 := congrArg Complex.re h
    have h1 : x1 = 0 := congrArg Complex.im h
    rw [h0, h1] at hx0 hx1
    by_cases ht : c.transposed
    · simp [e0, ht] at hx0
    · simp [e1, ht] at hx1
  obtain ⟨n, en⟩ : ∃ n, n = ‖(⟨x0, x1⟩ : ℂ)‖ := ⟨_, rfl⟩
  have hn : 0 < n := en ▸ norm_pos_iff.mpr hxne
  have hn2 : n ^ 2 = x0 ^ 2 + x1 ^ 2 := by
    rw [en, Complex.sq_norm, Complex.normSq_mk]; ring
  have hcos : Real.cos (angleOf x1 x0) = x0 / n := by rw [angleOf, Complex.cos_arg hxne, en]
  have hsin : Real.sin (angleOf x1 x0) = x1 / n := by rw [angleOf, Complex.sin_arg, en]
  obtain ⟨g, eg⟩ : ∃ g, g = angleOf x1 x0 - angleOf f1 f0 := ⟨_, rfl⟩
  have run : upright c [a0, a1, a2, a3] = some [a0 * Real.cos g + a2 * Real.sin g, a1 * Real.cos g + a3 * Real.sin g, -a0 * Real.sin g + a2 * Real.cos g, -a1 * Real.sin g + a3 * Real.cos g] := by
    simp only [upright, ← e0, ← e1, ex, Option.bind_eq_bind, Option.bind_some, rd, List.getElem?_cons_zero, List.getElem?_cons_succ, ← eg]
  refine ⟨_, _, _, _, rot (Real.cos g) (Real.sin g), run, isRot_rot (Real.cos_sq_add_sin_sq g), ?_, ?_⟩
  · ext i j
    fin_cases i <;> fin_cases j <;> simp [lmat, rot]
  · by_cases htr : c.transposed
    · rw [if_pos htr]
      rw [if_pos htr] at e0 e1
      have ha : angleOf f1 f0 = 0 := by
        rw [angleOf, e0, e1, show (⟨1, 0⟩ : ℂ) = 1 by apply Complex.ext <;> simp, Complex.arg_one]
      rw [ha, sub_zero] at eg
      rw [eg, hcos, hsin]
      constructor
      · rw [show a1 * (x0 / n) + a3 * (x1 / n) = (a1 * x0 + a3 * x1) / n by ring, hx1, e1, zero_div]
      · rw [show a0 * (x0 / n) + a2 * (x1 / n) = (a0 * x0 + a2 * x1) / n by ring, hx0, e0]
        positivity
    · rw [if_neg htr]
      rw [if_neg htr] at e0 e1
      have ha : angleOf f1 f0 = Real.pi / 2 := by
        rw [angleOf, e0, e1, show (⟨0, 1⟩ : ℂ) = Complex.I by apply Complex.ext <;> simp, Complex.arg_I]
      rw [ha] at eg
      rw [eg, Real.cos_sub_pi_div_two, Real.sin_sub_pi_div_two, hcos, hsin]
      constructor
      · rw [show -a0 * -(x0 / n) + a2 * (x1 / n) = (a0 * x0 + a2 * x1) / n by ring, hx0, e0, zero_div]
      · rw [show -a1 * -(x0 / n) + a3 * (x1 / n) = (a1 * x0 + a3 * x1) / n by ring, hx1, e1]
        positivity

/-! ### The theorems -/

/-- Every result of the adaptation has the initial smallest singular value and a bounded anisotropy. -/
theorem adapted_svd {moments : Mat2 → ℝ → ℝ → Option Mat2} {F : Mat2} {e e1 : ℝ} (hF : HasSvd F e1 e) (h5 : e1 ≤ 5 * e) {n : Nat} {A : Mat2} {r : Option Mat2} (h : Adapted moments F e n A r) :
    ∀ d, HasSvd A d e → d ≤ 5 * e → ∀ B, r = some B → ∃ b, HasSvd B b e ∧ b ≤ 5 * e := by
  induction h with
  | limit hn => intro d hd h B hB; cases hB; exact ⟨d, hd, h⟩
  | error hn hA hm => intro d hd h B hB; cases hB
  | flat hn hA hm h0 => intro d hd h B hB; cases hB; exact ⟨e1, hF, h5⟩
  | converged hn hA hm h0 hM hq => intro d hd h B hB; cases hB; exact ⟨d, hd, h⟩
  | diverged hn hA hm h0 hM hq hw hB hb => intro d hd h B hB; cases hB; exact ⟨d, hd, h⟩
  | @step n A d1 d2 M q1 q2 dA b1 b2 R r hn hA hm h0 hM hq hw hB hb hR hs ih =>
    intro d hd h B hBe
    have hk : 0 < e / b2 := div_pos hd.1 hB.1
    have e2 : e / b2 * b2 = e := div_mul_cancel₀ _ hB.1.ne'
    have := hasSvd_smul (hasSvd_mul_rot hB hR) hk
    rw [e2] at this
    refine ih _ this ?_ B hBe
    have : e / b2 * b1 ≤ e / b2 * (5 * b2) := mul_le_mul_of_nonneg_left hb hk.le
    linarith

/-- For every frame that preserves the orientation of the plane and is not nearly singular, the function ends without dividing by zero.
If the frame is too anisotropic it is kept, and otherwise adapted by the documented iteration of at most 15 steps; the error of a patch
that cannot be extracted is returned; in the other cases the frame obtained has the same centre and is turned to be upright. -/
theorem affineShape_correct {c : AffineConf} (ok : AffineOk c) {f : Frame ℝ} {e1 e2 : ℝ} (hf : HasSvd f.mat e1 e2) (hc : c.eps * (e1 ^ 2 + e2 ^ 2) ≤ e1 * e2) (ht : 2 * c.tau ≤ e2) :
    ∃ r : Option Mat2, ((5 * e2 < e1 ∧ r = some f.mat) ∨ (e1 ≤ 5 * e2 ∧ ∃ R, IsRot R ∧ Adapted (momentsOf c) f.mat e2 1 (f.mat * R) r)) ∧
      ((r = none ∧ affineShape c f = some none) ∨
       ∃ B g R, r = some B ∧ affineShape c f = some (some g) ∧ g.x = f.x ∧ g.y = f.y ∧ IsRot R ∧ g.mat = B * R ∧ Upright c.transposed g) := by
  have hfm : f.mat = lmat f.a11 f.a21 f.a12 f.a22 := rfl
  have hd := hasSvd_det hf
  have htr := hasSvd_trace hf
  have p2 := hf.1
  have p21 := hf.2.1
  have hd' : f.a11 * f.a22 - f.a12 * f.a21 = e1 * e2 := by rw [← hd, hfm, lmat, det_fin_two_of]
  have htr' : f.a11 ^ 2 + f.a21 ^ 2 + f.a12 ^ 2 + f.a22 ^ 2 = e1 ^ 2 + e2 ^ 2 := by
    rw [← htr, hfm]; simp [lmat, trace_fin_two, Matrix.mul_apply, Fin.sum_univ_two]; ring
  have G : Good c.eps f.a11 f.a21 f.a12 f.a22 := ⟨by rw [hd']; exact mul_pos (by linarith) p2, by rw [hd', htr']; exact hc⟩
  -- the loop
  obtain ⟨r, er, hl, hr⟩ : ∃ r, affineLoop c [f.a11, f.a21, f.a12, f.a22] 16 0 0 [f.a11, f.a21, f.a12, f.a22] [f.a11, f.a21, f.a12, f.a22] = some r ∧ (∀ L, r = some L → L.length = 4) ∧
      ((5 * e2 < e1 ∧ r.map toMat = some f.mat) ∨ (e1 ≤ 5 * e2 ∧ ∃ R, IsRot R ∧ Adapted (momentsOf c) f.mat e2 1 (f.mat * R) (r.map toMat))) := by
    obtain ⟨d1, d2, hA, h⟩ := affineScale_spec ok.eps0 0 0 G
    obtain ⟨rfl, rfl⟩ := hasSvd_unique hA (hfm ▸ hf)
    rcases h with ⟨h5, es⟩ | ⟨h5, k, cu, su, R, hk, hu, hR, hm, es⟩
    · exact ⟨_, by rw [affineLoop, es]; rfl, fun L h => by cases h; rfl, Or.inl ⟨h5, rfl⟩⟩
    · rw [if_pos rfl] at es hk
      subst hk
      rw [mul_one, mul_one] at es hm
      rw [one_smul] at hm
      obtain ⟨r, er, hl, ha⟩ := loop_after ok (FL := [f.a11, f.a21, f.a12, f.a22]) rfl (fuel := 15) (it := 0) (e := d2) (fun h => loop_spec ok rfl p2 15 1 rfl le_rfl h) hu p2 p21 h5
      refine ⟨r, ?_, hl, Or.inr ⟨h5, R, hR, ?_⟩⟩
      · rw [affineLoop, es]
        exact er
      · rw [hfm, ← hm]; exact ha
  refine ⟨r.map toMat, hr, ?_⟩
  cases r with
  | none => exact Or.inl ⟨rfl, by rw [affineShape, er]; rfl⟩
  | some L =>
    right
    have hL4 := hl L rfl
    obtain ⟨b0, b1, b2, b3, rfl⟩ : ∃ b0 b1 b2 b3, L = [b0, b1, b2, b3] := by
      match L, hL4 with
      | [b0, b1, b2, b3], _ => exact ⟨_, _, _, _, rfl⟩
    have hB : ∃ b, HasSvd (lmat b0 b1 b2 b3) b e2 := by
      rcases hr with ⟨_, hr⟩ | ⟨h5, R, hR, hr⟩
      · exact ⟨e1, by rw [show lmat b0 b1 b2 b3 = f.mat from Option.some.inj hr]; exact hf⟩
      · obtain ⟨b, hb, _⟩ := adapted_svd hf h5 hr e1 (hasSvd_mul_rot hf hR) h5 _ rfl
        exact ⟨b, hb⟩
    obtain ⟨b, hB⟩ := hB
    obtain ⟨g0, g1, g2, g3, R, eu, hR, hg, hup⟩ := upright_spec c ok.tau0 hB ht
    refine ⟨_, ⟨f.x, f.y, g0, g2, g1, g3⟩, R, rfl, ?_, rfl, rfl, hR, hg, ?_⟩
    · rw [affineShape, er]
      simp only [Option.bind_eq_bind, Option.bind_some, eu, rd, List.getElem?_cons_zero, List.getElem?_cons_succ]
    · rw [Upright]; exact hup

/-- The adapted frame keeps the smallest singular value, and its anisotropy is at most five unless that of the frame was larger. -/
theorem affineShape_scale {c : AffineConf} (ok : AffineOk c) {f g : Frame ℝ} {e1 e2 : ℝ} (hf : HasSvd f.mat e1 e2) (hc : c.eps * (e1 ^ 2 + e2 ^ 2) ≤ e1 * e2) (ht : 2 * c.tau ≤ e2)
    (h : affineShape c f = some (some g)) : ∃ d, HasSvd g.mat d e2 ∧ (d ≤ 5 * e2 ∨ (5 * e2 < e1 ∧ d = e1)) := by
  obtain ⟨r, hr, ⟨_, hn⟩ | ⟨B, g', R, rfl, hg, _, _, hR, hm, _⟩⟩ := affineShape_correct ok hf hc ht
  · rw [h] at hn; simp at hn
  · rw [h] at hg
    obtain rfl := Option.some.inj (Option.some.inj hg)
    rw [hm]
    rcases hr with ⟨h5, hr⟩ | ⟨h5, R0, hR0, hr⟩
    · exact ⟨e1, hasSvd_mul_rot (by rw [Option.some.inj hr]; exact hf) hR, Or.inr ⟨h5, rfl⟩⟩
    · obtain ⟨b, hb, hb5⟩ := adapted_svd hf h5 hr e1 (hasSvd_mul_rot hf hR0) h5 _ rfl
      exact ⟨b, hasSvd_mul_rot hb hR, Or.inl hb5⟩

/-- A patch with twice as much gradient along the first axis. -/
noncomputable def demoAffine : AffineConf := ⟨1 / 100, 1 / 100, false, [1, 1], 2, fun _ _ _ => some ([2, 0], [0, 1])⟩

theorem demoAffine_ok : AffineOk demoAffine where
  eps0 := by norm_num [demoAffine]
  eps1 := by norm_num [demoAffine]
  tau0 := by norm_num [demoAffine]
  mask := le_refl _
  maskPos := by simp [demoAffine]
  size := by
    intro A d1 d2 gx gy h
    simp [demoAffine] at h
    obtain ⟨rfl, rfl⟩ := h
    exact ⟨le_refl _, le_refl _⟩
  regular := by
    intro A d1 d2 M h
    simp [demoAffine, momentsOf] at h
    right; right
    rw [← h]
    simp [momentMat, Finset.sum_range_succ, det_fin_two, demoAffine]
    norm_num

example : ∃ r, affineShape demoAffine ⟨0, 0, 1, 0, 0, 1⟩ = some r := by
  have hf : HasSvd (Frame.mat ⟨0, 0, 1, 0, 0, 1⟩) 1 1 := ⟨one_pos, le_refl _, 1, 1, isRot_one, isRot_one, by
    rw [diag2]; ext i j; fin_cases i <;> fin_cases j <;> simp [Frame.mat]⟩
  obtain ⟨r, -, ⟨-, h⟩ | ⟨B, g, R, -, h, -⟩⟩ := affineShape_correct demoAffine_ok hf (by norm_num [demoAffine]) (by norm_num [demoAffine])
  · exact ⟨_, h⟩
  · exact ⟨_, h⟩

/-! ### What does not hold -/

/-- The adaptation of a frame that preserves orientation gives numbers whatever the gradients of the patches. -/
def AffineFiniteClaim : Prop := ∀ (c : AffineConf) (f : Frame ℝ) (e1 e2 : ℝ), 0 < c.eps → c.eps ≤ 1 / 25 → 0 < c.tau → c.n ≤ c.mask.length → (∀ m ∈ c.mask, 0 ≤ m) →
  (∀ A d1 d2 gx gy, c.grad A d1 d2 = some (gx, gy) → c.n ≤ gx.length ∧ c.n ≤ gy.length) → HasSvd f.mat e1 e2 → c.eps * (e1 ^ 2 + e2 ^ 2) ≤ e1 * e2 → 2 * c.tau ≤ e2 →
  affineShape c f ≠ none

/-- The decomposition of the matrix of ones has a null singular value. -/
theorem svd_ones {eps : ℝ} (h0 : 0 < eps) (h1 : eps ≤ 1) : ∃ q U V, svd2 Real.sqrt eps [1, 1, 1, 1] = some ([q, 0, 0, 0], U, V) := by
  obtain ⟨S, U, V, s, u, v, e, hS, hU, hV, ⟨cu, su, hu, u00, u10, u01, u11⟩, ⟨cv, sv, hv, v00, v10, v01, v11⟩, s01, s10, hord, -, hp⟩ :=
    Mathop.svd2_exact h0 (fun _ _ : Fin 2 => 1) (Or.inl one_ne_zero) (by norm_num; linarith) [1, 1, 1, 1] rfl
  have p00 := hp 0 0
  have p10 := hp 1 0
  have p01 := hp 0 1
  have p11 := hp 1 1
  simp only [Fin.sum_univ_two, s01, s10, u00, u10, u01, u11, v00, v10, v01, v11] at p00 p10 p01 p11
  have hz : s 0 0 * s 1 1 = 0 := by
    have a1 : (1 : ℝ) = cu * s 0 0 * cv + su * s 1 1 * sv := by linear_combination p00
    have a2 : (1 : ℝ) = su * s 0 0 * cv - cu * s 1 1 * sv := by linear_combination p10
    have a3 : (1 : ℝ) = cu * s 0 0 * sv - su * s 1 1 * cv := by linear_combination p01
    have a4 : (1 : ℝ) = su * s 0 0 * sv + cu * s 1 1 * cv := by linear_combination p11
    have key : (cu * s 0 0 * cv + su * s 1 1 * sv) * (su * s 0 0 * sv + cu * s 1 1 * cv) - (cu * s 0 0 * sv - su * s 1 1 * cv) * (su * s 0 0 * cv - cu * s 1 1 * sv) = s 0 0 * s 1 1 := by
      linear_combination (s 0 0 * s 1 1) * (cu ^ 2 + su ^ 2) * hv + (s 0 0 * s 1 1) * hu
    rw [← key, ← a1, ← a2, ← a3, ← a4]; ring
  have h11 : s 1 1 = 0 := by
    rcases mul_eq_zero.mp hz with h | h
    · rw [h, abs_zero] at hord
      exact abs_eq_zero.mp (le_antisymm hord (abs_nonneg _))
    · exact h
  exact ⟨s 0 0, U, V, by rw [e, hS, s01, s10, h11]⟩

/-- The gradients of an image that changes along one diagonal only. -/
noncomputable def diagonalAffine : AffineConf := ⟨1 / 100, 1 / 100, false, [1], 1, fun _ _ _ => some ([1], [1])⟩

theorem unit_svd : HasSvd (Frame.mat ⟨0, 0, 1, 0, 0, 1⟩) 1 1 := ⟨one_pos, le_refl _, 1, 1, isRot_one, isRot_one, by
  rw [diag2]; ext i j; fin_cases i <;> fin_cases j <;> simp [Frame.mat]⟩

/-- The matrix of the second moments is singular but neither `lxx` nor `lyy` is null: the function divides by zero. -/
theorem affineFinite_claim_false : ¬ AffineFiniteClaim := by
  intro H
  refine H diagonalAffine ⟨0, 0, 1, 0, 0, 1⟩ 1 1 (by norm_num [diagonalAffine]) (by norm_num [diagonalAffine]) (by norm_num [diagonalAffine]) (le_refl _) (by simp [diagonalAffine]) (by
    intro A d1 d2 gx gy h
    simp [diagonalAffine] at h
    obtain ⟨rfl, rfl⟩ := h
    exact ⟨le_refl _, le_refl _⟩) unit_svd (by norm_num [diagonalAffine]) (by norm_num [diagonalAffine]) ?_
  have hnext (A : List ℝ) (x y : ℝ) : affineNext diagonalAffine A x y = none := by
    obtain ⟨q, U, V, e⟩ := svd_ones (eps := diagonalAffine.eps) (by norm_num [diagonalAffine]) (by norm_num [diagonalAffine])
    have hs : secondMoment diagonalAffine.n [1] [1] diagonalAffine.mask = some (1, 1, 1) := by simp [secondMoment, diagonalAffine, iter, rd]
    unfold affineNext
    rw [show diagonalAffine.grad A x y = some ([1], [1]) from rfl]
    dsimp only
    rw [hs]
    dsimp only [Option.bind_eq_bind, Option.bind_some]
    rw [if_neg (by norm_num), e]
    dsimp only [Option.bind_some, rd, List.getElem?_cons_zero, List.getElem?_cons_succ]
    rw [show quot q 0 = none from if_pos rfl]
    cases quot 0 q <;> rfl
  have G : Good diagonalAffine.eps 1 0 0 1 := ⟨by norm_num, by norm_num [diagonalAffine]⟩
  obtain ⟨d1, d2, hA, h⟩ := affineScale_spec (c := diagonalAffine) (by norm_num [diagonalAffine]) 0 0 G
  obtain ⟨rfl, rfl⟩ := hasSvd_unique hA unit_svd
  rcases h with ⟨h5, es⟩ | ⟨h5, k, cu, su, R, hk, hu, hR, hm, es⟩
  · norm_num at h5
  · rw [affineShape]
    dsimp only
    rw [affineLoop, es]
    simp [hnext]

/-- The smallest factor by which the frame stretches a vector is kept, also by frames that reverse the orientation of the plane. -/
def AffineReflectClaim : Prop := ∀ (c : AffineConf) (f g : Frame ℝ) (m : ℝ), AffineOk c → f.mat.det ≠ 0 → affineShape c f = some (some g) → f.a12 = 0 → f.a21 = 0 → f.a11 ^ 2 = m → m ≤ f.a22 ^ 2 →
  ∃ u v : ℝ, u ^ 2 + v ^ 2 = 1 ∧ (g.a11 * u + g.a12 * v) ^ 2 + (g.a21 * u + g.a22 * v) ^ 2 = m

/-- Gradients that are four times as strong along the first axis in the first patch only. -/
noncomputable def reflectAffine : AffineConf := ⟨1 / 100, 1 / 100, false, [1, 1], 2, fun A _ _ => if A = [0, -2, -1, 0] then some ([2, 0], [0, 1]) else some ([1, 0], [0, 1])⟩

theorem svd_run1 (eps : ℝ) : svd2 Real.sqrt eps [1, 0, 0, -2] = some ([-2, 0, 0, 1], [0, 1, -1, 0], [0, 1, -1, 0]) := by
  have D : Mathop.dlasv2 Real.sqrt eps 1 0 (-2) = some ⟨1, -2, 1, 0, 1, 0⟩ := by
    have h1 : Mathop.sgn (1 : ℝ) = 1 := Mathop.sgn_of_pos one_pos
    have h2 : Mathop.sgn (-2 : ℝ) = -1 := Mathop.sgn_of_neg (by norm_num)
    have h3 : Mathop.sgn (-1 : ℝ) = -1 := Mathop.sgn_of_neg (by norm_num)
    unfold Mathop.dlasv2
    simp [h1, h2, h3]
  simp [svd2, rd, quot, D]

theorem svd_run2 (eps : ℝ) : svd2 Real.sqrt eps [4, 0, 0, 1] = some ([4, 0, 0, 1], [1, 0, 0, 1], [1, 0, 0, 1]) := by
  have D : Mathop.dlasv2 Real.sqrt eps 4 0 1 = some ⟨1, 4, 0, 1, 0, 1⟩ := by
    have h1 : Mathop.sgn (1 : ℝ) = 1 := Mathop.sgn_of_pos one_pos
    have h2 : Mathop.sgn (4 : ℝ) = 1 := Mathop.sgn_of_pos (by norm_num)
    have h3 : ¬ ((4 : ℝ) < 1) := by norm_num
    unfold Mathop.dlasv2
    simp [h1, h2, h3]
  have hs : √(4 * 4 : ℝ) = 4 := Real.sqrt_mul_self (by norm_num)
  simp [svd2, rd, quot, hs, D]

theorem svd_run3 (eps : ℝ) : svd2 Real.sqrt eps [0, -1, -1, 0] = some ([1, 0, 0, -1], [0, -1, 1, 0], [1, 0, 0, 1]) := by
  have D : Mathop.dlasv2 Real.sqrt eps 1 0 (-1) = some ⟨-1, 1, 0, 1, 0, 1⟩ := by
    have h1 : Mathop.sgn (1 : ℝ) = 1 := Mathop.sgn_of_pos one_pos
    have h3 : Mathop.sgn (-1 : ℝ) = -1 := Mathop.sgn_of_neg (by norm_num)
    unfold Mathop.dlasv2
    simp [h1, h3]
  simp [svd2, rd, quot, D]

theorem svd_run4 (eps : ℝ) : svd2 Real.sqrt eps [1, 0, 0, 1] = some ([1, 0, 0, 1], [1, 0, 0, 1], [1, 0, 0, 1]) := by
  have D : Mathop.dlasv2 Real.sqrt eps 1 0 1 = some ⟨1, 1, 0, 1, 0, 1⟩ := by
    have h1 : Mathop.sgn (1 : ℝ) = 1 := Mathop.sgn_of_pos one_pos
    unfold Mathop.dlasv2
    simp [h1]
  simp [svd2, rd, quot, D]

/-- For `diag(1, -2)` the largest factor is kept: the result stretches all vectors by two. -/
theorem reflect_run : affineLoop reflectAffine [1, 0, 0, -2] 16 0 0 [1, 0, 0, -2] [1, 0, 0, -2] = some (some [0, -2, -2, 0]) := by
  have s1 : affineScale reflectAffine 0 0 [1, 0, 0, -2] = some (some ⟨-2, [0, -2, -1, 0], -2, 1⟩) := by
    simp [affineScale, svd_run1, rd, quot]
    norm_num
  have n1 : affineNext reflectAffine [0, -2, -1, 0] (-2) 1 = some (.next [0, -1, -1, 0]) := by
    have hs : √(4 : ℝ) = 2 := by rw [show (4 : ℝ) = 2 * 2 by norm_num]; exact Real.sqrt_mul_self (by norm_num)
    have hm : secondMoment reflectAffine.n [2, 0] [0, 1] reflectAffine.mask = some (4, 0, 1) := by simp [secondMoment, reflectAffine, iter, rd]; norm_num
    unfold affineNext
    rw [show reflectAffine.grad [0, -2, -1, 0] (-2) 1 = some ([2, 0], [0, 1]) from if_pos rfl]
    dsimp only
    rw [hm]
    simp [svd_run2, rd, quot, hs]
    norm_num
  have s2 : affineScale reflectAffine 1 (-2) [0, -1, -1, 0] = some (some ⟨-2, [0, -2, -2, 0], 2, -2⟩) := by
    simp [affineScale, svd_run3, rd, quot]
    norm_num
  have n2 : affineNext reflectAffine [0, -2, -2, 0] 2 (-2) = some .converged := by
    have hm : secondMoment reflectAffine.n [1, 0] [0, 1] reflectAffine.mask = some (1, 0, 1) := by simp [secondMoment, reflectAffine, iter, rd]
    unfold affineNext
    rw [show reflectAffine.grad [0, -2, -2, 0] 2 (-2) = some ([1, 0], [0, 1]) from if_neg (by norm_num)]
    dsimp only
    rw [hm]
    simp [svd_run4, rd, quot]
    norm_num
  simp [affineLoop, s1, n1, s2, n2]

theorem reflectAffine_ok : AffineOk reflectAffine where
  eps0 := by norm_num [reflectAffine]
  eps1 := by norm_num [reflectAffine]
  tau0 := by norm_num [reflectAffine]
  mask := le_refl _
  maskPos := by simp [reflectAffine]
  size := by
    intro A d1 d2 gx gy h
    simp only [reflectAffine] at h
    split at h <;> (simp at h; obtain ⟨rfl, rfl⟩ := h; exact ⟨le_refl _, le_refl _⟩)
  regular := by
    intro A d1 d2 M h
    simp only [reflectAffine, momentsOf] at h
    right; right
    split at h <;>
    · simp at h
      rw [← h]
      simp [momentMat, Finset.sum_range_succ, det_fin_two, reflectAffine]
      norm_num

/-- Making a frame upright always multiplies it by a rotation. -/
theorem upright_rot (c : AffineConf) (ht : 0 < c.tau) (a0 a1 a2 a3 : ℝ) : ∃ k t, k ^ 2 + t ^ 2 = 1 ∧ upright c [a0, a1, a2, a3] = some [a0 * k + a2 * t, a1 * k + a3 * t, -a0 * t + a2 * k, -a1 * t + a3 * k] := by
  obtain ⟨f0, e0⟩ : ∃ f : ℝ, f = if c.transposed then 1 else 0 := ⟨_, rfl⟩
  obtain ⟨f1, e1⟩ : ∃ f : ℝ, f = if c.transposed then 0 else 1 := ⟨_, rfl⟩
  obtain ⟨err, x, ex, lx, -, -⟩ := Linear.solve2_correct c.tau ht [a0, a1, a2, a3] [f0, f1] rfl rfl
  obtain ⟨x0, x1, rfl⟩ : ∃ x0 x1, x = [x0, x1] := by
    match x, lx with
    | [x0, x1], _ => exact ⟨_, _, rfl⟩
  exact ⟨_, _, Real.cos_sq_add_sin_sq (angleOf x1 x0 - angleOf f1 f0), by
    simp only [upright, ← e0, ← e1, ex, Option.bind_eq_bind, Option.bind_some, rd, List.getElem?_cons_zero, List.getElem?_cons_succ]⟩

theorem affineReflect_claim_false : ¬ AffineReflectClaim := by
  intro H
  obtain ⟨k, t, hk, e⟩ := upright_rot reflectAffine reflectAffine_ok.tau0 0 (-2) (-2) 0
  have run : affineShape reflectAffine ⟨0, 0, 1, 0, 0, -2⟩ = some (some ⟨0, 0, 0 * k + -2 * t, -0 * t + -2 * k, -2 * k + 0 * t, - -2 * t + 0 * k⟩) := by
    rw [affineShape]
    dsimp only
    rw [reflect_run]
    simp only [Option.bind_eq_bind, Option.bind_some, e, rd, List.getElem?_cons_zero, List.getElem?_cons_succ]
  obtain ⟨u, v, huv, h⟩ := H _ _ _ 1 reflectAffine_ok (by simp [Frame.mat, det_fin_two]) run rfl rfl (by norm_num) (by norm_num)
  have : (4 : ℝ) = 1 := by
    rw [← h]
    linear_combination (-4 * (u ^ 2 + v ^ 2)) * hk - 4 * huv
  norm_num at this

/-- Every adapted frame that preserves orientation is upright, however small. -/
def AffineUprightClaim : Prop := ∀ (c : AffineConf) (f g : Frame ℝ) (e1 e2 : ℝ), AffineOk c → HasSvd f.mat e1 e2 → c.eps * (e1 ^ 2 + e2 ^ 2) ≤ e1 * e2 → affineShape c f = some (some g) → Upright c.transposed g

/-- Flat patches. -/
noncomputable def flatAffine : AffineConf := ⟨1 / 100, 1 / 100, false, [1], 1, fun _ _ _ => some ([0], [0])⟩

theorem flatAffine_ok : AffineOk flatAffine where
  eps0 := by norm_num [flatAffine]
  eps1 := by norm_num [flatAffine]
  tau0 := by norm_num [flatAffine]
  mask := le_refl _
  maskPos := by simp [flatAffine]
  size := by
    intro A d1 d2 gx gy h
    simp [flatAffine] at h
    obtain ⟨rfl, rfl⟩ := h
    exact ⟨le_refl _, le_refl _⟩
  regular := by
    intro A d1 d2 M h
    simp [flatAffine, momentsOf] at h
    left
    rw [← h]
    simp [momentMat]

/-- The error of the linear solver, which rejects small matrices, is ignored: a small frame turned by 90 degrees stays so. -/
theorem affineUpright_claim_false : ¬ AffineUprightClaim := by
  intro H
  have hm : Frame.mat ⟨0, 0, 0, -(1 / 200), 1 / 200, 0⟩ = lmat 0 (1 / 200) (-(1 / 200)) 0 := rfl
  have hsvd : HasSvd (Frame.mat ⟨0, 0, 0, -(1 / 200), 1 / 200, 0⟩) (1 / 200) (1 / 200) := by
    rw [hm]
    exact hasSvd_good (cu := 0) (su := 1) (cv := 1) (sv := 0) (by norm_num) (by norm_num) (by norm_num) (le_refl _) (by norm_num) (by norm_num) (by norm_num) (by norm_num)
  have hsol : Linear.solve2 flatAffine.tau [0, 1 / 200, -(1 / 200), 0] [0, 1] = some (true, [0, 1]) := by
    have h1 : |(200 : ℝ)⁻¹| = 1 / 200 := by rw [abs_of_pos] <;> norm_num
    have h2 : (200 : ℝ)⁻¹ < 1 / 100 := by norm_num
    simp [Linear.solve2, Linear.gaussianElimination, Linear.elimStep, Linear.pivotStep, Linear.at', iter, rd, assert', flatAffine, h1]
    norm_num
    simp [Linear.elimStep]
  have hup : upright flatAffine [0, 1 / 200, -(1 / 200), 0] = some [0, 1 / 200, -(1 / 200), 0] := by
    have : flatAffine.transposed = false := rfl
    simp only [upright, this, Bool.false_eq_true, if_false, hsol, Option.bind_eq_bind, Option.bind_some, rd, List.getElem?_cons_zero, List.getElem?_cons_succ, sub_self, Real.cos_zero, Real.sin_zero]
    norm_num
  have G : Good flatAffine.eps 0 (1 / 200) (-(1 / 200)) 0 := ⟨by norm_num, by norm_num [flatAffine]⟩
  have hnext (A : List ℝ) (x y : ℝ) : affineNext flatAffine A x y = some .flat := by
    have hs : secondMoment flatAffine.n [0] [0] flatAffine.mask = some (0, 0, 0) := by simp [secondMoment, flatAffine, iter, rd]
    unfold affineNext
    rw [show flatAffine.grad A x y = some ([0], [0]) from rfl]
    dsimp only
    rw [hs]
    exact if_pos (Or.inl rfl)
  obtain ⟨d1, d2, hA, h⟩ := affineScale_spec flatAffine_ok.eps0 0 0 G
  obtain ⟨rfl, rfl⟩ := hasSvd_unique hA (hm ▸ hsvd)
  have run : affineShape flatAffine ⟨0, 0, 0, -(1 / 200), 1 / 200, 0⟩ = some (some ⟨0, 0, 0, -(1 / 200), 1 / 200, 0⟩) := by
    rcases h with ⟨h5, es⟩ | ⟨h5, k, cu, su, R, hk, hu, hR, hm, es⟩
    · norm_num at h5
    · rw [affineShape]
      dsimp only
      rw [affineLoop, es]
      dsimp only [Option.bind_eq_bind, Option.bind_some]
      rw [if_neg (by norm_num), hnext]
      dsimp only [Option.bind_some]
      rw [hup]
      rfl
  have := H flatAffine _ _ _ _ flatAffine_ok hsvd (by norm_num [flatAffine]) run
  simp [Upright, flatAffine] at this

/-! ### All features -/

/-- The features for which the adaptation gives an error are removed and the others get the adapted frame, in the same order. -/
theorem extractAffine_correct {K : Type} {shape : Frame K → Option (Option (Frame K))} {features : List (Feature K)} {g : Frame K → Option (Frame K)} (h : ∀ x ∈ features, shape x.frame = some (g x.frame)) :
    extractAffine shape features = some (features.filterMap fun x => (g x.frame).map fun a => { x with frame := a }) := by
  obtain ⟨f, hf⟩ : ∃ f : Feature K → Option (Feature K), f = fun x => (g x.frame).map fun a => { x with frame := a } := ⟨_, rfl⟩
  obtain ⟨s, hs, h1, h2, h3, _, _⟩ : ∃ s, iter features.length (fun i (s : List (Feature K) × Nat) => do
      let x ← rd s.1 i
      let r ← shape x.frame
      match r with
      | some g => do
        let y ← rd s.1 i
        let l ← wr s.1 s.2 { y with frame := g }
        pure (l, s.2 + 1)
      | none => pure s) (features, 0) = some s ∧ s.2 = ((features.take features.length).filterMap f).length ∧ s.1.length = features.length ∧
        (features.take features.length).filterMap f = s.1.take s.2 ∧ s.2 ≤ features.length ∧ ∀ k, features.length ≤ k → s.1[k]? = features[k]? := iter_inv (n := features.length)
    (P := fun i (s : List (Feature K) × Nat) => s.2 = ((features.take i).filterMap f).length ∧ s.1.length = features.length ∧ (features.take i).filterMap f = s.1.take s.2 ∧ s.2 ≤ i ∧ ∀ k, i ≤ k → s.1[k]? = features[k]?)
    (s := (features, 0)) ⟨by simp, rfl, by simp, le_refl _, fun _ _ => rfl⟩ (fun i hi s hP => by
      obtain ⟨h1, h2, h3, h4, h5⟩ := hP
      have e : rd s.1 i = some features[i] := by rw [rd, h5 i le_rfl, List.getElem?_eq_getElem hi]
      have ht : features.take (i + 1) = features.take i ++ [features[i]] := List.take_succ_eq_append_getElem hi
      have hsh := h features[i] (List.getElem_mem hi)
      cases hg : g features[i].frame with
      | none =>
        have hfi : f features[i] = none := by rw [hf]; simp [hg]
        refine ⟨s, ?_, ?_, h2, ?_, by omega, fun k hk => h5 k (by omega)⟩
        · simp only [e, Option.bind_eq_bind, Option.bind_some, hsh, hg]; rfl
        · rw [h1, ht, List.filterMap_append]; simp [hfi]
        · rw [ht, List.filterMap_append, ← h3]; simp [hfi]
      | some a =>
        have hfi : f features[i] = some { features[i] with frame := a } := by rw [hf]; simp [hg]
        have hlt : s.2 < s.1.length := by omega
        refine ⟨(s.1.set s.2 { features[i] with frame := a }, s.2 + 1), ?_, ?_, by simpa using h2, ?_, by simp; omega, fun k hk => ?_⟩
        · simp only [e, Option.bind_eq_bind, Option.bind_some, hsh, hg, wr_of_lt hlt]; rfl
        · simp only [ht, List.filterMap_append, List.length_append, ← h1]; simp [hfi]
        · simp only [ht, List.filterMap_append, h3]
          rw [List.take_succ_eq_append_getElem (by simpa using hlt)]
          simp [hfi, List.take_set_of_le]
        · rw [List.getElem?_set_ne (by omega)]; exact h5 k (by omega))
  rw [List.take_length] at h3
  rw [← hf, h3]
  exact congrArg (fun o => Option.bind o fun s : List (Feature K) × Nat => some (s.1.take s.2)) hs

/-- The second of three features is removed. -/
example : extractAffine (fun f : Frame ℚ => some (if f.x = 1 then none else some { f with a11 := 7 })) [⟨⟨0, 0, 1, 0, 0, 1⟩, 5, 0, 0, 0⟩, ⟨⟨1, 0, 1, 0, 0, 1⟩, 6, 0, 0, 0⟩, ⟨⟨2, 0, 1, 0, 0, 1⟩, 7, 0, 0, 0⟩] =
    some [⟨⟨0, 0, 7, 0, 0, 1⟩, 5, 0, 0, 0⟩, ⟨⟨2, 0, 7, 0, 0, 1⟩, 7, 0, 0, 0⟩] := by decide +kernel

end Verif.Covdet
