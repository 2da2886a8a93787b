import Verif.Rodrigues.Model
import Mathlib.Analysis.Normed.Algebra.MatrixExponential
import Mathlib.Analysis.SpecialFunctions.Trigonometric.Inverse
import Mathlib.LinearAlgebra.Matrix.Notation
import Mathlib.LinearAlgebra.Matrix.Determinant.Basic

/-!
# Rotations of the space
-/

namespace Verif.Rodrigues.Spec

open NormedSpace

/-- The functions over the real numbers. -/
noncomputable def real : Fns ℝ := ⟨Real.sqrt, Real.sin, Real.cos, Real.arccos⟩

/-- The length of a vector -/
noncomputable def len (w : Fin 3 → ℝ) : ℝ := Real.sqrt (w 0 ^ 2 + w 1 ^ 2 + w 2 ^ 2)

/-- The matrix of the cross product by `w` -/
def hat (w : Fin 3 → ℝ) : Matrix (Fin 3) (Fin 3) ℝ := !![0, - w 2, w 1; w 2, 0, - w 0; - w 1, w 0, 0]

/-- The rotation about the vector `w`, by an angle equal to its length. -/
noncomputable def rot (w : Fin 3 → ℝ) : Matrix (Fin 3) (Fin 3) ℝ := exp (hat w)

/-- The matrices of determinant one whose inverse is the transpose -/
def IsRotation (M : Matrix (Fin 3) (Fin 3) ℝ) : Prop := M.transpose * M = 1 ∧ M.det = 1

/-- The array of nine numbers stores the matrix by columns. -/
def IsMat (l : List ℝ) (M : Matrix (Fin 3) (Fin 3) ℝ) : Prop := l = [M 0 0, M 1 0, M 2 0, M 0 1, M 1 1, M 2 1, M 0 2, M 1 2, M 2 2]

/-- The array of three numbers stores the vector. -/
def IsVec (l : List ℝ) (w : Fin 3 → ℝ) : Prop := l = [w 0, w 1, w 2]

/-- The array stores by columns the matrix with 9 rows and 3 columns of the derivatives of the entries (by columns) of a matrix: `D i j k` is the derivative of the entry `i, j` with respect to the component `k`. -/
def IsDer (l : List ℝ) (D : Fin 3 → Fin 3 → Fin 3 → ℝ) : Prop :=
  l.length = 27 ∧ ∀ i j k : Fin 3, l[(i.val + 3 * j.val) + 9 * k.val]? = some (D i j k)

/-- The angle of the rotation with the given entries (by columns) -/
noncomputable def angle (v : Fin 9 → ℝ) : ℝ := Real.arccos ((v 0 + v 4 + v 8 - 1) / 2)

/-- The vector of the rotation with the given entries (by columns), as a function of nine independent variables: the skew-symmetric part of the matrix multiplied by the ratio of the angle to its sine. -/
noncomputable def vecOf (v : Fin 9 → ℝ) : Fin 3 → ℝ := fun k => angle v / (2 * Real.sin (angle v)) * ![v 5 - v 7, v 6 - v 2, v 1 - v 3] k

/-- The array stores by columns the matrix with 3 rows and 9 columns of the derivatives of the components of a vector: `D k n` is the derivative of the component `k` with respect to the variable `n`. -/
def IsDer' (l : List ℝ) (D : Fin 3 → Fin 9 → ℝ) : Prop :=
  l.length = 27 ∧ ∀ (k : Fin 3) (n : Fin 9), l[k.val + 3 * n.val]? = some (D k n)

/-- The linear function with the given coefficients -/
noncomputable def lin {n : Nat} (d : Fin n → ℝ) : (Fin n → ℝ) →L[ℝ] ℝ := ∑ k, d k • ContinuousLinearMap.proj k

end Verif.Rodrigues.Spec
