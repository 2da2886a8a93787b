import Verif.Covdet.AffineModel
import Verif.Covdet.OriModel

/-!
# Model of the change of axes for the orientations of a frame

The patch of a frame is warped without the right rotation of its matrix, and the orientations found in the patch are turned back
(vl/covdet.c:2709-2850).  What is found in the patch is in `OriModel`.
-/

namespace Verif.Covdet

open Mathop (svd2)

/-- The matrix with which the patch is warped, by columns, and `theta0`, vl/covdet.c:2727-2763; `eps` is `VL_EPSILON_D`. -/
noncomputable def oriWarp (eps : ℝ) (f : Frame ℝ) : Option (List ℝ × ℝ) := do
  let (D, U, V) ← svd2 Real.sqrt eps [f.a11, f.a21, f.a12, f.a22]
  let d0 ← rd D 0
  let d3 ← rd D 3
  let u0 ← rd U 0
  let u1 ← rd U 1
  let u2 ← rd U 2
  let u3 ← rd U 3
  let v0 ← rd V 0
  let v1 ← rd V 1
  some ([u0 * d0, u1 * d0, u2 * d3, u3 * d3], angleOf v1 v0)

/-- The angle that is stored for an orientation `phi` of the patch, vl/covdet.c:2839-2845. -/
noncomputable def oriAngle (transposed : Bool) (theta0 phi : ℝ) : ℝ :=
  let th := phi + theta0
  if transposed then th - Real.pi / 2 else th

/-- The feature for an orientation of the patch, vl/covdet.c:2881-2902. -/
noncomputable def turned (transposed : Bool) (theta0 phi score : ℝ) (f : Feature ℝ) : Feature ℝ :=
  let th := oriAngle transposed theta0 phi
  orient f (Real.cos th) (Real.sin th) score

end Verif.Covdet
