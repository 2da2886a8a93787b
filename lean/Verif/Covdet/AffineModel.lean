import Verif.Covdet.FeatModel
import Verif.Mathop.SvdModel
import Verif.Linear.Model
import Mathlib.Analysis.SpecialFunctions.Complex.Arg

/-!
# Model of the affine adaptation of the covariant detector (vl/covdet.c:2474-2680)

Numbers are real and functions exact.  A division by zero, after which the frame would not be made of numbers, is `none`.  Matrices are
stored by columns.  The image gradients of the patch of a matrix `A` with singular values `D[0]` and `D[3]` are a parameter: patch
extraction, smoothing and gradients are modelled elsewhere.
-/

namespace Verif.Covdet

open Mathop (quot svd2)

/-- What the adaptation depends on: `VL_EPSILON_D`, the threshold `1e-10` of the linear solver, `transposed`, `aaMask`, the number of
elements of a patch, and the gradients of the patch (`none` is an error of the patch extraction), vl/covdet.c:2542-2562. -/
structure AffineConf where
  eps : ℝ
  tau : ℝ
  transposed : Bool
  mask : List ℝ
  n : Nat
  grad : List ℝ → ℝ → ℝ → Option (List ℝ × List ℝ)

/-- The sums of the second moment matrix, vl/covdet.c:2564-2570; the result is `(lxx, lxy, lyy)`. -/
noncomputable def secondMoment (n : Nat) (gx gy mask : List ℝ) : Option (ℝ × ℝ × ℝ) :=
  iter n (fun k (s : ℝ × ℝ × ℝ) => do
    let lx ← rd gx k
    let ly ← rd gy k
    let m ← rd mask k
    some (s.1 + lx * lx * m, s.2.1 + lx * ly * m, s.2.2 + ly * ly * m)) (0, 0, 0)

/-- The scaled matrix and the variables `referenceScale`, `D[0]`, `D[3]`. -/
structure AffineState where
  ref : ℝ
  A : List ℝ
  d0 : ℝ
  d3 : ℝ

/-- The first part of an iteration, vl/covdet.c:2507-2538: the inner `none` is the exit for a large anisotropy. -/
noncomputable def affineScale (c : AffineConf) (it : Nat) (ref : ℝ) (A : List ℝ) : Option (Option AffineState) := do
  let (D, U, _) ← svd2 Real.sqrt c.eps A
  let d0 ← rd D 0
  let d3 ← rd D 3
  let r ← quot d0 d3
  let r' ← quot d3 d0
  if max r r' > 5 then some none
  else do
    let ref := if it = 0 then min d0 d3 else ref
    let factor ← if it = 0 then some 1 else quot ref (min d0 d3)
    let d0 := d0 * factor
    let d3 := d3 * factor
    let u0 ← rd U 0
    let u1 ← rd U 1
    let u2 ← rd U 2
    let u3 ← rd U 3
    some (some ⟨ref, [u0 * d0, u1 * d0, u2 * d3, u3 * d3], d0, d3⟩)

/-- How an iteration goes on: with an error, with a flat patch, with convergence, or with the next matrix. -/
inductive AffineNext where
  | error
  | flat
  | converged
  | next (A : List ℝ)

/-- The second part of an iteration, vl/covdet.c:2542-2610. -/
noncomputable def affineNext (c : AffineConf) (A : List ℝ) (d0 d3 : ℝ) : Option AffineNext :=
  match c.grad A d0 d3 with
  | none => some .error
  | some (gx, gy) => do
    let (lxx, lxy, lyy) ← secondMoment c.n gx gy c.mask
    if lxx = 0 ∨ lyy = 0 then some .flat
    else do
      let (Q, P, _) ← svd2 Real.sqrt c.eps [lxx, lxy, lxy, lyy]
      let q0 ← rd Q 0
      let q3 ← rd Q 3
      let a ← quot q3 q0
      let a' ← quot q0 q3
      if a < 1001 / 1000 ∧ a' < 1001 / 1000 then some .converged
      else do
        let p0 ← rd P 0
        let p1 ← rd P 1
        let p2 ← rd P 2
        let p3 ← rd P 3
        let a0 ← rd A 0
        let a1 ← rd A 1
        let a2 ← rd A 2
        let a3 ← rd A 3
        let s0 := Real.sqrt q0
        let s1 := Real.sqrt q3
        let b0 ← quot (a0 * p0 + a2 * p1) s0
        let b1 ← quot (a1 * p0 + a3 * p1) s0
        let b2 ← quot (a0 * p2 + a2 * p3) s1
        let b3 ← quot (a1 * p2 + a3 * p3) s1
        some (.next [b0, b1, b2, b3])

/-- The loop, vl/covdet.c:2502-2612.  `it`, `ref` and `adapted` are the variables `iter`, `referenceScale` and the matrix in `adapted`.
The result is the final matrix in `adapted`, or `none` for an error. -/
noncomputable def affineLoop (c : AffineConf) (frame : List ℝ) : Nat → Nat → ℝ → List ℝ → List ℝ → Option (Option (List ℝ))
  | 0, _, _, _, _ => none
  | fuel + 1, it, ref, A, adapted => do
    let r ← affineScale c it ref A
    match r with
    | none => some (some adapted)
    | some s =>
      if it + 1 ≥ 15 then some (some s.A)
      else do
        let r ← affineNext c s.A s.d0 s.d3
        match r with
        | .error => some none
        | .flat => some (some frame)
        | .converged => some (some s.A)
        | .next A => affineLoop c frame fuel (it + 1) s.ref A s.A

/-- `atan2` -/
noncomputable def angleOf (y x : ℝ) : ℝ := Complex.arg ⟨x, y⟩

/-- The frame is made upright, vl/covdet.c:2622-2651; the error of the linear solver is ignored, as in the code. -/
noncomputable def upright (c : AffineConf) (A : List ℝ) : Option (List ℝ) := do
  let ref0 : ℝ := if c.transposed then 1 else 0
  let ref1 : ℝ := if c.transposed then 0 else 1
  let (_, x) ← Linear.solve2 c.tau A [ref0, ref1]
  let x0 ← rd x 0
  let x1 ← rd x 1
  let angle := angleOf ref1 ref0
  let angle' := angleOf x1 x0
  let dangle := angle' - angle
  let r1 := Real.cos dangle
  let r2 := Real.sin dangle
  let a0 ← rd A 0
  let a1 ← rd A 1
  let a2 ← rd A 2
  let a3 ← rd A 3
  some [a0 * r1 + a2 * r2, a1 * r1 + a3 * r2, -a0 * r2 + a2 * r1, -a1 * r2 + a3 * r1]

/-- `vl_covdet_extract_affine_shape_for_frame`, vl/covdet.c:2474-2654.  The inner `none` is an error.  The fuel is one more than the
maximum number of iterations. -/
noncomputable def affineShape (c : AffineConf) (f : Frame ℝ) : Option (Option (Frame ℝ)) := do
  let A := [f.a11, f.a21, f.a12, f.a22]
  let r ← affineLoop c A 16 0 0 A A
  match r with
  | none => some none
  | some A => do
    let B ← upright c A
    let b0 ← rd B 0
    let b1 ← rd B 1
    let b2 ← rd B 2
    let b3 ← rd B 3
    some (some ⟨f.x, f.y, b0, b2, b1, b3⟩)

/-- `vl_covdet_extract_affine_shape`, vl/covdet.c:2663-2680; `shape` gives the frame of each feature, or an error. -/
def extractAffine {K : Type} (shape : Frame K → Option (Option (Frame K))) (features : List (Feature K)) : Option (List (Feature K)) := do
  let s ← iter features.length (fun i (s : List (Feature K) × Nat) => do
    let x ← rd s.1 i
    let r ← shape x.frame
    match r with
    | some g => do
      let y ← rd s.1 i
      let l ← wr s.1 s.2 { y with frame := g }
      pure (l, s.2 + 1)
    | none => pure s) (features, 0)
  some (s.1.take s.2)

end Verif.Covdet
