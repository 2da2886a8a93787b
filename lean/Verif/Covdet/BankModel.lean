import Verif.Covdet.LapModel
import Verif.Imop.ConvModel
import Mathlib.Analysis.SpecialFunctions.Pow.Real
import Mathlib.Analysis.SpecialFunctions.Sqrt

/-!
# Model of the tables computed by `vl_covdet_new`: the mask of the affine adaptation and the bank of Laplacians

vl/covdet.c:1553-1601.  Numbers are real.  `mem n` is the content of a freshly allocated block of `n` elements.
-/

namespace Verif.Covdet

open Imop

/-- The mask of the affine adaptation, vl/covdet.c:1553-1566; `i` and `j` of the code are `a - w` and `b - w`. -/
noncomputable def newMask (mask : List ℝ) : Option (List ℝ) :=
  let w := 20
  let sigma : ℝ := 3
  let step : ℝ := (2 * (3 * 3)) / (2 * (w : Nat) + 1)
  iter (2 * w + 1) (fun b mask => iter (2 * w + 1) (fun a mask => do
    let i : Int := (a : Int) - w
    let j : Int := (b : Int) - w
    let dx := i * step / sigma
    let dy := j * step / sigma
    wrI mask ((i + w) + (2 * w + 1) * (j + w)) (Real.exp (-0.5 * (dx * dx + dy * dy)))) mask) mask

/-- `_vl_new_gaussian_fitler_f`, vl/imopv.c:619-641, and `vl_imsmooth_f`, vl/imopv.c:643-679, with one `sigma`; `vl_ceil_d` is the ceiling. -/
noncomputable def smoothBy (mem : Nat → List ℝ) (out : List ℝ) (image : List ℝ) (num : Nat) (sigma : ℝ) : Option (List ℝ) := do
  let width := ⌈sigma * 3⌉.toNat
  let f ← gaussFilter width (fun i => Real.exp (-0.5 * ((i : ℝ) / sigma) * ((i : ℝ) / sigma))) (mem (2 * width + 1))
  imsmooth out num image num num num f width f width (mem (num * num))

/-- One Laplacian, vl/covdet.c:1574-1598; `pt` is the suffix of the bank. -/
noncomputable def newLaplacian (mem : Nat → List ℝ) (s : Nat) (bank : List ℝ) : Option (List ℝ) := do
  let sigmaLap : ℝ := 2 ^ (-0.5 + (s : ℝ) / (10 - 1))
  let sigmaImage : ℝ := 1 / √2
  let step := 0.5 * sigmaImage
  let sigmaDelta := √(sigmaLap * sigmaLap - sigmaImage * sigmaImage)
  let w := 16
  let num := 2 * w + 1
  let pt := s * (num * num)
  let bank ← iter (num * num) (fun i b => wr b (pt + i) 0) bank
  let bank ← wr bank (pt + ((0 + w) + (0 + w) * (2 * w + 1))) (-4)
  let bank ← wr bank (pt + ((w - 1) + (0 + w) * (2 * w + 1))) 1
  let bank ← wr bank (pt + ((1 + w) + (0 + w) * (2 * w + 1))) 1
  let bank ← wr bank (pt + ((0 + w) + (1 + w) * (2 * w + 1))) 1
  let bank ← wr bank (pt + ((0 + w) + (w - 1) * (2 * w + 1))) 1
  let o ← smoothBy mem (bank.drop pt) (bank.drop pt) num (sigmaDelta / step)
  some (bank.take pt ++ o)

/-- The bank, vl/covdet.c:1568-1608. -/
noncomputable def newBank (mem : Nat → List ℝ) (bank : List ℝ) : Option (List ℝ) := iter 10 (newLaplacian mem) bank

end Verif.Covdet
