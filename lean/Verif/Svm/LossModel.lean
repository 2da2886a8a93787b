import Verif.Loop
import Mathlib.Algebra.Field.Defs
import Mathlib.Algebra.Order.Ring.Defs
import Mathlib.Algebra.Order.Group.Abs
import Mathlib.Order.WithBot

/-!
# Model of the losses of the SVM solvers, vl/svm.c

`K` stands for `double`; rounding is not modelled.  A division by zero gives `none`, infinity is `⊤`.
-/

namespace Verif.Svm

variable {K : Type} [Field K] [LinearOrder K]

/-- `x / y` -/
def divv (x y : K) : Option K := if y = 0 then none else some (x / y)

/-- The four functions that define a loss: `lossFn`, `lossDerivativeFn`, `conjugateLossFn` and `dcaUpdateFn`, vl/svm.c:917-920. -/
structure Loss (K : Type) where
  loss : K → K → K
  deriv : K → K → K
  conj : K → K → WithTop K
  dca : K → K → K → K → Option K

/-- `vl_svm_hinge_loss`, vl/svm.c:1602-1606. -/
def hingeLoss (inner label : K) : K := max (1 - label * inner) 0

/-- `vl_svm_hinge_loss_derivative`, vl/svm.c:1610-1618. -/
def hingeDeriv (inner label : K) : K := if label * inner < 1 then - label else 0

/-- `vl_svm_hinge_conjugate_loss`, vl/svm.c:1625-1633. -/
def hingeConj (u label : K) : WithTop K :=
  let z := label * u
  if -1 ≤ z ∧ z ≤ 0 then ((label * u : K) : WithTop K) else ⊤

/-- `vl_svm_hinge_dca_update`, vl/svm.c:1637-1641. -/
def hingeDca (alpha inner norm2 label : K) : Option K := do
  let q ← divv (label - inner) norm2
  let palpha := q + alpha
  pure (label * max 0 (min 1 (label * palpha)) - alpha)

/-- `vl_svm_hinge2_loss`, vl/svm.c:1645-1650. -/
def hinge2Loss (inner label : K) : K :=
  let z := max (1 - label * inner) 0
  z * z

/-- `vl_svm_hinge2_loss_derivative`, vl/svm.c:1654-1662. -/
def hinge2Deriv (inner label : K) : K := if label * inner < 1 then 2 * (inner - label) else 0

/-- `vl_svm_hinge2_conjugate_loss`, vl/svm.c:1666-1673. -/
def hinge2Conj (u label : K) : WithTop K :=
  if label * u ≤ 0 then (((label + u / 4) * u : K) : WithTop K) else ⊤

/-- `vl_svm_hinge2_dca_update`, vl/svm.c:1677-1681. -/
def hinge2Dca (alpha inner norm2 label : K) : Option K := do
  let q ← divv (label - inner - 1 / 2 * alpha) (norm2 + 1 / 2)
  let palpha := q + alpha
  pure (label * max 0 (label * palpha) - alpha)

/-- `vl_svm_l1_loss`, vl/svm.c:1685-1689. -/
def l1Loss (inner label : K) : K := |label - inner|

/-- `vl_svm_l1_loss_derivative`, vl/svm.c:1693-1701. -/
def l1Deriv (inner label : K) : K := if label > inner then -1 else 1

/-- `vl_svm_l1_conjugate_loss`, vl/svm.c:1705-1712. -/
def l1Conj (u label : K) : WithTop K := if |u| ≤ 1 then ((label * u : K) : WithTop K) else ⊤

/-- `vl_svm_l1_dca_update`, vl/svm.c:1716-1724; the infinity returned for an infeasible value is `none`. -/
def l1Dca (alpha inner norm2 label : K) : Option K :=
  if |alpha| ≤ 1 then do
    let q ← divv (label - inner) norm2
    let palpha := q + alpha
    pure (max (-1) (min 1 palpha) - alpha)
  else none

/-- `vl_svm_l2_loss`, vl/svm.c:1728-1733. -/
def l2Loss (inner label : K) : K :=
  let z := label - inner
  z * z

/-- `vl_svm_l2_loss_derivative`, vl/svm.c:1737-1741. -/
def l2Deriv (inner label : K) : K := - 2 * (label - inner)

/-- `vl_svm_l2_conjugate_loss`, vl/svm.c:1745-1748. -/
def l2Conj (u label : K) : WithTop K := (((label + u / 4) * u : K) : WithTop K)

/-- `vl_svm_l2_dca_update`, vl/svm.c:1752-1755. -/
def l2Dca (alpha inner norm2 label : K) : Option K := divv (label - inner - 1 / 2 * alpha) (norm2 + 1 / 2)

/-- The functions of the C library and `VL_EPSILON_D`. -/
structure Fns (K : Type) where
  exp : K → K
  log : K → K
  sqrt : K → K
  eps : K

/-- `log(x)` -/
def logv (F : Fns K) (x : K) : Option K := if 0 < x then some (F.log x) else none

/-- `vl_svm_logistic_loss`, vl/svm.c:1759-1768.  The arguments of the logarithm are larger than one. -/
def logisticLoss (F : Fns K) (inner label : K) : K :=
  let z := label * inner
  if z ≥ 0 then F.log (1 + F.exp (- z)) else - z + F.log (F.exp z + 1)

/-- `vl_svm_logistic_loss_derivative`, vl/svm.c:1772-1778.  The denominator is larger than one. -/
def logisticDeriv (F : Fns K) (inner label : K) : K :=
  let z := label * inner
  let t := 1 / (1 + F.exp (- z))
  label * (t - 1)

/-- `xlogx`, vl/svm.c:1780-1784. -/
def xlogx (F : Fns K) (x : K) : K := if x ≤ 1 / 10000000000 then 0 else x * F.log x

/-- `vl_svm_logistic_conjugate_loss`, vl/svm.c:1788-1796. -/
def logisticConj (F : Fns K) (u label : K) : WithTop K :=
  let z := label * u
  if -1 ≤ z ∧ z ≤ 0 then ((xlogx F (- z) + xlogx F (1 + z) : K) : WithTop K) else ⊤

/-- The derivative of the problem solved by the update, vl/svm.c:1839-1840 and 1852-1854. -/
def logisticDer (F : Fns K) (alpha inner norm2 label beta : K) : Option K := do
  let l1 ← logv F beta
  let l2 ← logv F (1 - beta)
  let df := l1 - l2
  pure (norm2 * beta + label * (inner - norm2 * alpha) + df)

/-- One step of the bisection, vl/svm.c:1838-1847; the state is `beta1`, `beta2`, `beta`. -/
def bisect (F : Fns K) (alpha inner norm2 label : K) (s : K × K × K) : Option (K × K × K) := do
  let der ← logisticDer F alpha inner norm2 label s.2.2
  if der ≥ 0 then pure (s.1, s.2.2, 1 / 2 * (s.1 + s.2.2)) else pure (s.2.2, s.2.1, 1 / 2 * (s.2.2 + s.2.1))

/-- One Newton step, vl/svm.c:1851-1858; it is not done close to the singularities (the loop of the code stops then, the model repeats a step that does nothing). -/
def newton (F : Fns K) (alpha inner norm2 label : K) (beta : K) : Option K :=
  if beta > F.eps ∧ beta < 1 - F.eps then do
    let ddf ← divv 1 (beta * (1 - beta))
    let der ← logisticDer F alpha inner norm2 label beta
    let q ← divv der (norm2 + ddf)
    pure (max 0 (min 1 (beta - q)))
  else some beta

/-- `vl_svm_logistic_dca_update`, vl/svm.c:1800-1862. -/
def logisticDca (F : Fns K) (alpha inner norm2 label : K) : Option K := do
  let s ← iter 5 (fun _ s => bisect F alpha inner norm2 label s) (0, 1, 1 / 2)
  let beta ← iter 2 (fun _ beta => newton F alpha inner norm2 label beta) s.2.2
  pure (label * beta - alpha)

/-- `VlSvmLossType`, vl/svm.h:52-59. -/
inductive LossType
  | hinge
  | hinge2
  | l1
  | l2
  | logistic

/-- `vl_svm_set_loss`, vl/svm.c:1551-1571. -/
def setLoss (F : Fns K) : LossType → Loss K
  | .hinge => ⟨hingeLoss, hingeDeriv, hingeConj, hingeDca⟩
  | .hinge2 => ⟨hinge2Loss, hinge2Deriv, hinge2Conj, hinge2Dca⟩
  | .l1 => ⟨l1Loss, l1Deriv, l1Conj, l1Dca⟩
  | .l2 => ⟨l2Loss, l2Deriv, l2Conj, l2Dca⟩
  | .logistic => ⟨logisticLoss F, logisticDeriv F, logisticConj F, logisticDca F⟩

end Verif.Svm
