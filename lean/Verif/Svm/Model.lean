import Verif.Svm.LossModel
import Verif.Homker.Model
import Verif.Random.ShuffleModel

/-!
# Model of the SVM solvers, vl/svm.c, and of their data sets, vl/svmdataset.c

The diagnostic callback is assumed not to change the object; the measured times are not modelled.
The integers are unbounded.
-/

namespace Verif.Svm

variable {K : Type} [Field K] [LinearOrder K] {σ : Type}

/-- `_vl_svmdataset_inner_product_`, vl/svmdataset.c:322-335: `data` holds the samples one after the other. -/
def innerProduct (data : List K) (dimension element : Nat) (model : List K) : Option K :=
  iter dimension (fun k product => do
    let x ← rd data (dimension * element + k)
    let m ← rd model k
    pure (product + x * m)) 0

/-- `vl_svmdataset_accumulate_`, vl/svmdataset.c:337-349. -/
def accumulate (data : List K) (dimension element : Nat) (model : List K) (multiplier : K) : Option (List K) :=
  iter dimension (fun k model => do
    let x ← rd data (dimension * element + k)
    let m ← rd model k
    wr model k (m + x * multiplier)) model

/-- `_vl_svmdataset_inner_product_hom_`, vl/svmdataset.c:351-373: the product and the content of the buffer `homBuffer`, of `homDimension` elements.  `evaluate` stands for `vl_homogeneouskernelmap_evaluate_` with stride one. -/
def innerProductHom (evaluate : List K → K → Option (List K)) (homDimension : Nat) (data : List K) (dimension element : Nat) (buffer model : List K) : Option (K × List K) :=
  iter dimension (fun k (s : K × List K) => do
    let x ← rd data (dimension * element + k)
    let buffer ← evaluate s.2 x
    let product ← iter homDimension (fun j product => do
      let b ← rd buffer j
      let m ← rd model (homDimension * k + j)
      pure (product + b * m)) s.1
    pure (product, buffer)) (0, buffer)

/-- `vl_svmdataset_accumulate_hom_`, vl/svmdataset.c:375-396: the model and the content of the buffer. -/
def accumulateHom (evaluate : List K → K → Option (List K)) (homDimension : Nat) (data : List K) (dimension element : Nat) (buffer model : List K) (multiplier : K) : Option (List K × List K) :=
  iter dimension (fun k (s : List K × List K) => do
    let x ← rd data (dimension * element + k)
    let buffer ← evaluate s.2 x
    let model ← iter homDimension (fun j model => do
      let b ← rd buffer j
      let m ← rd model (homDimension * k + j)
      wr model (homDimension * k + j) (m + b * multiplier)) s.1
    pure (model, buffer)) (model, buffer)

/-- The callbacks `innerProductFn` and `accumulateFn`, vl/svmdataset.h:48-49. -/
structure DataFns (K : Type) where
  inner : Nat → List K → Option K
  acc : Nat → List K → K → Option (List K)

/-- The callbacks of a plain data set, `vl_svmdataset_get_inner_product_function` and `vl_svmdataset_get_accumulate_function`, vl/svmdataset.c:240-306. -/
def plainFns (data : List K) (dimension : Nat) : DataFns K :=
  ⟨fun i m => innerProduct data dimension i m, fun i m c => accumulate data dimension i m c⟩

/-- The callbacks of a data set with a kernel map, as before; the results do not depend on the content of the buffer, that is not part of the state here. -/
def homFns (evaluate : List K → K → Option (List K)) (homDimension : Nat) (data : List K) (dimension : Nat) (buffer : List K) : DataFns K :=
  ⟨fun i m => (innerProductHom evaluate homDimension data dimension i buffer m).map Prod.fst, fun i m c => (accumulateHom evaluate homDimension data dimension i buffer m c).map Prod.fst⟩

/-- `VlSvmSolverStatus`, vl/svm.h:62-66. -/
inductive Status
  | none
  | training
  | converged
  | maxNumIterationsReached
  deriving DecidableEq

/-- `VlSvmStatistics`, vl/svm.h:74-86, without the time. -/
structure Stats (K : Type) where
  status : Status
  iteration : Nat
  epoch : Nat
  objective : K
  regularizer : K
  loss : K
  dualObjective : WithBot K
  dualLoss : WithBot K
  dualityGap : WithTop K
  scoresVariation : WithTop K

/-- The parameters of `struct VlSvm_`, vl/svm.c:894-934. -/
structure Config (K : Type) where
  dimension : Nat
  numData : Nat
  biasMultiplier : K
  lambda : K
  labels : List K
  weights : Option (List K)
  epsilon : K
  maxNumIterations : Nat
  diagnosticFrequency : Nat
  biasLearningRate : K
  fns : Loss K
  data : DataFns K

/-- The part of `struct VlSvm_` that the solvers modify, vl/svm.c:894-934. -/
structure State (K : Type) where
  model : List K
  bias : K
  alpha : List K
  scores : List K
  stats : Stats K

/-- `memset(&self->statistics, 0, …)`, vl/svm.c:1875. -/
def Stats.zero : Stats K := ⟨.none, 0, 0, 0, 0, 0, ((0 : K) : WithBot K), ((0 : K) : WithBot K), ((0 : K) : WithTop K), ((0 : K) : WithTop K)⟩

/-- The parameters of a new object, `vl_svm_new_with_abstract_data` and `vl_svm_set_data_functions`, vl/svm.c:1013-1064 and 1492-1499.  `ceil` is `vl_ceil_f`. -/
def newConfig (F : Fns K) (ceil : K → Nat) (dimension numData : Nat) (labels : List K) (lambda : K) (data : DataFns K) : Option (Config K) := do
  let _ ← assert' (decide (1 ≤ dimension))
  let _ ← assert' (decide (1 ≤ numData))
  let q ← divv 10 lambda
  pure { dimension := dimension, numData := numData, biasMultiplier := 1, lambda := lambda, labels := labels, weights := none, epsilon := 1 / 100, maxNumIterations := max numData (ceil q), diagnosticFrequency := numData, biasLearningRate := 1 / 100, fns := setLoss F .hinge, data := data }

/-- The state of a new object, vl/svm.c:1029-1072; the array `alpha` is used only by the dual solver. -/
def newState (dimension numData : Nat) : State K :=
  { model := List.replicate dimension 0, bias := 0, alpha := List.replicate numData 0, scores := List.replicate numData 0, stats := Stats.zero }

/-- `self->weights ? self->weights[k] : 1.0` -/
def weightOf (c : Config K) (k : Nat) : Option K :=
  match c.weights with
  | none => some 1
  | some w => rd w k

/-- `x - p * c`, where `x` may be minus infinity and `c` may be infinity; `p` is positive. -/
def subMul : WithBot K → K → WithTop K → WithBot K
  | some x, p, some c => ((x - p * c : K) : WithBot K)
  | _, _, _ => ⊥

/-- The accumulators of `_vl_svm_update_statistics`. -/
structure Acc (K : Type) where
  scores : List K
  loss : K
  dualLoss : WithBot K

/-- The loop over the data of `_vl_svm_update_statistics`, vl/svm.c:1883-1895. -/
def statStep (c : Config K) (sdca : Bool) (s : State K) (k : Nat) (a : Acc K) : Option (Acc K) := do
  let p ← weightOf c k
  if p ≤ 0 then pure a
  else do
    let v ← c.data.inner k s.model
    let inner := v + s.bias * c.biasMultiplier
    let scores ← wr a.scores k inner
    let y ← rd c.labels k
    let loss := a.loss + p * c.fns.loss inner y
    if sdca then do
      let al ← rd s.alpha k
      let u ← divv (- al) p
      pure { scores := scores, loss := loss, dualLoss := subMul a.dualLoss p (c.fns.conj u y) }
    else pure { scores := scores, loss := loss, dualLoss := a.dualLoss }

/-- `x / n` for a positive `n` -/
def divBot (x : WithBot K) (n : K) : WithBot K := x.map (· / n)

/-- `x - y`, where `y` may be minus infinity -/
def subBot (x : K) : WithBot K → WithTop K
  | some y => ((x - y : K) : WithTop K)
  | none => ⊤

/-- `_vl_svm_update_statistics`, vl/svm.c:1870-1906; `sdca` tells whether the solver is the dual one. -/
def updateStatistics (c : Config K) (sdca : Bool) (s : State K) : Option (State K) := do
  let r ← iter c.dimension (fun i r => do
    let m ← rd s.model i
    pure (r + m * m)) (s.bias * s.bias)
  let r := r * (c.lambda * (1 / 2))
  let a ← iter c.numData (fun k a => statStep c sdca s k a) ⟨s.scores, 0, ((0 : K) : WithBot K)⟩
  let loss ← divv a.loss (c.numData : K)
  let objective := r + loss
  if sdca then do
    let dualLoss := divBot a.dualLoss (c.numData : K)
    let dualObjective := dualLoss.map (fun x => - r + x)
    pure { s with scores := a.scores, stats := { Stats.zero with regularizer := r, loss := loss, objective := objective, dualLoss := dualLoss, dualObjective := dualObjective, dualityGap := subBot objective dualObjective } }
  else pure { s with scores := a.scores, stats := { Stats.zero with regularizer := r, loss := loss, objective := objective } }

/-- `_vl_svm_evaluate`, vl/svm.c:1912-1926. -/
def evaluate (c : Config K) (s : State K) : Option (State K) := do
  let s ← updateStatistics c false s
  pure { s with stats := { s.stats with iteration := 0, epoch := 0, status := .converged } }

/-- The norms of the samples, vl/svm.c:1947-1960. -/
def norms (c : Config K) : Option (List K) :=
  iter c.numData (fun i norm2 => do
    let buffer ← c.data.acc i (List.replicate c.dimension 0) 1
    let n2 ← c.data.inner i buffer
    let q ← divv (n2 + c.biasMultiplier * c.biasMultiplier) (c.lambda * (c.numData : K))
    wr norm2 i q) (List.replicate c.numData 0)

/-- The update of the dual variable of sample `i`, whose weight is `p`, vl/svm.c:1973-1979. -/
def sdcaDelta (c : Config K) (norm2 : List K) (s : State K) (i : Nat) (p : K) : Option K :=
  if p > 0 then do
    let v ← c.data.inner i s.model
    let inner := v + s.bias * c.biasMultiplier
    let al ← rd s.alpha i
    let a ← divv al p
    let n2 ← rd norm2 i
    let y ← rd c.labels i
    let d ← c.fns.dca a inner (p * n2) y
    pure (p * d)
  else some 0

/-- One iteration of `_vl_svm_sdca_train` with sample `i`, vl/svm.c:1971-1987. -/
def sdcaStep (c : Config K) (norm2 : List K) (i : Nat) (s : State K) : Option (State K) := do
  let p ← weightOf c i
  let delta ← sdcaDelta c norm2 s i p
  if delta = 0 then pure s
  else do
    let al ← rd s.alpha i
    let alpha ← wr s.alpha i (al + delta)
    let multiplier ← divv delta ((c.numData : K) * c.lambda)
    let model ← c.data.acc i s.model multiplier
    pure { s with alpha := alpha, model := model, bias := s.bias + c.biasMultiplier * multiplier }

/-- The diagnostic of `_vl_svm_sdca_train`, vl/svm.c:1991-2002; the second value tells whether the training stops. -/
def sdcaDiag (c : Config K) (t : Nat) (s : State K) : Option (State K × Bool) := do
  let s ← updateStatistics c true s
  let status : Status := if s.stats.dualityGap < (c.epsilon : WithTop K) then .converged else if t + 1 = c.maxNumIterations then .maxNumIterationsReached else .training
  pure ({ s with stats := { s.stats with iteration := t, epoch := t / c.numData, status := status } }, decide (status ≠ .training))

/-- `vl_rand_permute_indexes` is called at the beginning of an epoch, vl/svm.c:1964-1968 and 2066-2070. -/
def permuteIf (uindex : σ → Nat → Option (Nat × σ)) (numData t : Nat) (perm : List Int) (rand : σ) : Option (List Int × σ) :=
  if t % numData = 0 then Random.permuteIndexes uindex rand perm numData else some (perm, rand)

/-- The main loop of both solvers, vl/svm.c:1962-2013 and 2064-2138: `step` is the update with sample `i` at iteration `t`, `diag` is the diagnostic.  The loop stops only at a diagnostic. -/
def mainLoop {S : Type} (uindex : σ → Nat → Option (Nat × σ)) (numData freq maxIter : Nat) (step : Nat → Nat → S → Option S) (diag : Nat → S → Option (S × Bool)) :
    Nat → Nat → List Int → σ → S → Option (S × σ)
  | 0, _, _, _, _ => none
  | fuel + 1, t, perm, rand, s => do
    let q ← permuteIf uindex numData t perm rand
    let i ← rd q.1 (t % numData)
    let _ ← assert' (decide (0 ≤ i))
    let s ← step t i.toNat s
    if (t + 1) % freq = 0 ∨ t + 1 = maxIter then do
      let r ← diag t s
      if r.2 then pure (r.1, q.2) else mainLoop uindex numData freq maxIter step diag fuel (t + 1) q.1 q.2 r.1
    else mainLoop uindex numData freq maxIter step diag fuel (t + 1) q.1 q.2 s

/-- The initial permutation, vl/svm.c:1951 and 2034-2037. -/
def identity (numData : Nat) : List Int := (List.range numData).map Int.ofNat

/-- `_vl_svm_sdca_train`, vl/svm.c:1932-2017.  `rand` is the state of the random number generator. -/
def sdcaTrain (uindex : σ → Nat → Option (Nat × σ)) (c : Config K) (rand : σ) (s : State K) : Option (State K × σ) := do
  let _ ← assert' (decide (1 ≤ c.numData))
  let _ ← assert' (decide (1 ≤ c.diagnosticFrequency))
  let norm2 ← norms c
  mainLoop uindex c.numData c.diagnosticFrequency c.maxNumIterations (fun _ i s => sdcaStep c norm2 i s) (sdcaDiag c) c.maxNumIterations 0 (identity c.numData) rand s

/-- The state of `_vl_svm_sgd_train`. -/
structure Sgd (K : Type) where
  svm : State K
  factor : K
  biasFactor : K
  scores : List K
  previousScores : List (WithBot K)

/-- The update of the model if the gradient is not null, vl/svm.c:2097-2100. -/
def sgdApply (c : Config K) (i : Nat) (gradient rate biasRate factor biasFactor : K) (s : State K) : Option (State K) :=
  if gradient = 0 then some s
  else do
    let m ← divv (- gradient * rate) factor
    let model ← c.data.acc i s.model m
    let b ← divv (- gradient * biasRate) biasFactor
    pure { s with model := model, bias := s.bias + c.biasMultiplier * b }

/-- One iteration of `_vl_svm_sgd_train` with sample `i`, vl/svm.c:2072-2100. -/
def sgdStep (c : Config K) (t0 t i : Nat) (s : Sgd K) : Option (Sgd K) := do
  let p ← weightOf c i
  let p := max 0 p
  let v ← c.data.inner i s.svm.model
  let inner := s.factor * v + s.biasFactor * (c.biasMultiplier * s.svm.bias)
  let y ← rd c.labels i
  let gradient := p * c.fns.deriv inner y
  let old ← rd s.scores i
  let previousScores ← wr s.previousScores i (old : WithBot K)
  let scores ← wr s.scores i inner
  let rate ← divv 1 (c.lambda * ((t : K) + (t0 : K)))
  let biasRate := rate * c.biasLearningRate
  let factor := s.factor * (1 - c.lambda * rate)
  let biasFactor := s.biasFactor * (1 - c.lambda * biasRate)
  let svm ← sgdApply c i gradient rate biasRate factor biasFactor s.svm
  pure { svm := svm, factor := factor, biasFactor := biasFactor, scores := scores, previousScores := previousScores }

/-- The sum of the squares of the differences of the scores, vl/svm.c:2113-2116; `previousScores` may hold minus infinity. -/
def addSq (a : WithTop K) (x : K) (y : WithBot K) : WithTop K :=
  match a, y with
  | some a, some y => ((a + (x - y) * (x - y) : K) : WithTop K)
  | _, _ => ⊤

/-- The diagnostic of `_vl_svm_sgd_train`, vl/svm.c:2103-2132. -/
def sgdDiag (F : Fns K) (c : Config K) (t : Nat) (s : Sgd K) : Option (Sgd K × Bool) := do
  let model ← iter c.dimension (fun k model => do
    let m ← rd model k
    wr model k (m * s.factor)) s.svm.model
  let svm ← updateStatistics c false { s.svm with model := model, bias := s.svm.bias * s.biasFactor }
  let v ← iter c.numData (fun k v => do
    let x ← rd s.scores k
    let y ← rd s.previousScores k
    pure (addSq v x y)) svm.stats.scoresVariation
  let v := v.map (fun x => F.sqrt x / (c.numData : K))
  let status : Status := if v < (c.epsilon : WithTop K) then .converged else if t + 1 = c.maxNumIterations then .maxNumIterationsReached else .training
  pure ({ s with svm := { svm with stats := { svm.stats with scoresVariation := v, iteration := t, epoch := t / c.numData, status := status } }, factor := 1, biasFactor := 1 }, decide (status ≠ .training))

/-- `_vl_svm_sgd_train`, vl/svm.c:2023-2142.  `ceil` is `vl_ceil_d`. -/
def sgdTrain (F : Fns K) (ceil : K → Nat) (uindex : σ → Nat → Option (Nat × σ)) (c : Config K) (rand : σ) (s : State K) : Option (State K × σ) := do
  let _ ← assert' (decide (1 ≤ c.numData))
  let _ ← assert' (decide (1 ≤ c.diagnosticFrequency))
  let q ← divv 1 c.lambda
  let t0 := max 2 (ceil q)
  let s : Sgd K := { svm := s, factor := 1, biasFactor := 1, scores := List.replicate c.numData 0, previousScores := List.replicate c.numData ⊥ }
  let r ← mainLoop uindex c.numData c.diagnosticFrequency c.maxNumIterations (sgdStep c t0) (sgdDiag F c) c.maxNumIterations 0 (identity c.numData) rand s
  pure (r.1.svm, r.2)

end Verif.Svm
