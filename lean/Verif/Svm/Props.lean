import Verif.Svm.SdcaProps
import Verif.Svm.SgdProps
import Verif.Svm.LogisticProps

/-!
# Training from a new object
-/

set_option linter.unusedSectionVars false

namespace Verif.Svm

open Spec Finset

variable {K : Type} [Field K] [LinearOrder K] [IsStrictOrderedRing K] {σ : Type}

/-- **A new object** describes the problem with the hinge loss, unit weights and a unit component for the bias. -/
theorem new_isProblem (F : Fns K) (ceil : K → Nat) {n d : Nat} (hn : 1 ≤ n) (hd : 1 ≤ d) {data : List K} {x : Nat → Nat → K} (hx : Flat data n d x) {labels : List K} {y : Nat → K} (hy : Arr labels n y) (hl : ∀ i < n, y i = 1 ∨ y i = -1) {lambda : K} (hlam : 0 < lambda) :
    ∃ c, newConfig F ceil d n labels lambda (plainFns data d) = some c ∧ IsProblem c ⟨n, d, x, 1, y, fun _ => 1, lambda, hinge⟩ (fun y => y = 1 ∨ y = -1) ∧ IsLoss c.fns hinge (fun y => y = 1 ∨ y = -1) ∧
      c.maxNumIterations = max n (ceil (10 / lambda)) ∧ c.diagnosticFrequency = n ∧ c.epsilon = 1 / 100 ∧ c.biasLearningRate = 1 / 100 := by
  unfold newConfig
  rw [assert', if_pos (decide_eq_true hd)]
  show ∃ c, (assert' _).bind _ = some c ∧ _
  rw [assert', if_pos (decide_eq_true hn)]
  show ∃ c, (divv _ _).bind _ = some c ∧ _
  rw [divv, if_neg hlam.ne', Option.bind_some]
  refine ⟨_, rfl, ⟨rfl, rfl, rfl, rfl, plain_isData hx, hy, Or.inl ⟨rfl, fun _ _ => rfl⟩, (hinge_isLoss F).grad, hl, hn, hlam⟩, hinge_isLoss F, rfl, rfl, rfl, rfl⟩

theorem sampleSq_pos {P : Problem K} (hB : P.B ≠ 0) (i : Nat) : 0 < sampleSq P i :=
  add_pos_of_nonneg_of_pos (sum_nonneg fun _ _ => mul_self_nonneg _) (mul_self_pos.2 hB)

/-- **Training a new object with the dual solver** and the default parameters: no hypothesis on the data is needed. -/
theorem new_sdcaTrain (F : Fns K) (ceil : K → Nat) {n d : Nat} (hn : 1 ≤ n) (h31 : n ≤ 2 ^ 31) (hd : 1 ≤ d) {data : List K} {x : Nat → Nat → K} (hx : Flat data n d x) {labels : List K} {y : Nat → K} (hy : Arr labels n y) (hl : ∀ i < n, y i = 1 ∨ y i = -1) {lambda : K} (hlam : 0 < lambda)
    {uindex : σ → Nat → Option (Nat × σ)} {inv : σ → Prop} {bound : Nat} (hu : Random.InRange inv bound uindex) (hb : n ≤ bound) {rand : σ} (hr : inv rand) :
    ∃ c s rand', newConfig F ceil d n labels lambda (plainFns data d) = some c ∧ sdcaTrain uindex c rand (newState d n) = some (s, rand') ∧
      ∃ a w T, Certified ⟨n, d, x, 1, y, fun _ => 1, lambda, hinge⟩ c s a w T := by
  obtain ⟨c, e, hP, hL, h1, h2, -⟩ := new_isProblem F ceil hn hd hx hy hl hlam
  obtain ⟨hs, hv⟩ := newState_holds hP hL
  obtain ⟨s, rand', T, visits, A, w, e2, -, -, -, -, -, -, hC⟩ := sdcaTrain_correct hP hL (fun i _ _ => sampleSq_pos one_ne_zero i) (by omega) (by rw [h1]; exact hn.trans (le_max_left _ _)) h31 hu hb hr hs hv
  exact ⟨c, s, rand', e, e2, A T, w, T, hC⟩

/-- **Training a new object with the gradient solver** and the default parameters (the learning rate of the bias is 1/100, so no factor vanishes). -/
theorem new_sgdTrain (F : Fns K) (ceil : K → Nat) {n d : Nat} (hn : 1 ≤ n) (h31 : n ≤ 2 ^ 31) (hd : 1 ≤ d) {data : List K} {x : Nat → Nat → K} (hx : Flat data n d x) {labels : List K} {y : Nat → K} (hy : Arr labels n y) (hl : ∀ i < n, y i = 1 ∨ y i = -1) {lambda : K} (hlam : 0 < lambda)
    {uindex : σ → Nat → Option (Nat × σ)} {inv : σ → Prop} {bound : Nat} (hu : Random.InRange inv bound uindex) (hb : n ≤ bound) {rand : σ} (hr : inv rand) :
    ∃ c s rand' v T, newConfig F ceil d n labels lambda (plainFns data d) = some c ∧ sgdTrain F ceil uindex c rand (newState d n) = some (s, rand') ∧ Epochs n v ∧ 1 ≤ T ∧
      SgdResult ⟨n, d, x, 1, y, fun _ => 1, lambda, hinge⟩ F c (max 2 (ceil (1 / lambda))) (fun _ => 0) 0 v T s := by
  obtain ⟨c, e, hP, hL, h1, h2, -, h3⟩ := new_isProblem F ceil hn hd hx hy hl hlam
  obtain ⟨s, rand', T, v, e2, -, hT, -, hE, hC⟩ := sgdTrain_correct hP F ceil (s := newState d n) (w0 := fun _ => 0) (by
    intro t _ e
    rw [h3] at e
    have h4 : (2 : K) ≤ ((max 2 (ceil (1 / lambda)) : Nat) : K) := by exact_mod_cast le_max_left 2 (ceil (1 / lambda))
    have h5 : (0 : K) ≤ (t : K) := Nat.cast_nonneg t
    have h6 : (1 / 100 : K) < 1 := by norm_num
    have e : (1 / 100 : K) = (t : K) + ((max 2 (ceil (1 / lambda)) : Nat) : K) := e
    linarith) (by omega) (by rw [h1]; exact hn.trans (le_max_left _ _)) h31 hu hb hr (Arr.replicate _ _) List.length_replicate
  exact ⟨c, s, rand', v, T, e, e2, hE, hT, hC⟩

/-! ### A concrete case -/

/-- Two samples on a line -/
def exData : List ℚ := [1, -2]

def exFns : Fns ℚ := ⟨fun _ => 1, fun _ => 0, fun x => x, 0⟩

def exRand : Unit → Nat → Option (Nat × Unit) := fun s _ => some (0, s)

theorem exRand_inRange : Random.InRange (fun _ => True) 100 exRand := fun s _ _ h _ => ⟨0, s, rfl, h, trivial⟩

example : ∃ c s rand', newConfig exFns (fun x => x.ceil.toNat) 1 2 [1, -1] (1 / 2) (plainFns exData 1) = some c ∧ sdcaTrain exRand c () (newState 1 2) = some (s, rand') ∧
    ∃ a w T, Certified ⟨2, 1, fun i _ => if i = 0 then 1 else -2, 1, fun i => if i = 0 then 1 else -1, fun _ => 1, 1 / 2, hinge⟩ c s a w T :=
  new_sdcaTrain exFns _ (by omega) (by omega) (by omega) ⟨by rfl, by decide +kernel⟩ ⟨by rfl, by decide +kernel⟩ (by decide +kernel) (by norm_num) exRand_inRange (by omega) trivial

/-! ### Two cases where training fails -/

/-- The configuration of one sample with the value `v`, the label 1 and `lambda = 1` -/
def exConfig (v B r : ℚ) : Config ℚ :=
  { dimension := 1, numData := 1, biasMultiplier := B, lambda := 1, labels := [1], weights := none, epsilon := 1 / 100, maxNumIterations := 10, diagnosticFrequency := 1, biasLearningRate := r, fns := setLoss exFns .hinge, data := plainFns [v] 1 }

theorem exConfig_isProblem (v B r : ℚ) : IsProblem (exConfig v B r) ⟨1, 1, fun _ _ => v, B, fun _ => 1, fun _ => 1, 1, hinge⟩ (fun y => y = 1 ∨ y = -1) :=
  ⟨rfl, rfl, rfl, rfl, plain_isData ⟨rfl, fun i hi j hj => by
    have e1 : i = 0 := by change i < 1 at hi; omega
    have e2 : j = 0 := by change j < 1 at hj; omega
    rw [e1, e2]
    rfl⟩, ⟨rfl, fun i hi => by
    have e1 : i = 0 := by change i < 1 at hi; omega
    rw [e1]
    rfl⟩, Or.inl ⟨rfl, fun _ _ => rfl⟩, (hinge_isLoss exFns).grad, fun _ _ => Or.inl rfl, by show 0 < 1; omega, by show (0 : ℚ) < 1; norm_num⟩

/-- `vl_svm_set_bias_learning_rate` accepts any positive rate (vl/svm.c:1148-1153): the gradient solver would then leave a model. -/
def anyBiasRateClaim : Prop :=
  ∀ (c : Config ℚ) (P : Problem ℚ) (ok : ℚ → Prop), IsProblem c P ok → 0 < c.biasLearningRate → 1 ≤ c.diagnosticFrequency → 1 ≤ c.maxNumIterations → P.n ≤ 100 → ∃ r, sgdTrain exFns (fun x => x.ceil.toNat) exRand c () (newState P.d P.n) = some r

/-- With the rate 2 and `lambda = 1` the first iteration divides by zero. -/
theorem anyBiasRate_claim_false : ¬ anyBiasRateClaim := by
  intro h
  obtain ⟨r, e⟩ := h _ _ _ (exConfig_isProblem 1 1 2) (by decide +kernel) (by decide) (by decide) (by decide)
  have : (sgdTrain exFns (fun x => x.ceil.toNat) exRand (exConfig 1 1 2) () (newState 1 1)).isNone = true := by decide +kernel
  have e : sgdTrain exFns (fun x => x.ceil.toNat) exRand (exConfig 1 1 2) () (newState 1 1) = some r := e
  rw [e] at this
  cases this

/-- The bias multiplier may be null (vl/svm.c:1174-1179), and no sample is excluded: the dual solver would then leave a model. -/
def anySampleClaim : Prop :=
  ∀ (c : Config ℚ) (P : Problem ℚ) (ok : ℚ → Prop), IsProblem c P ok → IsLoss c.fns P.loss ok → 1 ≤ c.diagnosticFrequency → 1 ≤ c.maxNumIterations → P.n ≤ 100 → ∃ r, sdcaTrain exRand c () (newState P.d P.n) = some r

/-- With the hinge loss, a null sample and no bias, the first iteration divides by zero. -/
theorem anySample_claim_false : ¬ anySampleClaim := by
  intro h
  obtain ⟨r, e⟩ := h _ _ _ (exConfig_isProblem 0 0 1) (hinge_isLoss exFns) (by decide) (by decide) (by decide)
  have : (sdcaTrain exRand (exConfig 0 0 1) () (newState 1 1)).isNone = true := by decide +kernel
  have e : sdcaTrain exRand (exConfig 0 0 1) () (newState 1 1) = some r := e
  rw [e] at this
  cases this

/-- The same objects with an admissible rate and an admissible sample are trained. -/
example : (sgdTrain exFns (fun x => x.ceil.toNat) exRand (exConfig 1 1 1) () (newState 1 1)).isSome = true ∧ (sdcaTrain exRand (exConfig 0 1 1) () (newState 1 1)).isSome = true := by decide +kernel

end Verif.Svm
