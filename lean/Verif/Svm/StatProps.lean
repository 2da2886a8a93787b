import Verif.Svm.DataProps
import Verif.Svm.LossProps
import Verif.Svm.DualLemmas

/-!
# The statistics of the solvers
-/

set_option linter.unusedSectionVars false

namespace Verif.Svm

open Spec Finset

variable {K : Type} [Field K] [LinearOrder K] [IsStrictOrderedRing K]

/-- The parameters of the object describe the problem `P`; `ok` tells the labels that the loss admits. -/
structure IsProblem (c : Config K) (P : Problem K) (ok : K → Prop) : Prop where
  n : c.numData = P.n
  d : c.dimension = P.d
  B : c.biasMultiplier = P.B
  lambda : c.lambda = P.lambda
  data : IsData c.data P.n P.d P.x
  labels : Arr c.labels P.n P.y
  weights : (c.weights = none ∧ ∀ i < P.n, P.p i = 1) ∨ ∃ w, c.weights = some w ∧ Arr w P.n P.p
  loss : IsGrad c.fns P.loss ok
  ok : ∀ i < P.n, ok (P.y i)
  npos : 0 < P.n
  lpos : 0 < P.lambda

variable {c : Config K} {P : Problem K} {ok : K → Prop}

theorem weightOf_eq (h : IsProblem c P ok) {i : Nat} (hi : i < P.n) : weightOf c i = some (P.p i) := by
  unfold weightOf
  rcases h.weights with ⟨e, hp⟩ | ⟨w, e, hp⟩
  · rw [e, hp i hi]
  · rw [e]
    exact hp.rd hi

/-- The accumulators after `k` samples -/
structure StatInv (P : Problem K) (f : Nat → K) (w : Nat → K) (b : K) (dual : Option (Nat → K)) (k : Nat) (a : Acc K) : Prop where
  scores : Arr a.scores P.n (fun i => if i < k ∧ 0 < P.p i then P.score w b i else f i)
  loss : a.loss = ∑ i ∈ range k, max 0 (P.p i) * P.loss (P.score w b i) (P.y i)
  dualLoss : ∀ cc, dual = some cc → a.dualLoss = ((- ∑ i ∈ range k, max 0 (P.p i) * cc i : K) : WithBot K)

theorem statStep_eq (h : IsProblem c P ok) {s : State K} {w : Nat → K} {f : Nat → K} (hm : Arr s.model P.d w) {sdca : Bool} {al cc : Nat → K}
    (hs : sdca = true → IsLoss c.fns P.loss ok ∧ Arr s.alpha P.n al ∧ ∀ i < P.n, 0 < P.p i → IsConj (fun z => P.loss z (P.y i)) (- (al i / P.p i)) (cc i)) {k : Nat} (hk : k < P.n) {a : Acc K} (ha : StatInv P f w s.bias (if sdca then some cc else none) k a) :
    ∃ a', statStep c sdca s k a = some a' ∧ StatInv P f w s.bias (if sdca then some cc else none) (k + 1) a' := by
  have e0 : statStep c sdca s k a = (weightOf c k).bind fun p => if p ≤ 0 then some a else (c.data.inner k s.model).bind fun v => (wr a.scores k (v + s.bias * c.biasMultiplier)).bind fun scores =>
      (rd c.labels k).bind fun y => if sdca then (rd s.alpha k).bind fun al => (divv (- al) p).bind fun u => some { scores := scores, loss := a.loss + p * c.fns.loss (v + s.bias * c.biasMultiplier) y, dualLoss := subMul a.dualLoss p (c.fns.conj u y) }
        else some { scores := scores, loss := a.loss + p * c.fns.loss (v + s.bias * c.biasMultiplier) y, dualLoss := a.dualLoss } := rfl
  rw [e0, weightOf_eq h hk, Option.bind_some]
  by_cases hp : P.p k ≤ 0
  · rw [if_pos hp]
    refine ⟨a, rfl, ha.scores.congr ?_, ?_, ?_⟩
    · intro i _
      by_cases hik : i = k
      · subst hik
        rw [if_neg (fun h => absurd h.2 (not_lt.2 hp)), if_neg (fun h => absurd h.2 (not_lt.2 hp))]
      · congr 1
        exact propext (and_congr_left fun _ => ⟨fun _ => by omega, fun _ => by omega⟩)
    · rw [sum_range_succ, max_eq_left hp, zero_mul, add_zero, ha.loss]
    · intro cc' e
      rw [sum_range_succ, max_eq_left hp, zero_mul, add_zero, ha.dualLoss cc' e]
  · rw [if_neg hp, h.data.inner k hk s.model w hm, Option.bind_some]
    have hp := not_le.1 hp
    obtain ⟨scores, e1, h1⟩ := ha.scores.wr hk ((∑ j ∈ range P.d, P.x k j * w j) + s.bias * c.biasMultiplier)
    have hsc : Arr scores P.n (fun i => if i < k + 1 ∧ 0 < P.p i then P.score w s.bias i else f i) := by
      refine h1.congr ?_
      intro i _
      unfold upd1
      by_cases hik : i = k
      · subst hik
        rw [if_pos rfl, if_pos ⟨by omega, hp⟩, h.B]
        rfl
      · rw [if_neg hik]
        beta_reduce
        congr 1
        exact propext (and_congr_left fun _ => ⟨fun _ => by omega, fun _ => by omega⟩)
    have hl : a.loss + P.p k * c.fns.loss ((∑ j ∈ range P.d, P.x k j * w j) + s.bias * c.biasMultiplier) (P.y k) = ∑ i ∈ range (k + 1), max 0 (P.p i) * P.loss (P.score w s.bias i) (P.y i) := by
      rw [sum_range_succ, max_eq_right hp.le, ha.loss, h.loss.loss _ _ (h.ok k hk), h.B]
      rfl
    rw [e1, Option.bind_some, h.labels.rd hk, Option.bind_some]
    cases sdca with
    | false =>
      simp only [Bool.false_eq_true, if_false]
      exact ⟨_, rfl, hsc, hl, fun cc' e => by cases e⟩
    | true =>
      simp only [if_true]
      obtain ⟨h1', h2, h3⟩ := hs rfl
      rw [h2.rd hk, Option.bind_some, divv, if_neg hp.ne', Option.bind_some, neg_div]
      refine ⟨_, rfl, hsc, hl, fun cc' e => ?_⟩
      cases e
      have h4 := h3 k hk hp
      have e5 : c.fns.conj (- (al k / P.p k)) (P.y k) = (cc k : WithTop K) := by
        rcases h1'.conj (- (al k / P.p k)) (P.y k) (h.ok k hk) with ⟨c', e5, h5⟩ | ⟨-, h5⟩
        · rw [e5, conj_unique h5 h4]
        · exact absurd ⟨_, h4.1⟩ h5
      show subMul a.dualLoss (P.p k) (c.fns.conj (- (al k / P.p k)) (P.y k)) = _
      rw [e5, ha.dualLoss cc (by simp), sum_range_succ, max_eq_right hp.le]
      show (((- ∑ i ∈ range k, max 0 (P.p i) * cc i) - P.p k * cc k : K) : WithBot K) = _
      congr 1
      ring

theorem regularizer_eq (h : IsProblem c P ok) {s : State K} {w : Nat → K} (hm : Arr s.model P.d w) :
    iter c.dimension (fun i r => (rd s.model i).bind fun m => some (r + m * m)) (s.bias * s.bias) = some (P.sq w s.bias) := by
  rw [h.d, iter_sum P.d (fun k => w k * w k) _ (by
    intro i hi r
    rw [hm.rd hi]
    rfl)]
  unfold Problem.sq
  congr 1
  rw [sum_congr rfl fun k _ => sq (w k)]
  ring

/-- **The statistics of a model**: the objective function, and the scores of the samples whose weight is positive. -/
theorem updateStatistics_primal (h : IsProblem c P ok) {s : State K} {w f : Nat → K} (hm : Arr s.model P.d w) (hs : Arr s.scores P.n f) :
    ∃ scores r l, updateStatistics c false s = some { s with scores := scores, stats := { Stats.zero with regularizer := r, loss := l, objective := P.objective w s.bias } } ∧
      Arr scores P.n (fun i => if 0 < P.p i then P.score w s.bias i else f i) ∧ r = P.lambda / 2 * P.sq w s.bias ∧ l = (∑ i ∈ range P.n, max 0 (P.p i) * P.loss (P.score w s.bias i) (P.y i)) / P.n := by
  obtain ⟨a, e, ha⟩ := iter_inv (n := P.n) (f := fun k a => statStep c false s k a) (s := ⟨s.scores, 0, ((0 : K) : WithBot K)⟩) (fun k a => StatInv P f w s.bias none k a)
    ⟨hs.congr (by intro i _; simp), by simp, by intro _ e; cases e⟩ (fun k hk a ha => statStep_eq h (f := f) (cc := fun _ => 0) (al := fun _ => 0) hm (sdca := false) (by intro e; cases e) hk ha)
  have hn' : (P.n : K) ≠ 0 := Nat.cast_ne_zero.2 h.npos.ne'
  refine ⟨a.scores, _, _, ?_, ha.scores.congr ?_, rfl, rfl⟩
  · show (iter c.dimension (fun i r => (rd s.model i).bind fun m => some (r + m * m)) (s.bias * s.bias)).bind _ = _
    rw [regularizer_eq h hm, Option.bind_some]
    show (iter c.numData _ _).bind _ = _
    rw [h.n, e, Option.bind_some]
    show (divv a.loss (P.n : K)).bind _ = _
    rw [divv, if_neg hn', Option.bind_some]
    show some _ = some _
    rw [ha.loss, h.lambda]
    unfold Problem.objective
    rw [show P.sq w s.bias * (P.lambda * (1 / 2)) = P.lambda / 2 * P.sq w s.bias by ring]
  · intro i hi
    simp only [hi, true_and]

/-- **The statistics of the dual solver**: the values of the objective function and of the dual one, and their difference. -/
theorem updateStatistics_dual (h : IsProblem c P ok) (hL : IsLoss c.fns P.loss ok) {s : State K} {w f al : Nat → K} {v : K} (hm : Arr s.model P.d w) (hs : Arr s.scores P.n f) (hal : Arr s.alpha P.n al) (hc : P.IsComb al w s.bias) (hv : P.IsDual al v) :
    ∃ scores r l dl, updateStatistics c true s = some { s with scores := scores, stats := { Stats.zero with regularizer := r, loss := l, objective := P.objective w s.bias, dualLoss := dl, dualObjective := (v : WithBot K), dualityGap := ((P.objective w s.bias - v : K) : WithTop K) } } ∧
      Arr scores P.n (fun i => if 0 < P.p i then P.score w s.bias i else f i) ∧ r = P.lambda / 2 * P.sq w s.bias ∧ l = (∑ i ∈ range P.n, max 0 (P.p i) * P.loss (P.score w s.bias i) (P.y i)) / P.n := by
  obtain ⟨w1, b1, cc, h1, h2, h3, ev⟩ := hv
  obtain ⟨e1, e2⟩ := comb_unique (fun _ _ => rfl) h1 hc
  rw [e2, sq_congr e1] at ev
  obtain ⟨a, e, ha⟩ := iter_inv (n := P.n) (f := fun k a => statStep c true s k a) (s := ⟨s.scores, 0, ((0 : K) : WithBot K)⟩) (fun k a => StatInv P f w s.bias (some cc) k a)
    ⟨hs.congr (by intro i _; simp), by simp, by intro _ e; simp⟩ (fun k hk a ha => statStep_eq h (f := f) hm (sdca := true) (fun _ => ⟨hL, hal, h3⟩) hk ha)
  have hn' : (P.n : K) ≠ 0 := Nat.cast_ne_zero.2 h.npos.ne'
  refine ⟨a.scores, _, _, divBot a.dualLoss (P.n : K), ?_, ha.scores.congr ?_, rfl, rfl⟩
  · show (iter c.dimension (fun i r => (rd s.model i).bind fun m => some (r + m * m)) (s.bias * s.bias)).bind _ = _
    rw [regularizer_eq h hm, Option.bind_some]
    show (iter c.numData _ _).bind _ = _
    rw [h.n, e, Option.bind_some]
    show (divv a.loss (P.n : K)).bind _ = _
    rw [divv, if_neg hn', Option.bind_some]
    have hd : (divBot a.dualLoss (P.n : K)).map (fun x => - (P.sq w s.bias * (P.lambda * (1 / 2))) + x) = (v : WithBot K) := by
      rw [ha.dualLoss cc rfl]
      show ((- (P.sq w s.bias * (P.lambda * (1 / 2))) + (- ∑ i ∈ range P.n, max 0 (P.p i) * cc i) / P.n : K) : WithBot K) = _
      rw [ev]
      congr 1
      ring
    show some _ = some _
    rw [h.lambda, hd, ha.loss]
    unfold Problem.objective
    rw [show P.sq w s.bias * (P.lambda * (1 / 2)) = P.lambda / 2 * P.sq w s.bias by ring]
    rfl
  · intro i hi
    simp only [hi, true_and]

/-- **Evaluating a model**, without solver. -/
theorem evaluate_correct (h : IsProblem c P ok) {s : State K} {w f : Nat → K} (hm : Arr s.model P.d w) (hs : Arr s.scores P.n f) :
    ∃ s', evaluate c s = some s' ∧ s'.model = s.model ∧ s'.bias = s.bias ∧ s'.alpha = s.alpha ∧ Arr s'.scores P.n (fun i => if 0 < P.p i then P.score w s.bias i else f i) ∧
      s'.stats.objective = P.objective w s.bias ∧ s'.stats.status = .converged := by
  obtain ⟨scores, r, l, e, h1, -⟩ := updateStatistics_primal h hm hs
  have e2 : evaluate c s = (updateStatistics c false s).bind fun s => some { s with stats := { s.stats with iteration := 0, epoch := 0, status := .converged } } := rfl
  rw [e2, e, Option.bind_some]
  exact ⟨_, rfl, rfl, rfl, rfl, h1, rfl, rfl⟩

end Verif.Svm
