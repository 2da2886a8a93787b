import Verif.Svm.StatProps
import Verif.Svm.LoopLemmas

/-!
# Stochastic gradient descent
-/

set_option linter.unusedSectionVars false

namespace Verif.Svm

open Spec Finset

variable {K : Type} [Field K] [LinearOrder K] [IsStrictOrderedRing K] {c : Config K} {P : Problem K} {ok : K → Prop} {σ : Type}

theorem sgd_congr {der : K → K → K} {t0 : Nat} {r : K} {v v' : Nat → Nat} {w : Nat → K} {b : K} {t : Nat} (h : ∀ u < t, v u = v' u) : P.sgd der t0 r v w b t = P.sgd der t0 r v' w b t := by
  induction t with
  | zero => rfl
  | succ t ih =>
    unfold Problem.sgd
    rw [ih (fun u hu => h u (by omega)), h t (by omega)]

theorem history_congr {v v' : Nat → Nat} {z z' : Nat → K} {t : Nat} (h : ∀ u < t, v u = v' u) (hz : ∀ u < t, z u = z' u) : history v z t = history v' z' t := by
  induction t with
  | zero => rfl
  | succ t ih =>
    unfold history
    rw [ih (fun u hu => h u (by omega)) (fun u hu => hz u (by omega)), h t (by omega), hz t (by omega)]

/-- A sample has a previous score only if it was visited. -/
theorem history_visited {v : Nat → Nat} {z : Nat → K} {t i : Nat} (h : (history v z t).2 i ≠ ⊥) : ∃ u < t, v u = i := by
  induction t with
  | zero => exact absurd rfl h
  | succ t ih =>
    by_cases hi : i = v t
    · exact ⟨t, by omega, hi.symm⟩
    · have : (history v z (t + 1)).2 i = (history v z t).2 i := if_neg hi
      rw [this] at h
      obtain ⟨u, hu, e⟩ := ih h
      exact ⟨u, by omega, e⟩

/-- The score that iteration `u` computes for the sample it visits -/
def sgdScore (P : Problem K) (der : K → K → K) (t0 : Nat) (r : K) (v : Nat → Nat) (w : Nat → K) (b : K) (u : Nat) : K :=
  P.score (P.sgd der t0 r v w b u).1 (P.sgd der t0 r v w b u).2 (v u)

theorem sgdScore_congr {der : K → K → K} {t0 : Nat} {r : K} {v v' : Nat → Nat} {w : Nat → K} {b : K} {t : Nat} (h : ∀ u < t, v u = v' u) :
    ∀ u < t, sgdScore P der t0 r v w b u = sgdScore P der t0 r v' w b u := by
  intro u hu
  unfold sgdScore
  rw [sgd_congr (fun x hx => h x (by omega)), h u hu]

/-- The model is kept as the product of a factor and of a vector. -/
structure SgdInv (P : Problem K) (c : Config K) (t0 : Nat) (w0 : Nat → K) (b0 : K) (al : List K) (v : Nat → Nat) (t : Nat) (s : Sgd K) : Prop where
  factor : s.factor ≠ 0
  biasFactor : s.biasFactor ≠ 0
  model : ∃ m, Arr s.svm.model P.d m ∧ ∀ k < P.d, (P.sgd c.fns.deriv t0 c.biasLearningRate v w0 b0 t).1 k = s.factor * m k
  bias : (P.sgd c.fns.deriv t0 c.biasLearningRate v w0 b0 t).2 = s.biasFactor * s.svm.bias
  scores : Arr s.scores P.n (history v (sgdScore P c.fns.deriv t0 c.biasLearningRate v w0 b0) t).1
  previous : Arr s.previousScores P.n (history v (sgdScore P c.fns.deriv t0 c.biasLearningRate v w0 b0) t).2
  len : s.svm.scores.length = P.n
  alpha : s.svm.alpha = al

theorem SgdInv.congr {t0 : Nat} {w0 : Nat → K} {b0 : K} {al : List K} {v v' : Nat → Nat} {t : Nat} {s : Sgd K} (h : ∀ u < t, v u = v' u) (hs : SgdInv P c t0 w0 b0 al v t s) : SgdInv P c t0 w0 b0 al v' t s := by
  have e1 := sgd_congr (P := P) (der := c.fns.deriv) (t0 := t0) (r := c.biasLearningRate) (w := w0) (b := b0) h
  have e2 := history_congr (K := K) h (sgdScore_congr (P := P) (der := c.fns.deriv) (t0 := t0) (r := c.biasLearningRate) (w := w0) (b := b0) h)
  obtain ⟨h1, h2, h3, h4, h5, h6, h7, h8⟩ := hs
  rw [e1] at h3 h4
  rw [e2] at h5 h6
  exact ⟨h1, h2, h3, h4, h5, h6, h7, h8⟩

theorem sgdStep_eq (h : IsProblem c P ok) {t0 : Nat} (ht0 : 2 ≤ t0) {w0 : Nat → K} {b0 : K} {al : List K} {v : Nat → Nat} {t : Nat} (hr : c.biasLearningRate ≠ (t : K) + (t0 : K)) (hi : v t < P.n) {s : Sgd K} (hs : SgdInv P c t0 w0 b0 al v t s) :
    ∃ s', sgdStep c t0 t (v t) s = some s' ∧ SgdInv P c t0 w0 b0 al v (t + 1) s' := by
  obtain ⟨m, hm, hw⟩ := hs.model
  have hb := hs.bias
  generalize eq : P.sgd c.fns.deriv t0 c.biasLearningRate v w0 b0 t = q at hw hb
  have hl := h.lpos
  have hT : (2 : K) ≤ (t : K) + (t0 : K) := by
    have : (2 : K) ≤ (t0 : K) := by exact_mod_cast ht0
    have : (0 : K) ≤ (t : K) := Nat.cast_nonneg t
    linarith
  have hTpos : (0 : K) < (t : K) + (t0 : K) := by linarith
  have hne : P.lambda * ((t : K) + (t0 : K)) ≠ 0 := (mul_pos hl hTpos).ne'
  have hscore : s.factor * (∑ k ∈ range P.d, P.x (v t) k * m k) + s.biasFactor * (c.biasMultiplier * s.svm.bias) = P.score q.1 q.2 (v t) := by
    unfold Problem.score
    rw [hb, h.B, mul_sum]
    congr 1
    · exact sum_congr rfl fun k hk => by rw [hw k (mem_range.1 hk)]; ring
    · ring
  have hscore' : sgdScore P c.fns.deriv t0 c.biasLearningRate v w0 b0 t = P.score q.1 q.2 (v t) := by
    unfold sgdScore
    rw [eq]
  have hf : s.factor * (1 - P.lambda * (1 / (P.lambda * ((t : K) + (t0 : K))))) ≠ 0 := by
    refine mul_ne_zero hs.factor ?_
    have : P.lambda * (1 / (P.lambda * ((t : K) + (t0 : K)))) = 1 / ((t : K) + (t0 : K)) := by field_simp
    rw [this]
    intro e
    have : 1 / ((t : K) + (t0 : K)) = 1 := by linarith
    rw [div_eq_iff hTpos.ne'] at this
    linarith
  have hbf : s.biasFactor * (1 - P.lambda * (1 / (P.lambda * ((t : K) + (t0 : K))) * c.biasLearningRate)) ≠ 0 := by
    refine mul_ne_zero hs.biasFactor ?_
    have : P.lambda * (1 / (P.lambda * ((t : K) + (t0 : K))) * c.biasLearningRate) = c.biasLearningRate / ((t : K) + (t0 : K)) := by field_simp
    rw [this]
    intro e
    have : c.biasLearningRate / ((t : K) + (t0 : K)) = 1 := by linarith
    rw [div_eq_iff hTpos.ne'] at this
    exact hr (by linarith)
  obtain ⟨scores, e1, h1⟩ := hs.scores.wr hi (P.score q.1 q.2 (v t))
  obtain ⟨prev, e2, h2⟩ := hs.previous.wr hi (((history v (sgdScore P c.fns.deriv t0 c.biasLearningRate v w0 b0) t).1 (v t) : K) : WithBot K)
  -- the update of the model
  generalize eg : max 0 (P.p (v t)) * c.fns.deriv (P.score q.1 q.2 (v t)) (P.y (v t)) = g
  generalize er : 1 / (P.lambda * ((t : K) + (t0 : K))) = rate at hf hbf
  have hnext : P.sgd c.fns.deriv t0 c.biasLearningRate v w0 b0 (t + 1) = (fun k => q.1 k - rate * (P.lambda * q.1 k + g * P.x (v t) k), q.2 - c.biasLearningRate * rate * (P.lambda * q.2 + g * P.B)) := by
    show (fun k => _, _) = _
    rw [eq, eg, er]
  have happ : ∃ svm m', sgdApply c (v t) g rate (rate * c.biasLearningRate) (s.factor * (1 - P.lambda * rate)) (s.biasFactor * (1 - P.lambda * (rate * c.biasLearningRate))) s.svm = some svm ∧
      Arr svm.model P.d m' ∧ (∀ k < P.d, q.1 k - rate * (P.lambda * q.1 k + g * P.x (v t) k) = s.factor * (1 - P.lambda * rate) * m' k) ∧
      q.2 - c.biasLearningRate * rate * (P.lambda * q.2 + g * P.B) = s.biasFactor * (1 - P.lambda * (rate * c.biasLearningRate)) * svm.bias ∧ svm.scores = s.svm.scores ∧ svm.alpha = s.svm.alpha := by
    unfold sgdApply
    by_cases hg : g = 0
    · rw [if_pos hg]
      refine ⟨s.svm, m, rfl, hm, ?_, ?_, rfl, rfl⟩
      · intro k hk
        rw [hw k hk, hg]
        ring
      · rw [hb, hg]
        ring
    · rw [if_neg hg]
      obtain ⟨model, e3, h3⟩ := h.data.acc (v t) hi s.svm.model m (- g * rate / (s.factor * (1 - P.lambda * rate))) hm
      refine ⟨{ s.svm with model := model, bias := s.svm.bias + c.biasMultiplier * (- g * (rate * c.biasLearningRate) / (s.biasFactor * (1 - P.lambda * (rate * c.biasLearningRate)))) }, _, ?_, h3, ?_, ?_, rfl, rfl⟩
      · show (divv _ _).bind _ = _
        rw [divv, if_neg hf, Option.bind_some]
        show (c.data.acc _ _ _).bind _ = _
        rw [e3, Option.bind_some]
        show (divv _ _).bind _ = _
        rw [divv, if_neg hbf, Option.bind_some]
        rfl
      · intro k hk
        have := mul_div_cancel₀ (- g * rate) hf
        rw [hw k hk]
        linear_combination - P.x (v t) k * this
      · show _ = s.biasFactor * (1 - P.lambda * (rate * c.biasLearningRate)) * (s.svm.bias + c.biasMultiplier * (- g * (rate * c.biasLearningRate) / (s.biasFactor * (1 - P.lambda * (rate * c.biasLearningRate)))))
        have := mul_div_cancel₀ (- g * (rate * c.biasLearningRate)) hbf
        rw [hb, h.B]
        linear_combination - P.B * this
  obtain ⟨svm, m', e3, h3, h4, h5, h6, h7⟩ := happ
  refine ⟨{ svm := svm, factor := s.factor * (1 - P.lambda * rate), biasFactor := s.biasFactor * (1 - P.lambda * (rate * c.biasLearningRate)), scores := scores, previousScores := prev }, ?_, ?_⟩
  · show (weightOf c (v t)).bind _ = _
    rw [weightOf_eq h hi, Option.bind_some]
    show (c.data.inner (v t) s.svm.model).bind _ = _
    rw [h.data.inner _ hi _ _ hm, Option.bind_some]
    show (rd c.labels (v t)).bind _ = _
    rw [h.labels.rd hi, Option.bind_some, hscore, eg]
    show (rd s.scores (v t)).bind _ = _
    rw [hs.scores.rd hi, Option.bind_some]
    show (wr s.previousScores (v t) _).bind _ = _
    rw [e2, Option.bind_some]
    show (wr s.scores (v t) _).bind _ = _
    rw [e1, Option.bind_some, h.lambda]
    show (divv 1 _).bind _ = _
    rw [divv, if_neg hne, Option.bind_some, er]
    show (sgdApply c (v t) g rate (rate * c.biasLearningRate) (s.factor * (1 - P.lambda * rate)) (s.biasFactor * (1 - P.lambda * (rate * c.biasLearningRate))) s.svm).bind _ = _
    rw [e3]
    rfl
  · refine ⟨hf, hbf, ⟨m', h3, fun k hk => ?_⟩, ?_, h1.congr ?_, h2.congr ?_, h6.symm ▸ hs.len, h7.trans hs.alpha⟩
    · rw [hnext]
      exact h4 k hk
    · rw [hnext]
      exact h5
    · intro i _
      unfold upd1
      show _ = if i = v t then _ else _
      rw [hscore']
    · intro i _
      unfold upd1
      show _ = if i = v t then _ else _
      split
      · rename_i e
        rw [e]
      · rfl

/-- What the training leaves after `T` iterations: the model of the textbook recursion, its scores and its objective function.  Convergence is reported only if every sample was visited and the scores changed little between the last two visits. -/
structure SgdResult (P : Problem K) (F : Fns K) (c : Config K) (t0 : Nat) (w0 : Nat → K) (b0 : K) (v : Nat → Nat) (T : Nat) (s : State K) : Prop where
  model : Arr s.model P.d (P.sgd c.fns.deriv t0 c.biasLearningRate v w0 b0 T).1
  bias : s.bias = (P.sgd c.fns.deriv t0 c.biasLearningRate v w0 b0 T).2
  scores : ∀ i < P.n, 0 < P.p i → s.scores[i]? = some (P.score (P.sgd c.fns.deriv t0 c.biasLearningRate v w0 b0 T).1 (P.sgd c.fns.deriv t0 c.biasLearningRate v w0 b0 T).2 i)
  objective : s.stats.objective = P.objective (P.sgd c.fns.deriv t0 c.biasLearningRate v w0 b0 T).1 (P.sgd c.fns.deriv t0 c.biasLearningRate v w0 b0 T).2
  status : (s.stats.status = .converged ∧ (∀ i < P.n, ∃ u < T, v u = i) ∧ ∃ last prev : Nat → K, (∀ i < P.n, (history v (sgdScore P c.fns.deriv t0 c.biasLearningRate v w0 b0) T).1 i = last i ∧ (history v (sgdScore P c.fns.deriv t0 c.biasLearningRate v w0 b0) T).2 i = (prev i : WithBot K)) ∧
      F.sqrt (∑ i ∈ range P.n, (last i - prev i) ^ 2) / P.n < c.epsilon) ∨ (s.stats.status = .maxNumIterationsReached ∧ T = c.maxNumIterations)
  iteration : s.stats.iteration + 1 = T
  epoch : s.stats.epoch = (T - 1) / P.n

theorem addSq_sum {scores : List K} {prev : List (WithBot K)} {n : Nat} {f : Nat → K} {g : Nat → WithBot K} (hf : Arr scores n f) (hg : Arr prev n g) (x : WithTop K) (k : Nat) (hk : k ≤ n) :
    ∃ y, iter k (fun k v => (rd scores k).bind fun x => (rd prev k).bind fun y => some (addSq v x y)) x = some y ∧
      (∀ z : K, y = (z : WithTop K) → ∃ (x0 : K) (p : Nat → K), x = (x0 : WithTop K) ∧ (∀ i < k, g i = (p i : WithBot K)) ∧ z = x0 + ∑ i ∈ range k, (f i - p i) ^ 2) := by
  obtain ⟨y, e, hy⟩ := iter_inv (n := k) (f := fun k v => (rd scores k).bind fun x => (rd prev k).bind fun y => some (addSq v x y)) (s := x)
    (fun k y => ∀ z : K, y = (z : WithTop K) → ∃ (x0 : K) (p : Nat → K), x = (x0 : WithTop K) ∧ (∀ i < k, g i = (p i : WithBot K)) ∧ z = x0 + ∑ i ∈ range k, (f i - p i) ^ 2)
    (by
      intro z hz
      exact ⟨z, fun _ => 0, hz, fun _ h => absurd h (by omega), by simp⟩)
    (by
      intro i hi y hy
      rw [hf.rd (by omega), Option.bind_some, hg.rd (by omega), Option.bind_some]
      refine ⟨_, rfl, ?_⟩
      intro z hz
      cases y with
      | top => cases hz
      | coe y =>
        generalize eg : g i = gi at hz
        cases gi with
        | bot => cases hz
        | coe gi =>
          obtain ⟨x0, p, e1, h1, e2⟩ := hy y rfl
          refine ⟨x0, upd1 p i gi, e1, ?_, ?_⟩
          · intro j hj
            unfold upd1
            by_cases hji : j = i
            · rw [if_pos hji, hji, eg]
            · rw [if_neg hji]
              exact h1 j (by omega)
          · have hz' : y + (f i - gi) * (f i - gi) = z := WithTop.coe_injective hz
            rw [sum_range_succ, ← hz', e2]
            have : ∑ j ∈ range i, (f j - upd1 p i gi j) ^ 2 = ∑ j ∈ range i, (f j - p j) ^ 2 := by
              refine sum_congr rfl fun j hj => ?_
              unfold upd1
              rw [if_neg (mem_range.1 hj).ne]
            rw [this]
            unfold upd1
            rw [if_pos rfl]
            ring)
  exact ⟨y, e, hy⟩

theorem sgdDiag_eq (h : IsProblem c P ok) (F : Fns K) {t0 : Nat} {w0 : Nat → K} {b0 : K} {al : List K} {v : Nat → Nat} {t : Nat} {s : Sgd K} (hs : SgdInv P c t0 w0 b0 al v (t + 1) s) :
    ∃ s' b, sgdDiag F c t s = some (s', b) ∧ SgdInv P c t0 w0 b0 al v (t + 1) s' ∧ (t + 1 = c.maxNumIterations → b = true) ∧ (b = true → SgdResult P F c t0 w0 b0 v (t + 1) s'.svm) := by
  obtain ⟨m, hm, hw⟩ := hs.model
  have hb := hs.bias
  have hprev := hs.previous
  have hscores := hs.scores
  have e0 : sgdDiag F c t s = (iter c.dimension (fun k model => (rd model k).bind fun m => wr model k (m * s.factor)) s.svm.model).bind fun model =>
      (updateStatistics c false { s.svm with model := model, bias := s.svm.bias * s.biasFactor }).bind fun svm =>
      (iter c.numData (fun k v => (rd s.scores k).bind fun x => (rd s.previousScores k).bind fun y => some (addSq v x y)) svm.stats.scoresVariation).bind fun v =>
      some ({ s with svm := { svm with stats := { svm.stats with scoresVariation := v.map (fun x => F.sqrt x / (c.numData : K)), iteration := t, epoch := t / c.numData, status := (if v.map (fun x => F.sqrt x / (c.numData : K)) < (c.epsilon : WithTop K) then .converged else if t + 1 = c.maxNumIterations then .maxNumIterationsReached else .training) } }, factor := 1, biasFactor := 1 },
        decide ((if v.map (fun x => F.sqrt x / (c.numData : K)) < (c.epsilon : WithTop K) then Status.converged else if t + 1 = c.maxNumIterations then .maxNumIterationsReached else .training) ≠ .training)) := rfl
  obtain ⟨model, e1, h1⟩ := iter_arr hm (fun _ x => x * s.factor) (body := fun k model => (rd model k).bind fun m => wr model k (m * s.factor)) (by
    intro k hk l f hl
    rw [hl.rd hk, Option.bind_some])
  have h1 : Arr model P.d (P.sgd c.fns.deriv t0 c.biasLearningRate v w0 b0 (t + 1)).1 := h1.congr fun k hk => by
    rw [hw k hk]
    ring
  have eb : s.svm.bias * s.biasFactor = (P.sgd c.fns.deriv t0 c.biasLearningRate v w0 b0 (t + 1)).2 := by
    rw [hb]
    ring
  obtain ⟨svm, e2, h21, h22, h23, h24, h25, h26⟩ : ∃ svm, updateStatistics c false { s.svm with model := model, bias := s.svm.bias * s.biasFactor } = some svm ∧ svm.model = model ∧ svm.bias = s.svm.bias * s.biasFactor ∧ svm.alpha = s.svm.alpha ∧
      Arr svm.scores P.n (fun i => if 0 < P.p i then P.score (P.sgd c.fns.deriv t0 c.biasLearningRate v w0 b0 (t + 1)).1 (s.svm.bias * s.biasFactor) i else (s.svm.scores[i]?).getD 0) ∧
      svm.stats.objective = P.objective (P.sgd c.fns.deriv t0 c.biasLearningRate v w0 b0 (t + 1)).1 (s.svm.bias * s.biasFactor) ∧ svm.stats.scoresVariation = ((0 : K) : WithTop K) := by
    obtain ⟨scores, r, l, e2, h2, -, -⟩ := updateStatistics_primal h (s := { s.svm with model := model, bias := s.svm.bias * s.biasFactor }) h1 (Arr.of_len' hs.len 0)
    exact ⟨_, e2, rfl, rfl, rfl, h2, rfl, rfl⟩
  rw [eb] at h24 h25
  obtain ⟨y, e3, h3⟩ := addSq_sum hscores hprev ((0 : K) : WithTop K) P.n (le_refl _)
  rw [e0, h.d, e1, Option.bind_some, e2, Option.bind_some, h.n, h26, e3, Option.bind_some]
  refine ⟨_, _, rfl, ⟨one_ne_zero, one_ne_zero, ⟨_, h21.symm ▸ h1, fun k _ => (one_mul _).symm⟩, ?_, hscores, hprev, h24.len, h23.trans hs.alpha⟩, ?_, ?_⟩
  · show _ = 1 * svm.bias
    rw [one_mul, h22, eb]
  · intro ht
    by_cases hg : y.map (fun x => F.sqrt x / (P.n : K)) < (c.epsilon : WithTop K)
    · rw [if_pos hg]; rfl
    · rw [if_neg hg, if_pos ht]; rfl
  · intro hbt
    refine ⟨h21.symm ▸ h1, h22.trans eb, ?_, h25, ?_, rfl, rfl⟩
    · intro i hi hp
      have := h24.get i hi
      rw [if_pos hp] at this
      exact this
    · show ((if y.map (fun x => F.sqrt x / (P.n : K)) < (c.epsilon : WithTop K) then Status.converged else if t + 1 = c.maxNumIterations then .maxNumIterationsReached else .training) = _ ∧ _) ∨ ((if y.map (fun x => F.sqrt x / (P.n : K)) < (c.epsilon : WithTop K) then Status.converged else if t + 1 = c.maxNumIterations then .maxNumIterationsReached else .training) = _ ∧ _)
      by_cases hg : y.map (fun x => F.sqrt x / (P.n : K)) < (c.epsilon : WithTop K)
      · rw [if_pos hg]
        refine Or.inl ⟨rfl, ?_⟩
        cases y with
        | top => exact absurd hg (not_lt.2 le_top)
        | coe z =>
          obtain ⟨x0, p, ex, hp, ez⟩ := h3 z rfl
          have ex : (0 : K) = x0 := WithTop.coe_injective ex
          refine ⟨fun i hi => history_visited (by rw [hp i hi]; exact WithBot.coe_ne_bot), _, p, fun i hi => ⟨rfl, hp i hi⟩, ?_⟩
          have := WithTop.coe_lt_coe.1 hg
          rw [ez, ← ex, zero_add] at this
          exact this
      · by_cases ht : t + 1 = c.maxNumIterations
        · rw [if_neg hg, if_pos ht]
          exact Or.inr ⟨rfl, ht⟩
        · rw [if_neg hg, if_neg ht] at hbt
          cases hbt

/-- **Stochastic gradient descent.**  Training terminates without error and leaves the model of the textbook recursion (whatever the diagnostic frequency), with each sample visited once in each epoch.  The learning rate of the bias must not make a factor vanish. -/
theorem sgdTrain_correct (h : IsProblem c P ok) (F : Fns K) (ceil : K → Nat) (hrate : ∀ t < c.maxNumIterations, c.biasLearningRate ≠ (t : K) + ((max 2 (ceil (1 / P.lambda)) : Nat) : K)) (hfreq : 1 ≤ c.diagnosticFrequency) (hmax : 1 ≤ c.maxNumIterations) (h31 : P.n ≤ 2 ^ 31)
    {uindex : σ → Nat → Option (Nat × σ)} {inv : σ → Prop} {bound : Nat} (hu : Random.InRange inv bound uindex) (hb : P.n ≤ bound) {rand : σ} (hr : inv rand)
    {s : State K} {w0 : Nat → K} (hm : Arr s.model P.d w0) (hl : s.scores.length = P.n) :
    ∃ (s' : State K) (rand' : σ) (T : Nat) (visits : Nat → Nat), sgdTrain F ceil uindex c rand s = some (s', rand') ∧ inv rand' ∧ 1 ≤ T ∧ T ≤ c.maxNumIterations ∧ Epochs P.n visits ∧
      SgdResult P F c (max 2 (ceil (1 / P.lambda))) w0 s.bias visits T s' := by
  obtain ⟨s', rand', T, visits, e2, hr', hT1, hT2, hE, hQ⟩ := mainLoop_spec (freq := c.diagnosticFrequency) (maxIter := c.maxNumIterations) hu h.npos hb h31
    (step := sgdStep c (max 2 (ceil (1 / P.lambda)))) (diag := sgdDiag F c)
    (fun visits t s' => SgdInv P c (max 2 (ceil (1 / P.lambda))) w0 s.bias s.alpha visits t s')
    (fun visits T s' => SgdResult P F c (max 2 (ceil (1 / P.lambda))) w0 s.bias visits T s'.svm)
    (fun v v' t s hvv hs => hs.congr hvv)
    (fun visits t s ht hi hs => sgdStep_eq h (le_max_left _ _) (hrate t ht) hi hs)
    (fun visits t s _ _ hs => sgdDiag_eq h F hs)
    hmax hr (s := { svm := s, factor := 1, biasFactor := 1, scores := List.replicate c.numData 0, previousScores := List.replicate c.numData ⊥ })
    (fun v => ⟨one_ne_zero, one_ne_zero, ⟨w0, hm, fun k _ => (one_mul _).symm⟩, (one_mul _).symm, h.n.symm ▸ Arr.replicate _ _, h.n.symm ▸ Arr.replicate _ _, hl, rfl⟩)
  refine ⟨s'.svm, rand', T, visits, ?_, hr', hT1, hT2, hE, hQ⟩
  unfold sgdTrain
  rw [assert', if_pos (by rw [h.n]; exact decide_eq_true h.npos)]
  show (assert' _).bind _ = _
  rw [assert', if_pos (by simpa using hfreq)]
  show (divv 1 c.lambda).bind _ = _
  rw [h.lambda, divv, if_neg h.lpos.ne', Option.bind_some, h.n]
  rw [h.n] at e2
  show (mainLoop uindex P.n _ _ _ _ _ _ _ _ _).bind _ = _
  rw [e2]
  rfl

end Verif.Svm
