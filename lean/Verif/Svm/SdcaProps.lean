import Verif.Svm.StatProps
import Verif.Svm.LoopLemmas

/-!
# Stochastic dual coordinate ascent
-/

set_option linter.unusedSectionVars false

namespace Verif.Svm

open Spec Finset

variable {K : Type} [Field K] [LinearOrder K] [IsStrictOrderedRing K] {c : Config K} {P : Problem K} {ok : K → Prop} {σ : Type}

/-- The object holds the dual variables `a` and the corresponding model `w` with bias `b`. -/
structure Holds (P : Problem K) (s : State K) (a w : Nat → K) : Prop where
  model : Arr s.model P.d w
  alpha : Arr s.alpha P.n a
  scores : s.scores.length = P.n
  comb : P.IsComb a w s.bias

theorem norms_eq (h : IsProblem c P ok) : ∃ l, norms c = some l ∧ Arr l P.n (fun i => sampleSq P i / (P.lambda * P.n)) := by
  have hne : P.lambda * (P.n : K) ≠ 0 := mul_ne_zero h.lpos.ne' (Nat.cast_ne_zero.2 h.npos.ne')
  unfold norms
  rw [h.n]
  obtain ⟨l, e, hl⟩ := iter_arr (Arr.replicate P.n (0 : K)) (fun i _ => sampleSq P i / (P.lambda * P.n)) (body := fun i norm2 => (c.data.acc i (List.replicate c.dimension 0) 1).bind fun buffer => (c.data.inner i buffer).bind fun n2 =>
      (divv (n2 + c.biasMultiplier * c.biasMultiplier) (c.lambda * (P.n : K))).bind fun q => wr norm2 i q) (by
    intro i hi l f hl
    obtain ⟨m, e1, h1⟩ := h.data.acc i hi _ _ 1 (Arr.replicate P.d (0 : K))
    rw [h.d, e1, Option.bind_some, h.data.inner i hi m _ h1, Option.bind_some, h.lambda, divv, if_neg hne, Option.bind_some, h.B]
    unfold sampleSq
    simp only [zero_add, one_mul])
  exact ⟨l, e, hl⟩

/-- **One iteration maximises the dual objective function along the coordinate of the sample that is visited**, and keeps the model equal to the combination of the samples. -/
theorem sdcaStep_ascent (h : IsProblem c P ok) (hL : IsLoss c.fns P.loss ok) {norm2 : List K} (hn2 : Arr norm2 P.n (fun i => sampleSq P i / (P.lambda * P.n))) {s : State K} {a w : Nat → K} (hs : Holds P s a w) {v : K} (hv : P.IsDual a v) {i : Nat} (hi : i < P.n) (hpos : 0 < P.p i → 0 < sampleSq P i) :
    ∃ s' a' w', sdcaStep c norm2 i s = some s' ∧ Holds P s' a' w' ∧ P.IsAscent i a a' := by
  have e0 : sdcaStep c norm2 i s = (weightOf c i).bind fun p => (sdcaDelta c norm2 s i p).bind fun delta => if delta = 0 then some s else (rd s.alpha i).bind fun al => (wr s.alpha i (al + delta)).bind fun alpha =>
      (divv delta ((c.numData : K) * c.lambda)).bind fun m => (c.data.acc i s.model m).bind fun model => some { s with alpha := alpha, model := model, bias := s.bias + c.biasMultiplier * m } := rfl
  have hne : (P.n : K) * P.lambda ≠ 0 := mul_ne_zero (Nat.cast_ne_zero.2 h.npos.ne') h.lpos.ne'
  have hn' : (0 : K) < P.n := Nat.cast_pos.2 h.npos
  rw [e0, weightOf_eq h hi, Option.bind_some]
  rcases le_or_gt (P.p i) 0 with hp | hp
  · refine ⟨s, a, w, ?_, hs, fun _ _ _ => rfl, v, hv, ?_⟩
    · unfold sdcaDelta
      rw [if_neg (not_lt.2 hp), Option.bind_some, if_pos rfl]
    · intro a2 v2 h2 hv2
      refine le_of_eq (dual_unique ?_ hv2 hv)
      intro j hj
      by_cases hji : j = i
      · subst hji
        obtain ⟨_, _, _, _, z1, _⟩ := hv2
        obtain ⟨_, _, _, _, z2, _⟩ := hv
        rw [z1 j hj hp, z2 j hj hp]
      · exact h2 j hj hji
  · have hA : 0 < P.p i * (sampleSq P i / (P.lambda * P.n)) := mul_pos hp (div_pos (hpos hp) (mul_pos h.lpos hn'))
    obtain ⟨c0, hc0, hup⟩ := dual_update h.npos h.lpos hs.comb hv hi hp
    obtain ⟨d, c', e1, hc', hopt⟩ := hL.dca (a i / P.p i) (P.score w s.bias i) _ (P.y i) c0 (h.ok i hi) hA hc0
    have e2 : sdcaDelta c norm2 s i (P.p i) = some (P.p i * d) := by
      unfold sdcaDelta
      rw [if_pos hp]
      show (c.data.inner i s.model).bind _ = _
      rw [h.data.inner i hi s.model w hs.model, Option.bind_some]
      show (rd s.alpha i).bind _ = _
      rw [hs.alpha.rd hi, Option.bind_some]
      show (divv (a i) (P.p i)).bind _ = _
      rw [divv, if_neg hp.ne', Option.bind_some]
      show (rd norm2 i).bind _ = _
      rw [hn2.rd hi, Option.bind_some]
      show (rd c.labels i).bind _ = _
      rw [h.labels.rd hi, Option.bind_some, h.B]
      show (c.fns.dca (a i / P.p i) (P.score w s.bias i) (P.p i * (sampleSq P i / (P.lambda * P.n))) (P.y i)).bind _ = _
      rw [e1]
      rfl
    rw [e2, Option.bind_some]
    have hasc : P.IsAscent i a (upd1 a i (a i + P.p i * d)) := by
      refine ⟨fun j _ hji => if_neg hji, _, hup d c' hc', ?_⟩
      intro a2 v2 h2 hv2
      -- the change of the coordinate
      have ea2 : ∀ j < P.n, a2 j = upd1 a i (a i + P.p i * ((a2 i - a i) / P.p i)) j := by
        intro j hj
        unfold upd1
        by_cases hji : j = i
        · subst hji
          rw [if_pos rfl, mul_div_cancel₀ _ hp.ne']
          ring
        · rw [if_neg hji]
          exact h2 j hj hji
      obtain ⟨_, _, c2, _, _, hc2, _⟩ := id hv2
      have hc2 := hc2 i hi hp
      have : a2 i / P.p i = a i / P.p i + (a2 i - a i) / P.p i := by ring
      rw [this] at hc2
      have hv2' := dual_unique ea2 hv2 (hup _ _ hc2)
      rw [hv2']
      have := hopt _ _ hc2
      have hq : 0 ≤ P.p i / P.n := (div_pos hp hn').le
      have := mul_le_mul_of_nonneg_left this hq
      linarith
    by_cases h0 : P.p i * d = 0
    · rw [if_pos h0]
      refine ⟨s, upd1 a i (a i + P.p i * d), w, rfl, ⟨hs.model, hs.alpha.congr ?_, hs.scores, ?_⟩, hasc⟩
      · intro j _
        unfold upd1
        split
        · rename_i e
          rw [e, h0, add_zero]
        · rfl
      · have hu := comb_update h.npos h.lpos hs.comb hi (P.p i * d)
        simp only [h0, zero_div, zero_mul, add_zero, mul_zero] at hu ⊢
        exact hu
    · rw [if_neg h0, hs.alpha.rd hi, Option.bind_some]
      obtain ⟨alpha, e3, h3⟩ := hs.alpha.wr hi (a i + P.p i * d)
      obtain ⟨model, e4, h4⟩ := h.data.acc i hi s.model w (P.p i * d / (P.n * P.lambda)) hs.model
      rw [e3, Option.bind_some, h.n, h.lambda, divv, if_neg hne, Option.bind_some, e4, Option.bind_some, h.B]
      exact ⟨_, _, _, rfl, ⟨h4, h3, hs.scores, comb_update h.npos h.lpos hs.comb hi _⟩, hasc⟩

/-- The statistics that the training leaves certify the model `w`, `b` with the dual variables `a`. -/
structure Certified (P : Problem K) (c : Config K) (s : State K) (a w : Nat → K) (T : Nat) : Prop where
  holds : Holds P s a w
  scores : ∀ i < P.n, 0 < P.p i → s.scores[i]? = some (P.score w s.bias i)
  objective : s.stats.objective = P.objective w s.bias
  gap : ∃ v, P.IsDual a v ∧ s.stats.dualObjective = (v : WithBot K) ∧ s.stats.dualityGap = ((P.objective w s.bias - v : K) : WithTop K) ∧ 0 ≤ P.objective w s.bias - v ∧
    (∀ w' b', P.objective w s.bias - (P.objective w s.bias - v) ≤ P.objective w' b') ∧
    (∀ w' b', P.objective w' b' ≤ P.objective w s.bias → P.lambda / 2 * dist2 P w s.bias w' b' ≤ P.objective w s.bias - v)
  status : (s.stats.status = .converged ∧ ∀ w' b', P.objective w s.bias < P.objective w' b' + c.epsilon) ∨ (s.stats.status = .maxNumIterationsReached ∧ T = c.maxNumIterations)
  iteration : s.stats.iteration + 1 = T
  epoch : s.stats.epoch = (T - 1) / P.n

theorem dist2_nonneg (w : Nat → K) (b : K) (w' : Nat → K) (b' : K) : 0 ≤ dist2 P w b w' b' := add_nonneg (sum_nonneg fun _ _ => sq_nonneg _) (sq_nonneg _)

theorem sdcaDiag_eq (h : IsProblem c P ok) (hL : IsLoss c.fns P.loss ok) {s : State K} {a w : Nat → K} (hs : Holds P s a w) {v : K} (hv : P.IsDual a v) (t : Nat) :
    ∃ s' b, sdcaDiag c t s = some (s', b) ∧ Holds P s' a w ∧ (t + 1 = c.maxNumIterations → b = true) ∧ (b = true → Certified P c s' a w (t + 1)) := by
  obtain ⟨scores, r, l, dl, e, hsc, -, -⟩ := updateStatistics_dual h hL hs.model (Arr.of_len' hs.scores 0) hs.alpha hs.comb hv
  have e2 : sdcaDiag c t s = (updateStatistics c true s).bind fun s => some ({ s with stats := { s.stats with iteration := t, epoch := t / c.numData, status := (if s.stats.dualityGap < (c.epsilon : WithTop K) then .converged else if t + 1 = c.maxNumIterations then .maxNumIterationsReached else .training) } },
      decide ((if s.stats.dualityGap < (c.epsilon : WithTop K) then Status.converged else if t + 1 = c.maxNumIterations then .maxNumIterationsReached else .training) ≠ .training)) := rfl
  rw [e2, e, Option.bind_some]
  dsimp only
  have hw := weak_duality h.npos h.lpos hs.comb hv
  have hd := dist2_nonneg (P := P)
  have hl2 : 0 ≤ P.lambda / 2 := by have := h.lpos; linarith
  refine ⟨_, _, rfl, ⟨hs.model, hs.alpha, hsc.len, hs.comb⟩, ?_, ?_⟩
  · intro ht
    by_cases hg : ((P.objective w s.bias - v : K) : WithTop K) < (c.epsilon : WithTop K)
    · rw [if_pos hg]; rfl
    · rw [if_neg hg, if_pos ht]; rfl
  · intro hb
    refine ⟨⟨hs.model, hs.alpha, hsc.len, hs.comb⟩, ?_, rfl, ⟨v, hv, rfl, rfl, ?_, ?_, ?_⟩, ?_, rfl, ?_⟩
    · intro i hi hp
      have := hsc.get i hi
      rw [if_pos hp] at this
      exact this
    · have := hw w s.bias
      have := mul_nonneg hl2 (hd w s.bias w s.bias)
      linarith
    · intro w' b'
      have := hw w' b'
      have := mul_nonneg hl2 (hd w s.bias w' b')
      linarith
    · intro w' b' h1
      have := hw w' b'
      linarith
    · show ((if ((P.objective w s.bias - v : K) : WithTop K) < (c.epsilon : WithTop K) then Status.converged else if t + 1 = c.maxNumIterations then .maxNumIterationsReached else .training) = _ ∧ _) ∨ ((if ((P.objective w s.bias - v : K) : WithTop K) < (c.epsilon : WithTop K) then Status.converged else if t + 1 = c.maxNumIterations then .maxNumIterationsReached else .training) = _ ∧ _)
      by_cases hg : ((P.objective w s.bias - v : K) : WithTop K) < (c.epsilon : WithTop K)
      · rw [if_pos hg]
        refine Or.inl ⟨rfl, fun w' b' => ?_⟩
        have h1 := hw w' b'
        have h2 := mul_nonneg hl2 (hd w s.bias w' b')
        have h3 := WithTop.coe_lt_coe.1 hg
        show P.objective w s.bias < _
        linarith
      · by_cases ht : t + 1 = c.maxNumIterations
        · rw [if_neg hg, if_pos ht]
          exact Or.inr ⟨rfl, ht⟩
        · rw [if_neg hg, if_neg ht] at hb
          cases hb
    · show t / c.numData = (t + 1 - 1) / P.n
      rw [h.n]
      rfl

/-- **Dual coordinate ascent.**  Training terminates without error from any state that holds dual variables and the corresponding model (so also again after a training): the dual variables are obtained by exact coordinate ascent, in an order that visits each sample once in each epoch; the final model is the combination of the samples; the statistics are the values of the objective functions, and certify the model. -/
theorem sdcaTrain_correct (h : IsProblem c P ok) (hL : IsLoss c.fns P.loss ok) (hpos : ∀ i < P.n, 0 < P.p i → 0 < sampleSq P i) (hfreq : 1 ≤ c.diagnosticFrequency) (hmax : 1 ≤ c.maxNumIterations) (h31 : P.n ≤ 2 ^ 31)
    {uindex : σ → Nat → Option (Nat × σ)} {inv : σ → Prop} {bound : Nat} (hu : Random.InRange inv bound uindex) (hb : P.n ≤ bound) {rand : σ} (hr : inv rand)
    {s : State K} {a w : Nat → K} {v : K} (hs : Holds P s a w) (hv : P.IsDual a v) :
    ∃ (s' : State K) (rand' : σ) (T : Nat) (visits : Nat → Nat) (A : Nat → Nat → K) (w' : Nat → K), sdcaTrain uindex c rand s = some (s', rand') ∧ inv rand' ∧ 1 ≤ T ∧ T ≤ c.maxNumIterations ∧ Epochs P.n visits ∧
      A 0 = a ∧ (∀ t < T, P.IsAscent (visits t) (A t) (A (t + 1))) ∧ Certified P c s' (A T) w' T := by
  obtain ⟨norm2, e1, hn2⟩ := norms_eq h
  obtain ⟨s', rand', T, visits, e2, hr', hT1, hT2, hE, A, w', h0, hA, hC⟩ := mainLoop_spec (freq := c.diagnosticFrequency) (maxIter := c.maxNumIterations) hu h.npos hb h31
    (step := fun _ i s => sdcaStep c norm2 i s) (diag := sdcaDiag c)
    (fun visits t s => ∃ (A : Nat → Nat → K) (w : Nat → K), A 0 = a ∧ (∀ u < t, P.IsAscent (visits u) (A u) (A (u + 1))) ∧ Holds P s (A t) w ∧ ∃ v, P.IsDual (A t) v)
    (fun visits T s' => ∃ (A : Nat → Nat → K) (w' : Nat → K), A 0 = a ∧ (∀ t < T, P.IsAscent (visits t) (A t) (A (t + 1))) ∧ Certified P c s' (A T) w' T)
    (by
      rintro v v' t s hvv ⟨A, w, h0, hA, hH⟩
      exact ⟨A, w, h0, fun u hu => by rw [← hvv u hu]; exact hA u hu, hH⟩)
    (by
      rintro visits t s ht hi ⟨A, w, h0, hA, hH, v, hv⟩
      obtain ⟨s', a', w', e, hH', hasc⟩ := sdcaStep_ascent h hL hn2 hH hv hi (hpos _ hi)
      refine ⟨s', e, fun u => if u ≤ t then A u else a', w', (if_pos (Nat.zero_le t)).trans h0, ?_, ?_, ?_⟩
      · intro u hu
        show P.IsAscent _ (if u ≤ t then A u else a') (if u + 1 ≤ t then A (u + 1) else a')
        rw [if_pos (show u ≤ t by omega)]
        by_cases hut : u + 1 ≤ t
        · rw [if_pos hut]
          exact hA u (by omega)
        · have : u = t := by omega
          subst this
          rw [if_neg hut]
          exact hasc
      · show Holds P s' (if t + 1 ≤ t then A (t + 1) else a') w'
        rw [if_neg (by omega)]
        exact hH'
      · show ∃ v, P.IsDual (if t + 1 ≤ t then A (t + 1) else a') v
        rw [if_neg (by omega)]
        obtain ⟨-, v', hv', -⟩ := hasc
        exact ⟨v', hv'⟩)
    (by
      rintro visits t s - ht ⟨A, w, h0, hA, hH, v, hv⟩
      obtain ⟨s', b, e, hH', h1, h2⟩ := sdcaDiag_eq h hL hH hv t
      exact ⟨s', b, e, ⟨A, w, h0, hA, hH', v, hv⟩, h1, fun hb => ⟨A, w, h0, hA, h2 hb⟩⟩)
    hmax hr (s := s) (fun _ => ⟨fun _ => a, w, rfl, fun _ h => absurd h (by omega), hs, v, hv⟩)
  refine ⟨s', rand', T, visits, A, w', ?_, hr', hT1, hT2, hE, h0, hA, hC⟩
  unfold sdcaTrain
  rw [assert', if_pos (by rw [h.n]; exact decide_eq_true h.npos)]
  show (assert' _).bind _ = _
  rw [assert', if_pos (by simpa using hfreq)]
  show (norms c).bind _ = _
  rw [e1, Option.bind_some, h.n]
  exact e2

/-- Coordinate ascent never decreases the dual objective function. -/
theorem ascent_mono {A : Nat → Nat → K} {visits : Nat → Nat} {T : Nat} (hA : ∀ t < T, P.IsAscent (visits t) (A t) (A (t + 1))) {v v' : K} (hv : P.IsDual (A 0) v) (hv' : P.IsDual (A T) v') : v ≤ v' := by
  induction T generalizing v' with
  | zero => exact le_of_eq (dual_unique (fun _ _ => rfl) hv hv')
  | succ T ih =>
    obtain ⟨h1, u, hu, hopt⟩ := hA T (by omega)
    have hex : ∃ v1, P.IsDual (A T) v1 := by
      rcases T with _ | T
      · exact ⟨v, hv⟩
      · obtain ⟨-, u', hu', -⟩ := hA T (by omega)
        exact ⟨u', hu'⟩
    obtain ⟨v1, hv1⟩ := hex
    have := ih (fun t ht => hA t (by omega)) hv1
    rw [dual_unique (fun _ _ => rfl) hv' hu]
    exact this.trans (hopt (A T) v1 (fun _ _ _ => rfl) hv1)

/-- A new object holds null dual variables, and the dual objective function is then null. -/
theorem newState_holds (h : IsProblem c P ok) (hL : IsLoss c.fns P.loss ok) : Holds P (newState P.d P.n) (fun _ => 0) (fun _ => 0) ∧ P.IsDual (fun _ => 0) 0 := by
  have hc : P.IsComb (fun _ => 0) (fun _ => 0) 0 := ⟨fun k _ => by simp, by simp⟩
  refine ⟨⟨Arr.replicate _ _, Arr.replicate _ _, List.length_replicate, hc⟩, fun _ => 0, 0, fun _ => 0, hc, fun _ _ _ => rfl, fun i hi hp => ?_, ?_⟩
  · have := hL.zero (P.y i) (h.ok i hi)
    simpa using this
  · simp [Problem.sq]

end Verif.Svm
