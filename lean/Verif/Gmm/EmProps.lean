import Verif.Gmm.EmModel
import Verif.Gmm.EProps
import Verif.Gmm.MProps

/-!
# The expectation-maximisation loop
-/

namespace Verif.Gmm

open Finset

set_option linter.unusedSectionVars false

variable {K : Type} [Field K] [LinearOrder K] [IsStrictOrderedRing K]

/-- Each row is a probability distribution. -/
def Distr (N C : Nat) (q : Nat → Nat → K) : Prop := (∀ i < N, ∀ k < C, 0 ≤ q i k) ∧ ∀ i < N, ∑ k ∈ range C, q i k = 1

/-- The weights are a probability distribution. -/
def DistrW (C : Nat) (w : Nat → K) : Prop := (∀ k < C, 0 ≤ w k) ∧ ∑ k ∈ range C, w k = 1

/-- The data of the algorithm, which do not change. -/
structure Setup (D C N : Nat) (lbs data : List K) (lb : Nat → K) (x : Nat → Nat → K) : Prop where
  hD : 1 ≤ D
  hC : 1 ≤ C
  hCmax : C ≤ 10 ^ 6
  hN : 1 ≤ N
  hl : Arr lbs D lb
  hpos : ∀ d < D, 0 < lb d
  hx : Flat data N D x

/-- What the scheduler may choose. -/
structure Allowed (D C N : Nat) (t : Sched K) : Prop where
  oC : t.orderC.Perm (List.range C)
  oN : t.orderN.Perm (List.range N)
  t1 : t.tmp.logCov.length = C
  t2 : t.tmp.invCov.length = C * D
  t3 : t.tmp.logW.length = C
  restart : ∀ i, (t.restart i).flatten.Perm (List.range N)
  chunks : t.chunks.flatten.Perm (List.range N)

variable {E : Fns K} {D C N : Nat} {lbs data : List K} {lb : Nat → K} {x : Nat → Nat → K}

/-- A distribution over at most a million components has a component of weight at least `1e-6`. -/
theorem some_prior {w : Nat → K} (hC : C ≤ 10 ^ 6) (h : DistrW C w) : ∃ k < C, 1 / 10 ^ 6 ≤ w k := by
  by_contra hne
  push Not at hne
  rcases Nat.eq_zero_or_pos C with h0 | h0
  · subst h0
    have := h.2
    simp at this
  have h1 : ∑ k ∈ range C, w k < ∑ _k ∈ range C, (1 : K) / 10 ^ 6 := sum_lt_sum_of_nonempty ⟨0, mem_range.2 h0⟩ (fun k hk => hne k (mem_range.1 hk))
  rw [h.2, sum_const, card_range, nsmul_eq_mul] at h1
  have h2 : (C : K) ≤ 10 ^ 6 := by exact_mod_cast hC
  have h3 : (C : K) * (1 / 10 ^ 6) ≤ 10 ^ 6 * (1 / 10 ^ 6) := mul_le_mul_of_nonneg_right h2 (by positivity)
  have h4 : (10 : K) ^ 6 * (1 / 10 ^ 6) = 1 := by norm_num
  linarith

/-- A valid mixture: variances not less than the bounds. -/
def Good (C D : Nat) (lb : Nat → K) (m : Mix K) (w : Nat → K) (mu s2 : Nat → Nat → K) : Prop := MixIs m C D w mu s2 ∧ ∀ k < C, ∀ d < D, lb d ≤ s2 k d

/-- The maximisation step keeps the mixture valid. -/
theorem maximization_good (hS : Setup D C N lbs data lb x) {chunks : List (List Nat)} (hch : chunks.flatten.Perm (List.range N)) {post : List K} {q : Nat → Nat → K} (hq : Flat post N C q) (hd : Distr N C q)
    {m : Mix K} {o : Nat → Nat → K} (hm : Flat m.means C D o) : ∃ m' w mu s2, maximization chunks D C lbs post data m = some m' ∧ Good C D lb m' w mu s2 ∧ DistrW C w := by
  obtain ⟨m', h1, h2⟩ := maximization_correct chunks hch hS.hl hq hd.1 hS.hx m hm
  exact ⟨m', _, _, _, h1, ⟨h2, fun k _ d _ => le_max_right _ _⟩, weights_distribution hS.hN hd.1 hd.2⟩

theorem modeMass_spec {post : List K} {q : Nat → Nat → K} (hq : Flat post N C q) : ∃ mass, modeMass C N post = some mass ∧ Arr mass C (fun k => ∑ i ∈ range N, q i k) := by
  obtain ⟨l, h1, h2⟩ := iter_inv (n := N) (f := fun i mass => iter C (fun k mass => (rd post (k + i * C)).bind (fun p => (rd mass k).bind (fun m => wr mass k (m + p)))) mass) (s := List.replicate C (0 : K))
    (fun n l => Arr l C (fun k => ∑ i ∈ range n, q i k)) (by simpa using Arr.replicate C (0 : K)) (by
      intro i hi l hl
      obtain ⟨l', e1, e2⟩ := iter_arr hl (fun k v => v + q i k) (body := fun k mass => (rd post (k + i * C)).bind (fun p => (rd mass k).bind (fun m => wr mass k (m + p)))) (by
        intro k hk l f hl
        have hp := hq.rd hi hk
        rw [Nat.add_comm] at hp
        rw [hp, Option.bind_some, hl.rd hk, Option.bind_some])
      exact ⟨l', e1, e2.congr (fun k hk => by rw [sum_range_succ])⟩)
  exact ⟨l, h1, h2⟩

theorem worstMode_spec (hS : Setup D C N lbs data lb x) {m : Mix K} {w : Nat → K} {mu s2 : Nat → Nat → K} (hm : Good C D lb m w mu s2) : ∃ s, worstMode E D C m = some s ∧ ∀ j, s.2 = some j → j < C := by
  obtain ⟨s, h1, h2⟩ := iter_inv (n := C) (s := ((⊥ : WithBot K), (none : Option Nat))) (f := fun j (s : WithBot K × Option Nat) =>
      (rd m.priors j).bind (fun p => if p < 1 / 10 ^ 6 then pure s else
        (iter D (fun d size => (rd m.cov (j * D + d)).bind (fun c => (assert' (decide (0 < c))).bind (fun _ => pure (size + 1 / 2 * E.log c)))) (1 / 2 * D * (1 + E.log2pi))).bind (fun size =>
          pure (if ((p * (size - E.log p) : K) : WithBot K) > s.1 then (((p * (size - E.log p) : K) : WithBot K), some j) else s))))
    (fun _ s => ∀ j, s.2 = some j → j < C) (by simp) (by
      rintro j hj ⟨v, b⟩ hb
      rw [hm.1.priors.rd hj, Option.bind_some]
      by_cases hlt : w j < 1 / 10 ^ 6
      · rw [if_pos hlt]
        exact ⟨_, rfl, hb⟩
      · rw [if_neg hlt, iter_sum D (fun d => 1 / 2 * E.log (s2 j d)) _ (by
          intro d hd s
          rw [hm.1.cov.rd hj hd, Option.bind_some]
          unfold assert'
          rw [if_pos (by simpa using lt_of_lt_of_le (hS.hpos d hd) (hm.2 j hj d hd))]
          rfl), Option.bind_some]
        refine ⟨_, rfl, ?_⟩
        intro k hk
        split_ifs at hk
        · simp only [Option.some.injEq] at hk
          omega
        · exact hb k hk)
  exact ⟨s, h1, h2⟩

theorem widest_spec (hD : 1 ≤ D) {cov : List K} {s2 : Nat → Nat → K} (hc : Flat cov C D s2) {j : Nat} (hj : j < C) : ∃ s b, widest D cov j = some s ∧ s.2 = some b ∧ b < D := by
  obtain ⟨⟨v, b⟩, h1, h2⟩ := iter_inv (n := D) (s := ((⊥ : WithBot K), (none : Option Nat))) (f := fun d (s : WithBot K × Option Nat) => (rd cov (j * D + d)).bind (fun c => pure (if (c : WithBot K) > s.1 then ((c : WithBot K), some d) else s)))
    (fun n s => (n = 0 ∧ s = (⊥, none)) ∨ ∃ b, s.2 = some b ∧ b < D) (Or.inl ⟨rfl, rfl⟩) (by
      rintro d hd ⟨v, b⟩ hs
      rw [hc.rd hj hd, Option.bind_some]
      refine ⟨_, rfl, Or.inr ?_⟩
      rcases hs with ⟨_, hs⟩ | ⟨b', hb, hlt⟩
      · rw [hs]
        refine ⟨d, ?_, hd⟩
        rw [if_pos (WithBot.bot_lt_coe _)]
      · split_ifs
        · exact ⟨d, rfl, hd⟩
        · exact ⟨b', hb, hlt⟩)
  rcases h2 with ⟨h, _⟩ | ⟨b', hb, hlt⟩
  · omega
  · exact ⟨_, b', h1, hb, hlt⟩

/-- Moving weight between two components keeps the sum. -/
theorem sum_move {f : Nat → K} {i j : Nat} (hi : i < C) (hj : j < C) (hne : j ≠ i) (a b : K) (hab : a + b = f i + f j) : ∑ k ∈ range C, (if k = j then b else if k = i then a else f k) = ∑ k ∈ range C, f k := by
  have h : ∀ k ∈ range C, (if k = j then b else if k = i then a else f k) = f k + ((if k = j then b - f j else 0) + (if k = i then a - f i else 0)) := by
    intro k _
    by_cases h1 : k = j
    · subst h1
      rw [if_pos rfl, if_pos rfl, if_neg hne]
      ring
    · rw [if_neg h1, if_neg h1]
      by_cases h2 : k = i
      · subst h2
        rw [if_pos rfl, if_pos rfl]
        ring
      · rw [if_neg h2, if_neg h2]
        ring
  rw [sum_congr rfl h, sum_add_distrib, sum_add_distrib, sum_ite_eq', sum_ite_eq', if_pos (mem_range.2 hj), if_pos (mem_range.2 hi)]
  linear_combination hab

theorem reassign_spec (hx : Flat data N D x) {i j best : Nat} (hi : i < C) (hj : j < C) (hne : j ≠ i) (hb : best < D) (mu : K) {post : List K} {q : Nat → Nat → K} (hq : Flat post N C q) (hd : Distr N C q) :
    ∃ post' q', reassign D C N data i j best mu post = some post' ∧ Flat post' N C q' ∧ Distr N C q' := by
  obtain ⟨l, h1, q', h2, h3⟩ := iter_inv (n := N) (s := post) (f := fun n post => (rd post (j + C * n)).bind (fun p => (rd post (i + C * n)).bind (fun q => (rd data (best + n * D)).bind (fun x =>
      if x < mu then (wr post (i + C * n) (p + q)).bind (fun post => wr post (j + C * n) 0) else (wr post (i + C * n) 0).bind (fun post => wr post (j + C * n) (p + q))))))
    (fun _ l => ∃ q', Flat l N C q' ∧ Distr N C q') ⟨q, hq, hd⟩ (by
      rintro n hn l ⟨q', hl, hd'⟩
      have ej : ∀ k, k + C * n = n * C + k := fun k => by ring
      have hxx := hx.rd hn hb
      rw [Nat.add_comm] at hxx
      simp only [ej]
      rw [hl.rd hn hj, Option.bind_some, hl.rd hn hi, Option.bind_some, hxx, Option.bind_some]
      have hw : ∀ a b : K, 0 ≤ a → 0 ≤ b → a + b = q' n i + q' n j → ∃ l', (wr l (n * C + i) a).bind (fun l => wr l (n * C + j) b) = some l' ∧ ∃ q'', Flat l' N C q'' ∧ Distr N C q'' := by
        intro a b ha hb hab
        obtain ⟨l1, e1, e2⟩ := hl.wr hn hi a
        obtain ⟨l2, e3, e4⟩ := e2.wr hn hj b
        have hval : ∀ m k, upd2 (upd2 q' n i a) n j b m k = if m = n then (if k = j then b else if k = i then a else q' n k) else q' m k := by
          intro m k
          unfold upd2
          by_cases hm : m = n
          · subst hm
            simp only [true_and, if_true]
          · simp only [hm, false_and, if_false]
        refine ⟨l2, by rw [e1, Option.bind_some, e3], _, e4.congr (fun m _ k _ => hval m k), ?_, ?_⟩
        · intro m hm k hk
          beta_reduce
          split_ifs
          · exact hb
          · exact ha
          · exact hd'.1 n hn k hk
          · exact hd'.1 m hm k hk
        · intro m hm
          beta_reduce
          by_cases h : m = n
          · simp only [h, if_true]
            rw [sum_move hi hj hne a b hab, hd'.2 n hn]
          · simp only [if_neg h]
            exact hd'.2 m hm
      have hnn : 0 ≤ q' n j + q' n i := add_nonneg (hd'.1 n hn j hj) (hd'.1 n hn i hi)
      by_cases hlt : x n best < mu
      · rw [if_pos hlt]
        exact hw _ _ hnn (le_refl 0) (by ring)
      · rw [if_neg hlt]
        exact hw _ _ (le_refl 0) hnn (by ring))
  exact ⟨l, q', h1, h2, h3⟩

/-- The state of the restarts: associations that are distributions, a valid mixture. -/
def St (C D N : Nat) (lb : Nat → K) (s : List K × Mix K) : Prop := (∃ q, Flat s.1 N C q ∧ Distr N C q) ∧ ∃ w mu s2, Good C D lb s.2 w mu s2

theorem restart_spec (hS : Setup D C N lbs data lb x) {t : Sched K} (ht : Allowed D C N t) {s : List K × Mix K} (hs : St C D N lb s) : ∃ s', restart E t.restart D C N lbs data s = some s' ∧ St C D N lb s' := by
  unfold restart
  by_cases hC : C ≤ 1
  · rw [if_pos hC]
    exact ⟨s, rfl, hs⟩
  rw [if_neg hC]
  obtain ⟨⟨q, hq, _⟩, _⟩ := id hs
  obtain ⟨mass, a1, a2⟩ := modeMass_spec hq
  rw [a1]
  simp only [Option.bind_eq_bind, Option.bind_some]
  apply iter_inv (fun _ s => St C D N lb s) hs
  rintro i hi ⟨post, m⟩ ⟨⟨q, hq, hd⟩, w, mu, s2, hm⟩
  simp only at hq hm
  have hst : St C D N lb (post, m) := ⟨⟨q, hq, hd⟩, w, mu, s2, hm⟩
  unfold restartMode
  rw [a2.rd hi]
  simp only [Option.bind_eq_bind, Option.bind_some]
  split_ifs with hge
  · exact ⟨_, rfl, hst⟩
  obtain ⟨⟨v, b⟩, b1, b2⟩ := worstMode_spec (E := E) hS hm
  rw [b1, Option.bind_some]
  cases b with
  | none => exact ⟨_, rfl, hst⟩
  | some j =>
    simp only
    have hj := b2 j rfl
    by_cases hji : j = i
    · rw [if_pos hji]
      exact ⟨_, rfl, hst⟩
    rw [if_neg hji]
    obtain ⟨d, best, c1, c2, c3⟩ := widest_spec hS.hD hm.1.cov hj
    have hmu := hm.1.means.rd hj c3
    rw [Nat.add_comm] at hmu
    rw [c1, Option.bind_some, c2]
    simp only [Option.bind_some]
    rw [hmu, Option.bind_some]
    obtain ⟨post', q', d1, d2, d3⟩ := reassign_spec hS.hx hi hj hji c3 (mu j best) hq hd
    rw [d1, Option.bind_some]
    obtain ⟨m', w', mu', s2', e1, e2, _⟩ := maximization_good hS (ht.restart i) d2 d3 hm.1.means
    rw [e1, Option.bind_some]
    exact ⟨_, rfl, ⟨q', d2, d3⟩, w', mu', s2', e2⟩

/-- What the algorithm returns: a valid mixture, the posterior probabilities and the log-likelihood of the data under this mixture. -/
def Result (E : Fns K) (D C N : Nat) (lb : Nat → K) (x : Nat → Nat → K) (P : (Nat → K) → Prop) (r : Mix K × List K × K) : Prop :=
  ∃ w mu s2, Good C D lb r.1 w mu s2 ∧ P w ∧ Flat r.2.1 N C (fun i k => posterior E D C w mu s2 (x i) k) ∧ r.2.2 = ∑ i ∈ range N, E.log (density E D C w mu s2 (x i))

theorem emLoop_spec (hE : IsExpLog E) (hS : Setup D C N lbs data lb x) (sched : Nat → Sched K) (hsch : ∀ n, Allowed D C N (sched n)) (maxIter : Nat) :
    ∀ (fuel iteration : Nat) (prev : Option K) (post : List (WithBot K)) (m : Mix K) (w : Nat → K) (mu s2 : Nat → Nat → K), maxIter + 1 ≤ fuel + iteration → iteration ≤ maxIter → post.length = N * C → Good C D lb m w mu s2 →
      (∃ k < C, 1 / 10 ^ 6 ≤ w k) → (1 ≤ iteration → DistrW C w) →
      ∃ r, emLoop E sched maxIter D C N lbs data fuel iteration prev post m = some r ∧ Result E D C N lb x (fun w => 1 ≤ maxIter → DistrW C w) r := by
  intro fuel
  induction fuel with
  | zero => intros; omega
  | succ fuel ih =>
    intro iteration prev post m w mu s2 hf hit hpost hm hpr hdw
    have ht := hsch iteration
    have hpos : ∀ k < C, ∀ d < D, 0 < s2 k d := fun k hk d hd => lt_of_lt_of_le (hS.hpos d hd) (hm.2 k hk d hd)
    obtain ⟨p, a1, a2⟩ := posteriors_correct E hE _ _ hm.1.priors hm.1.means hm.1.cov hS.hx hpos hpr ht.oC ht.oN (sched iteration).tmp post ht.t1 ht.t2 ht.t3 hpost
    unfold emLoop
    simp only
    rw [a1]
    simp only [Option.bind_eq_bind, Option.bind_some]
    have hres : (1 ≤ maxIter → DistrW C w) → Result E D C N lb x (fun w => 1 ≤ maxIter → DistrW C w) (m, p, ∑ i ∈ range N, E.log (density E D C w mu s2 (x i))) := fun h => ⟨w, mu, s2, hm, h, a2, rfl⟩
    by_cases h1 : iteration ≥ maxIter
    · rw [if_pos h1]
      exact ⟨_, rfl, hres (fun h => hdw (by omega))⟩
    rw [if_neg h1]
    by_cases h2 : iteration > 0 ∧ converged (∑ i ∈ range N, E.log (density E D C w mu s2 (x i))) prev = true
    · rw [if_pos h2]
      exact ⟨_, rfl, hres (fun _ => hdw h2.1)⟩
    rw [if_neg h2]
    have hd : Distr N C (fun i k => posterior E D C w mu s2 (x i) k) :=
      ⟨fun i _ k _ => (posterior_distribution E hE D C w mu s2 (x i) hpr).1 k, fun i _ => (posterior_distribution E hE D C w mu s2 (x i) hpr).2⟩
    have hst : St C D N lb (p, m) := ⟨⟨_, a2, hd⟩, w, mu, s2, hm⟩
    obtain ⟨s, b1, ⟨q, b2, b3⟩, w', mu', s2', b4⟩ : ∃ s, whenB (decide (iteration > 1)) (restart E (sched iteration).restart D C N lbs data) (p, m) = some s ∧ St C D N lb s := by
      unfold whenB
      split_ifs
      · exact restart_spec hS ht hst
      · exact ⟨_, rfl, hst⟩
    rw [b1, Option.bind_some]
    obtain ⟨m', w'', mu'', s2'', c1, c2, c3⟩ := maximization_good hS ht.chunks b2 b3 b4.1.means
    rw [c1, Option.bind_some]
    exact ih (iteration + 1) _ _ m' w'' mu'' s2'' (by omega) (by omega) (by rw [List.length_map, b2.len]) c2 (some_prior hS.hCmax c3) (fun _ => c3)

/-- For every data set, initial mixture (with a component of weight at least `1e-6`), maximum number of iterations and choices of the scheduler: the algorithm terminates, accesses nothing out of bounds and
divides by no zero; the mixture it returns has variances not less than the bounds and, after at least an iteration, weights that are probabilities; the posteriors and the log-likelihood it returns are those
of the mixture it returns. -/
theorem em_correct (hE : IsExpLog E) (hS : Setup D C N lbs data lb x) (sched : Nat → Sched K) (hsch : ∀ n, Allowed D C N (sched n)) (maxIter : Nat) (post : List (WithBot K)) (hpost : post.length = N * C) {m : Mix K}
    {w : Nat → K} {mu s2 : Nat → Nat → K} (hm : MixIs m C D w mu s2) (hpr : ∃ k < C, 1 / 10 ^ 6 ≤ w k) :
    ∃ m' p LL, em E sched maxIter D C N lbs data post m = some (m', p, LL) ∧ ∃ w mu s2, MixIs m' C D w mu s2 ∧ (∀ k < C, ∀ d < D, lb d ≤ s2 k d) ∧ (1 ≤ maxIter → (∀ k < C, 0 ≤ w k) ∧ ∑ k ∈ range C, w k = 1) ∧
      Flat p N C (fun i k => posterior E D C w mu s2 (x i) k) ∧ LL = ∑ i ∈ range N, E.log (density E D C w mu s2 (x i)) := by
  obtain ⟨m1, a1, a2⟩ := applyBounds_spec hS.hl hm
  obtain ⟨⟨m', p, LL⟩, b1, w', mu', s2', b2, b3, b4, b5⟩ := emLoop_spec hE hS sched hsch maxIter (maxIter + 1) 0 none post m1 w mu (fun k d => max (s2 k d) (lb d)) (by omega) (by omega) hpost
    ⟨a2, fun k _ d _ => le_max_right _ _⟩ hpr (by omega)
  refine ⟨m', p, LL, ?_, w', mu', s2', b2.1, b2.2, b3, b4, b5⟩
  unfold em
  rw [a1]
  exact b1

/-! ### A concrete case -/

/-- The hypotheses of `em_correct` are met: two components, three points of the plane, two threads, five iterations. -/
example : ∃ m' p LL, em realFns (fun n => { orderC := [1, 0], orderN := [n % 3, (n + 1) % 3, (n + 2) % 3], tmp := { logCov := [0, 0], invCov := [0, 0, 0, 0], logW := [⊥, ⊥] }, restart := fun _ => [[0, 1, 2]], chunks := [[2], [0, 1]] })
    5 2 2 3 [1 / 1000, 1 / 1000] [1, 2, 5, 6, 3, 3] [⊥, ⊥, ⊥, ⊥, ⊥, ⊥] { priors := [1 / 2, 1 / 2], means := [0, 0, 4, 4], cov := [1, 1, 0, 0] } = some (m', p, LL) ∧ m'.priors.sum = 1 := by
  have hperm : ∀ n : Nat, [n % 3, (n + 1) % 3, (n + 2) % 3].Perm (List.range 3) := by
    intro n
    have h3 : n % 3 = 0 ∨ n % 3 = 1 ∨ n % 3 = 2 := by omega
    rw [Nat.add_mod n 1, Nat.add_mod n 2]
    rcases h3 with h | h | h <;> rw [h] <;> decide
  obtain ⟨m', p, LL, h1, w, mu, s2, h2, _, h3, _⟩ := em_correct (E := realFns) (D := 2) (C := 2) (N := 3) (lbs := [1 / 1000, 1 / 1000]) (data := [1, 2, 5, 6, 3, 3]) (lb := fun _ => 1 / 1000) real_isExpLog
    { hD := by omega, hC := by omega, hCmax := by omega, hN := by omega, hl := ⟨rfl, by
        intro i hi
        have h : i = 0 ∨ i = 1 := by omega
        rcases h with rfl | rfl <;> rfl⟩, hpos := by intros; norm_num, hx := Flat.of_len rfl 0 }
    (fun n => { orderC := [1, 0], orderN := [n % 3, (n + 1) % 3, (n + 2) % 3], tmp := { logCov := [0, 0], invCov := [0, 0, 0, 0], logW := [⊥, ⊥] }, restart := fun _ => [[0, 1, 2]], chunks := [[2], [0, 1]] })
    (fun n => { oC := (by decide : List.Perm [1, 0] (List.range 2)), oN := hperm n, t1 := rfl, t2 := rfl, t3 := rfl, restart := fun _ => (by decide : [[0, 1, 2]].flatten.Perm (List.range 3)), chunks := (by decide : [[2], [0, 1]].flatten.Perm (List.range 3)) }) 5 [⊥, ⊥, ⊥, ⊥, ⊥, ⊥] rfl
    (m := { priors := [1 / 2, 1 / 2], means := [0, 0, 4, 4], cov := [1, 1, 0, 0] }) (w := fun k => ([1 / 2, 1 / 2] : List ℝ).getD k 0) ⟨Arr.of_len' rfl 0, Flat.of_len rfl 0, Flat.of_len rfl 0⟩ ⟨0, by omega, by norm_num⟩
  refine ⟨m', p, LL, h1, ?_⟩
  rw [h2.priors.eq_map, ← sum_flat']
  exact (h3 (by omega)).2

end Verif.Gmm
