import Verif.Gmm.Spec
import Mathlib.Tactic.Ring
import Mathlib.Tactic.FieldSimp
import Mathlib.Tactic.Linarith
import Mathlib.Tactic.Positivity
import Mathlib.Algebra.Order.Field.Basic
import Mathlib.Algebra.Order.BigOperators.Group.Finset
import Mathlib.Algebra.BigOperators.Field
import Mathlib.Algebra.BigOperators.Ring.Finset

/-!
# The expectation step
-/

namespace Verif.Gmm

open Finset

set_option linter.unusedSectionVars false

variable {K : Type} [Field K] [LinearOrder K] [IsStrictOrderedRing K]

/-- Contents of the temporary arrays for the components of `S`. -/
def Prepared (E : Fns K) (D C : Nat) (w : Nat → K) (s2 : Nat → Nat → K) (S : List Nat) (s : Prep K) : Prop :=
  ∃ f g h, Arr s.logCov C f ∧ Flat s.invCov C D g ∧ Arr s.logW C h ∧
    ∀ a ∈ S, f a = ∑ d ∈ range D, E.log (s2 a d) ∧ (∀ d < D, g a d = 1 / s2 a d) ∧ h a = if w a < 1 / 10 ^ 6 then ⊥ else ((E.log (w a) : K) : WithBot K)

theorem prepCluster_spec (E : Fns K) {D C : Nat} {priors cov : List K} {w : Nat → K} {s2 : Nat → Nat → K} (hw : Arr priors C w) (hs : Flat cov C D s2) (hpos : ∀ k < C, ∀ d < D, 0 < s2 k d) {k : Nat} (hk : k < C)
    {S : List Nat} {s : Prep K} (h : Prepared E D C w s2 S s) : ∃ s', prepCluster E D priors cov k s = some s' ∧ Prepared E D C w s2 (S ++ [k]) s' := by
  obtain ⟨f, g, h, a1, a2, a3, a4⟩ := h
  obtain ⟨lw, b1, b2⟩ := a3.wr hk (if w k < 1 / 10 ^ 6 then ⊥ else ((E.log (w k) : K) : WithBot K))
  obtain ⟨⟨t, inv⟩, c1, c2, c3⟩ := iter_inv (n := D) (f := fun d (r : K × List K) => (rd cov (k * D + d)).bind (fun c => (assert' (decide (0 < c))).bind (fun _ =>
      (wr r.2 (k * D + d) (1 / c)).bind (fun inv => some (r.1 + E.log c, inv))))) (s := ((0 : K), s.invCov))
    (fun d r => r.1 = ∑ d ∈ range d, E.log (s2 k d) ∧ Flat r.2 C D (fun a b => if a = k ∧ b < d then 1 / s2 k b else g a b)) ⟨by simp, a2.congr (by intro a _ b _; simp)⟩ (by
      rintro d hd ⟨t, l⟩ ⟨rfl, hl⟩
      obtain ⟨l', e1, e2⟩ := hl.wr hk hd (1 / s2 k d)
      refine ⟨((∑ d ∈ range d, E.log (s2 k d)) + E.log (s2 k d), l'), ?_, ?_, e2.congr ?_⟩
      · rw [hs.rd hk hd, Option.bind_some, assert', if_pos (by simpa using hpos k hk d hd), Option.bind_some]
        simp only
        rw [e1, Option.bind_some]
      · simp only; rw [sum_range_succ]
      · intro a ha b hb
        unfold upd2
        beta_reduce
        by_cases h1 : a = k ∧ b = d
        · rw [if_pos h1, if_pos (by omega), h1.2]
        · rw [if_neg h1]
          by_cases h2 : a = k ∧ b < d
          · rw [if_pos h2, if_pos (by omega)]
          · rw [if_neg h2, if_neg (by omega)])
  simp only at c2 c3
  obtain ⟨lc, d1, d2⟩ := a1.wr hk t
  refine ⟨{ logCov := lc, invCov := inv, logW := lw }, ?_, _, _, _, d2, c3, b2, ?_⟩
  · unfold prepCluster
    rw [hw.rd hk]
    simp only [Option.bind_eq_bind, Option.bind_some, Option.pure_def]
    rw [b1, Option.bind_some, c1, Option.bind_some]
    simp only
    rw [d1, Option.bind_some]
  · intro a ha
    by_cases hak : a = k
    · subst hak
      refine ⟨?_, ?_, ?_⟩
      · unfold upd1; rw [if_pos rfl, c2]
      · intro d hd; rw [if_pos ⟨rfl, hd⟩]
      · unfold upd1; rw [if_pos rfl]
    · have ha' : a ∈ S := by
        rw [List.mem_append, List.mem_singleton] at ha
        exact ha.resolve_right hak
      obtain ⟨e1, e2, e3⟩ := a4 a ha'
      refine ⟨?_, ?_, ?_⟩
      · unfold upd1; rw [if_neg hak, e1]
      · intro d hd; rw [if_neg (fun h => hak h.1), e2 d hd]
      · unfold upd1; rw [if_neg hak, e3]

/-- Logarithm of the joint density; minus infinity for an absent component. -/
def logJoint (E : Fns K) (D : Nat) (w : Nat → K) (mu s2 : Nat → Nat → K) (x : Nat → K) (k : Nat) : WithBot K :=
  if w k < 1 / 10 ^ 6 then ⊥ else ((E.log (w k) + logDensity E D (mu k) (s2 k) x : K) : WithBot K)

/-- Exponential of a value that may be minus infinity. -/
def expBot (E : Fns K) (m : K) (p : WithBot K) : K :=
  match p with
  | none => 0
  | some p => E.exp (p - m)

theorem expBot_logJoint (E : Fns K) (hE : IsExpLog E) (D : Nat) (w : Nat → K) (mu s2 : Nat → Nat → K) (x : Nat → K) (k : Nat) (m : K) :
    expBot E m (logJoint E D w mu s2 x k) = joint E D w mu s2 x k * E.exp (- m) := by
  unfold logJoint joint usedPrior
  by_cases h : w k < 1 / 10 ^ 6
  · rw [if_pos h, if_pos h, zero_mul, zero_mul]
    rfl
  · rw [if_neg h, if_neg h]
    have hw : 0 < w k := lt_of_lt_of_le (by positivity) (not_lt.1 h)
    show E.exp (E.log (w k) + logDensity E D (mu k) (s2 k) x - m) = _
    rw [sub_eq_add_neg, hE.exp_add, hE.exp_add, hE.exp_log _ hw]

theorem joint_nonneg (E : Fns K) (hE : IsExpLog E) (D : Nat) (w : Nat → K) (mu s2 : Nat → Nat → K) (x : Nat → K) (k : Nat) : 0 ≤ joint E D w mu s2 x k := by
  unfold joint usedPrior
  by_cases h : w k < 1 / 10 ^ 6
  · rw [if_pos h, zero_mul]
  · rw [if_neg h]
    exact mul_nonneg (le_trans (by positivity) (not_lt.1 h)) (hE.exp_pos _).le

theorem density_pos (E : Fns K) (hE : IsExpLog E) (D C : Nat) (w : Nat → K) (mu s2 : Nat → Nat → K) (x : Nat → K) (h : ∃ k < C, 1 / 10 ^ 6 ≤ w k) : 0 < density E D C w mu s2 x := by
  obtain ⟨k, hk, h⟩ := h
  apply sum_pos' (fun j _ => joint_nonneg E hE D w mu s2 x j)
  refine ⟨k, mem_range.2 hk, ?_⟩
  unfold joint usedPrior
  rw [if_neg (not_lt.2 h)]
  exact mul_pos (lt_of_lt_of_le (by positivity) h) (hE.exp_pos _)

theorem mahalanobis_spec {D C N : Nat} {data means inv : List K} {x mu g : Nat → Nat → K} (hx : Flat data N D x) (hm : Flat means C D mu) (hg : Flat inv C D g) {i k : Nat} (hi : i < N) (hk : k < C) :
    mahalanobis D data (i * D) means (k * D) inv (k * D) = some (∑ d ∈ range D, (x i d - mu k d) * (x i d - mu k d) * g k d) := by
  unfold mahalanobis
  rw [iter_sum D (fun d => (x i d - mu k d) * (x i d - mu k d) * g k d) 0 (by
    intro d hd s
    rw [hx.rd hi hd]
    simp only [Option.bind_eq_bind, Option.bind_some]
    rw [hm.rd hk hd, Option.bind_some, hg.rd hk hd, Option.bind_some]
    rfl), zero_add]

theorem datum_spec (E : Fns K) (hE : IsExpLog E) {D C N : Nat} {means data : List K} {w : Nat → K} {mu s2 x : Nat → Nat → K} (hm : Flat means C D mu) (hx : Flat data N D x) (hpr : ∃ k < C, 1 / 10 ^ 6 ≤ w k)
    {S : List Nat} (hS : ∀ k < C, k ∈ S) {s : Prep K} (hs : Prepared E D C w s2 S s) {i : Nat} (hi : i < N) {post : List (WithBot K)} {f : Nat → Nat → WithBot K} (hf : Flat post N C f) (LL : K) :
    ∃ post', datum E D C means data s i (post, LL) = some (post', LL + E.log (density E D C w mu s2 (x i))) ∧
      Flat post' N C (fun a b => if a = i then ((posterior E D C w mu s2 (x i) b : K) : WithBot K) else f a b) := by
  obtain ⟨lc, inv, lw, a1, a2, a3, a4⟩ := hs
  set lp : Nat → WithBot K := logJoint E D w mu s2 (x i) with hlp
  -- the logarithms
  obtain ⟨p1, m, b1, b2, b3, b4⟩ := iter_row_acc (t := (⊥ : WithBot K)) hf hi (fun k _ => lp k) (fun k _ m => if lp k > m then lp k else m)
    (fun n m => (∀ b < n, lp b ≤ m) ∧ (m = ⊥ ∨ ∃ b < n, m = lp b)) ⟨by intro b hb; omega, Or.inl rfl⟩ (by
      rintro n hn t ⟨h1, h2⟩
      by_cases h : lp n > t
      · rw [if_pos h]
        refine ⟨?_, Or.inr ⟨n, by omega, rfl⟩⟩
        intro b hb
        rcases Nat.lt_succ_iff_lt_or_eq.1 hb with hb | rfl
        · exact le_trans (h1 b hb) h.le
        · exact le_refl _
      · rw [if_neg h]
        refine ⟨?_, ?_⟩
        · intro b hb
          rcases Nat.lt_succ_iff_lt_or_eq.1 hb with hb | rfl
          · exact h1 b hb
          · exact not_lt.1 h
        · rcases h2 with h2 | ⟨b, hb, h2⟩
          · exact Or.inl h2
          · exact Or.inr ⟨b, by omega, h2⟩)
    (body := fun k (r : List (WithBot K) × WithBot K) => (rd s.logW k).bind (fun w => (rd s.logCov k).bind (fun lc => (mahalanobis D data (i * D) means (k * D) s.invCov (k * D)).bind (fun dist =>
      (wr r.1 (k + i * C) (w.map (fun w => w - D / 2 * E.log2pi - 1 / 2 * lc - 1 / 2 * dist))).bind (fun post =>
        some (post, if w.map (fun w => w - D / 2 * E.log2pi - 1 / 2 * lc - 1 / 2 * dist) > r.2 then w.map (fun w => w - D / 2 * E.log2pi - 1 / 2 * lc - 1 / 2 * dist) else r.2)))))) (by
      intro k hk l f' t hl
      obtain ⟨e1, e2, e3⟩ := a4 k (hS k hk)
      rw [a3.rd hk, Option.bind_some, a1.rd hk, Option.bind_some, mahalanobis_spec hx hm a2 hi hk, Option.bind_some]
      have hp : (lw k).map (fun w => w - D / 2 * E.log2pi - 1 / 2 * lc k - 1 / 2 * ∑ d ∈ range D, (x i d - mu k d) * (x i d - mu k d) * inv k d) = lp k := by
        rw [e3, hlp]
        unfold logJoint
        by_cases h : w k < 1 / 10 ^ 6
        · rw [if_pos h, if_pos h]; rfl
        · rw [if_neg h, if_neg h]
          rw [WithBot.map_coe, WithBot.coe_inj]
          unfold logDensity
          rw [e1, sum_congr rfl (fun d hd => show (x i d - mu k d) * (x i d - mu k d) * inv k d = (x i d - mu k d) ^ 2 / s2 k d by rw [e2 d (mem_range.1 hd), pow_two, mul_one_div])]
          ring
      rw [hp, Nat.add_comm])
  obtain ⟨m, rfl⟩ : ∃ m0 : K, m = (m0 : WithBot K) := by
    obtain ⟨k, hk, h⟩ := hpr
    rcases b4 with rfl | ⟨b, -, rfl⟩
    · have h1 := b3 k hk
      rw [hlp] at h1
      unfold logJoint at h1
      rw [if_neg (not_lt.2 h), le_bot_iff] at h1
      exact absurd h1 (WithBot.coe_ne_bot)
    · rcases hb : lp b with _ | m
      · have h1 := b3 k hk
        rw [hb, hlp] at h1
        unfold logJoint at h1
        rw [if_neg (not_lt.2 h)] at h1
        exact absurd (le_bot_iff.1 h1) (WithBot.coe_ne_bot)
      · exact ⟨m, rfl⟩
  -- the exponentials
  obtain ⟨p2, t, c1, c2, c3⟩ := iter_row_acc (t := (0 : K)) b2 hi (fun k v => ((expBot E m v : K) : WithBot K)) (fun k v t => t + expBot E m v)
    (fun n t => t = ∑ b ∈ range n, expBot E m (lp b)) (by simp) (by
      intro n hn t ht
      rw [sum_range_succ, ht, if_pos rfl])
    (body := expCluster E C i m) (by
      intro k hk l f' t hl
      unfold expCluster
      simp only [Option.bind_eq_bind, Option.pure_def]
      rw [Nat.add_comm k, hl.rd hi hk, Option.bind_some]
      rfl)
  have hd := density_pos E hE D C w mu s2 (x i) hpr
  have hem := hE.exp_pos (- m)
  have ht : t = density E D C w mu s2 (x i) * E.exp (- m) := by
    rw [c3]
    unfold density
    rw [sum_mul]
    exact sum_congr rfl (fun b _ => expBot_logJoint E hE D w mu s2 (x i) b m)
  have ht0 : 0 < t := by rw [ht]; exact mul_pos hd hem
  -- the normalisation
  obtain ⟨p3, d1, d2⟩ := iter_row c2 hi (fun k (v : WithBot K) => v.map (fun p => p / t)) (body := fun k (post : List (WithBot K)) => (rd post (k + i * C)).bind (fun p => wr post (k + i * C) (p.map (fun p => p / t)))) (by
    intro k hk l f' hl
    rw [Nat.add_comm k, hl.rd hi hk, Option.bind_some])
  refine ⟨p3, ?_, d2.congr ?_⟩
  · unfold datum
    simp only [Option.bind_eq_bind, Option.pure_def] at b1 c1 d1 ⊢
    rw [b1, Option.bind_some]
    simp only
    show (some m).bind _ = _
    rw [Option.bind_some, c1, Option.bind_some]
    simp only
    rw [assert', if_pos (by simpa using ht0.ne'), Option.bind_some, d1, Option.bind_some]
    have : E.log t + m = E.log (density E D C w mu s2 (x i)) := by
      rw [ht, ← hE.exp_log _ hd, ← hE.exp_add, hE.log_exp, hE.exp_log _ hd]
      ring
    rw [this]
  · intro a ha b hb
    by_cases h : a = i
    · simp only [if_pos h, if_true]
      rw [WithBot.map_coe, WithBot.coe_inj, expBot_logJoint E hE, ht]
      unfold posterior
      field_simp
    · rw [if_neg h, if_neg h, if_neg h, if_neg h]

end Verif.Gmm
