import Verif.Gmm.Spec
import Mathlib.Tactic.Ring
import Mathlib.Tactic.FieldSimp
import Mathlib.Tactic.Linarith
import Mathlib.Tactic.Positivity
import Mathlib.Algebra.Order.Field.Basic
import Mathlib.Algebra.Order.BigOperators.Group.Finset
import Mathlib.Algebra.BigOperators.Field
import Mathlib.Algebra.BigOperators.Ring.Finset

/-!
# The maximisation step
-/

namespace Verif.Gmm

open Finset

set_option linter.unusedSectionVars false

variable {K : Type} [Field K] [LinearOrder K] [IsStrictOrderedRing K]

/-- The arrays of a mixture. -/
structure MixIs (m : Mix K) (C D : Nat) (p : Nat → K) (u c : Nat → Nat → K) : Prop where
  priors : Arr m.priors C p
  means : Flat m.means C D u
  cov : Flat m.cov C D c

theorem MixIs.congr {m : Mix K} {C D : Nat} {p p' : Nat → K} {u c u' c' : Nat → Nat → K} (h : MixIs m C D p u c) (hp : ∀ k < C, p k = p' k) (hu : ∀ k < C, ∀ d < D, u k d = u' k d) (hc : ∀ k < C, ∀ d < D, c k d = c' k d) :
    MixIs m C D p' u' c' := ⟨h.priors.congr hp, h.means.congr hu, h.cov.congr hc⟩

/-- A loop over the components whose body changes the parameters of its component only. -/
theorem iter_mix {m : Mix K} {C D : Nat} {p : Nat → K} {u c : Nat → Nat → K} (h : MixIs m C D p u c) (gp : Nat → K → K) (gu gc : Nat → Nat → K → K → K → K) {body : Nat → Mix K → Option (Mix K)}
    (hbody : ∀ k < C, ∀ (m : Mix K) (p : Nat → K) (u c : Nat → Nat → K), MixIs m C D p u c → ∃ m', body k m = some m' ∧
      MixIs m' C D (fun a => if a = k then gp k (p k) else p a) (fun a b => if a = k then gu k b (p k) (u k b) (c k b) else u a b) (fun a b => if a = k then gc k b (p k) (u k b) (c k b) else c a b)) :
    ∃ m', iter C body m = some m' ∧ MixIs m' C D (fun a => gp a (p a)) (fun a b => gu a b (p a) (u a b) (c a b)) (fun a b => gc a b (p a) (u a b) (c a b)) := by
  obtain ⟨m', h1, h2⟩ := iter_inv (n := C) (f := body) (s := m)
    (fun n m => MixIs m C D (fun a => if a < n then gp a (p a) else p a) (fun a b => if a < n then gu a b (p a) (u a b) (c a b) else u a b) (fun a b => if a < n then gc a b (p a) (u a b) (c a b) else c a b))
    (h.congr (by intro k _; simp) (by intro k _ d _; simp) (by intro k _ d _; simp)) (by
      intro n hn m hm
      obtain ⟨m', e1, e2⟩ := hbody n hn m _ _ _ hm
      have hnn : ¬ n < n := lt_irrefl n
      simp only [if_neg hnn] at e2
      refine ⟨m', e1, e2.congr ?_ ?_ ?_⟩
      · intro k hk
        by_cases h : k = n
        · subst h; simp
        · rw [if_neg h]
          by_cases h' : k < n
          · rw [if_pos h', if_pos (by omega)]
          · rw [if_neg h', if_neg (by omega)]
      · intro k hk d hd
        by_cases h : k = n
        · subst h; simp
        · rw [if_neg h]
          by_cases h' : k < n
          · rw [if_pos h', if_pos (by omega)]
          · rw [if_neg h', if_neg (by omega)]
      · intro k hk d hd
        by_cases h : k = n
        · subst h; simp
        · rw [if_neg h]
          by_cases h' : k < n
          · rw [if_pos h', if_pos (by omega)]
          · rw [if_neg h', if_neg (by omega)])
  exact ⟨m', h1, h2.congr (fun k hk => by rw [if_pos hk]) (fun k hk d _ => by rw [if_pos hk]) (fun k hk d _ => by rw [if_pos hk])⟩

theorem zeros_is (C D : Nat) : MixIs (zeros K C D) C D (fun _ => 0) (fun _ _ => 0) (fun _ _ => 0) := ⟨Arr.replicate C 0, Flat.replicate C D 0, Flat.replicate C D 0⟩

variable {D C N : Nat} {post data old : List K} {q x o : Nat → Nat → K}

theorem accCluster_spec (hq : Flat post N C q) (hx : Flat data N D x) (ho : Flat old C D o) {i : Nat} (hi : i < N) :
    ∀ k < C, ∀ (m : Mix K) (p : Nat → K) (u c : Nat → Nat → K), MixIs m C D p u c → ∃ m', accCluster D C post data old i k m = some m' ∧
      MixIs m' C D (fun a => if a = k then p k + assoc C q i k else p a) (fun a b => if a = k then u k b + assoc C q i k * x i b else u a b)
        (fun a b => if a = k then c k b + assoc C q i k * (x i b - o k b) ^ 2 else c a b) := by
  intro k hk m p u c h
  unfold accCluster
  rw [Nat.add_comm k, hq.rd hi hk]
  simp only [Option.bind_eq_bind, Option.bind_some, Option.pure_def]
  by_cases hs : q i k < 1 / 100 / C
  · have ha : assoc C q i k = 0 := if_pos hs
    rw [if_pos hs]
    refine ⟨m, rfl, h.congr ?_ ?_ ?_⟩
    · intro a _
      rw [ha, add_zero]
      by_cases h : a = k
      · rw [if_pos h, h]
      · rw [if_neg h]
    · intro a _ b _
      rw [ha, zero_mul, add_zero]
      by_cases h : a = k
      · rw [if_pos h, h]
      · rw [if_neg h]
    · intro a _ b _
      rw [ha, zero_mul, add_zero]
      by_cases h : a = k
      · rw [if_pos h, h]
      · rw [if_neg h]
  · have ha : assoc C q i k = q i k := if_neg hs
    rw [if_neg hs, h.priors.rd hk, Option.bind_some]
    obtain ⟨pr, a1, a2⟩ := h.priors.wr hk (p k + q i k)
    obtain ⟨l1, l2, b1, b2, b3⟩ := iter_row2 h.means h.cov hk (fun d s _ => s + q i k * x i d) (fun d _ c => c + q i k * ((x i d - o k d) * (x i d - o k d)))
      (body := fun d (r : List K × List K) => (rd data (i * D + d)).bind (fun x => (rd old (k * D + d)).bind (fun mu => (rd r.1 (k * D + d)).bind (fun s => (wr r.1 (k * D + d) (s + q i k * x)).bind (fun means =>
        (rd r.2 (k * D + d)).bind (fun c => (wr r.2 (k * D + d) (c + q i k * ((x - mu) * (x - mu)))).bind (fun cov => some (means, cov)))))))) (by
        intro d hd l1 l2 f1 f2 h1 h2
        rw [hx.rd hi hd, Option.bind_some, ho.rd hk hd, Option.bind_some]
        simp only
        rw [h1.rd hk hd, Option.bind_some, h2.rd hk hd]
        rfl)
    rw [a1, Option.bind_some, b1, Option.bind_some]
    refine ⟨_, rfl, a2.congr ?_, b2.congr ?_, b3.congr ?_⟩
    · intro a _
      unfold upd1
      rw [ha]
    · intro a _ b _
      rw [ha]
    · intro a _ b _
      rw [ha, pow_two]

theorem accChunk_spec (hq : Flat post N C q) (hx : Flat data N D x) (ho : Flat old C D o) (chunk : List Nat) (hc : ∀ i ∈ chunk, i < N) :
    ∃ a, accChunk D C post data old chunk = some a ∧
      MixIs a C D (fun k => (chunk.map (fun i => assoc C q i k)).sum) (fun k d => (chunk.map (fun i => assoc C q i k * x i d)).sum) (fun k d => (chunk.map (fun i => assoc C q i k * (x i d - o k d) ^ 2)).sum) := by
  unfold accChunk
  obtain ⟨a, h1, h2⟩ := foldlM_list
    (fun done (a : Mix K) => MixIs a C D (fun k => (done.map (fun i => assoc C q i k)).sum) (fun k d => (done.map (fun i => assoc C q i k * x i d)).sum) (fun k d => (done.map (fun i => assoc C q i k * (x i d - o k d) ^ 2)).sum))
    (body := fun a i => iter C (fun k a => accCluster D C post data old i k a) a) chunk [] (zeros K C D) (by simpa using zeros_is C D) (by
      intro done i a hi ha
      obtain ⟨a', e1, e2⟩ := iter_mix ha (fun k p => p + assoc C q i k) (fun k d _ u _ => u + assoc C q i k * x i d) (fun k d _ _ c => c + assoc C q i k * (x i d - o k d) ^ 2)
        (accCluster_spec hq hx ho (hc i hi))
      refine ⟨a', e1, e2.congr ?_ ?_ ?_⟩
      · intro k _; simp
      · intro k _ d _; simp
      · intro k _ d _; simp)
  exact ⟨a, h1, by simpa using h2⟩

theorem combine_spec {a m : Mix K} {p' p : Nat → K} {u' c' u c : Nat → Nat → K} (ha : MixIs a C D p' u' c') (hm : MixIs m C D p u c) :
    ∃ m', combine D C a m = some m' ∧ MixIs m' C D (fun k => p k + p' k) (fun k d => u k d + u' k d) (fun k d => c k d + c' k d) := by
  unfold combine
  refine iter_mix hm (fun k p => p + p' k) (fun k d _ u _ => u + u' k d) (fun k d _ _ c => c + c' k d) ?_
  intro k hk m p u c h
  rw [h.priors.rd hk]
  simp only [Option.bind_eq_bind, Option.bind_some, Option.pure_def]
  rw [ha.priors.rd hk, Option.bind_some]
  obtain ⟨pr, a1, a2⟩ := h.priors.wr hk (p k + p' k)
  obtain ⟨l1, l2, b1, b2, b3⟩ := iter_row2 h.means h.cov hk (fun d s _ => s + u' k d) (fun d _ c => c + c' k d)
    (body := fun d (r : List K × List K) => (rd r.1 (k * D + d)).bind (fun x => (rd a.means (k * D + d)).bind (fun x' => (wr r.1 (k * D + d) (x + x')).bind (fun means =>
      (rd r.2 (k * D + d)).bind (fun c => (rd a.cov (k * D + d)).bind (fun c' => (wr r.2 (k * D + d) (c + c')).bind (fun cov => some (means, cov)))))))) (by
      intro d hd l1 l2 f1 f2 h1 h2
      simp only
      rw [h1.rd hk hd, Option.bind_some, ha.means.rd hk hd, Option.bind_some, h2.rd hk hd, ha.cov.rd hk hd]
      rfl)
  rw [a1, Option.bind_some, b1, Option.bind_some]
  exact ⟨_, rfl, a2, b2, b3⟩

theorem divide_spec {m : Mix K} {p : Nat → K} {u c : Nat → Nat → K} (hm : MixIs m C D p u c) :
    ∃ m', divide D C m = some m' ∧ MixIs m' C D p (fun k d => if p k ≥ 1 / 10 ^ 6 / C then u k d / p k else u k d) (fun k d => if p k ≥ 1 / 10 ^ 6 / C then c k d / p k else c k d) := by
  unfold divide
  refine iter_mix hm (fun k p => p) (fun k d p u _ => if p ≥ 1 / 10 ^ 6 / C then u / p else u) (fun k d p _ c => if p ≥ 1 / 10 ^ 6 / C then c / p else c) ?_
  intro k hk m p u c h
  rw [h.priors.rd hk]
  simp only [Option.bind_eq_bind, Option.bind_some, Option.pure_def]
  by_cases hp : p k ≥ 1 / 10 ^ 6 / C
  · rw [if_pos hp]
    obtain ⟨l1, l2, b1, b2, b3⟩ := iter_row2 h.means h.cov hk (fun d s _ => s / p k) (fun d _ c => c / p k)
      (body := fun d (r : List K × List K) => (rd r.1 (k * D + d)).bind (fun x => (wr r.1 (k * D + d) (x / p k)).bind (fun means =>
        (rd r.2 (k * D + d)).bind (fun c => (wr r.2 (k * D + d) (c / p k)).bind (fun cov => some (means, cov)))))) (by
        intro d hd l1 l2 f1 f2 h1 h2
        simp only
        rw [h1.rd hk hd, Option.bind_some, h2.rd hk hd]
        rfl)
    rw [b1, Option.bind_some]
    refine ⟨_, rfl, h.priors.congr ?_, b2.congr ?_, b3.congr ?_⟩
    · intro a _
      by_cases h : a = k
      · rw [if_pos h, h]
      · rw [if_neg h]
    · intro a _ b _; rw [if_pos hp]
    · intro a _ b _; rw [if_pos hp]
  · rw [if_neg hp]
    refine ⟨_, rfl, h.congr ?_ ?_ ?_⟩
    · intro a _
      by_cases h : a = k
      · rw [if_pos h, h]
      · rw [if_neg h]
    · intro a _ b _
      rw [if_neg hp]
      by_cases h : a = k
      · rw [if_pos h, h]
      · rw [if_neg h]
    · intro a _ b _
      rw [if_neg hp]
      by_cases h : a = k
      · rw [if_pos h, h]
      · rw [if_neg h]

theorem correct_spec (ho : Flat old C D o) {m : Mix K} {p : Nat → K} {u c : Nat → Nat → K} (hm : MixIs m C D p u c) :
    ∃ m', correct D C old m = some m' ∧ MixIs m' C D p u (fun k d => if p k ≥ 1 / 10 ^ 6 / C then c k d - (u k d - o k d) ^ 2 else c k d) := by
  unfold correct
  refine iter_mix hm (fun k p => p) (fun k d p u _ => u) (fun k d p u c => if p ≥ 1 / 10 ^ 6 / C then c - (u - o k d) ^ 2 else c) ?_
  intro k hk m p u c h
  rw [h.priors.rd hk]
  simp only [Option.bind_eq_bind, Option.bind_some, Option.pure_def]
  by_cases hp : p k ≥ 1 / 10 ^ 6 / C
  · rw [if_pos hp]
    obtain ⟨l2, b1, b3⟩ := iter_row h.cov hk (fun d c => c - (u k d - o k d) ^ 2)
      (body := fun d cov => (rd m.means (k * D + d)).bind (fun mu => (rd old (k * D + d)).bind (fun oldMu => (rd cov (k * D + d)).bind (fun c => wr cov (k * D + d) (c - (mu - oldMu) * (mu - oldMu)))))) (by
        intro d hd l2 f2 h2
        rw [h.means.rd hk hd, Option.bind_some, ho.rd hk hd, Option.bind_some, h2.rd hk hd, Option.bind_some, pow_two])
    rw [b1, Option.bind_some]
    refine ⟨_, rfl, h.priors.congr ?_, h.means.congr ?_, b3.congr ?_⟩
    · intro a _
      by_cases h : a = k
      · rw [if_pos h, h]
      · rw [if_neg h]
    · intro a _ b _
      by_cases h : a = k
      · rw [if_pos h, h]
      · rw [if_neg h]
    · intro a _ b _; rw [if_pos hp]
  · rw [if_neg hp]
    refine ⟨_, rfl, h.congr ?_ ?_ ?_⟩
    · intro a _
      by_cases h : a = k
      · rw [if_pos h, h]
      · rw [if_neg h]
    · intro a _ b _
      by_cases h : a = k
      · rw [if_pos h, h]
      · rw [if_neg h]
    · intro a _ b _
      rw [if_neg hp]
      by_cases h : a = k
      · rw [if_pos h, h]
      · rw [if_neg h]

theorem applyBounds_spec {lbs : List K} {b : Nat → K} (hb : Arr lbs D b) {m : Mix K} {p : Nat → K} {u c : Nat → Nat → K} (hm : MixIs m C D p u c) :
    ∃ m', applyBounds D C lbs m = some m' ∧ MixIs m' C D p u (fun k d => max (c k d) (b d)) := by
  obtain ⟨cov', h1, h2⟩ := iter_inv (n := C) (f := fun k cov => iter D (fun d cov => (rd cov (k * D + d)).bind (fun c => (rd lbs d).bind (fun b => if c < b then wr cov (k * D + d) b else some cov))) cov) (s := m.cov)
    (fun n l => Flat l C D (fun a d => if a < n then max (c a d) (b d) else c a d)) (hm.cov.congr (by intro a _ d _; simp)) (by
      intro k hk l hl
      obtain ⟨l', e1, e2⟩ := iter_row hl hk (fun d c => max c (b d)) (body := fun d cov => (rd cov (k * D + d)).bind (fun c => (rd lbs d).bind (fun b => if c < b then wr cov (k * D + d) b else some cov))) (by
        intro d hd l f h
        rw [h.rd hk hd, Option.bind_some, hb.rd hd, Option.bind_some]
        by_cases h' : f k d < b d
        · rw [if_pos h', max_eq_right h'.le]
        · rw [if_neg h', max_eq_left (not_lt.1 h')]
          have ha := Flat.addr_lt hk hd
          rw [wr_of_lt (by rw [h.len]; exact ha)]
          congr 1
          have hg := h.get k hk d hd
          apply List.ext_getElem?
          intro j
          rw [List.getElem?_set]
          by_cases hj : k * D + d = j
          · rw [if_pos hj, if_pos (by rw [h.len]; exact ha), ← hj, hg]
          · rw [if_neg hj])
      refine ⟨l', e1, e2.congr ?_⟩
      intro a _ d _
      by_cases h : a = k
      · subst h; simp
      · rw [if_neg h]
        by_cases h' : a < k
        · rw [if_pos h', if_pos (by omega)]
        · rw [if_neg h', if_neg (by omega)])
  refine ⟨{ m with cov := cov' }, ?_, hm.priors, hm.means, h2.congr (fun k hk d _ => by rw [if_pos hk])⟩
  unfold applyBounds
  simp only [Option.bind_eq_bind, Option.pure_def]
  rw [h1, Option.bind_some]

theorem normalizePriors_spec {m : Mix K} {p : Nat → K} {u c : Nat → Nat → K} (hm : MixIs m C D p u c) :
    ∃ m', normalizePriors C m = some m' ∧ MixIs m' C D (fun k => p k / max (∑ k ∈ range C, p k) (1 / 10 ^ 12)) u c := by
  unfold normalizePriors
  simp only [Option.bind_eq_bind, Option.pure_def]
  rw [iter_sum C p 0 (by
    intro k hk s
    rw [hm.priors.rd hk, Option.bind_some]), Option.bind_some, zero_add]
  obtain ⟨l, h1, h2⟩ := iter_arr hm.priors (fun k p' => p' / max (∑ k ∈ range C, p k) (1 / 10 ^ 12)) (body := fun k l => (rd l k).bind (fun p' => wr l k (p' / max (∑ k ∈ range C, p k) (1 / 10 ^ 12)))) (by
    intro k hk l f h
    rw [h.rd hk, Option.bind_some])
  rw [h1, Option.bind_some]
  exact ⟨_, rfl, h2, hm.means, hm.cov⟩

end Verif.Gmm
