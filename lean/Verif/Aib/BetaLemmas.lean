import Verif.Aib.Model
import Verif.Aib.InfoLemmas

/-!
# The closest entry of each entry
-/

namespace Verif.Aib

open Spec

set_option linter.unusedSectionVars false

variable {K : Type} [Field K] [LinearOrder K] [IsStrictOrderedRing K]

/-- The probabilities of the first `ne` entries -/
structure Tab (n L ne : Nat) (s : St K) (R : Nat → Nat → K) (X : Nat → K) : Prop where
  le : ne ≤ n
  pcx : Flat s.Pcx n L R
  px : Arr s.Px n X
  nonneg : ∀ r < ne, ∀ c < L, 0 ≤ R r c
  sum : ∀ r < ne, X r = ∑ c ∈ Finset.range L, R r c

theorem Tab.X_nonneg {n L ne : Nat} {s : St K} {R : Nat → Nat → K} {X : Nat → K} (h : Tab n L ne s R X) {r : Nat} (hr : r < ne) : 0 ≤ X r := by
  rw [h.sum r hr]
  exact Finset.sum_nonneg fun c hc => h.nonneg r hr c (Finset.mem_range.1 hc)

theorem Tab.X_pos {n L ne : Nat} {s : St K} {R : Nat → Nat → K} {X : Nat → K} (h : Tab n L ne s R X) {r : Nat} (hr : r < ne) {c : Nat} (hc : c < L) (h0 : R r c ≠ 0) : 0 < X r := by
  rw [h.sum r hr]
  exact pos_sum (h.nonneg r hr) hc h0

theorem Tab.pos {n L ne : Nat} {s : St K} {R : Nat → Nat → K} {X : Nat → K} (h : Tab n L ne s R X) {r : Nat} (hr : r < ne) {c : Nat} (hc : c < L) (h0 : R r c ≠ 0) : 0 < R r c :=
  lt_of_le_of_ne (h.nonneg r hr c hc) (Ne.symm h0)

theorem precalc_eq {log : K → K} {n L ne : Nat} {s : St K} {R : Nat → Nat → K} {X : Nat → K} (h : Tab n L ne s R X) {a : Nat} (ha : a < ne) :
    precalc log L s a = some (tv log L (R a)) := by
  unfold precalc
  rw [iter_sum L (fun c => if R a c = 0 then 0 else R a c * log (R a c / ∑ d ∈ Finset.range L, R a d)) 0, zero_add]
  · rfl
  · intro c hc t
    rw [h.pcx.rd (lt_of_lt_of_le ha h.le) hc]
    simp only [Option.bind_eq_bind, Option.bind_some, Option.pure_def]
    by_cases h0 : R a c = 0
    · rw [if_neg (not_not.2 h0), if_pos h0, add_zero]
    · rw [if_pos h0, if_neg h0, h.px.rd (lt_of_lt_of_le ha h.le)]
      simp only [Option.bind_some]
      unfold divv logv
      rw [if_neg (h.X_pos ha hc h0).ne']
      simp only [Option.bind_some]
      rw [if_pos (div_pos (h.pos ha hc h0) (h.X_pos ha hc h0)), h.sum a ha]
      rfl

theorem plogp_pos (log : K → K) {x : K} (hx : 0 < x) : plogp log x = some (pl log x) := by
  unfold plogp logv pl
  rw [if_pos hx, if_neg hx.ne']
  rfl

theorem pairCost_eq {log : K → K} (hl : IsLog log) {n L ne : Nat} {s : St K} {R : Nat → Nat → K} {X : Nat → K} (h : Tab n L ne s R X) {tmp : List K} (ht : Arr tmp ne (fun a => tv log L (R a)))
    {a b : Nat} (ha : a < ne) (hb : b < ne) (h0 : X a ≠ 0) :
    pairCost log L s tmp a b (X a) (X b) = some (loss log L (R a) (R b)) := by
  have hp : 0 < X a + X b := add_pos_of_pos_of_nonneg (lt_of_le_of_ne (h.X_nonneg ha) (Ne.symm h0)) (h.X_nonneg hb)
  unfold pairCost
  rw [plogp_pos log hp]
  simp only [Option.bind_eq_bind, Option.bind_some, Option.pure_def]
  rw [ht.rd ha, ht.rd hb]
  simp only [Option.bind_some]
  rw [iter_sum L (fun c => - pl log (R a c + R b c)), loss_eq hl (h.nonneg a ha) (h.nonneg b hb), h.sum a ha, h.sum b hb]
  intro c hc t
  rw [h.pcx.rd (lt_of_lt_of_le ha h.le) hc, h.pcx.rd (lt_of_lt_of_le hb h.le) hc]
  simp only [Option.bind_some]
  by_cases hz : R a c = 0 ∧ R b c = 0
  · rw [if_pos hz, hz.1, hz.2]
    unfold pl
    simp
  · rw [if_neg hz, plogp_pos]
    · rfl
    · by_cases hz1 : R a c = 0
      · have : R b c ≠ 0 := fun e => hz ⟨hz1, e⟩
        rw [hz1, zero_add]
        exact h.pos hb hc this
      · exact add_pos_of_pos_of_nonneg (h.pos ha hc hz1) (h.nonneg b hb c hc)

/-- Each entry is either without a partner or records one and the cost of merging with it -/
def Partner (ne : Nat) (T : Nat → Nat → K) (X : Nat → K) (β : Nat → WithTop K) (q : Nat → Nat) : Prop :=
  ∀ r < ne, β r = ⊤ ∨ q r < ne ∧ q r ≠ r ∧ X r ≠ 0 ∧ X (q r) ≠ 0 ∧ β r = (T r (q r) : K)

theorem improve_eq {n ne : Nat} (hne : ne ≤ n) {T : Nat → Nat → K} {X : Nat → K} {s : St K} {β : Nat → WithTop K} {q : Nat → Nat} (hβ : Arr s.beta n β) (hq : Arr s.bidx n q) (hP : Partner ne T X β q)
    {a b : Nat} (ha : a < ne) (hb : b < ne) (hab : b ≠ a) (hXa : X a ≠ 0) (hXb : X b ≠ 0) :
    ∃ l k β' q', improve (T a b) a b s = some { s with beta := l, bidx := k } ∧ Arr l n β' ∧ Arr k n q' ∧ Partner ne T X β' q' ∧ (∀ r, β' r ≤ β r) ∧ β' a ≤ (T a b : K) := by
  unfold improve
  rw [hβ.rd (lt_of_lt_of_le ha hne)]
  simp only [Option.bind_eq_bind, Option.bind_some, Option.pure_def]
  by_cases hc : ((T a b : K) : WithTop K) < β a
  · rw [if_pos hc]
    obtain ⟨l, hl, hl'⟩ := hβ.wr (lt_of_lt_of_le ha hne) ((T a b : K) : WithTop K)
    obtain ⟨k, hk, hk'⟩ := hq.wr (lt_of_lt_of_le ha hne) b
    rw [hl, hk]
    refine ⟨l, k, _, _, rfl, hl', hk', ?_, ?_, ?_⟩
    · intro r hr
      unfold upd1
      by_cases h : r = a
      · right
        subst h
        simp only [if_true]
        exact ⟨hb, hab, hXa, hXb, trivial⟩
      · simp only [if_neg h]
        exact hP r hr
    · intro r
      unfold upd1
      by_cases h : r = a
      · simp only [if_pos h]
        exact h ▸ hc.le
      · simp only [if_neg h]
        exact le_refl _
    · unfold upd1
      simp
  · rw [if_neg hc]
    exact ⟨s.beta, s.bidx, β, q, rfl, hβ, hq, hP, fun _ => le_refl _, not_lt.1 hc⟩

theorem updatePair_eq {log : K → K} (hl : IsLog log) {n L ne : Nat} {s : St K} {R : Nat → Nat → K} {X : Nat → K} (h : Tab n L ne s R X) {tmp : List K} (ht : Arr tmp ne (fun a => tv log L (R a)))
    {β : Nat → WithTop K} {q : Nat → Nat} (hβ : Arr s.beta n β) (hq : Arr s.bidx n q) (hP : Partner ne (fun a b => loss log L (R a) (R b)) X β q)
    {a b : Nat} (ha : a < ne) (hb : b < ne) :
    ∃ l k β' q', updatePair log L tmp a b s = some { s with beta := l, bidx := k } ∧ Arr l n β' ∧ Arr k n q' ∧ Partner ne (fun a b => loss log L (R a) (R b)) X β' q' ∧ (∀ r, β' r ≤ β r) ∧
      (a ≠ b → X a ≠ 0 → X b ≠ 0 → β' a ≤ (loss log L (R a) (R b) : K) ∧ β' b ≤ (loss log L (R b) (R a) : K)) := by
  unfold updatePair
  rw [h.px.rd (lt_of_lt_of_le ha h.le), h.px.rd (lt_of_lt_of_le hb h.le)]
  simp only [Option.bind_eq_bind, Option.bind_some, Option.pure_def]
  by_cases hc : a = b ∨ X a = 0 ∨ X b = 0
  · rw [if_pos hc]
    refine ⟨s.beta, s.bidx, β, q, rfl, hβ, hq, hP, fun _ => le_refl _, fun h1 h2 h3 => ?_⟩
    rcases hc with hc | hc | hc
    · exact absurd hc h1
    · exact absurd hc h2
    · exact absurd hc h3
  · rw [if_neg hc]
    push Not at hc
    rw [pairCost_eq hl h ht ha hb hc.2.1]
    simp only [Option.bind_some]
    obtain ⟨l, k, β1, q1, e1, hl1, hk1, hP1, hm1, hb1⟩ := improve_eq h.le hβ hq hP ha hb (Ne.symm hc.1) hc.2.1 hc.2.2
    rw [e1]
    simp only [Option.bind_some]
    obtain ⟨l2, k2, β2, q2, e2, hl2, hk2, hP2, hm2, hb2⟩ := improve_eq (s := { s with beta := l, bidx := k }) h.le hl1 hk1 hP1 hb ha hc.1 hc.2.2 hc.2.1
    rw [loss_comm log L (R b) (R a)] at e2
    exact ⟨l2, k2, β2, q2, e2, hl2, hk2, hP2, fun r => le_trans (hm2 r) (hm1 r), fun _ _ _ => ⟨le_trans (hm2 a) hb1, hb2⟩⟩

/-- The costs are minimal over the pairs in `S` -/
def Cov (ne : Nat) (T : Nat → Nat → K) (X : Nat → K) (β : Nat → WithTop K) (S : Nat → Nat → Prop) : Prop :=
  ∀ r < ne, ∀ b < ne, r ≠ b → X r ≠ 0 → X b ≠ 0 → S r b → β r ≤ (T r b : K)

theorem updateBeta_eq {log : K → K} (hl : IsLog log) {n L ne : Nat} {s : St K} {R : Nat → Nat → K} {X : Nat → K} (h : Tab n L ne s R X) (hne : s.nentries = ne)
    {β : Nat → WithTop K} {q wh : Nat → Nat} (hβ : Arr s.beta n β) (hq : Arr s.bidx n q) (hw : Arr s.which n wh) (hnw : s.nwhich ≤ n) (hwh : ∀ i < s.nwhich, wh i < ne)
    (hP : Partner ne (fun a b => loss log L (R a) (R b)) X β q)
    (hC : Cov ne (fun a b => loss log L (R a) (R b)) X β (fun r b => (∀ i < s.nwhich, wh i ≠ r) ∧ ∀ i < s.nwhich, wh i ≠ b)) :
    ∃ l k β' q', updateBeta log L s = some { s with beta := l, bidx := k } ∧ Arr l n β' ∧ Arr k n q' ∧ Partner ne (fun a b => loss log L (R a) (R b)) X β' q' ∧
      Cov ne (fun a b => loss log L (R a) (R b)) X β' (fun _ _ => True) := by
  subst hne
  unfold updateBeta
  have e0 : ∃ tmp, iter s.nentries (fun a tmp => do
      let t ← precalc log L s a
      Verif.wr tmp a t) (List.replicate s.nentries 0) = some tmp ∧ Arr tmp s.nentries (fun a => tv log L (R a)) := by
    refine iter_arr (Arr.replicate s.nentries 0) (fun a _ => tv log L (R a)) ?_
    intro a ha l f hf
    rw [precalc_eq h ha]
    simp only [Option.bind_eq_bind, Option.bind_some]
  obtain ⟨tmp, et, ht⟩ := e0
  rw [et]
  simp only [Option.bind_eq_bind, Option.bind_some]
  let Q : Nat → St K → Prop := fun i t => ∃ l k β' q', t = { s with beta := l, bidx := k } ∧ Arr l n β' ∧ Arr k n q' ∧ Partner s.nentries (fun a b => loss log L (R a) (R b)) X β' q' ∧
    Cov s.nentries (fun a b => loss log L (R a) (R b)) X β' (fun r b => (∃ j < i, wh j = r ∨ wh j = b) ∨ ((∀ i < s.nwhich, wh i ≠ r) ∧ ∀ i < s.nwhich, wh i ≠ b))
  obtain ⟨t, e, l, k, β', q', rfl, h1, h2, h3, h4⟩ := iter_inv Q (n := s.nwhich) (s := s) (f := fun i t => (Verif.rd t.which i).bind fun a => iter t.nentries (fun b t => updatePair log L tmp a b t) t)
    ⟨s.beta, s.bidx, β, q, rfl, hβ, hq, hP, fun r hr b hb h1 h2 h3 hS => hC r hr b hb h1 h2 h3 (hS.resolve_left (by rintro ⟨j, hj, _⟩; omega))⟩
    (by
      rintro i hi t ⟨l, k, β1, q1, rfl, hl1, hk1, hP1, hC1⟩
      dsimp only
      rw [hw.rd (by omega)]
      simp only [Option.bind_some]
      let Q' : Nat → St K → Prop := fun m t => ∃ l k β' q', t = { s with beta := l, bidx := k } ∧ Arr l n β' ∧ Arr k n q' ∧ Partner s.nentries (fun a b => loss log L (R a) (R b)) X β' q' ∧
        (∀ r, β' r ≤ β1 r) ∧ ∀ b < m, wh i ≠ b → X (wh i) ≠ 0 → X b ≠ 0 → β' (wh i) ≤ (loss log L (R (wh i)) (R b) : K) ∧ β' b ≤ (loss log L (R b) (R (wh i)) : K)
      obtain ⟨t, e, l2, k2, β2, q2, rfl, hl2, hk2, hP2, hm2, hc2⟩ := iter_inv Q' (n := s.nentries) (s := { s with beta := l, bidx := k }) (f := fun b t => updatePair log L tmp (wh i) b t)
        ⟨l, k, β1, q1, rfl, hl1, hk1, hP1, fun _ => le_refl _, fun b hb => absurd hb (Nat.not_lt_zero b)⟩
        (by
          rintro m hm t ⟨l2, k2, β2, q2, rfl, hl2, hk2, hP2, hm2, hc2⟩
          obtain ⟨l3, k3, β3, q3, e3, hl3, hk3, hP3, hm3, hc3⟩ := updatePair_eq hl (s := { s with beta := l2, bidx := k2 }) ⟨h.le, h.pcx, h.px, h.nonneg, h.sum⟩ ht hl2 hk2 hP2 (hwh i hi) hm
          refine ⟨_, e3, l3, k3, β3, q3, rfl, hl3, hk3, hP3, fun r => le_trans (hm3 r) (hm2 r), fun b hb h1 h2 h3 => ?_⟩
          by_cases hbm : b = m
          · subst hbm
            exact hc3 h1 h2 h3
          · have := hc2 b (by omega) h1 h2 h3
            exact ⟨le_trans (hm3 _) this.1, le_trans (hm3 _) this.2⟩)
      refine ⟨_, e, l2, k2, β2, q2, rfl, hl2, hk2, hP2, fun r hr b hb h1 h2 h3 hS => ?_⟩
      rcases hS with ⟨j, hj, hS⟩ | hS
      · by_cases hji : j = i
        · subst hji
          rcases hS with hS | hS
          · subst hS
            exact (hc2 b hb h1 h2 h3).1
          · subst hS
            exact (hc2 r hr (Ne.symm h1) h3 h2).2
        · exact le_trans (hm2 r) (hC1 r hr b hb h1 h2 h3 (Or.inl ⟨j, by omega, hS⟩))
      · exact le_trans (hm2 r) (hC1 r hr b hb h1 h2 h3 (Or.inr hS)))
  refine ⟨l, k, β', q', e, h1, h2, h3, fun r hr b hb g1 g2 g3 _ => h4 r hr b hb g1 g2 g3 ?_⟩
  by_cases hS : (∀ i < s.nwhich, wh i ≠ r) ∧ ∀ i < s.nwhich, wh i ≠ b
  · exact Or.inr hS
  · left
    rw [not_and_or] at hS
    push Not at hS
    rcases hS with ⟨j, hj, hS⟩ | ⟨j, hj, hS⟩
    · exact ⟨j, hj, Or.inl hS⟩
    · exact ⟨j, hj, Or.inr hS⟩

/-- The first of the entries with the smallest cost -/
theorem minBeta_eq {n ne : Nat} (hne : ne ≤ n) (h0 : 0 < ne) {s : St K} (hs : s.nentries = ne) {β : Nat → WithTop K} {q : Nat → Nat} (hβ : Arr s.beta n β) (hq : Arr s.bidx n q) :
    ∃ i < ne, minBeta s = some (β i, i, q i) ∧ (∀ r < ne, β i ≤ β r) ∧ ∀ r < i, β i < β r := by
  unfold minBeta
  rw [hβ.rd (by omega), hq.rd (by omega), hs]
  simp only [Option.bind_eq_bind, Option.bind_some, Option.pure_def]
  obtain ⟨m, e, i, hi, rfl, h1, h2⟩ := iter_inv (fun k (m : WithTop K × Nat × Nat) => ∃ i < ne, m = (β i, i, q i) ∧ (∀ r < k, β i ≤ β r) ∧ ∀ r < i, β i < β r) (n := ne) (s := (β 0, 0, q 0))
    (f := fun i m => (Verif.rd s.beta i).bind fun b => if b < m.1 then (Verif.rd s.bidx i).bind fun q => some (b, i, q) else some m)
    ⟨0, h0, rfl, fun r hr => absurd hr (Nat.not_lt_zero r), fun r hr => absurd hr (Nat.not_lt_zero r)⟩
    (by
      rintro k hk m ⟨i, hi, rfl, h1, h2⟩
      rw [hβ.rd (by omega)]
      simp only [Option.bind_some]
      by_cases hc : β k < β i
      · rw [if_pos hc, hq.rd (by omega)]
        refine ⟨_, rfl, k, hk, rfl, fun r hr => ?_, fun r hr => lt_of_lt_of_le hc (h1 r hr)⟩
        rcases Nat.lt_succ_iff_lt_or_eq.1 hr with hr | rfl
        · exact le_trans hc.le (h1 r hr)
        · exact le_refl _
      · rw [if_neg hc]
        refine ⟨_, rfl, i, hi, rfl, fun r hr => ?_, h2⟩
        rcases Nat.lt_succ_iff_lt_or_eq.1 hr with hr | rfl
        · exact h1 r hr
        · exact not_lt.1 hc)
  exact ⟨i, hi, e, h1, h2⟩

end Verif.Aib
