import Verif.Kmeans.ClusterModel
import Mathlib.Data.List.Perm.Basic
import Mathlib.Data.List.Nodup
import Mathlib.Order.Basic
import Mathlib.Data.Nat.Basic
import Mathlib.Order.Nat

/-!
# Repetitions and copies of k-means: properties (C29, C30)
-/

namespace Verif.Kmeans

variable {E F K ρ : Type}

/-! ## Specification -/

/-- Energy and centres found by one repetition, and the next state of the generator. -/
def outcome (a : Algo E K ρ) (r : ρ) : (E × List K) × ρ :=
  let s := a.seed r
  let t := a.refine s.1 s.2
  ((t.1.1, t.1.2.1), t.2)

/-- Energies and centres found by `n` successive repetitions. -/
def outcomes (a : Algo E K ρ) : Nat → ρ → List (E × List K)
  | 0, _ => []
  | n + 1, r => (outcome a r).1 :: outcomes a n (outcome a r).2

/-- State of the generator after `n` repetitions. -/
def after (a : Algo E K ρ) : Nat → ρ → ρ
  | 0, r => r
  | n + 1, r => after a n (outcome a r).2

/-- Comparison of floating point energies; `none` is NaN. -/
def fltLt [LinearOrder F] : Option F → Option F → Bool
  | some x, some y => decide (x < y)
  | _, _ => false

/-- The heap consists of the blocks `base` and, disjoint from them and from each other, the blocks of the list. -/
structure Owns (h : Mem K) (base : Nat → Option (List K)) (l : List (Nat × List K)) : Prop where
  own : ∀ b ∈ l, h.blk b.1 = some b.2
  rest : ∀ p, p ∉ l.map Prod.fst → h.blk p = base p
  nodup : (l.map Prod.fst).Nodup
  disj : ∀ p ∈ l.map Prod.fst, p < h.fresh ∧ base p = none
  fresh : ∀ p, h.fresh ≤ p → base p = none

/-! ## The heap -/

theorem Owns.perm {h : Mem K} {base : Nat → Option (List K)} {l l' : List (Nat × List K)} (o : Owns h base l) (hp : l.Perm l') :
    Owns h base l' where
  own := fun b hb => o.own b (hp.mem_iff.mpr hb)
  rest := fun p hp' => o.rest p fun hc => hp' ((hp.map Prod.fst).mem_iff.mp hc)
  nodup := (hp.map Prod.fst).nodup_iff.mp o.nodup
  disj := fun p hp' => o.disj p ((hp.map Prod.fst).mem_iff.mpr hp')
  fresh := o.fresh

theorem Owns.malloc {h : Mem K} {base : Nat → Option (List K)} {l : List (Nat × List K)} (o : Owns h base l) (g : List K) :
    Owns (h.malloc g).2 base (((h.malloc g).1, g) :: l) := by
  have hne : h.fresh ∉ l.map Prod.fst := fun hc => absurd (o.disj _ hc).1 (Nat.lt_irrefl _)
  refine ⟨fun b hb => ?_, fun p hp => ?_, ?_, fun p hp => ?_, fun p hp => o.fresh p (Nat.le_of_succ_le hp)⟩
  · rcases List.mem_cons.mp hb with rfl | hb
    · simp [Mem.malloc]
    · have : b.1 ≠ h.fresh := fun e => hne (e ▸ List.mem_map_of_mem hb)
      simp only [Mem.malloc, if_neg this]
      exact o.own b hb
  · simp only [List.map_cons, List.mem_cons, not_or] at hp
    simp only [Mem.malloc, if_neg (show p ≠ h.fresh from hp.1)]
    exact o.rest p hp.2
  · rw [List.map_cons, List.nodup_cons]; exact ⟨hne, o.nodup⟩
  · rcases List.mem_cons.mp hp with rfl | hp
    · exact ⟨Nat.lt_succ_self _, o.fresh _ (Nat.le_refl _)⟩
    · exact ⟨Nat.lt_succ_of_lt (o.disj p hp).1, (o.disj p hp).2⟩

theorem Owns.free {h : Mem K} {base : Nat → Option (List K)} {p : Nat} {x : List K} {l : List (Nat × List K)}
    (o : Owns h base ((p, x) :: l)) : ∃ h', h.free (some p) = some h' ∧ Owns h' base l := by
  have hx : h.blk p = some x := o.own (p, x) (List.mem_cons_self)
  have hn := o.nodup
  rw [List.map_cons, List.nodup_cons] at hn
  refine ⟨{ h with blk := fun q => if q = p then none else h.blk q }, by simp only [Mem.free, hx, Option.isSome_some, if_true], fun b hb => ?_, fun q hq => ?_, hn.2, fun q hq => ?_, o.fresh⟩
  · have : b.1 ≠ p := fun e => hn.1 (by show p ∈ _; rw [← e]; exact List.mem_map_of_mem hb)
    simp only [if_neg this]
    exact o.own b (List.mem_cons_of_mem _ hb)
  · by_cases e : q = p
    · simp only [if_pos e]
      rw [e]
      exact (o.disj p (by simp)).2.symm
    · simp only [if_neg e]
      exact o.rest q (by simp only [List.map_cons, List.mem_cons, not_or]; exact ⟨e, hq⟩)
  · exact o.disj q (by rw [List.map_cons]; exact List.mem_cons_of_mem _ hq)

theorem Owns.store {h : Mem K} {base : Nat → Option (List K)} {p : Nat} {x : List K} {l : List (Nat × List K)}
    (o : Owns h base ((p, x) :: l)) (y : List K) : ∃ h', h.store p y = some h' ∧ Owns h' base ((p, y) :: l) := by
  have hx : h.blk p = some x := o.own (p, x) (List.mem_cons_self)
  have hn := o.nodup
  rw [List.map_cons, List.nodup_cons] at hn
  refine ⟨{ h with blk := fun q => if q = p then some y else h.blk q }, by simp only [Mem.store, hx, Option.isSome_some, if_true], fun b hb => ?_, fun q hq => ?_, ?_, fun q hq => ?_, o.fresh⟩
  · rcases List.mem_cons.mp hb with rfl | hb
    · simp
    · have : b.1 ≠ p := fun e => hn.1 (by show p ∈ _; rw [← e]; exact List.mem_map_of_mem hb)
      simp only [if_neg this]
      exact o.own b (List.mem_cons_of_mem _ hb)
  · have e : q ≠ p := fun e => hq (by simp [e])
    simp only [if_neg e]
    exact o.rest q hq
  · exact o.nodup
  · exact o.disj q hq

/-- Free an optional block. -/
theorem Owns.freeOpt {h : Mem K} {base : Nat → Option (List K)} {c : Option (Nat × List K)} {l : List (Nat × List K)}
    (o : Owns h base (c.toList ++ l)) : ∃ h', h.free (c.map Prod.fst) = some h' ∧ Owns h' base l := by
  cases c with
  | none => exact ⟨h, rfl, by simpa using o⟩
  | some b => exact Owns.free (p := b.1) (x := b.2) (by simpa using o)

/-! ## One repetition -/

theorem initCenters_spec (a : Algo E K ρ) (g : List K) {h : Mem K} {base : Nat → Option (List K)} {c d : Option (Nat × List K)}
    {l : List (Nat × List K)} (o : Owns h base (c.toList ++ (d.toList ++ l))) (r : ρ) :
    ∃ h' p, initCenters a g h { centers := c.map Prod.fst, cdist := d.map Prod.fst } r =
      some (h', { centers := some p, cdist := none }, (a.seed r).2) ∧ Owns h' base ((p, (a.seed r).1) :: l) := by
  obtain ⟨h1, e1, o1⟩ := o.freeOpt
  obtain ⟨h2, e2, o2⟩ := o1.freeOpt
  obtain ⟨h3, e3, o3⟩ := (o2.malloc g).store (a.seed r).1
  refine ⟨h3, _, ?_, o3⟩
  unfold initCenters reset
  simp only [e1, e2, e3, Option.bind_eq_bind, Option.bind_some]

theorem refineCenters_spec (a : Algo E K ρ) (g : List K) {h : Mem K} {base : Nat → Option (List K)} {p : Nat} {x : List K}
    {l : List (Nat × List K)} (o : Owns h base ((p, x) :: l)) (r : ρ) :
    ∃ h' q, ∃ d : Option (Nat × List K), refineCenters a g h { centers := some p, cdist := none } r =
      some ((a.refine x r).1.1, h', { centers := some q, cdist := d.map Prod.fst }, (a.refine x r).2) ∧
      Owns h' base ((q, (a.refine x r).1.2.1) :: (d.toList ++ l)) := by
  have hx : h.blk p = some x := o.own (p, x) (List.mem_cons_self)
  unfold refineCenters
  rw [Option.bind_eq_bind, Option.bind_some]
  simp only [hx]
  rw [Option.bind_eq_bind, Option.bind_some]
  generalize a.refine x r = R
  obtain ⟨⟨e, y, b, t⟩, r'⟩ := R
  simp only [Option.bind_eq_bind]
  have ht : ∃ h1, ∃ d : Option (Nat × List K), storeTable h { centers := some p, cdist := none } t =
      some (h1, { centers := some p, cdist := d.map Prod.fst }) ∧ Owns h1 base ((p, x) :: (d.toList ++ l)) := by
    cases t with
    | none => exact ⟨h, none, rfl, o⟩
    | some t => exact ⟨_, some ((h.malloc t).1, t), rfl, (o.malloc t).perm (List.Perm.swap _ _ _)⟩
  obtain ⟨h1, d, e1, o1⟩ := ht
  rw [e1]
  simp only [Option.bind_some]
  cases b with
  | inPlace =>
    obtain ⟨h2, e2, o2⟩ := o1.store y
    simp only [e2, Option.bind_some]
    exact ⟨h2, p, d, rfl, o2⟩
  | same =>
    obtain ⟨h2, e2, o2⟩ := ((o1.malloc g).perm (List.Perm.swap _ _ _)).store y
    obtain ⟨h3, e3, o3⟩ := (o2.perm (List.Perm.swap _ _ _)).free
    simp only [e2, Option.bind_some, e3]
    exact ⟨h3, p, d, rfl, o3⟩
  | exchanged =>
    obtain ⟨h2, e2, o2⟩ := (o1.malloc g).store y
    obtain ⟨h3, e3, o3⟩ := (o2.perm (List.Perm.swap _ _ _)).free
    simp only [e2, Option.bind_some, e3]
    exact ⟨h3, _, d, rfl, o3⟩

/-- Outcome kept after `rep` repetitions: `none` before the first one. -/
def keep (lt : E → E → Bool) (kept : Option (E × List K)) (new : E × List K) : E × List K :=
  match kept with
  | none => new
  | some k => if lt new.1 k.1 then new else k

/-- State of the loop after some repetitions. -/
structure CInv (base : Nat → Option (List K)) (rep : Nat) (kept : Option (E × List K)) (s : CState E K ρ)
    (c d b : Option (Nat × List K)) : Prop where
  owns : Owns s.h base (c.toList ++ (d.toList ++ b.toList))
  centers : s.o.centers = c.map Prod.fst
  cdist : s.o.cdist = d.map Prod.fst
  best : s.best = b.map Prod.fst
  content : b.map Prod.snd = kept.map Prod.snd
  energy : ∀ k, kept = some k → s.bestEnergy = k.1
  first : rep = 0 ↔ kept = none

theorem repetition_spec (a : Algo E K ρ) (lt : E → E → Bool) (g : List K) {base : Nat → Option (List K)} {rep : Nat}
    {kept : Option (E × List K)} {s : CState E K ρ} {c d b : Option (Nat × List K)} (hI : CInv base rep kept s c d b) :
    ∃ s' c' d' b', repetition a lt g rep s = some s' ∧ s'.rng = (outcome a s.rng).2 ∧
      CInv base (rep + 1) (some (keep lt kept (outcome a s.rng).1)) s' c' d' b' := by
  obtain ⟨h1, p, e1, o1⟩ := initCenters_spec a g hI.owns s.rng
  obtain ⟨h2, q, d', e2, o2⟩ := refineCenters_spec a g o1 (a.seed s.rng).2
  have hobj : s.o = { centers := c.map Prod.fst, cdist := d.map Prod.fst } := by
    rw [← hI.centers, ← hI.cdist]
  unfold repetition
  rw [hobj]
  simp only [e1, e2, Option.bind_eq_bind, Option.bind_some]
  have ho : outcome a s.rng = (((a.refine (a.seed s.rng).1 (a.seed s.rng).2).1.1, (a.refine (a.seed s.rng).1 (a.seed s.rng).2).1.2.1),
      (a.refine (a.seed s.rng).1 (a.seed s.rng).2).2) := rfl
  rw [ho]
  set e := (a.refine (a.seed s.rng).1 (a.seed s.rng).2).1.1
  set y := (a.refine (a.seed s.rng).1 (a.seed s.rng).2).1.2.1
  cases hk : kept with
  | none =>
    have hr : rep = 0 := hI.first.mpr hk
    have hb : b = none := by have := hI.content; rw [hk] at this; cases b <;> simp_all
    have hbest : s.best = none := by rw [hI.best, hb]; rfl
    rw [hb] at o2
    simp only [hr, beq_self_eq_true, Bool.or_true, if_true, hbest]
    refine ⟨_, some ((h2.malloc g).1, g), d', some (q, y), rfl, rfl, ?_, rfl, rfl, rfl, rfl, ?_, by simp⟩
    · refine (o2.malloc g).perm ?_
      simp only [Option.toList_some, Option.toList_none, List.append_nil, List.singleton_append]
      exact List.Perm.cons _ (List.perm_append_singleton _ _).symm
    · rintro k hk; cases hk; rfl
  | some k =>
    have hr : rep ≠ 0 := fun h => by have := hI.first.mp h; rw [hk] at this; simp at this
    have hb : ∃ b', b = some b' ∧ b'.2 = k.2 := by
      have := hI.content; rw [hk] at this; cases b <;> simp_all
    obtain ⟨b', hb, hb2⟩ := hb
    have hbest : s.best = some b'.1 := by rw [hI.best, hb]; rfl
    have hen := hI.energy k hk
    have hr' : (rep == 0) = false := by simpa using hr
    rw [hb] at o2
    simp only [hr', Bool.or_false, hbest, hen, keep]
    by_cases hlt : lt e k.1 = true
    · simp only [hlt, if_true]
      refine ⟨_, some b', d', some (q, y), rfl, rfl, ?_, rfl, rfl, rfl, rfl, ?_, by simp⟩
      · refine o2.perm ?_
        simp only [Option.toList_some, List.singleton_append]
        refine (List.Perm.cons _ (List.perm_append_singleton _ _)).trans ((List.Perm.swap _ _ _).trans (List.Perm.cons _ ?_))
        exact (List.perm_append_singleton _ _).symm
      · rintro k hk; cases hk; rfl
    · simp only [hlt, if_false, Bool.false_eq_true]
      refine ⟨_, some (q, y), d', some b', rfl, rfl, o2, rfl, rfl, rfl, by simp [hb2], ?_, by simp⟩
      rintro k' hk'; cases hk'; rfl

theorem repetitions_spec (a : Algo E K ρ) (lt : E → E → Bool) (g : List K) {base : Nat → Option (List K)} :
    ∀ (n rep : Nat) (kept : Option (E × List K)) (s : CState E K ρ) (c d b : Option (Nat × List K)), CInv base rep kept s c d b →
    ∃ s' c' d' b', repetitions a lt g rep n s = some s' ∧ s'.rng = after a n s.rng ∧
      CInv base (rep + n) ((outcomes a n s.rng).foldl (fun k o => some (keep lt k o)) kept) s' c' d' b' := by
  intro n
  induction n with
  | zero => intro rep kept s c d b h; exact ⟨s, c, d, b, rfl, rfl, h⟩
  | succ n ih =>
    intro rep kept s c d b h
    obtain ⟨s1, c1, d1, b1, e1, r1, h1⟩ := repetition_spec a lt g h
    obtain ⟨s2, c2, d2, b2, e2, r2, h2⟩ := ih _ _ s1 c1 d1 b1 h1
    refine ⟨s2, c2, d2, b2, ?_, ?_, ?_⟩
    · rw [repetitions, e1]; exact e2
    · rw [r2, r1]; rfl
    · rw [show rep + (n + 1) = rep + 1 + n by omega, outcomes, List.foldl_cons]
      rw [r1] at h2
      exact h2

/-- What the loop keeps: the first outcome, replaced by each outcome with a smaller energy. -/
theorem keep_best [LinearOrder F] : ∀ (l : List (Option F × List K)) (k0 : Option F × List K) (f0 : F), k0.1 = some f0 →
    ∃ k f, l.foldl (fun k o => some (keep fltLt k o)) (some k0) = some k ∧ k.1 = some f ∧
      (∀ o ∈ l, ∀ f', o.1 = some f' → f ≤ f') ∧ f ≤ f0 ∧
      (k = k0 ∨ (f < f0 ∧ ∃ i : Nat, l[i]? = some k ∧ ∀ j < i, ∀ o f', l[j]? = some o → o.1 = some f' → f < f')) := by
  intro l
  induction l with
  | nil => intro k0 f0 h; exact ⟨k0, f0, rfl, h, by simp, le_refl _, Or.inl rfl⟩
  | cons o l ih =>
    intro k0 f0 h
    rw [List.foldl_cons]
    by_cases hlt : fltLt o.1 k0.1 = true
    · obtain ⟨f1, e1⟩ : ∃ f1, o.1 = some f1 := by
        cases ho : o.1 with
        | none => rw [ho] at hlt; simp [fltLt] at hlt
        | some f1 => exact ⟨f1, rfl⟩
      have h10 : f1 < f0 := by rw [e1, h] at hlt; simpa [fltLt] using hlt
      obtain ⟨k, f, a1, a2, a3, a4, a5⟩ := ih o f1 e1
      refine ⟨k, f, ?_, a2, fun o' ho' f' hf' => ?_, le_trans a4 (le_of_lt h10), Or.inr ⟨lt_of_le_of_lt a4 h10, ?_⟩⟩
      · simp only [keep, hlt, if_true]; exact a1
      · rcases List.mem_cons.mp ho' with rfl | ho'
        · rw [e1] at hf'; cases hf'; exact a4
        · exact a3 o' ho' f' hf'
      · rcases a5 with rfl | ⟨b1, i, b2, b3⟩
        · exact ⟨0, rfl, by omega⟩
        · refine ⟨i + 1, by simpa using b2, fun j hj o' f' hj' hf' => ?_⟩
          cases j with
          | zero => simp at hj'; subst hj'; rw [e1] at hf'; cases hf'; exact b1
          | succ j => exact b3 j (by omega) o' f' (by simpa using hj') hf'
    · obtain ⟨k, f, a1, a2, a3, a4, a5⟩ := ih k0 f0 h
      have ho : ∀ f', o.1 = some f' → f0 ≤ f' := by
        intro f' hf'
        rw [hf', h] at hlt
        simpa [fltLt] using hlt
      refine ⟨k, f, ?_, a2, fun o' ho' f' hf' => ?_, a4, ?_⟩
      · simp only [keep, hlt, if_false, Bool.false_eq_true]; exact a1
      · rcases List.mem_cons.mp ho' with rfl | ho'
        · exact le_trans a4 (ho f' hf')
        · exact a3 o' ho' f' hf'
      · rcases a5 with rfl | ⟨b1, i, b2, b3⟩
        · exact Or.inl rfl
        · refine Or.inr ⟨b1, i + 1, by simpa using b2, fun j hj o' f' hj' hf' => ?_⟩
          cases j with
          | zero => simp at hj'; subst hj'; exact lt_of_lt_of_le b1 (ho f' hf')
          | succ j => exact b3 j (by omega) o' f' (by simpa using hj') hf'

/-! ## C29 -/

/-- The energies and centres of the repetition reported: the first one with the least energy. -/
def IsBest [LinearOrder F] (l : List (Option F × List K)) (f : F) (y : List K) : Prop :=
  ∃ i : Nat, l[i]? = some (some f, y) ∧ (∀ o ∈ l, ∀ f', o.1 = some f' → f ≤ f') ∧
    ∀ j < i, ∀ o f', l[j]? = some o → o.1 = some f' → f < f'

/-- **C29.** For one or more repetitions, whatever the seeding and the refinement compute: the blocks owned by the object are
used without error, the energy and the centres are those of the first repetition with the least energy, and afterwards the
heap holds exactly the blocks of others and those of the object (nothing is leaked or freed twice).  The first energy must be
a number (see `cluster_nan`). -/
theorem cluster_best [LinearOrder F] (a : Algo (Option F) K ρ) (inf : Option F) (g : List K) (n : Nat) {h : Mem K}
    {base : Nat → Option (List K)} {c d : Option (Nat × List K)} (o : Owns h base (c.toList ++ d.toList)) (r : ρ)
    (hnum : (outcome a r).1.1 ≠ none) :
    ∃ f y p h', ∃ d' : Option (Nat × List K), cluster a fltLt inf g (n + 1) h { centers := c.map Prod.fst, cdist := d.map Prod.fst } r =
        some (some f, h', { centers := some p, cdist := d'.map Prod.fst }, after a (n + 1) r) ∧
      IsBest (outcomes a (n + 1) r) f y ∧ Owns h' base ((p, y) :: d'.toList) := by
  obtain ⟨s', c', d', b', e1, e2, hI⟩ := repetitions_spec a fltLt g (base := base) (n + 1) 0 none
    { h := h, o := { centers := c.map Prod.fst, cdist := d.map Prod.fst }, bestEnergy := inf, best := none, rng := r } c d none
    ⟨by simpa using o, rfl, rfl, rfl, rfl, by simp, by simp⟩
  obtain ⟨f0, hf0⟩ := Option.ne_none_iff_exists'.mp hnum
  rw [outcomes, List.foldl_cons] at hI
  obtain ⟨k, f, a1, a2, a3, a4, a5⟩ := keep_best (outcomes a n (outcome a r).2) (outcome a r).1 f0 hf0
  have hkeep : keep fltLt none (outcome a r).1 = (outcome a r).1 := rfl
  rw [hkeep, a1] at hI
  obtain ⟨h2, f1, f2⟩ := hI.owns.freeOpt
  obtain ⟨b, hb, hb2⟩ : ∃ b, b' = some b ∧ b.2 = k.2 := by
    have := hI.content; cases b' <;> simp_all
  refine ⟨f, k.2, b.1, h2, d', ?_, ?_, ?_⟩
  · unfold cluster
    rw [e1]
    simp only [Option.bind_eq_bind, Option.bind_some, hI.centers, f1, hI.energy k rfl, a2, hI.best, hb, hI.cdist, e2, Option.map_some]
  · have hk : k = (some f, k.2) := by rw [← a2]
    have hle : ∀ o ∈ outcomes a (n + 1) r, ∀ f', o.1 = some f' → f ≤ f' := by
      intro o ho f' hf'
      rw [outcomes] at ho
      rcases List.mem_cons.mp ho with rfl | ho
      · rw [hf0] at hf'; cases hf'; exact a4
      · exact a3 o ho f' hf'
    rcases a5 with h0 | ⟨b1, i, b2, b3⟩
    · exact ⟨0, by rw [outcomes, List.getElem?_cons_zero, ← h0, ← hk], hle, by omega⟩
    · refine ⟨i + 1, by rw [outcomes, List.getElem?_cons_succ, b2, ← hk], hle, fun j hj o' f' hj' hf' => ?_⟩
      rw [outcomes] at hj'
      cases j with
      | zero => simp at hj'; subst hj'; rw [hf0] at hf'; cases hf'; exact b1
      | succ j => exact b3 j (by omega) o' f' (by simpa using hj') hf'
  · refine f2.perm ?_
    rw [hb, Option.toList_some, ← hb2]
    exact List.perm_append_singleton _ _

/-- If the first energy is not a number, the first repetition is the one reported, whatever the others find. -/
theorem cluster_nan [LinearOrder F] (a : Algo (Option F) K ρ) (inf : Option F) (g : List K) (n : Nat) {h : Mem K}
    {base : Nat → Option (List K)} {c d : Option (Nat × List K)} (o : Owns h base (c.toList ++ d.toList)) (r : ρ)
    (hnum : (outcome a r).1.1 = none) :
    ∃ p h', ∃ d' : Option (Nat × List K), cluster a fltLt inf g (n + 1) h { centers := c.map Prod.fst, cdist := d.map Prod.fst } r =
        some (none, h', { centers := some p, cdist := d'.map Prod.fst }, after a (n + 1) r) ∧
      Owns h' base ((p, (outcome a r).1.2) :: d'.toList) := by
  obtain ⟨s', c', d', b', e1, e2, hI⟩ := repetitions_spec a fltLt g (base := base) (n + 1) 0 none
    { h := h, o := { centers := c.map Prod.fst, cdist := d.map Prod.fst }, bestEnergy := inf, best := none, rng := r } c d none
    ⟨by simpa using o, rfl, rfl, rfl, rfl, by simp, by simp⟩
  rw [outcomes, List.foldl_cons] at hI
  have hkeep : ∀ l : List (Option F × List K), l.foldl (fun k o => some (keep fltLt k o)) (some (outcome a r).1) = some (outcome a r).1 := by
    intro l
    induction l with
    | nil => rfl
    | cons o l ih =>
      rw [List.foldl_cons]
      have : keep fltLt (some (outcome a r).1) o = (outcome a r).1 := by
        simp only [keep, hnum]
        cases o.1 <;> simp [fltLt]
      rw [this, ih]
  have hk0 : keep fltLt none (outcome a r).1 = (outcome a r).1 := rfl
  rw [hk0, hkeep] at hI
  obtain ⟨h2, f1, f2⟩ := hI.owns.freeOpt
  obtain ⟨b, hb, hb2⟩ : ∃ b, b' = some b ∧ b.2 = (outcome a r).1.2 := by
    have := hI.content; cases b' <;> simp_all
  refine ⟨b.1, h2, d', ?_, ?_⟩
  · unfold cluster
    rw [e1]
    simp only [Option.bind_eq_bind, Option.bind_some, hI.centers, f1, hI.energy _ rfl, hnum, hI.best, hb, hI.cdist, e2, Option.map_some]
  · refine f2.perm ?_
    rw [hb, Option.toList_some, ← hb2]
    exact List.perm_append_singleton _ _

/-- Three repetitions with energies 5, 3, 3: the second one is reported; the heap was empty and holds one block afterwards. -/
example : (cluster (E := Option Nat) (K := Nat) (ρ := Nat)
      { seed := fun r => ([r], r), refine := fun x r => ((some (if r = 0 then 5 else 3), x ++ [r], .exchanged, none), r + 1) }
      fltLt none [77] 3 { blk := fun _ => none, fresh := 0 } { centers := none, cdist := none } 0).map
      (fun t => (t.1, t.2.2.1.centers.bind t.2.1.blk, (List.range 20).countP fun p => (t.2.1.blk p).isSome)) =
    some (some 3, some [1, 1], 1) := by decide +kernel

example : Owns ({ blk := fun _ => none, fresh := 0 } : Mem Nat) (fun _ => none)
    ((none : Option (Nat × List Nat)).toList ++ (none : Option (Nat × List Nat)).toList) :=
  ⟨by simp, by simp, by simp, by simp, by simp⟩

/-! ## C30 -/

/-- **C30 (as stated).** A copy is equal to the original, whatever the memory it is allocated in contained. -/
def CopyClaim : Prop :=
  ∀ (g k : Full Int), (∀ c, k.centers = some c → c.length = k.dimension * k.numCenters) →
    (∀ c, k.centerDistances = some c → c.length = k.numCenters * k.numCenters) → newCopy g k = k

/-- It is not: the threshold of the energy variation is not copied. -/
theorem copy_claim_false : ¬ CopyClaim := by
  intro h
  let k : Full Int := { dataType := 1, dimension := 1, numCenters := 1, numTrees := 3, maxNumComparisons := 100,
                        initialization := 1, algorithm := 0, distance := 1, maxNumIterations := 100, minEnergyVariation := 5,
                        numRepetitions := 1, verbosity := 0, centers := none, centerDistances := none }
  have := congrArg Full.minEnergyVariation
    (h { k with minEnergyVariation := 7 } k (fun c hc => by simp [k] at hc) (fun c hc => by simp [k] at hc))
  exact absurd this (by decide)

/-- **C30, partial.** A copy has the same fields and the same centres as the original, except for the initialization method and
the energy threshold, which are what the memory contained.  Missing: these two fields, for which the property is false. -/
theorem copy_partial (g k : Full K) (hc : ∀ c, k.centers = some c → c.length = k.dimension * k.numCenters)
    (hd : ∀ c, k.centerDistances = some c → c.length = k.numCenters * k.numCenters) :
    newCopy g k = { k with initialization := g.initialization, minEnergyVariation := g.minEnergyVariation } := by
  have h1 : k.centers.map (fun c => c.take (k.dimension * k.numCenters)) = k.centers := by
    cases h : k.centers with
    | none => rfl
    | some c => simp [List.take_of_length_le (Nat.le_of_eq (hc c h))]
  have h2 : k.centerDistances.map (fun c => c.take (k.numCenters * k.numCenters)) = k.centerDistances := by
    cases h : k.centerDistances with
    | none => rfl
    | some c => simp [List.take_of_length_le (Nat.le_of_eq (hd c h))]
  unfold newCopy
  rw [h1, h2]

end Verif.Kmeans
