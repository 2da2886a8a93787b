import Verif.Threads.RandModel
import Verif.Random.MTProps

/-! # C229, C230: the random numbers and timers of threads -/

namespace Verif.Threads

open Verif.Random

/-! ## Specification -/

/-- Number `k` of the MT19937 sequence with seed `s`. -/
def number (s : BitVec 32) (k : Nat) : BitVec 32 := Spec.output (Spec.words (Spec.seedWords s) (624 + k))

/-- What a thread knows of its own calls: the seed of its numbers, how many it has used, and when its timer was set. -/
structure Own where
  seed : BitVec 32
  used : Nat
  mark : Int

/-- A new thread. -/
def Own.fresh : Own := ⟨5489#32, 0, 0⟩

/-- The result that a thread expects of a call, from its own calls alone. -/
def Own.call (o : Own) : Call → Own × Res
  | .rand n => ({ o with used := o.used + n }, .nums ((List.range n).map fun i => number o.seed (o.used + i)))
  | .seed s => ({ o with seed := s, used := 0 }, .unit)
  | .tic c => ({ o with mark := c }, .unit)
  | .toc c => (o, .time (c - o.mark))
  | .forestNew _ => (o, .unit)
  | .forestBuild _ n => ({ o with used := o.used + n }, .nums ((List.range n).map fun i => number o.seed (o.used + i)))
  | .exit => (Own.fresh, .unit)

variable {T : Type} [DecidableEq T]

/-- The results that the threads expect. -/
def expected (w : T → Own) : List (T × Call) → List Res
  | [] => []
  | (t, c) :: es => ((w t).call c).2 :: expected (Function.update w t ((w t).call c).1) es

/-- No call concerns a forest. -/
def NoForest (es : List (T × Call)) : Prop := ∀ e ∈ es, (∀ f, e.2 ≠ .forestNew f) ∧ ∀ f n, e.2 ≠ .forestBuild f n

/-- Every thread that has made a call, except possibly `t`, has ended since. -/
def OthersEnded (es : List (T × Call)) (t : T) : Prop :=
  ∀ t', t' ≠ t → ∀ c, ((es.filter (·.1 = t')).map (·.2)).getLast? = some c → c = .exit

/-- Forests are built by the thread that made them, before it ends; `o` gives the threads that made the forests so far. -/
def LocalFrom (o : Nat → Option T) : List (T × Call) → Prop
  | [] => True
  | (t, .forestNew f) :: es => LocalFrom (Function.update o f (some t)) es
  | (t, .forestBuild f _) :: es => o f = some t ∧ LocalFrom o es
  | (t, .exit) :: es => LocalFrom (fun f => if o f = some t then none else o f) es
  | _ :: es => LocalFrom o es

/-- Each forest is made before it is built. -/
def MadeBefore (es : List (T × Call)) : Prop :=
  ∀ pre t f n post, es = pre ++ (t, Call.forestBuild f n) :: post → ∃ t', (t', Call.forestNew f) ∈ pre

/-! ## Lemmas -/

theorem draws_add (n m : Nat) (g : VlRand) :
    draws g (n + m) = (draws g n).bind fun r => (draws r.2 m).bind fun r' => some (r.1 ++ r'.1, r'.2) := by
  induction n generalizing g with
  | zero => cases h : draws g m <;> simp [draws, h]
  | succ n ih =>
    rw [Nat.succ_add, draws, draws]
    cases h : randUint32 g with
    | none => rfl
    | some r =>
      simp only [Option.bind_eq_bind, Option.bind_some, ih]
      cases h : draws r.2 n with
      | none => rfl
      | some r' =>
        simp only [Option.bind_some, Option.pure_def]
        cases h : draws r'.2 m <;> simp

theorem draws_good (n : Nat) (g : VlRand) (hg : Good g) : ∃ ys g', draws g n = some (ys, g') ∧ Good g' := by
  induction n generalizing g with
  | zero => exact ⟨[], g, rfl, hg⟩
  | succ n ih =>
    obtain ⟨y, g1, h1, h2⟩ := randUint32_total g hg
    obtain ⟨ys, g2, h3, h4⟩ := ih g1 h2
    exact ⟨y :: ys, g2, by simp [draws, h1, h3], h4⟩

/-- The generator is about to give number `u` of the sequence with seed `s`. -/
def At (g : VlRand) (s : BitVec 32) (u : Nat) : Prop :=
  Good g ∧ ∀ n, ∃ g', draws g n = some ((List.range n).map fun i => number s (u + i), g')

theorem At.draw {g : VlRand} {s : BitVec 32} {u : Nat} (h : At g s u) (n : Nat) :
    ∃ g', draws g n = some ((List.range n).map fun i => number s (u + i), g') ∧ At g' s (u + n) := by
  obtain ⟨g', h1⟩ := h.2 n
  obtain ⟨ys, g1, h2, h3⟩ := draws_good n g h.1
  rw [h1] at h2
  cases h2
  refine ⟨g', h1, h3, fun m => ?_⟩
  obtain ⟨g2, h4⟩ := h.2 (n + m)
  rw [draws_add, h1, Option.bind_some] at h4
  cases h5 : draws g' m with
  | none => rw [h5] at h4; cases h4
  | some r =>
    rw [h5] at h4
    simp only [Option.bind_some, Option.some.injEq, Prod.mk.injEq, List.range_add, List.map_append, List.append_cancel_left_eq,
      List.map_map] at h4
    refine ⟨r.2, ?_⟩
    have : r.1 = (List.range m).map fun i => number s (u + n + i) := by
      rw [h4.1]
      refine List.map_congr_left fun i _ => ?_
      simp [Nat.add_assoc]
    rw [← this]

theorem At.init : At randInit 5489#32 0 := by
  refine ⟨⟨List.length_replicate, Nat.le_refl 625⟩, fun n => ?_⟩
  cases n with
  | zero => exact ⟨randInit, rfl⟩
  | succ n =>
    obtain ⟨g, h⟩ := unseeded_stream n
    exact ⟨g, by rw [h]; simp [number]⟩

theorem At.seed {g : VlRand} (hg : Good g) (s : BitVec 32) : ∃ g', randSeed g s = some g' ∧ At g' s 0 := by
  obtain ⟨g', -, h, -⟩ := seeded_stream g hg s 0
  refine ⟨g', h, ?_, fun n => ?_⟩
  · obtain ⟨a, ha, ha1, ha2, -⟩ := randSeed_spec g s hg.1
    rw [h] at ha
    cases ha
    exact ⟨ha1, by rw [ha2]; simp [N]⟩
  · obtain ⟨g1, g2, h1, h2⟩ := seeded_stream g hg s n
    rw [h] at h1
    cases h1
    exact ⟨g2, by rw [h2]; simp [number]⟩

/-- The state of a thread is what its own calls make it. -/
def Fits (st : TState) (o : Own) : Prop := At st.rand o.seed o.used ∧ st.mark = o.mark

structure RInv (s : Sys T) (w : T → Own) (o : Nat → Option T) : Prop where
  idle : ∀ t, s.key t = none → w t = Own.fresh
  fits : ∀ t p, s.key t = some p → ∃ st, s.heap p = some st ∧ Fits st (w t)
  inj : ∀ t t' p, s.key t = some p → s.key t' = some p → t = t'
  live : ∀ p, s.heap p ≠ none → ∃ t, s.key t = some p
  bound : ∀ p, s.heap p ≠ none → p < s.next
  forest : ∀ f t, o f = some t → ∃ p, s.forest f = some p ∧ s.key t = some p

omit [DecidableEq T] in
theorem RInv.loaded : RInv (Verif.Threads.loaded : Sys T) (fun _ => Own.fresh) (fun _ => none) :=
  ⟨fun _ _ => rfl, (fun _ _ h => by cases h), (fun _ _ _ h => by cases h), fun _ h => absurd rfl h, fun _ h => absurd rfl h, (fun _ _ h => by cases h)⟩

theorem getState_inv {s : Sys T} {w : T → Own} {o : Nat → Option T} (h : RInv s w o) (t : T) :
    RInv (getState s t).1 w o ∧ (getState s t).1.key t = some (getState s t).2 ∧ (getState s t).1.forest = s.forest := by
  unfold getState
  cases hk : s.key t with
  | some p =>
    have e : Function.update s.key t (some p) = s.key := by rw [← hk]; exact Function.update_eq_self t s.key
    simp only [e]
    exact ⟨h, hk, trivial⟩
  | none =>
    refine ⟨?_, by simp, rfl⟩
    have hfree : s.heap s.next = none := by
      by_contra hc
      exact Nat.lt_irrefl _ (h.bound _ hc)
    have hne : ∀ t' p, s.key t' = some p → p ≠ s.next := by
      intro t' p hp e
      obtain ⟨st, h1, -⟩ := h.fits t' p hp
      rw [e, hfree] at h1
      cases h1
    constructor
    · intro t' h1
      by_cases e : t' = t
      · subst e; simp [stateNew] at h1
      · simp only [stateNew, Function.update_of_ne e] at h1
        exact h.idle t' h1
    · intro t' p h1
      by_cases e : t' = t
      · subst e
        simp only [stateNew, Function.update_self, Option.some.injEq] at h1
        subst h1
        refine ⟨⟨randInit, 0⟩, by simp [stateNew], ?_⟩
        rw [h.idle t' hk]
        exact ⟨At.init, rfl⟩
      · simp only [stateNew, Function.update_of_ne e] at h1
        obtain ⟨st, h2, h3⟩ := h.fits t' p h1
        exact ⟨st, by simp only [stateNew]; rw [Function.update_of_ne (hne t' p h1)]; exact h2, h3⟩
    · intro t1 t2 p h1 h2
      by_cases e1 : t1 = t <;> by_cases e2 : t2 = t
      · rw [e1, e2]
      · subst e1
        simp only [stateNew, Function.update_self, Function.update_of_ne e2, Option.some.injEq] at h1 h2
        exact absurd h1.symm (hne t2 p h2)
      · subst e2
        simp only [stateNew, Function.update_self, Function.update_of_ne e1, Option.some.injEq] at h1 h2
        exact absurd h2.symm (hne t1 p h1)
      · simp only [stateNew, Function.update_of_ne e1, Function.update_of_ne e2] at h1 h2
        exact h.inj t1 t2 p h1 h2
    · intro p hp
      by_cases e : p = s.next
      · exact ⟨t, by simp [stateNew, e]⟩
      · simp only [stateNew, Function.update_of_ne e] at hp
        obtain ⟨t', h1⟩ := h.live p hp
        refine ⟨t', ?_⟩
        have : t' ≠ t := fun e => by rw [e, hk] at h1; cases h1
        simp only [stateNew, Function.update_of_ne this]
        exact h1
    · intro p hp
      by_cases e : p = s.next
      · simp [stateNew, e]
      · simp only [stateNew, Function.update_of_ne e] at hp ⊢
        exact Nat.lt_succ_of_lt (h.bound p hp)
    · intro f t' h1
      obtain ⟨p, h2, h3⟩ := h.forest f t' h1
      refine ⟨p, h2, ?_⟩
      have : t' ≠ t := fun e => by rw [e, hk] at h3; cases h3
      simp only [stateNew, Function.update_of_ne this]
      exact h3

/-- Writing to the state of a thread. -/
theorem RInv.write {s : Sys T} {w : T → Own} {o : Nat → Option T} (h : RInv s w o) {t : T} {p : Nat} (hp : s.key t = some p) {st : TState}
    {x : Own} (hx : Fits st x) : RInv { s with heap := Function.update s.heap p (some st) } (Function.update w t x) o := by
  constructor
  · intro t' h1
    have : t' ≠ t := fun e => by rw [e] at h1; simp only [hp] at h1; cases h1
    rw [Function.update_of_ne this]
    exact h.idle t' h1
  · intro t' q h1
    by_cases e : t' = t
    · subst e
      have : q = p := by simp only [hp, Option.some.injEq] at h1; exact h1.symm
      subst this
      exact ⟨st, by simp, by simpa using hx⟩
    · have : q ≠ p := fun e' => e (h.inj t' t p (e' ▸ h1) hp)
      obtain ⟨st', h2, h3⟩ := h.fits t' q h1
      exact ⟨st', by simp only [Function.update_of_ne this]; exact h2, by rw [Function.update_of_ne e]; exact h3⟩
  · exact h.inj
  · intro q hq
    by_cases e : q = p
    · exact ⟨t, by rw [e]; exact hp⟩
    · simp only [Function.update_of_ne e] at hq
      exact h.live q hq
  · intro q hq
    by_cases e : q = p
    · subst e
      obtain ⟨st', h2, -⟩ := h.fits t q hp
      exact h.bound q (by rw [h2]; simp)
    · simp only [Function.update_of_ne e] at hq
      exact h.bound q hq
  · exact h.forest

theorem useRand_inv {s : Sys T} {w : T → Own} {o : Nat → Option T} (h : RInv s w o) {t : T} {p : Nat} (hp : s.key t = some p) (n : Nat) :
    ∃ s', useRand s p n = some (s', .nums ((List.range n).map fun i => number (w t).seed ((w t).used + i))) ∧
      RInv s' (Function.update w t { w t with used := (w t).used + n }) o := by
  obtain ⟨st, h1, h2, h3⟩ := h.fits t p hp
  obtain ⟨g, h4, h5⟩ := h2.draw n
  refine ⟨{ s with heap := Function.update s.heap p (some { st with rand := g }) }, by simp [useRand, h1, h4], ?_⟩
  exact h.write hp ⟨h5, h3⟩

theorem update_call {w : T → Own} {t : T} : Function.update w t (w t) = w := Function.update_eq_self t w

theorem deleteState_inv {s : Sys T} {w : T → Own} {o : Nat → Option T} (h : RInv s w o) (t : T) :
    ∃ s', deleteState s t = some s' ∧ RInv s' (Function.update w t Own.fresh) (fun f => if o f = some t then none else o f) ∧
      s'.key t = none := by
  unfold deleteState
  cases hk : s.key t with
  | none =>
    refine ⟨s, rfl, ?_, hk⟩
    rw [← h.idle t hk, update_call]
    exact ⟨h.idle, h.fits, h.inj, h.live, h.bound, fun f t' hf => by
      by_cases e : o f = some t
      · rw [if_pos e] at hf; cases hf
      · rw [if_neg e] at hf; exact h.forest f t' hf⟩
  | some p =>
    obtain ⟨st, h1, -⟩ := h.fits t p hk
    refine ⟨{ s with heap := Function.update s.heap p none, key := Function.update s.key t none }, by simp [h1], ?_, by simp⟩
    constructor
    · intro t' h1
      by_cases e : t' = t
      · subst e; simp
      · simp only [Function.update_of_ne e] at h1 ⊢
        exact h.idle t' h1
    · intro t' q h2
      by_cases e : t' = t
      · subst e; simp at h2
      · simp only [Function.update_of_ne e] at h2 ⊢
        have : q ≠ p := fun e' => e (h.inj t' t p (e' ▸ h2) hk)
        rw [Function.update_of_ne this]
        exact h.fits t' q h2
    · intro t1 t2 q h2 h3
      by_cases e1 : t1 = t
      · subst e1; simp at h2
      · by_cases e2 : t2 = t
        · subst e2; simp at h3
        · simp only [Function.update_of_ne e1, Function.update_of_ne e2] at h2 h3
          exact h.inj t1 t2 q h2 h3
    · intro q hq
      by_cases e : q = p
      · subst e; simp at hq
      · simp only [Function.update_of_ne e] at hq
        obtain ⟨t', h2⟩ := h.live q hq
        refine ⟨t', ?_⟩
        have : t' ≠ t := fun e' => by rw [e', hk] at h2; exact e (Option.some.inj h2).symm
        simp only [Function.update_of_ne this]
        exact h2
    · intro q hq
      by_cases e : q = p
      · subst e; simp at hq
      · simp only [Function.update_of_ne e] at hq
        exact h.bound q hq
    · intro f t' hf
      by_cases e : o f = some t
      · rw [if_pos e] at hf; cases hf
      · rw [if_neg e] at hf
        obtain ⟨q, h2, h3⟩ := h.forest f t' hf
        have : t' ≠ t := fun e' => e (e' ▸ hf)
        exact ⟨q, h2, by simp only [Function.update_of_ne this]; exact h3⟩

/-- The threads that made the forests, after a call. -/
def ownerStep (o : Nat → Option T) (t : T) : Call → (Nat → Option T)
  | .forestNew f => Function.update o f (some t)
  | .exit => fun f => if o f = some t then none else o f
  | _ => o

theorem callStep_inv {s : Sys T} {w : T → Own} {o : Nat → Option T} (h : RInv s w o) (t : T) (c : Call)
    (hc : ∀ f n, c = .forestBuild f n → o f = some t) :
    ∃ s', callStep s t c = some (s', ((w t).call c).2) ∧ RInv s' (Function.update w t ((w t).call c).1) (ownerStep o t c) ∧
      (c = .exit → s'.key t = none) := by
  obtain ⟨i, k, hf⟩ := getState_inv h t
  obtain ⟨st, h1, h2⟩ := i.fits t _ k
  cases c with
  | rand n =>
    obtain ⟨s', h3, h4⟩ := useRand_inv i k n
    exact ⟨s', h3, h4, fun e => by cases e⟩
  | seed x =>
    obtain ⟨g, h3, h4⟩ := At.seed h2.1.1 x
    exact ⟨{ (getState s t).1 with heap := Function.update (getState s t).1.heap (getState s t).2 (some { st with rand := g }) },
      by simp only [callStep, h1, h3, Option.bind_eq_bind, Option.bind_some]; rfl, i.write k ⟨h4, h2.2⟩, fun e => by cases e⟩
  | tic c =>
    exact ⟨{ (getState s t).1 with heap := Function.update (getState s t).1.heap (getState s t).2 (some { st with mark := c }) },
      by simp only [callStep, h1, Option.bind_eq_bind, Option.bind_some]; rfl, i.write k ⟨h2.1, rfl⟩, fun e => by cases e⟩
  | toc c =>
    refine ⟨_, by simp only [callStep, h1, Option.bind_eq_bind, Option.bind_some, h2.2]; rfl, ?_, fun e => by cases e⟩
    simp only [Own.call, update_call]
    exact i
  | forestNew f =>
    refine ⟨_, rfl, ?_, fun e => by cases e⟩
    simp only [Own.call, update_call, ownerStep]
    refine ⟨i.idle, i.fits, i.inj, i.live, i.bound, fun f' t' h3 => ?_⟩
    by_cases e : f' = f
    · subst e
      simp only [Function.update_self, Option.some.injEq] at h3
      subst h3
      exact ⟨(getState s t).2, Function.update_self .., k⟩
    · rw [Function.update_of_ne e] at h3
      obtain ⟨p, h4, h5⟩ := i.forest f' t' h3
      exact ⟨p, by simp only [Function.update_of_ne e]; exact h4, h5⟩
  | forestBuild f n =>
    obtain ⟨p, h3, h4⟩ := h.forest f t (hc f n rfl)
    obtain ⟨s', h5, h6⟩ := useRand_inv h h4 n
    exact ⟨s', by simp only [callStep, h3, Option.bind_eq_bind, Option.bind_some, h5]; rfl, h6, fun e => by cases e⟩
  | exit =>
    obtain ⟨s', h3, h4, h5⟩ := deleteState_inv h t
    exact ⟨s', by simp only [callStep, h3, Option.bind_eq_bind, Option.bind_some]; rfl, h4, fun _ => h5⟩

theorem LocalFrom.step {o : Nat → Option T} {t : T} {c : Call} {es : List (T × Call)} (h : LocalFrom o ((t, c) :: es)) :
    (∀ f n, c = .forestBuild f n → o f = some t) ∧ LocalFrom (ownerStep o t c) es := by
  cases c with
  | forestBuild f n => exact ⟨(fun _ _ e => by cases e; exact h.1), h.2⟩
  | _ => exact ⟨fun _ _ e => by (cases e), h⟩

theorem runCalls_inv {s : Sys T} {w : T → Own} {o : Nat → Option T} (h : RInv s w o) (es : List (T × Call)) (hl : LocalFrom o es) :
    ∃ s' w' o', runCalls s es = some (s', expected w es) ∧ RInv s' w' o' := by
  induction es generalizing s w o with
  | nil => exact ⟨s, w, o, rfl, h⟩
  | cons e es ih =>
    obtain ⟨t, c⟩ := e
    obtain ⟨h1, h2⟩ := hl.step
    obtain ⟨s1, h3, h4, -⟩ := callStep_inv h t c h1
    obtain ⟨s2, w2, o2, h5, h6⟩ := ih h4 h2
    exact ⟨s2, w2, o2, by simp only [runCalls, h3, h5, Option.bind_eq_bind, Option.bind_some, expected], h6⟩

theorem runCalls_append (s : Sys T) (es : List (T × Call)) (t : T) (c : Call) :
    runCalls s (es ++ [(t, c)]) =
      (runCalls s es).bind fun r => (callStep r.1 t c).bind fun r' => some (r'.1, r.2 ++ [r'.2]) := by
  induction es generalizing s with
  | nil =>
    simp only [List.nil_append, runCalls, Option.bind_eq_bind, Option.bind_some]
  | cons e es ih =>
    obtain ⟨t', c'⟩ := e
    simp only [List.cons_append, runCalls, Option.bind_eq_bind]
    cases callStep s t' c' with
    | none => rfl
    | some r =>
      simp only [Option.bind_some, ih]
      cases runCalls r.1 es with
      | none => rfl
      | some r1 =>
        simp only [Option.bind_some]
        cases callStep r1.1 t c <;> simp

theorem getState_key_ne (s : Sys T) {t t' : T} (h : t ≠ t') : (getState s t').1.key t = s.key t := by
  unfold getState
  simp only [Function.update_of_ne h]
  cases s.key t' <;> rfl

omit [DecidableEq T] in
theorem useRand_key {s s' : Sys T} {p n : Nat} {r : Res} (h : useRand s p n = some (s', r)) : s'.key = s.key := by
  unfold useRand at h
  cases h1 : s.heap p with
  | none => simp [h1] at h
  | some st =>
    cases h2 : draws st.rand n with
    | none => simp [h1, h2] at h
    | some x =>
      simp only [h1, h2, Option.bind_eq_bind, Option.bind_some, Option.some.injEq, Prod.mk.injEq] at h
      rw [← h.1]

theorem callStep_key_ne {s s' : Sys T} {t t' : T} {c : Call} {r : Res} (h : callStep s t' c = some (s', r)) (hne : t ≠ t') :
    s'.key t = s.key t := by
  cases c with
  | rand n =>
    rw [useRand_key (p := (getState s t').2) (n := n) h]
    exact getState_key_ne s hne
  | seed x =>
    simp only [callStep, Option.bind_eq_bind] at h
    cases h1 : (getState s t').1.heap (getState s t').2 with
    | none => simp [h1] at h
    | some st =>
      cases h2 : randSeed st.rand x with
      | none => simp [h1, h2] at h
      | some g =>
        simp only [h1, h2, Option.bind_some, Option.some.injEq, Prod.mk.injEq] at h
        rw [← h.1]
        exact getState_key_ne s hne
  | tic x =>
    simp only [callStep, Option.bind_eq_bind] at h
    cases h1 : (getState s t').1.heap (getState s t').2 with
    | none => simp [h1] at h
    | some st =>
      simp only [h1, Option.bind_some, Option.some.injEq, Prod.mk.injEq] at h
      rw [← h.1]
      exact getState_key_ne s hne
  | toc x =>
    simp only [callStep, Option.bind_eq_bind] at h
    cases h1 : (getState s t').1.heap (getState s t').2 with
    | none => simp [h1] at h
    | some st =>
      simp only [h1, Option.bind_some, Option.some.injEq, Prod.mk.injEq] at h
      rw [← h.1]
      exact getState_key_ne s hne
  | forestNew f =>
    simp only [callStep, Option.some.injEq, Prod.mk.injEq] at h
    rw [← h.1]
    exact getState_key_ne s hne
  | forestBuild f n =>
    simp only [callStep, Option.bind_eq_bind] at h
    cases h1 : s.forest f with
    | none => simp [h1] at h
    | some p =>
      simp only [h1, Option.bind_some] at h
      rw [useRand_key h]
  | exit =>
    simp only [callStep, Option.bind_eq_bind, deleteState] at h
    cases h1 : s.key t' with
    | none =>
      simp only [h1, Option.bind_some, Option.some.injEq, Prod.mk.injEq] at h
      rw [← h.1]
    | some p =>
      cases h2 : s.heap p with
      | none => simp [h1, h2] at h
      | some st =>
        simp only [h1, h2, Option.bind_some, Option.some.injEq, Prod.mk.injEq] at h
        rw [← h.1]
        exact Function.update_of_ne hne _ _

theorem exit_key {s s' : Sys T} {t : T} {r : Res} (h : callStep s t .exit = some (s', r)) : s'.key t = none := by
  simp only [callStep, Option.bind_eq_bind, deleteState] at h
  cases h1 : s.key t with
  | none =>
    simp only [h1, Option.bind_some, Option.some.injEq, Prod.mk.injEq] at h
    rw [← h.1, h1]
  | some p =>
    cases h2 : s.heap p with
    | none => simp [h1, h2] at h
    | some st =>
      simp only [h1, h2, Option.bind_some, Option.some.injEq, Prod.mk.injEq] at h
      rw [← h.1]
      simp

theorem key_ended (es : List (T × Call)) (t : T) (s : Sys T) (rs : List Res) (h : runCalls (loaded : Sys T) es = some (s, rs))
    (hl : ∀ c, ((es.filter (·.1 = t)).map (·.2)).getLast? = some c → c = .exit) : s.key t = none := by
  induction es using List.reverseRecOn generalizing s rs with
  | nil =>
    simp only [runCalls, Option.some.injEq, Prod.mk.injEq] at h
    rw [← h.1]
    rfl
  | append_singleton es e ih =>
    obtain ⟨t', c⟩ := e
    rw [runCalls_append] at h
    cases h1 : runCalls (loaded : Sys T) es with
    | none => rw [h1] at h; cases h
    | some r =>
      rw [h1, Option.bind_some] at h
      cases h2 : callStep r.1 t' c with
      | none => rw [h2] at h; cases h
      | some r' =>
        rw [h2, Option.bind_some, Option.some.injEq, Prod.mk.injEq] at h
        rw [← h.1]
        by_cases e : t' = t
        · subst e
          have hc : c = .exit := hl c (by simp)
          subst hc
          exact exit_key (r := r'.2) h2
        · rw [callStep_key_ne (r := r'.2) h2 (Ne.symm e)]
          exact ih r.1 r.2 h1 (by simpa [e] using hl)

theorem local_of_noForest (es : List (T × Call)) (h : NoForest es) (o : Nat → Option T) : LocalFrom o es := by
  induction es generalizing o with
  | nil => trivial
  | cons e es ih =>
    obtain ⟨t, c⟩ := e
    have h1 := h (t, c) (by simp)
    have h2 := fun o => ih (fun e he => h e (by simp [he])) o
    cases c with
    | forestNew f => exact absurd rfl (h1.1 f)
    | forestBuild f n => exact absurd rfl (h1.2 f n)
    | _ => exact h2 _

/-! ## Properties -/

/-- C229: in every interleaving of the calls of any number of threads, each thread gets the random numbers and the times that follow from
its own calls alone; and when the last thread unloads the library no state of a thread is left. -/
theorem threads_independent (es : List (T × Call)) (h : NoForest es) :
    ∃ s, runCalls (loaded : Sys T) es = some (s, expected (fun _ => Own.fresh) es) ∧
      ∀ t, OthersEnded es t → ∃ s', deleteState s t = some s' ∧ ∀ p, s'.heap p = none := by
  obtain ⟨s, w, o, h1, h2⟩ := runCalls_inv RInv.loaded es (local_of_noForest es h _)
  refine ⟨s, h1, fun t ht => ?_⟩
  obtain ⟨s', h3, h4, h5⟩ := deleteState_inv h2 t
  refine ⟨s', h3, fun p => ?_⟩
  by_contra hp
  obtain ⟨t', h6⟩ := h4.live p hp
  by_cases e : t' = t
  · rw [e, h5] at h6; cases h6
  · have h7 := key_ended es t' s _ h1 (ht t' e)
    have h8 : s'.key t' = s.key t' :=
      callStep_key_ne (c := .exit) (r := .unit) (by simp only [callStep, h3, Option.bind_eq_bind, Option.bind_some]) e
    rw [h8, h7] at h6
    cases h6

/-- C230: so it is with forests, if each is built by the thread that made it. -/
theorem forests_local_partial (es : List (T × Call)) (h : LocalFrom (fun _ => none) es) :
    ∃ s, runCalls (loaded : Sys T) es = some (s, expected (fun _ => Own.fresh) es) := by
  obtain ⟨s, w, o, h1, -⟩ := runCalls_inv RInv.loaded es h
  exact ⟨s, h1⟩

/-- An object uses the numbers of the thread that uses it. -/
def ForestClaim : Prop :=
  ∀ es : List (Nat × Call), MadeBefore es → ∃ s, runCalls (loaded : Sys Nat) es = some (s, expected (fun _ => Own.fresh) es)

/-- Building a forest after the thread that made it has ended uses memory that was freed, however many numbers are drawn. -/
theorem forest_dangles (t t' : T) (f n : Nat) :
    runCalls (loaded : Sys T) [(t, .forestNew f), (t, .exit), (t', .forestBuild f n)] = none := by
  simp [runCalls, callStep, getState, stateNew, loaded, deleteState, useRand]

/-- Building it in another thread while the first one goes on takes the numbers of the first one. -/
theorem forest_takes_numbers (t t' : T) (f n m : Nat) :
    ∃ s, runCalls (loaded : Sys T) [(t, .forestNew f), (t', .forestBuild f n), (t, .rand m)] =
      some (s, [.unit, .nums ((List.range n).map fun i => number 5489#32 i), .nums ((List.range m).map fun i => number 5489#32 (n + i))]) := by
  obtain ⟨g1, h1, h2⟩ := At.init.draw n
  obtain ⟨g2, h3, -⟩ := h2.draw m
  simp only [Nat.zero_add] at h1 h3
  simp [runCalls, callStep, getState, stateNew, loaded, useRand, h1, h3]

theorem forest_claim_false : ¬ ForestClaim := by
  intro h
  obtain ⟨s, e⟩ := h [(0, .forestNew 0), (0, .exit), (1, .forestBuild 0 1)] (by
    intro pre t f n post e
    match pre, e with
    | [], e => simp at e
    | [a], e => simp at e
    | [a, b], e =>
      simp only [List.cons_append, List.nil_append, List.cons.injEq, Prod.mk.injEq, Call.forestBuild.injEq] at e
      exact ⟨0, by rw [← e.1, ← e.2.2.1.2.1]; simp⟩
    | a :: b :: c :: d, e => simp at e)
  rw [forest_dangles 0 1 0 1] at e
  cases e

/-- Two threads whose calls interleave; the second seeds its numbers, the first ends and begins again. -/
def exCalls : List (Nat × Call) :=
  [(0, .rand 2), (1, .seed 7#32), (0, .tic 10), (1, .rand 3), (0, .rand 1), (0, .toc 25), (0, .exit), (0, .rand 1), (0, .exit)]

example : NoForest exCalls ∧ OthersEnded exCalls 1 := by
  constructor
  · intro e he
    simp only [exCalls, List.mem_cons, List.not_mem_nil, or_false] at he
    rcases he with rfl | rfl | rfl | rfl | rfl | rfl | rfl | rfl | rfl <;> simp
  · intro t' ht c hc
    by_cases h0 : t' = 0
    · subst h0
      simp [exCalls] at hc
      exact hc.symm
    · simp [exCalls, Ne.symm h0, Ne.symm ht] at hc

example : expected (fun _ => Own.fresh) exCalls =
    [.nums [number 5489#32 0, number 5489#32 1], .unit, .unit, .nums [number 7#32 0, number 7#32 1, number 7#32 2], .nums [number 5489#32 2],
      .time 15, .unit, .nums [number 5489#32 0], .unit] := rfl

example : LocalFrom (fun _ => none) [((0 : Nat), .forestNew 3), (1, .rand 2), (0, .forestBuild 3 5), (0, .exit)] := by
  simp [LocalFrom]

end Verif.Threads
