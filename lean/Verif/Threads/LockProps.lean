import Verif.Threads.LockModel

/-!
# The lock of the library state is a recursive mutual exclusion lock
-/

namespace Verif.Threads

variable {T : Type} [DecidableEq T]

/-- The positions in which a thread holds the POSIX mutex. -/
def PC.holds : PC → Bool
  | .lockTest | .lockWhile | .lockRelease | .unlockDec | .unlockTest | .unlockRelease => true
  | _ => false

/-- What a position adds to the number of times the thread owns the lock. -/
def PC.pending : PC → Nat
  | .lockRelease | .unlockWant | .unlockDec => 1
  | _ => 0

/-- The positions of a thread that waits for the lock. -/
def PC.blocked : PC → Bool
  | .lockWhile | .waiting | .woken => true
  | _ => false

/-- The positions of a thread that will wake up another one or take the lock. -/
def PC.active : PC → Bool
  | .lockWhile | .woken | .unlockTest => true
  | _ => false

structure Inv (s : State T) : Prop where
  held : ∀ t, (s.pc t).holds = true ↔ s.held = some t
  own : ∀ t, s.depth t + (s.pc t).pending = if s.owner = t then s.count else 0
  blocked : ∀ t, (s.pc t).blocked = true → s.depth t = 0
  signal : (∃ t, s.pc t = .waiting) → s.count ≥ 1 ∨ ∃ t, (s.pc t).active = true

theorem inv_init {s : State T} (h : Init s) : Inv s := by
  obtain ⟨h1, h2, h3, h4⟩ := h
  refine ⟨fun t => ?_, fun t => ?_, fun t _ => h4 t, fun ⟨t, ht⟩ => ?_⟩
  · rw [h3, h1]; simp [PC.holds]
  · rw [h3, h4, h2]; simp [PC.pending]
  · rw [h3] at ht; exact absurd ht (by decide)

/-- The part of the invariant on the POSIX mutex, when thread `t` acquires it. -/
theorem held_acquire {s : State T} (h : ∀ t, (s.pc t).holds = true ↔ s.held = some t) (hn : s.held = none) {t : T} {p : PC} (hp : p.holds = true) :
    ∀ u, ((Function.update s.pc t p) u).holds = true ↔ some t = some u := by
  intro u
  by_cases e : u = t
  · subst e; simp [hp]
  · rw [Function.update_of_ne e, h u, hn]
    simp [Ne.symm e]

theorem held_release {s : State T} (h : ∀ t, (s.pc t).holds = true ↔ s.held = some t) {t : T} (ht : (s.pc t).holds = true) {p : PC} (hp : p.holds = false) :
    ∀ u, ((Function.update s.pc t p) u).holds = true ↔ (none : Option T) = some u := by
  intro u
  by_cases e : u = t
  · subst e; simp [hp]
  · rw [Function.update_of_ne e, h u, (h t).1 ht]
    simp [Ne.symm e]

theorem held_keep {s : State T} (h : ∀ t, (s.pc t).holds = true ↔ s.held = some t) {t : T} {p : PC} (hp : p.holds = (s.pc t).holds) :
    ∀ u, ((Function.update s.pc t p) u).holds = true ↔ s.held = some u := by
  intro u
  by_cases e : u = t
  · subst e; rw [Function.update_self, hp, h]
  · rw [Function.update_of_ne e, h u]

/-- If thread `t` moves without being or becoming one that waits, the others still wait or do not. -/
theorem signal_move {s : State T} {t : T} {p : PC} (hp : p ≠ .waiting) {c : Nat}
    (h : (∃ u, s.pc u = .waiting) → c ≥ 1 ∨ p.active = true ∨ ∃ u, u ≠ t ∧ (s.pc u).active = true) :
    (∃ u, (Function.update s.pc t p) u = .waiting) → c ≥ 1 ∨ ∃ u, ((Function.update s.pc t p) u).active = true := by
  rintro ⟨u, hu⟩
  have : s.pc u = .waiting := by
    by_cases e : u = t
    · subst e; rw [Function.update_self] at hu; exact absurd hu hp
    · rwa [Function.update_of_ne e] at hu
  rcases h ⟨u, this⟩ with h | h | ⟨v, hv, h⟩
  · exact .inl h
  · exact .inr ⟨t, by rwa [Function.update_self]⟩
  · exact .inr ⟨v, by rwa [Function.update_of_ne hv]⟩

theorem inv_step {s s' : State T} (hi : Inv s) (h : Step s s') : Inv s' := by
  have sig : ∀ t, (s.pc t).active = false → (∃ u, s.pc u = .waiting) → s.count ≥ 1 ∨ ∃ u, u ≠ t ∧ (s.pc u).active = true := by
    intro t ht hw
    rcases hi.signal hw with h | ⟨u, hu⟩
    · exact .inl h
    · refine .inr ⟨u, fun e => ?_, hu⟩
      subst e; rw [hu] at ht; exact absurd ht (by decide)
  have blk : ∀ {t : T} {p : PC}, (p.blocked = true → s.depth t = 0) → ∀ u, ((Function.update s.pc t p) u).blocked = true → s.depth u = 0 := by
    intro t p hp u hu
    by_cases e : u = t
    · subst e; rw [Function.update_self] at hu; exact hp hu
    · rw [Function.update_of_ne e] at hu; exact hi.blocked u hu
  have own : ∀ {t : T} {p : PC}, p.pending = (s.pc t).pending → ∀ u, s.depth u + ((Function.update s.pc t p) u).pending = if s.owner = u then s.count else 0 := by
    intro t p hp u
    by_cases e : u = t
    · subst e; rw [Function.update_self, hp]; exact hi.own u
    · rw [Function.update_of_ne e]; exact hi.own u
  cases h with
  | lib h =>
    cases h with
    | lockAcquire t h1 h2 =>
      refine ⟨held_acquire hi.held h2 rfl, own (by rw [h1]; rfl), blk (fun h => absurd h (by decide)), signal_move (by decide) fun hw => ?_⟩
      exact (sig t (by rw [h1]; rfl) hw).imp id .inr
    | lockAgain t h1 h2 h3 =>
      refine ⟨held_keep hi.held (by rw [h1]; rfl), fun u => ?_, blk (fun h => absurd h (by decide)), fun _ => .inl (by simp)⟩
      have := hi.own u
      by_cases e : u = t
      · subst e
        rw [h1] at this
        simp only [Function.update_self, PC.pending, if_pos h3] at this ⊢
        omega
      · simp only [Function.update_of_ne e]
        rw [if_neg (by rw [h3]; exact Ne.symm e)] at this ⊢
        exact this
    | lockOther t h1 h2 =>
      refine ⟨held_keep hi.held (by rw [h1]; rfl), own (by rw [h1]; rfl), blk (fun _ => ?_), signal_move (by decide) fun hw => ?_⟩
      · have := hi.own t
        rw [h1] at this
        simp only [PC.pending] at this
        split at this
        · rename_i e
          have : ¬ s.count ≥ 1 := fun h => h2 ⟨h, e⟩
          omega
        · omega
      · exact .inr (.inl rfl)
    | lockWait t h1 h2 =>
      refine ⟨held_release hi.held (by rw [h1]; rfl) rfl, own (by rw [h1]; rfl), blk (fun _ => hi.blocked t (by rw [h1]; rfl)), fun _ => .inl h2⟩
    | lockResume t h1 h2 =>
      refine ⟨held_acquire hi.held h2 rfl, own (by rw [h1]; rfl), blk (fun _ => hi.blocked t (by rw [h1]; rfl)), signal_move (by decide) fun hw => ?_⟩
      exact .inr (.inl rfl)
    | lockTake t h1 h2 =>
      refine ⟨held_keep hi.held (by rw [h1]; rfl), fun u => ?_, blk (fun h => absurd h (by decide)), fun _ => .inl (by simp)⟩
      have := hi.own u
      have hc : s.count = 0 := by omega
      rw [hc, ite_self] at this
      by_cases e : u = t
      · subst e
        rw [h1] at this
        simp only [Function.update_self, PC.pending, if_true] at this ⊢
        omega
      · simp only [Function.update_of_ne e]
        rw [if_neg (Ne.symm e)]
        exact this
    | lockReturn t h1 =>
      refine ⟨held_release hi.held (by rw [h1]; rfl) rfl, fun u => ?_, fun u hu => ?_, signal_move (by decide) fun hw => ?_⟩
      · have := hi.own u
        by_cases e : u = t
        · subst e
          rw [h1] at this
          simp only [Function.update_self, PC.pending] at this ⊢
          omega
        · simp only [Function.update_of_ne e]
          exact this
      · by_cases e : u = t
        · subst e; simp [PC.blocked] at hu
        · simp only [Function.update_of_ne e] at hu ⊢
          exact hi.blocked u hu
      · exact (sig t (by rw [h1]; rfl) hw).imp id .inr
    | unlockAcquire t h1 h2 =>
      refine ⟨held_acquire hi.held h2 rfl, own (by rw [h1]; rfl), blk (fun h => absurd h (by decide)), signal_move (by decide) fun hw => ?_⟩
      exact (sig t (by rw [h1]; rfl) hw).imp id .inr
    | unlockDecrement t h1 =>
      refine ⟨held_keep hi.held (by rw [h1]; rfl), fun u => ?_, blk (fun h => absurd h (by decide)), signal_move (by decide) fun _ => .inr (.inl rfl)⟩
      have ht := hi.own t
      rw [h1] at ht
      simp only [PC.pending] at ht
      have ho : s.owner = t := by
        by_contra e
        rw [if_neg e] at ht
        omega
      rw [if_pos ho] at ht
      have hd : dec s.count = s.count - 1 := by unfold dec; rw [if_neg (by omega)]
      have := hi.own u
      by_cases e : u = t
      · subst e
        simp only [Function.update_self, PC.pending, if_pos ho, hd]
        omega
      · simp only [Function.update_of_ne e]
        rw [if_neg (by rw [ho]; exact Ne.symm e)] at this ⊢
        exact this
    | unlockSignal t pc' h1 h2 h3 h4 h5 =>
      have hp : ∀ u, (pc' u).holds = (s.pc u).holds ∧ (pc' u).pending = (s.pc u).pending ∧ ((pc' u).blocked = true → (s.pc u).blocked = true) := by
        intro u
        by_cases e : u = t
        · subst e; rw [h3, h1]; simp [PC.holds, PC.pending, PC.blocked]
        · rcases h4 u e with e | ⟨e, e'⟩
          · rw [e]; exact ⟨rfl, rfl, id⟩
          · rw [e, e']; simp [PC.holds, PC.pending, PC.blocked]
      refine ⟨fun u => by rw [(hp u).1]; exact hi.held u, fun u => by rw [(hp u).2.1]; exact hi.own u, fun u hu => hi.blocked u ((hp u).2.2 hu),
        fun ⟨u, hu⟩ => .inr ?_⟩
      change pc' u = .waiting at hu
      have hu' : s.pc u = .waiting := by
        by_cases e : u = t
        · subst e; rw [h3] at hu; exact absurd hu (by decide)
        · rcases h4 u e with e | ⟨e, e'⟩
          · rw [← e]; exact hu
          · exact e
      obtain ⟨v, _, hv⟩ := h5 ⟨u, hu'⟩
      exact ⟨v, by simp only [hv]; rfl⟩
    | unlockKeep t h1 h2 =>
      refine ⟨held_keep hi.held (by rw [h1]; rfl), own (by rw [h1]; rfl), blk (fun h => absurd h (by decide)), fun _ => .inl (Nat.pos_of_ne_zero h2)⟩
    | unlockReturn t h1 =>
      refine ⟨held_release hi.held (by rw [h1]; rfl) rfl, own (by rw [h1]; rfl), blk (fun h => absurd h (by decide)), signal_move (by decide) fun hw => ?_⟩
      exact (sig t (by rw [h1]; rfl) hw).imp id .inr
  | wake t h1 =>
    refine ⟨held_keep hi.held (by rw [h1]; rfl), own (by rw [h1]; rfl), blk (fun _ => hi.blocked t (by rw [h1]; rfl)), signal_move (by decide) fun _ => .inr (.inl rfl)⟩
  | callLock t h1 =>
    refine ⟨held_keep hi.held (by rw [h1]; rfl), own (by rw [h1]; rfl), blk (fun h => absurd h (by decide)), signal_move (by decide) fun hw => ?_⟩
    exact (sig t (by rw [h1]; rfl) hw).imp id .inr
  | callUnlock t h1 h2 =>
    refine ⟨held_keep hi.held (by rw [h1]; rfl), fun u => ?_, fun u hu => ?_, signal_move (by decide) fun hw => ?_⟩
    · have := hi.own u
      by_cases e : u = t
      · subst e
        rw [h1] at this
        simp only [Function.update_self, PC.pending] at this ⊢
        omega
      · simp only [Function.update_of_ne e]
        exact this
    · by_cases e : u = t
      · subst e; simp [PC.blocked] at hu
      · simp only [Function.update_of_ne e] at hu ⊢
        exact hi.blocked u hu
    · exact (sig t (by rw [h1]; rfl) hw).imp id .inr

theorem inv_reachable {s : State T} (h : Reachable s) : Inv s := by
  obtain ⟨s₀, h0, h1⟩ := h
  induction h1 with
  | refl => exact inv_init h0
  | tail _ h2 ih => exact inv_step ih h2

/-- A thread owns the lock: it has returned from `vl_lock_state` more often than it has called `vl_unlock_state`. -/
def Owns (s : State T) (t : T) : Prop := s.depth t ≥ 1

/-- **C61**, mutual exclusion: in every interleaving at most one thread owns the lock, and no other thread completes a call of
`vl_lock_state` meanwhile. -/
theorem mutual_exclusion {s : State T} (h : Reachable s) {t u : T} (ht : Owns s t) (hu : Owns s u ∨ s.pc u = .lockRelease) : t = u := by
  have hi := inv_reachable h
  have h1 := hi.own t
  have h2 := hi.own u
  have ht' : s.depth t ≥ 1 := ht
  have e1 : s.owner = t := by
    by_contra e
    rw [if_neg e] at h1
    omega
  have e2 : s.owner = u := by
    by_contra e
    rw [if_neg e] at h2
    rcases hu with hu | hu
    · have : s.depth u ≥ 1 := hu
      omega
    · rw [hu] at h2
      simp [PC.pending] at h2
  rw [← e1, e2]

/-- **C61**, recursion: a thread that owns the lock never waits in `vl_lock_state`. -/
theorem owner_never_waits {s : State T} (h : Reachable s) {t : T} (ht : Owns s t) :
    s.pc t ≠ .lockWhile ∧ s.pc t ≠ .waiting ∧ s.pc t ≠ .woken := by
  have hb := (inv_reachable h).blocked t
  have ht' : s.depth t ≥ 1 := ht
  refine ⟨fun e => ?_, fun e => ?_, fun e => ?_⟩ <;>
  · rw [e] at hb
    have := hb rfl
    omega

/-- **C61**, release: the counter of the lock is the number of unlocks the owner still has to call (when no call is in progress), so the
lock is free exactly when no thread owns it. -/
theorem free_iff {s : State T} (h : Reachable s) (hq : ∀ t, s.pc t = .out ∨ s.pc t = .waiting) :
    (s.count = 0 ↔ ∀ t, ¬ Owns s t) ∧ ∀ t, Owns s t → s.count = s.depth t := by
  have hi := inv_reachable h
  have ho : ∀ t, s.depth t = if s.owner = t then s.count else 0 := by
    intro t
    have := hi.own t
    rcases hq t with e | e <;> rw [e] at this <;> simpa [PC.pending] using this
  refine ⟨⟨fun hc t ht => ?_, fun hn => ?_⟩, fun t ht => ?_⟩
  · have : s.depth t ≥ 1 := ht
    rw [ho t, hc, ite_self] at this
    omega
  · have := hn s.owner
    unfold Owns at this
    rw [ho, if_pos rfl] at this
    omega
  · have h1 : s.depth t ≥ 1 := ht
    have h2 := ho t
    split at h2
    · exact h2.symm
    · omega

/-- **C61**, no deadlock and no lost wake-up: whenever a thread is in one of the two functions, some thread can take a step in them, unless
some thread owns the lock and is out of them. -/
theorem progress {s : State T} (h : Reachable s) {t : T} (ht : s.pc t ≠ .out) :
    (∃ s', LibStep s s') ∨ ∃ u, Owns s u ∧ s.pc u = .out := by
  have hi := inv_reachable h
  by_cases hh : ∃ u, s.held = some u
  · obtain ⟨u, hu⟩ := hh
    have := (hi.held u).2 hu
    left
    cases e : s.pc u <;> rw [e] at this <;> simp only [PC.holds] at this
    all_goals first | exact absurd this (by decide) | skip
    · by_cases c : s.count ≥ 1 ∧ s.owner = u
      · exact ⟨_, .lockAgain u e c.1 c.2⟩
      · exact ⟨_, .lockOther u e c⟩
    · by_cases c : s.count ≥ 1
      · exact ⟨_, .lockWait u e c⟩
      · exact ⟨_, .lockTake u e c⟩
    · exact ⟨_, .lockReturn u e⟩
    · exact ⟨_, .unlockDecrement u e⟩
    · by_cases c : s.count = 0
      · refine ⟨_, .unlockSignal u (fun v => if v = u then .unlockRelease else if s.pc v = .waiting then .woken else s.pc v) e c (by simp) ?_ ?_⟩
        · intro v hv
          simp only [if_neg hv]
          by_cases w : s.pc v = .waiting
          · right; simp [w]
          · left; simp [w]
        · rintro ⟨v, hv⟩
          refine ⟨v, hv, ?_⟩
          have : v ≠ u := fun e' => by rw [e', e] at hv; exact absurd hv (by decide)
          simp [this, hv]
      · exact ⟨_, .unlockKeep u e c⟩
    · exact ⟨_, .unlockReturn u e⟩
  · have hn : s.held = none := by
      cases e : s.held with
      | none => rfl
      | some u => exact absurd ⟨u, e⟩ hh
    by_cases hl : ∃ s', LibStep s s'
    · exact .inl hl
    · right
      have hpc : ∀ u, s.pc u = .out ∨ s.pc u = .waiting := by
        intro u
        have hnh : (s.pc u).holds ≠ true := fun e => by rw [hi.held u, hn] at e; exact absurd e (by simp)
        cases e : s.pc u <;> rw [e] at hnh <;> simp [PC.holds] at hnh ⊢
        · exact hl ⟨_, .lockAcquire u e hn⟩
        · exact hl ⟨_, .lockResume u e hn⟩
        · exact hl ⟨_, .unlockAcquire u e hn⟩
      have htw : s.pc t = .waiting := (hpc t).resolve_left ht
      rcases hi.signal ⟨t, htw⟩ with hc | ⟨u, hu⟩
      · have ho := hi.own s.owner
        rw [if_pos rfl] at ho
        rcases hpc s.owner with e | e
        · rw [e] at ho
          simp only [PC.pending] at ho
          exact ⟨s.owner, by unfold Owns; omega, e⟩
        · have hb := hi.blocked s.owner (by rw [e]; rfl)
          rw [e, hb] at ho
          simp only [PC.pending] at ho
          omega
      · rcases hpc u with e | e <;> rw [e] at hu <;> exact absurd hu (by decide)

/-! ## Examples -/

/-- Two threads: thread 0 owns the lock twice, thread 1 waits for it. -/
def exState : State (Fin 2) :=
  { held := none, owner := 0, count := 2, pc := fun t => if t = 0 then .out else .waiting, depth := fun t => if t = 0 then 2 else 0 }

theorem exState_reachable : Reachable exState := by
  let s0 : State (Fin 2) := { held := none, owner := 1, count := 0, pc := fun _ => .out, depth := fun _ => 0 }
  refine ⟨s0, ⟨rfl, rfl, fun _ => rfl, fun _ => rfl⟩, ?_⟩
  have e : ∀ {a b c : State (Fin 2)}, Relation.ReflTransGen Step a b → LibStep b c → Relation.ReflTransGen Step a c := fun h h' => h.tail (.lib h')
  have h := (Relation.ReflTransGen.refl (r := Step) (a := s0)).tail (.callLock 0 rfl)
  have h := e h (.lockAcquire 0 rfl rfl)
  have h := e h (.lockOther 0 rfl (by decide))
  have h := e h (.lockTake 0 rfl (by decide))
  have h := e h (.lockReturn 0 rfl)
  have h := h.tail (.callLock 1 rfl)
  have h := e h (.lockAcquire 1 rfl rfl)
  have h := e h (.lockOther 1 rfl (by decide))
  have h := e h (.lockWait 1 rfl (by decide))
  have h := h.tail (.callLock 0 rfl)
  have h := e h (.lockAcquire 0 rfl rfl)
  have h := e h (.lockAgain 0 rfl (by decide) rfl)
  have h := e h (.lockReturn 0 rfl)
  refine Eq.mp (congrArg (Relation.ReflTransGen Step s0) ?_) h
  unfold exState
  simp only [State.mk.injEq]
  refine ⟨trivial, trivial, trivial, ?_, ?_⟩
  · funext t; revert t; decide
  · funext t; revert t; decide

example : Owns exState 0 ∧ ¬ Owns exState 1 ∧ exState.pc 1 = .waiting := ⟨by unfold Owns; decide, by unfold Owns; decide, by decide⟩

end Verif.Threads
