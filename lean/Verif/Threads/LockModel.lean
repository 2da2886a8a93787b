import Mathlib.Logic.Relation
import Mathlib.Logic.Function.Basic

/-!
# Model of the lock of the library state

vl/generic.c, `vl_lock_state` and `vl_unlock_state` with POSIX threads, as a transition system: any number of threads (`T` is any
type), each transition is one access to the shared variables or one call of the thread library, and transitions of different threads
interleave arbitrarily.

What is assumed of the thread library: `pthread_mutex_lock` waits until nobody holds the mutex; `pthread_cond_wait` releases the
mutex and starts waiting in one step, wakes up at any time (also spuriously) and then acquires the mutex again;
`pthread_cond_signal` wakes up at least one of the threads that wait, if there is any; accesses made while holding the mutex are
sequentially consistent.
-/

namespace Verif.Threads

/-- Where a thread is. -/
inductive PC where
  /-- Not in one of the two functions. -/
  | out
  /-- Before `pthread_mutex_lock`, vl/generic.c:952. -/
  | lockWant
  /-- At the test for a recursive call, vl/generic.c:953-954. -/
  | lockTest
  /-- At the test of the loop, vl/generic.c:957. -/
  | lockWhile
  /-- In `pthread_cond_wait`, vl/generic.c:958. -/
  | waiting
  /-- In `pthread_cond_wait`, awake, before the mutex is acquired again. -/
  | woken
  /-- Before `pthread_mutex_unlock`, vl/generic.c:963. -/
  | lockRelease
  /-- Before `pthread_mutex_lock`, vl/generic.c:984. -/
  | unlockWant
  /-- Before the decrement, vl/generic.c:985. -/
  | unlockDec
  /-- At the test, vl/generic.c:986. -/
  | unlockTest
  /-- Before `pthread_mutex_unlock`, vl/generic.c:989. -/
  | unlockRelease
  deriving DecidableEq

/-- The shared variables (vl/generic.c:827-830), the position of each thread, and how many times each thread has returned from
`vl_lock_state` more often than it has called `vl_unlock_state`. -/
structure State (T : Type) where
  /-- The thread that holds the POSIX mutex. -/
  held : Option T
  /-- `mutexOwner`. -/
  owner : T
  /-- `mutexCount`. -/
  count : Nat
  pc : T → PC
  depth : T → Nat

variable {T : Type} [DecidableEq T]

/-- `-- mutexCount`, on 64 bits. -/
def dec (n : Nat) : Nat := if n = 0 then 2 ^ 64 - 1 else n - 1

/-- Steps of the two functions.  Simplification: the increment of `mutexCount` does not wrap. -/
inductive LibStep : State T → State T → Prop
  /-- vl/generic.c:952. -/
  | lockAcquire {s : State T} (t : T) : s.pc t = .lockWant → s.held = none →
      LibStep s { s with held := some t, pc := Function.update s.pc t .lockTest }
  /-- vl/generic.c:953-955. -/
  | lockAgain {s : State T} (t : T) : s.pc t = .lockTest → s.count ≥ 1 → s.owner = t →
      LibStep s { s with count := s.count + 1, pc := Function.update s.pc t .lockRelease }
  /-- vl/generic.c:956. -/
  | lockOther {s : State T} (t : T) : s.pc t = .lockTest → ¬ (s.count ≥ 1 ∧ s.owner = t) →
      LibStep s { s with pc := Function.update s.pc t .lockWhile }
  /-- vl/generic.c:957-958. -/
  | lockWait {s : State T} (t : T) : s.pc t = .lockWhile → s.count ≥ 1 →
      LibStep s { s with held := none, pc := Function.update s.pc t .waiting }
  /-- Acquiring the mutex again at the end of `pthread_cond_wait`, vl/generic.c:958. -/
  | lockResume {s : State T} (t : T) : s.pc t = .woken → s.held = none →
      LibStep s { s with held := some t, pc := Function.update s.pc t .lockWhile }
  /-- vl/generic.c:957 and 960-961. -/
  | lockTake {s : State T} (t : T) : s.pc t = .lockWhile → ¬ s.count ≥ 1 →
      LibStep s { s with owner := t, count := 1, pc := Function.update s.pc t .lockRelease }
  /-- vl/generic.c:963: the call returns. -/
  | lockReturn {s : State T} (t : T) : s.pc t = .lockRelease →
      LibStep s { s with held := none, pc := Function.update s.pc t .out, depth := Function.update s.depth t (s.depth t + 1) }
  /-- vl/generic.c:984. -/
  | unlockAcquire {s : State T} (t : T) : s.pc t = .unlockWant → s.held = none →
      LibStep s { s with held := some t, pc := Function.update s.pc t .unlockDec }
  /-- vl/generic.c:985. -/
  | unlockDecrement {s : State T} (t : T) : s.pc t = .unlockDec →
      LibStep s { s with count := dec s.count, pc := Function.update s.pc t .unlockTest }
  /-- vl/generic.c:986-988. -/
  | unlockSignal {s : State T} (t : T) (pc' : T → PC) : s.pc t = .unlockTest → s.count = 0 → pc' t = .unlockRelease →
      (∀ u, u ≠ t → pc' u = s.pc u ∨ (s.pc u = .waiting ∧ pc' u = .woken)) →
      ((∃ u, s.pc u = .waiting) → ∃ u, s.pc u = .waiting ∧ pc' u = .woken) →
      LibStep s { s with pc := pc' }
  /-- vl/generic.c:986. -/
  | unlockKeep {s : State T} (t : T) : s.pc t = .unlockTest → s.count ≠ 0 →
      LibStep s { s with pc := Function.update s.pc t .unlockRelease }
  /-- vl/generic.c:989: the call returns. -/
  | unlockReturn {s : State T} (t : T) : s.pc t = .unlockRelease →
      LibStep s { s with held := none, pc := Function.update s.pc t .out }

/-- Steps of the system: those of the library, spurious wake-ups, and calls.  The callers of the library unlock only what they have
locked. -/
inductive Step : State T → State T → Prop
  | lib {s s' : State T} : LibStep s s' → Step s s'
  /-- A spurious wake-up. -/
  | wake {s : State T} (t : T) : s.pc t = .waiting → Step s { s with pc := Function.update s.pc t .woken }
  /-- Call of `vl_lock_state`. -/
  | callLock {s : State T} (t : T) : s.pc t = .out → Step s { s with pc := Function.update s.pc t .lockWant }
  /-- Call of `vl_unlock_state`. -/
  | callUnlock {s : State T} (t : T) : s.pc t = .out → s.depth t ≥ 1 →
      Step s { s with pc := Function.update s.pc t .unlockWant, depth := Function.update s.depth t (s.depth t - 1) }

/-- State at the end of the constructor of the library, vl/generic.c:1586-1587; the state is a global variable, so the counter is
zero. -/
def Init (s : State T) : Prop := s.held = none ∧ s.count = 0 ∧ (∀ t, s.pc t = .out) ∧ ∀ t, s.depth t = 0

/-- States the system can be in. -/
def Reachable (s : State T) : Prop := ∃ s₀, Init s₀ ∧ Relation.ReflTransGen Step s₀ s

end Verif.Threads
