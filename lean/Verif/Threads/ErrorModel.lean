import Mathlib.Logic.Relation
import Mathlib.Logic.Function.Basic
import Mathlib.Data.List.Basic

/-!
# Model of the last error of a thread

vl/generic.c with POSIX threads, as a transition system: any number of threads, each with its own list of calls; steps of different
threads interleave arbitrarily.  The thread specific value of the key (vl/generic.c:826) is a field of the thread, the states of the
threads (vl/generic.c:799-815, only the fields of the error) are blocks of the heap, found by their addresses.

Simplification: the calls of `vl_lock_state` and `vl_unlock_state` around the access to the key are left out, so more interleavings are
possible than in the code (these functions are in `Verif.Threads.LockModel`).  `malloc` does not fail.  The format and its
arguments are replaced by the text they stand for.
-/

namespace Verif.Threads

/-- `VL_ERR_MSG_LEN`, vl/generic.h:30. -/
def errMsgLen : Nat := 1024

/-- `lastError` and `lastErrorMessage` of `VlThreadState`, vl/generic.c:802-803. -/
structure Rec where
  lastError : Int
  message : List UInt8

/-- Calls of a thread. -/
inductive Op where
  /-- `vl_set_last_error (error, text)`; `none` is a null message. -/
  | setError (error : Int) (text : Option (List UInt8))
  /-- `vl_get_last_error ()`. -/
  | getError
  /-- Reading the string returned by `vl_get_last_error_message ()`. -/
  | getMessage
  /-- The thread ends: the destructor of the key deletes its state, vl/generic.c:1582-1585 and 1499-1506. -/
  | exit
  deriving DecidableEq

/-- What a call yields. -/
inductive Out where
  | code (e : Int)
  | text (s : List UInt8)
  deriving DecidableEq

/-- Where a thread is. -/
inductive Phase where
  /-- Between two calls. -/
  | idle
  /-- In `vl_get_thread_specific_state`, before `pthread_getspecific`, vl/generic.c:1029. -/
  | get (op : Op)
  /-- There was no state: before `vl_thread_specific_state_new`, vl/generic.c:1034-1035. -/
  | new (op : Op)
  /-- Before `pthread_setspecific`, vl/generic.c:1039. -/
  | set (op : Op) (p : Nat)
  /-- Back in the function called. -/
  | use (op : Op) (p : Nat)
  /-- In `vl_set_last_error`, before vl/generic.c:1254. -/
  | code (error : Int) (text : Option (List UInt8)) (p : Nat)

/-- What belongs to one thread: position, value of the key, calls to come, results so far. -/
structure Local where
  phase : Phase
  tls : Option Nat
  prog : List Op
  log : List Out

/-- The live blocks. -/
abbrev Heap := Nat → Option Rec

/-- `vsnprintf` into the buffer, vl/generic.c:1247-1249, or the empty string, vl/generic.c:1252. -/
def writeMessage (buf : List UInt8) : Option (List UInt8) → List UInt8
  | some text => text.take (errMsgLen - 1) ++ 0 :: buf.drop ((text.take (errMsgLen - 1)).length + 1)
  | none => buf.set 0 0

/-- The string that starts at the beginning of the buffer. -/
def cstr (buf : List UInt8) : List UInt8 := buf.takeWhile (· ≠ 0)

/-- Steps of one thread. -/
inductive LStep : Heap → Local → Heap → Local → Prop
  | call {h : Heap} {l : Local} {op : Op} {rest : List Op} : l.phase = .idle → l.prog = op :: rest → op ≠ .exit →
      LStep h l h { l with phase := .get op, prog := rest }
  /-- vl/generic.c:1029 and 1034. -/
  | getSome {h : Heap} {l : Local} {op : Op} {p : Nat} : l.phase = .get op → l.tls = some p →
      LStep h l h { l with phase := .set op p }
  | getNone {h : Heap} {l : Local} {op : Op} : l.phase = .get op → l.tls = none →
      LStep h l h { l with phase := .new op }
  /-- `vl_thread_specific_state_new`, vl/generic.c:1474-1493: any free block, with any contents. -/
  | new {h : Heap} {l : Local} {op : Op} (p : Nat) (g : List UInt8) : l.phase = .new op → h p = none → g.length = errMsgLen →
      LStep h l (Function.update h p (some { lastError := 0, message := g.set 0 0 })) { l with phase := .set op p }
  /-- vl/generic.c:1039. -/
  | setKey {h : Heap} {l : Local} {op : Op} {p : Nat} : l.phase = .set op p →
      LStep h l h { l with phase := .use op p, tls := some p }
  /-- `vl_get_last_error`, vl/generic.c:1265-1267. -/
  | getError {h : Heap} {l : Local} {p : Nat} {r : Rec} : l.phase = .use .getError p → h p = some r →
      LStep h l h { l with phase := .idle, log := l.log ++ [.code r.lastError] }
  /-- `vl_get_last_error_message`, vl/generic.c:1275-1278. -/
  | getMessage {h : Heap} {l : Local} {p : Nat} {r : Rec} : l.phase = .use .getMessage p → h p = some r →
      LStep h l h { l with phase := .idle, log := l.log ++ [.text (cstr r.message)] }
  /-- `vl_set_last_error`, vl/generic.c:1243-1253. -/
  | setMessage {h : Heap} {l : Local} {e : Int} {m : Option (List UInt8)} {p : Nat} {r : Rec} : l.phase = .use (.setError e m) p → h p = some r →
      LStep h l (Function.update h p (some { r with message := writeMessage r.message m })) { l with phase := .code e m p }
  /-- `vl_set_last_error`, vl/generic.c:1254-1256. -/
  | setCode {h : Heap} {l : Local} {e : Int} {m : Option (List UInt8)} {p : Nat} {r : Rec} : l.phase = .code e m p → h p = some r →
      LStep h l (Function.update h p (some { r with lastError := e })) { l with phase := .idle, log := l.log ++ [.code e] }
  /-- End of a thread with a state. -/
  | exitSome {h : Heap} {l : Local} {p : Nat} {rest : List Op} : l.phase = .idle → l.prog = .exit :: rest → l.tls = some p →
      LStep h l (Function.update h p none) { l with prog := rest, tls := none }
  /-- End of a thread without state. -/
  | exitNone {h : Heap} {l : Local} {rest : List Op} : l.phase = .idle → l.prog = .exit :: rest → l.tls = none →
      LStep h l h { l with prog := rest }

/-- The whole process. -/
structure World (T : Type) where
  heap : Heap
  loc : T → Local

/-- A step of one of the threads. -/
def WStep {T : Type} [DecidableEq T] (s s' : World T) : Prop :=
  ∃ t h' l', LStep s.heap (s.loc t) h' l' ∧ s' = { heap := h', loc := Function.update s.loc t l' }

/-- Threads that are about to make the calls `P`, at the beginning. -/
def start {T : Type} (P : T → List Op) : World T :=
  { heap := fun _ => none, loc := fun t => { phase := .idle, tls := none, prog := P t, log := [] } }

end Verif.Threads
