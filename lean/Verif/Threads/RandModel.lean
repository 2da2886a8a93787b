import Verif.Random.MTModel
import Mathlib.Logic.Function.Basic

/-!
# Model of the random numbers and the timers of threads, vl/generic.c

Any number of threads make calls in any order.  Simplifications: a call is one step; `malloc` does not fail; the address of a state is never
used again, so that the use of a state that was freed is recognised; times are numbers of ticks, before the division by
`CLOCKS_PER_SEC`; of kd-tree forests only the pointer to the generator is modelled.  `none` is undefined behaviour.
-/

namespace Verif.Threads

open Verif.Random

/-- The fields `rand` and `ticMark` of `VlThreadState`, vl/generic.c:799-815. -/
structure TState where
  rand : VlRand
  mark : Int

/-- The states of the threads, the value of the key of each thread, the next address, and the field `rand` of each forest. -/
structure Sys (T : Type) where
  heap : Nat → Option TState
  key : T → Option Nat
  next : Nat
  forest : Nat → Option Nat

/-- Calls of a thread. -/
inductive Call where
  /-- Drawing `n` numbers from `vl_get_rand ()`, vl/generic.c:1460-1464. -/
  | rand (n : Nat)
  /-- `vl_rand_seed (vl_get_rand (), s)` -/
  | seed (s : BitVec 32)
  /-- `vl_tic ()` when `clock ()` returns `c`. -/
  | tic (c : Int)
  /-- `vl_toc ()` when `clock ()` returns `c`. -/
  | toc (c : Int)
  /-- `vl_kdforest_new`, as far as the generator is concerned. -/
  | forestNew (f : Nat)
  /-- `vl_kdforest_build` that draws `n` numbers. -/
  | forestBuild (f : Nat) (n : Nat)
  /-- The thread ends. -/
  | exit

/-- What a call yields. -/
inductive Res where
  | unit
  | nums (l : List (BitVec 32))
  | time (d : Int)

variable {T : Type} [DecidableEq T]

/-- `vl_thread_specific_state_new`, vl/generic.c:1474-1493. -/
def stateNew (s : Sys T) : Sys T × Nat :=
  ({ s with heap := Function.update s.heap s.next (some ⟨randInit, 0⟩), next := s.next + 1 }, s.next)

/-- `vl_get_thread_specific_state`, vl/generic.c:1016-1047. -/
def getState (s : Sys T) (t : T) : Sys T × Nat :=
  let r := match s.key t with
    | some p => (s, p)
    | none => stateNew s
  ({ r.1 with key := Function.update r.1.key t (some r.2) }, r.2)

/-- Drawing `n` numbers from the generator in the state at `p`. -/
def useRand (s : Sys T) (p n : Nat) : Option (Sys T × Res) := do
  let st ← s.heap p
  let (ys, g) ← draws st.rand n
  some ({ s with heap := Function.update s.heap p (some { st with rand := g }) }, .nums ys)

/-- `vl_thread_specific_state_delete` if the thread has a state, vl/generic.c:1582-1585 (at the end of a thread) and vl/generic.c:1655-1660
(in `vl_destructor`). -/
def deleteState (s : Sys T) (t : T) : Option (Sys T) :=
  match s.key t with
  | none => some s
  | some p => do
    let _ ← s.heap p
    some { s with heap := Function.update s.heap p none, key := Function.update s.key t none }

/-- One call. -/
def callStep (s : Sys T) (t : T) : Call → Option (Sys T × Res)
  | .rand n =>
    let (s, p) := getState s t
    useRand s p n
  | .seed x => do
    let (s, p) := getState s t
    let st ← s.heap p
    let g ← randSeed st.rand x
    some ({ s with heap := Function.update s.heap p (some { st with rand := g }) }, .unit)
  -- vl/generic.c:1412-1421
  | .tic c => do
    let (s, p) := getState s t
    let st ← s.heap p
    some ({ s with heap := Function.update s.heap p (some { st with mark := c }) }, .unit)
  -- vl/generic.c:1437-1449
  | .toc c => do
    let (s, p) := getState s t
    let st ← s.heap p
    some (s, .time (c - st.mark))
  -- vl/kdtree.c:341
  | .forestNew f =>
    let (s, p) := getState s t
    some ({ s with forest := Function.update s.forest f (some p) }, .unit)
  -- vl/kdtree.c:206, 260
  | .forestBuild f n => do
    let p ← s.forest f
    useRand s p n
  | .exit => do
    let s ← deleteState s t
    some (s, .unit)

/-- A history of calls, and their results. -/
def runCalls (s : Sys T) : List (T × Call) → Option (Sys T × List Res)
  | [] => some (s, [])
  | (t, c) :: es => do
    let (s, r) ← callStep s t c
    let (s, rs) ← runCalls s es
    some (s, r :: rs)

/-- After `vl_constructor`. -/
def loaded : Sys T := ⟨fun _ => none, fun _ => none, 0, fun _ => none⟩

end Verif.Threads
