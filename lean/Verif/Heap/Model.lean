import Verif.Base

/-!
# Model of the generic binary heap `vl/heap-def.h`

The heap lives in an array `a`; its elements are the first `n = heapSize` entries.  The macros `VL_HEAP_cmp` and
`VL_HEAP_swap` are modelled by a three-way comparison `cmp` of elements (sign of an `Int`) and by the exchange `swp`.
Simplification: `vl_size` does not wrap around.
-/

namespace Verif.Heap

variable {α : Type}

/-- `vl_heap_parent`, vl/heap-def.h:188-193. -/
def parent (i : Nat) : Nat := if i = 0 then 0 else (i - 1) / 2

/-- `vl_heap_left_child`, vl/heap-def.h:200-204. -/
def leftChild (i : Nat) : Nat := 2 * i + 1

/-- `vl_heap_right_child`, vl/heap-def.h:211-215. -/
def rightChild (i : Nat) : Nat := leftChild i + 1

/-- `VL_HEAP_up`, vl/heap-def.h:287-322 (moves an element towards the leaves). -/
def up (cmp : α → α → Int) (a : List α) (n i : Nat) : Option (List α) :=
  if leftChild i ≥ n then some a
  else if rightChild i ≥ n then do
    let c ← cmpAt cmp a i (leftChild i)
    if c > 0 then swp a i (leftChild i) else some a
  else do
    let c ← cmpAt cmp a (leftChild i) (rightChild i)
    if c < 0 then do
      let d ← cmpAt cmp a i (leftChild i)
      if d > 0 then do
        let a' ← swp a i (leftChild i)
        up cmp a' n (leftChild i)
      else some a
    else do
      let d ← cmpAt cmp a i (rightChild i)
      if d > 0 then do
        let a' ← swp a i (rightChild i)
        up cmp a' n (rightChild i)
      else some a
termination_by n - i
decreasing_by all_goals simp_all only [leftChild, rightChild]; omega

/-- `VL_HEAP_down`, vl/heap-def.h:337-351 (moves an element towards the root). -/
def down (cmp : α → α → Int) (a : List α) (i : Nat) : Option (List α) :=
  if i = 0 then some a
  else do
    let c ← cmpAt cmp a i (parent i)
    if c < 0 then do
      let a' ← swp a i (parent i)
      down cmp a' (parent i)
    else some a
termination_by i
decreasing_by simp only [parent]; split <;> omega

/-- `VL_HEAP_push`, vl/heap-def.h:369-375; returns the array and the new heap size. -/
def push (cmp : α → α → Int) (a : List α) (n : Nat) : Option (List α × Nat) := do
  let a ← down cmp a n
  pure (a, n + 1)

/-- `VL_HEAP_pop`, vl/heap-def.h:399-414; returns the array and the new heap size, which is also the index returned. -/
def pop (cmp : α → α → Int) (a : List α) (n : Nat) : Option (List α × Nat) := do
  assert' (n ≠ 0)
  let n := n - 1
  let a ← swp a 0 n
  let a ← if n > 1 then up cmp a n 0 else some a
  pure (a, n)

/-- `VL_HEAP_update`, vl/heap-def.h:439-447. -/
def update (cmp : α → α → Int) (a : List α) (n i : Nat) : Option (List α) := do
  let a ← up cmp a n i
  down cmp a i

/-! ### Histories of calls -/

/-- One call made by a client.  `push x` first stores `x` at the index `heapSize` (as vl/heap-def.h:56-66 prescribes) and then
calls `VL_HEAP_push`; `update i x` changes the entry `i` and then calls `VL_HEAP_update`. -/
inductive Op (α : Type) where
  | push (x : α)
  | pop
  | update (i : Nat) (x : α)

/-- Array and heap size. -/
structure State (α : Type) where
  arr : List α
  size : Nat

/-- Execute one call. -/
def step (cmp : α → α → Int) (s : State α) : Op α → Option (State α)
  | .push x => do
      let a ← wr s.arr s.size x
      let r ← push cmp a s.size
      pure ⟨r.1, r.2⟩
  | .pop => do
      let r ← pop cmp s.arr s.size
      pure ⟨r.1, r.2⟩
  | .update i x => do
      let a ← wr s.arr i x
      let a ← update cmp a s.size i
      pure ⟨a, s.size⟩

/-- Execute a sequence of calls. -/
def run (cmp : α → α → Int) (s : State α) : List (Op α) → Option (State α)
  | [] => some s
  | o :: os => do
      let s ← step cmp s o
      run cmp s os

/-- Pop `n` times, i.e. until the heap is empty. -/
def popAll (cmp : α → α → Int) (a : List α) : Nat → Option (List α)
  | 0 => some a
  | n + 1 => do
      let r ← pop cmp a (n + 1)
      popAll cmp r.1 n

end Verif.Heap
