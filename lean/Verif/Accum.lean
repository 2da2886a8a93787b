import Verif.Base
import Mathlib.Algebra.BigOperators.Group.List.Basic
import Mathlib.Algebra.Group.Defs

/-!
# Accumulation into arrays: `a[i] += v`

Shared by the histogram-like parts of the code.
-/

namespace Verif

variable {R : Type} [AddCommMonoid R]

/-- The C statement `mem[i] += v`; `none` when `i` is out of bounds. -/
def addAt (mem : List R) (i : Nat) (v : R) : Option (List R) := do
  let x ← rd mem i
  wr mem i (x + v)

/-- A sequence of `mem[i] += v` statements. -/
def addAll (mem : List R) : List (Nat × R) → Option (List R)
  | [] => some mem
  | (i, v) :: cs => do
    let mem ← addAt mem i v
    addAll mem cs

/-- Total added at index `i`. -/
def contrib (cs : List (Nat × R)) (i : Nat) : R := (cs.map (fun c => if c.1 = i then c.2 else 0)).sum

@[simp] theorem contrib_nil (i : Nat) : contrib ([] : List (Nat × R)) i = 0 := rfl

theorem contrib_cons (c : Nat × R) (cs : List (Nat × R)) (i : Nat) :
    contrib (c :: cs) i = (if c.1 = i then c.2 else 0) + contrib cs i := by simp [contrib]

theorem contrib_append (cs ds : List (Nat × R)) (i : Nat) : contrib (cs ++ ds) i = contrib cs i + contrib ds i := by
  simp [contrib]

theorem contrib_flatMap {α : Type} (l : List α) (f : α → List (Nat × R)) (i : Nat) :
    contrib (l.flatMap f) i = (l.map (fun a => contrib (f a) i)).sum := by
  induction l with
  | nil => rfl
  | cons a l ih => simp [List.flatMap_cons, contrib_append, ih]

theorem addAt_of_lt {mem : List R} {i : Nat} {v : R} (h : i < mem.length) :
    addAt mem i v = some (mem.set i (mem[i] + v)) := by
  simp only [addAt, rd_of_lt h, Option.bind_eq_bind, Option.bind_some, wr_of_lt h]

theorem addAt_eq_some {mem m : List R} {i : Nat} {v : R} (h : addAt mem i v = some m) :
    i < mem.length ∧ m.length = mem.length := by
  by_cases hi : i < mem.length
  · rw [addAt_of_lt hi] at h; cases h; simp [hi]
  · simp [addAt, rd, hi] at h

theorem addAll_append (mem : List R) (cs ds : List (Nat × R)) :
    addAll mem (cs ++ ds) = (addAll mem cs).bind (fun m => addAll m ds) := by
  induction cs generalizing mem with
  | nil => simp [addAll]
  | cons c cs ih =>
    obtain ⟨i, v⟩ := c
    simp only [List.cons_append, addAll, Option.bind_eq_bind]
    cases addAt mem i v <;> simp [ih]

theorem addAll_spec (mem : List R) (cs : List (Nat × R)) (h : ∀ c ∈ cs, c.1 < mem.length) :
    ∃ m, addAll mem cs = some m ∧ m.length = mem.length ∧ ∀ i, m[i]? = mem[i]?.map (· + contrib cs i) := by
  induction cs generalizing mem with
  | nil => exact ⟨mem, rfl, rfl, by intro i; simp⟩
  | cons c cs ih =>
    obtain ⟨i, v⟩ := c
    have hi : i < mem.length := h (i, v) (by simp)
    obtain ⟨m, h1, h2, h3⟩ := ih (mem.set i (mem[i] + v)) (by
      intro c hc; rw [List.length_set]; exact h c (by simp [hc]))
    refine ⟨m, ?_, by simpa using h2, ?_⟩
    · simp only [addAll, addAt_of_lt hi, Option.bind_eq_bind, Option.bind_some, h1]
    · intro j
      rw [h3 j, contrib_cons]
      by_cases hj : i = j
      · subst hj
        rw [List.getElem?_set_self hi, List.getElem?_eq_getElem hi]
        simp [add_assoc]
      · rw [List.getElem?_set_ne hj]
        simp [hj]

end Verif
