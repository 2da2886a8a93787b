import Verif.Base

/-!
# Model of the generic quicksort `vl/qsort-def.h`

Simplification: `vl_uindex` does not wrap around (in particular `(end + begin) / 2`).
-/

namespace Verif.Qsort

variable {α : Type}

/-- The scan `for (i = begin ; i < end ; ++i)` of `VL_QSORT_sort_recursive`, vl/qsort-def.h:144-150; the last argument is the
number `end - i` of remaining iterations.  Returns the array and `lowPart`. -/
def scan (cmp : α → α → Int) (a : List α) (pivot lowPart i : Nat) : Nat → Option (List α × Nat)
  | 0 => some (a, lowPart)
  | m + 1 => do
    let c ← cmpAt cmp a i pivot
    if c ≤ 0 then do
      let a ← swp a lowPart i
      scan cmp a pivot (lowPart + 1) (i + 1) m
    else
      scan cmp a pivot lowPart (i + 1) m

/-- `VL_QSORT_sort_recursive`, vl/qsort-def.h:126-164.  The first argument bounds the depth of the recursion: `none` is
returned if it is exceeded, so that a successful result also shows that the recursion ended within that depth. -/
def sortRecursive (cmp : α → α → Int) : Nat → List α → Nat → Nat → Option (List α)
  | 0, _, _, _ => none
  | fuel + 1, a, b, e => do
    assert' (b ≤ e)
    let a ← swp a ((e + b) / 2) e
    let r ← scan cmp a e b b (e - b)
    let pivot := r.2
    let a ← swp r.1 pivot e
    let a ← (if pivot > b then sortRecursive cmp fuel a b (pivot - 1) else some a)
    if pivot < e then sortRecursive cmp fuel a (pivot + 1) e else some a

/-- `VL_QSORT_sort`, vl/qsort-def.h:180-185, with recursion depth bounded by `size`. -/
def sort (cmp : α → α → Int) (a : List α) (size : Nat) : Option (List α) := do
  assert' (size ≥ 1)
  sortRecursive cmp size a 0 (size - 1)

end Verif.Qsort
