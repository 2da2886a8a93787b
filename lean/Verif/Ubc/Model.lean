import Verif.Loop
import Mathlib.Algebra.Order.Ring.Rat
import Mathlib.Algebra.Field.Rat
import Mathlib.Order.WithBot

/-!
# Model of the descriptor matching

toolbox/sift/vl_ubcmatch.c.  The numbers of all four classes are rationals and rounding (and the overflow of `int`) is not modelled; `maxval` is `⊤` for the floating point
classes and `0x7fffffff` for the two integer classes.
-/

namespace Verif.Ubc

/-- The inner loop with its `break`, toolbox/sift/vl_ubcmatch.c:68-77, from the component `bin` on; `n` is the number of components left.  `o1` and `o2` are
the offsets of the two descriptors. -/
def dist (l1 l2 : List ℚ) (o1 o2 : Nat) (second : WithTop ℚ) : Nat → Nat → ℚ → Option ℚ
  | 0, _, acc => some acc
  | n + 1, bin, acc => do
    let a ← rd l1 (o1 + bin)
    let b ← rd l2 (o2 + bin)
    let delta := a - b
    let acc := acc + delta * delta
    if (acc : WithTop ℚ) ≥ second then some acc else dist l1 l2 o1 o2 second n (bin + 1) acc

/-- `best`, `second_best` and `bestk` (`none` for -1). -/
structure Best where
  best : WithTop ℚ
  second : WithTop ℚ
  k : Option Nat

/-- The filter of the two best points, toolbox/sift/vl_ubcmatch.c:79-86. -/
def filter (s : Best) (acc : ℚ) (k2 : Nat) : Best :=
  if (acc : WithTop ℚ) < s.best then ⟨acc, s.best, some k2⟩
  else if (acc : WithTop ℚ) < s.second then ⟨s.best, acc, s.k⟩ else s

/-- The loop over the second set, toolbox/sift/vl_ubcmatch.c:58-87. -/
def scan (l1 l2 : List ℚ) (o1 K2 ND : Nat) (maxval : WithTop ℚ) : Option Best :=
  iter K2 (fun k2 s => do
    let acc ← dist l1 l2 o1 (ND * k2) s.second ND 0 0
    some (filter s acc k2)) ⟨maxval, maxval, none⟩

/-- The test for acceptance, toolbox/sift/vl_ubcmatch.c:92-93.  When `bestk` is not -1 `best` is a number. -/
def accept (thresh : ℚ) (s : Best) : Option (Nat × ℚ) :=
  match s.k, s.best with
  | some k, some b => if ((thresh * b : ℚ) : WithTop ℚ) < s.second then some (k, b) else none
  | _, _ => none

/-- `compare_*`, toolbox/sift/vl_ubcmatch.c:49-102, with the array of `K1 + K2` pairs of line 160: `pairs_iterator` is its number of pairs. -/
def compare (l1 l2 : List ℚ) (K1 K2 ND : Nat) (thresh : ℚ) (maxval : WithTop ℚ) : Option (List (Nat × Nat × ℚ)) :=
  iter K1 (fun k1 pairs => do
    let s ← scan l1 l2 (ND * k1) K2 ND maxval
    match accept thresh s with
    | some (k, b) => if pairs.length < K1 + K2 then some (pairs ++ [(k1, k, b)]) else none
    | none => some pairs) []

end Verif.Ubc
