import Mathlib.Logic.Relation
import Mathlib.Data.Finset.Card

/-!
# Specification of the elimination of small regions

The pixel `p` of an image of width `w` is in column `p % w` and row `p / w`.
-/

namespace Verif.Slic

/-- Two pixels are neighbours: same row and consecutive columns, or same column and consecutive rows. -/
def Adj (w h p q : Nat) : Prop :=
  p < w * h ∧ q < w * h ∧
    ((p / w = q / w ∧ (q % w = p % w + 1 ∨ p % w = q % w + 1)) ∨ (p % w = q % w ∧ (q / w = p / w + 1 ∨ p / w = q / w + 1)))

/-- Two pixels are in the same connected component of equal labels. -/
def Connected (w h : Nat) (label : Nat → Nat) : Nat → Nat → Prop := Relation.ReflTransGen (fun a b => Adj w h a b ∧ label b = label a)

/-- At least `n` numbers have a property. -/
def AtLeast (n : Nat) (S : Nat → Prop) : Prop := ∃ F : Finset Nat, n ≤ F.card ∧ ∀ q ∈ F, S q

end Verif.Slic
