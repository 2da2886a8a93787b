import Mathlib.Logic.Relation
import Mathlib.Data.List.Forall2

/-!
# Specification of the filling of an extremal region
-/

namespace Verif.Erfill

/-- The coordinates of the pixel `p` of an image of size `dims`, the first one varying fastest. -/
def coords : List Nat → Nat → List Nat
  | [], _ => []
  | d :: ds, p => p % d :: coords ds (p / d)

/-- Two pixels of an image touch: no coordinate differs by more than one. -/
def Touch (dims : List Nat) (p q : Nat) : Prop :=
  p < dims.prod ∧ q < dims.prod ∧ p ≠ q ∧ List.Forall₂ (fun a b => a ≤ b + 1 ∧ b ≤ a + 1) (coords dims p) (coords dims q)

/-- The extremal region of the pixel `seed`: what can be reached from it through touching pixels at most as bright (or at least as bright when `invert`). -/
def Region (img dims : List Nat) (invert : Bool) (seed : Nat) (q : Nat) : Prop :=
  Relation.ReflTransGen (fun p q => Touch dims p q ∧ if invert then img.getD q 0 ≥ img.getD seed 0 else img.getD q 0 ≤ img.getD seed 0) seed q

end Verif.Erfill
