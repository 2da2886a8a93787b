import Verif.Erfill.Spec
import Mathlib.Data.Rat.Defs
import Mathlib.Algebra.BigOperators.Group.Finset.Defs
import Mathlib.Data.Finset.Card
import Mathlib.Data.Set.Card

/-!
# Specification of the extremal regions of an image
-/

namespace Verif.Mser

open Verif.Erfill (Touch coords)

/-- The intensity of a pixel. -/
def pix (im : List Nat) (p : Nat) : Nat := im.getD p 0

/-- What can be reached from the pixel `p` through touching pixels of the set `S`. -/
def Reach (dims : List Nat) (S : Nat → Prop) (p q : Nat) : Prop :=
  Relation.ReflTransGen (fun a b => Touch dims a b ∧ S b) p q

/-- The extremal region of level `v` around the pixel `p`, which is of intensity `v` at most: the pixels that can be reached from `p` through pixels of intensity `v` at most. -/
def Ext (dims im : List Nat) (v p : Nat) : Set Nat := {q | Reach dims (fun b => pix im b ≤ v) p q}

/-- `ρ` is the end of the chain of the parents of `p`. -/
def RootOf (parent : Nat → Nat) (p ρ : Nat) : Prop := Relation.ReflTransGen (fun a b => parent a = b) p ρ ∧ parent ρ = ρ

/-- The order of the pixels: by intensity, then by index. -/
def Before (im : List Nat) (i j : Nat) : Prop := pix im i < pix im j ∨ (pix im i = pix im j ∧ i < j)

instance (im : List Nat) (i j : Nat) : Decidable (Before im i j) := by unfold Before; infer_instance

end Verif.Mser
