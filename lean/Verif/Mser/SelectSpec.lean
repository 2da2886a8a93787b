import Verif.Mser.Model
import Verif.Mser.Spec
import Mathlib.Data.List.Range

/-!
# Specification of the selection of the maximally stable regions

The regions are numbered from 0; `g i` is the record of the region `i`.
-/

namespace Verif.Mser

/-- `a` is the closest region among `x`, its parent, the parent of its parent, … that is kept, or the root if none is. -/
def NearestKept (g : Nat → Er) (x a : Nat) : Prop :=
  Relation.ReflTransGen (fun u w => (g u).maxStable = false ∧ (g u).parent = w) x a ∧ ((g a).maxStable = true ∨ (g a).parent = a)

/-- The region `k` is made unstable by the comparison of `j` with its parent: they are at successive levels, and `k` is the one of larger variation (`j` when they are equal). -/
def Loses (g : Nat → Er) (j k : Nat) : Prop :=
  (g (g j).parent).value ≤ (g j).value + 1 ∧ ((g j).variation < (g (g j).parent).variation ∧ k = (g j).parent ∨ (g (g j).parent).variation ≤ (g j).variation ∧ k = j)

/-- The region `k` is maximally stable among `n` ones: it loses no comparison. -/
def Stable (n : Nat) (g : Nat → Er) (k : Nat) : Prop := ∀ j < n, ¬ Loses g j k

/-- The regions that pass the tests on the variation and on the area. -/
def GoodSize (P : Params) (nel : Nat) (e : Er) : Prop := e.variation < P.maxVariation ∧ (e.area : ℚ) ≤ P.maxArea * nel ∧ P.minArea * nel ≤ (e.area : ℚ)

/-- The region `k` differs enough from the closest region kept above it. -/
def Diverse (P : Params) (g : Nat → Er) (k : Nat) : Prop :=
  P.minDiversity < 1 → (g k).parent ≠ k → ∀ a, NearestKept g (g k).parent a → P.minDiversity ≤ (((g a).area : ℚ) - (g k).area) / (g a).area

/-- The record of the region `i` in the array `er`. -/
def recAt (er : List Er) (i : Nat) : Er := er.getD i { parent := 0, index := 0, value := 0, shortcut := 0, area := 0, variation := 0, maxStable := false }

/-- The pixels of the region of the record `e`. -/
def region (dims im : List Nat) (e : Er) : Set Nat := Ext dims im e.value e.index

/-- How many of the first `n` numbers satisfy `p`. -/
noncomputable def howMany (n : Nat) (p : Nat → Prop) : Nat := {k | k < n ∧ p k}.ncard

end Verif.Mser
