import Mathlib.Order.BoundedOrder.Basic
import Mathlib.Data.Finset.Card
import Mathlib.Data.Finset.Range
import Mathlib.Data.Finset.Prod
import Mathlib.Data.Rat.Defs
import Mathlib.Algebra.Order.Field.Basic

/-!
# Specification of the evaluation curves

Samples are `0, …, m - 1`; `score i = ⊥` means that sample `i` was not retrieved.
-/

namespace Verif.Plotop

open Finset

variable {S : Type} [LinearOrder S] [OrderBot S]

/-- Sample `i` comes before sample `j`: its score is larger, or the scores are equal and it is given first. -/
def Before (score : Nat → S) (i j : Nat) : Prop := score j < score i ∨ (score i = score j ∧ i < j)

instance (score : Nat → S) (i j : Nat) : Decidable (Before score i j) := by unfold Before; infer_instance

/-- The number of samples that come before `i`. -/
def rank (score : Nat → S) (m i : Nat) : Nat := #{j ∈ range m | Before score j i}

/-- The samples in the evaluation. -/
def retrieved (inf : Bool) (score : Nat → S) (m : Nat) : Finset Nat := {i ∈ range m | inf = true ∨ score i ≠ ⊥}

/-- The first `k` samples. -/
def top (inf : Bool) (score : Nat → S) (m k : Nat) : Finset Nat := {i ∈ retrieved inf score m | rank score m i < k}

/-- True positives and false positives if the first `k` samples are predicted to be positive. -/
def numTP (inf : Bool) (label : Nat → Int) (score : Nat → S) (m k : Nat) : Nat := #{i ∈ top inf score m k | 0 < label i}
def numFP (inf : Bool) (label : Nat → Int) (score : Nat → S) (m k : Nat) : Nat := #{i ∈ top inf score m k | label i < 0}

/-- Positive and negative labels. -/
def positives (label : Nat → Int) (m : Nat) : Finset Nat := {i ∈ range m | 0 < label i}
def negatives (label : Nat → Int) (m : Nat) : Finset Nat := {i ∈ range m | label i < 0}

/-- The precision, one by convention if there are no predictions. -/
def precision (T F : Nat) : ℚ := if T = 0 ∧ F = 0 then 1 else (T : ℚ) / (T + F)

/-- The pairs of a positive and a retrieved negative sample in the right order, and those of a retrieved positive and a negative sample in the wrong order. -/
def rightPairs (inf : Bool) (label : Nat → Int) (score : Nat → S) (m : Nat) : Nat := #{ij ∈ positives label m ×ˢ negatives label m | ij.2 ∈ retrieved inf score m ∧ Before score ij.1 ij.2}
def wrongPairs (inf : Bool) (label : Nat → Int) (score : Nat → S) (m : Nat) : Nat := #{ij ∈ positives label m ×ˢ negatives label m | ij.1 ∈ retrieved inf score m ∧ Before score ij.2 ij.1}

end Verif.Plotop
