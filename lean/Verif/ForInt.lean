import Verif.Loop

/-!
# Loops over a range of integers
-/

namespace Verif

variable {σ : Type}

/-- `for (i = lo ; i <= hi ; ++i) body(i)`. -/
def forInt (lo hi : Int) (f : Int → σ → Option σ) (s : σ) : Option σ := iter (hi + 1 - lo).toNat (fun i => f (lo + i)) s

/-- The integers from `lo` to `hi`. -/
def intRange (lo hi : Int) : List Int := (List.range (hi + 1 - lo).toNat).map (fun (i : Nat) => lo + (i : Int))

theorem mem_intRange {lo hi a : Int} : a ∈ intRange lo hi ↔ lo ≤ a ∧ a ≤ hi := by
  unfold intRange
  rw [List.mem_map]
  constructor
  · rintro ⟨i, hi', rfl⟩
    rw [List.mem_range] at hi'
    omega
  · rintro ⟨h1, h2⟩
    exact ⟨(a - lo).toNat, by rw [List.mem_range]; omega, by omega⟩

/-- A loop over a range is a fold over the list of its values. -/
theorem forInt_eq (lo hi : Int) (f : Int → σ → Option σ) (s : σ) : forInt lo hi f s = (intRange lo hi).foldlM (fun s a => f a s) s := by
  unfold forInt intRange
  generalize (hi + 1 - lo).toNat = n
  induction n with
  | zero => rfl
  | succ n ih =>
    rw [iter, ih, List.range_succ, List.map_append, List.foldlM_append]
    simp

end Verif
