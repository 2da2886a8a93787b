import Verif.Base

/-!
# Counted loops and signed array offsets
-/

namespace Verif

variable {σ : Type}

/-- `for (i = 0 ; i < n ; ++i) body(i)`; the body may fail (undefined behaviour). -/
def iter : Nat → (Nat → σ → Option σ) → σ → Option σ
  | 0, _, s => some s
  | n + 1, f, s => (iter n f s).bind (f n)

/-- Invariant rule for counted loops. -/
theorem iter_inv (P : Nat → σ → Prop) {n : Nat} {f : Nat → σ → Option σ} {s : σ} (h0 : P 0 s)
    (hs : ∀ i < n, ∀ s, P i s → ∃ s', f i s = some s' ∧ P (i + 1) s') : ∃ s', iter n f s = some s' ∧ P n s' := by
  induction n with
  | zero => exact ⟨s, rfl, h0⟩
  | succ n ih =>
    obtain ⟨s1, h1, h2⟩ := ih (fun i hi => hs i (by omega))
    obtain ⟨s2, h3, h4⟩ := hs n (by omega) s1 h2
    exact ⟨s2, by simp [iter, h1, h3], h4⟩

theorem iter_zero (f : Nat → σ → Option σ) (s : σ) : iter 0 f s = some s := rfl

/-- A loop whose body only depends on the value of another body on the range is the same loop. -/
theorem iter_congr {n : Nat} {f g : Nat → σ → Option σ} {s : σ} (h : ∀ i < n, ∀ s, f i s = g i s) :
    iter n f s = iter n g s := by
  induction n with
  | zero => rfl
  | succ n ih =>
    simp only [iter]
    rw [ih (fun i hi => h i (by omega))]
    congr 1; funext s'; exact h n (by omega) s'

variable {α : Type}

/-- Array read at a signed offset. -/
def rdI (l : List α) (i : Int) : Option α := if i < 0 then none else rd l i.toNat

/-- Array write at a signed offset. -/
def wrI (l : List α) (i : Int) (a : α) : Option (List α) := if i < 0 then none else wr l i.toNat a

@[simp] theorem rdI_nat (l : List α) (n : Nat) : rdI l (n : Int) = rd l n := by
  simp [rdI, show ¬ ((n : Int) < 0) by omega]

@[simp] theorem wrI_nat (l : List α) (n : Nat) (a : α) : wrI l (n : Int) a = wr l n a := by
  simp [wrI, show ¬ ((n : Int) < 0) by omega]

theorem rdI_eq (l : List α) (i : Int) (n : Nat) (h : i = n) : rdI l i = rd l n := by subst h; simp
theorem wrI_eq (l : List α) (i : Int) (n : Nat) (a : α) (h : i = n) : wrI l i a = wr l n a := by subst h; simp

theorem rd_getElem? (l : List α) (i : Nat) : rd l i = l[i]? := by simp [rd]

end Verif
