import Verif.Loop
import Mathlib.Tactic.Ring
import Mathlib.Tactic.Linarith

/-!
# Loops with a step and nested counted loops
-/

namespace Verif

variable {σ : Type}

/-- `for (c = cur ; c <= hi ; c += step) body(c)`; `none` when the loop does not end within `fuel` rounds. -/
def forStep (hi step : Int) (f : Int → σ → Option σ) : Nat → Int → σ → Option σ
  | 0, cur, s => if cur ≤ hi then none else some s
  | fuel + 1, cur, s => if cur ≤ hi then (f cur s).bind (forStep hi step f fuel (cur + step)) else some s

/-- A counted loop, peeled at its first round. -/
theorem iter_succ' (n : Nat) (f : Nat → σ → Option σ) (s : σ) :
    iter (n + 1) f s = (f 0 s).bind (iter n (fun i => f (i + 1))) := by
  induction n generalizing f s with
  | zero => simp [iter]
  | succ n ih =>
    rw [iter, ih]
    cases f 0 s with
    | none => rfl
    | some s' => simp [iter]

/-- A loop with a step is a counted loop. -/
theorem forStep_eq (hi step : Int) (f : Int → σ → Option σ) {n fuel : Nat} (hf : n ≤ fuel) (cur : Int)
    (h1 : ∀ i < n, cur + i * step ≤ hi) (h2 : ¬ cur + n * step ≤ hi) (s : σ) :
    forStep hi step f fuel cur s = iter n (fun i => f (cur + i * step)) s := by
  induction n generalizing fuel cur s with
  | zero =>
    simp only [Int.natCast_zero, zero_mul, add_zero] at h2
    cases fuel <;> simp [forStep, h2, iter]
  | succ n ih =>
    obtain ⟨fuel, rfl⟩ : ∃ k, fuel = k + 1 := ⟨fuel - 1, by omega⟩
    have h0 := h1 0 (by omega)
    simp only [Int.natCast_zero, zero_mul, add_zero] at h0
    rw [iter_succ', forStep, if_pos h0]
    simp only [Int.natCast_zero, zero_mul, add_zero]
    congr 1
    funext s'
    have e1 : ∀ i < n, cur + step + (i : Int) * step ≤ hi := fun i hi' => by
      have := h1 (i + 1) (by omega)
      push_cast at this; linarith
    have e2 : ¬ cur + step + (n : Int) * step ≤ hi := fun h => h2 (by push_cast; linarith)
    rw [ih (by omega) (cur + step) e1 e2 s']
    congr 1; funext i; congr 1; push_cast; ring

/-- Invariant rule for two nested counted loops, in terms of the number of rounds done. -/
theorem iter2_inv (P : Nat → σ → Prop) {n m : Nat} {f : Nat → Nat → σ → Option σ} {s : σ} (h0 : P 0 s)
    (hs : ∀ j < n, ∀ i < m, ∀ s, P (j * m + i) s → ∃ s', f j i s = some s' ∧ P (j * m + i + 1) s') :
    ∃ s', iter n (fun j s => iter m (fun i s => f j i s) s) s = some s' ∧ P (n * m) s' := by
  refine iter_inv (fun j s => P (j * m) s) (by simpa using h0) fun j hj s hP => ?_
  obtain ⟨s', h1, h2⟩ := iter_inv (fun i s => P (j * m + i) s) (n := m) (f := fun i s => f j i s) (s := s) (by simpa using hP)
    (fun i hi s hs' => hs j hj i hi s hs')
  exact ⟨s', h1, by rw [Nat.add_mul, Nat.one_mul]; exact h2⟩

end Verif
