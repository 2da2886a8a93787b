import Verif.Linear.Lemmas
import Mathlib.Algebra.Order.Ring.Rat
import Mathlib.Algebra.Field.Rat

/-! # C21: Gaussian elimination -/

namespace Verif.Linear

open Finset

variable {K : Type} [Field K] [LinearOrder K] [IsStrictOrderedRing K]

/-- Entry `(i, j)` of a matrix of `n` rows stored by columns. -/
def ent (l : List K) (n i j : Nat) : K := l.getD (i + j * n) 0

omit [LinearOrder K] [IsStrictOrderedRing K] in
theorem rep_ent {l : List K} {n m : Nat} (h : l.length = n * m) : Rep l n m (ent l n) := by
  refine ⟨h, fun a ha b hb => ?_⟩
  have := at_lt (n := n) (m := m) ha hb
  rw [← h] at this
  rw [List.getElem?_eq_getElem this, ent, List.getD_eq_getElem?_getD]
  unfold at' at *
  rw [List.getElem?_eq_getElem this]
  rfl

/-- For every `n × m` matrix `[A, B]` with `n ≤ m` and every positive threshold, the function does not access memory out of
bounds and returns; if it returns `VL_ERR_OK` then
* every column `c ≥ n` of the result is a solution `x` of `A x = b` where `b` is the column `c` of the argument, and
* it is the only solution,
and if it returns `VL_ERR_OVERFLOW` then `A` is nearly singular: it sends a vector that has an entry one to less than the threshold in all entries. -/
theorem gaussianElimination_correct (tau : K) (htau : 0 < tau) (l : List K) (n m : Nat) (hm : n ≤ m) (hl : l.length = n * m) :
    ∃ err l', gaussianElimination tau l n m = some (err, l') ∧ l'.length = n * m ∧
      (err = false → ∀ c, n ≤ c → c < m → ∀ x : Nat → K,
        (∀ i < n, ∑ k ∈ range n, ent l n i k * x k = ent l n i c) ↔ ∀ i < n, x i = ent l' n i c) ∧
      (err = true → ∃ u : Nat → K, (∃ k < n, u k = 1) ∧ ∀ i < n, |∑ k ∈ range n, ent l n i k * u k| < tau) := by
  rcases gauss_main htau (rep_ent hl) hm with ⟨l', e, h', v, hv, hv0, hvs⟩ | ⟨l', M', e, r, k⟩
  · refine ⟨true, l', e, h', by simp, fun _ => ⟨v, hv, fun i hi => ?_⟩⟩
    have := hvs i hi
    unfold dot at this
    rw [← Finset.sum_range_add_sum_Ico _ hm, Finset.sum_eq_zero (s := Ico n m) (fun b hb => by
      rw [hv0 b (Finset.mem_Ico.1 hb).1, mul_zero]), add_zero] at this
    exact this
  · refine ⟨false, l', e, r.1, fun _ c hc hcm x => ?_, by simp⟩
    have hM' : ∀ i < n, M' i c = ent l' n i c := by
      intro i hi
      have h1 := r.2 i hi c hcm
      have h2 := (rep_ent r.1).2 i hi c hcm
      rw [h1] at h2
      exact Option.some.inj h2
    have hk := k (fun j => if j < n then x j else if j = c then -1 else 0)
    have e1 : ∀ i, dot m (ent l n) i (fun j => if j < n then x j else if j = c then -1 else 0)
        = ∑ k ∈ range n, ent l n i k * x k - ent l n i c := by
      intro i
      unfold dot
      rw [← Finset.sum_range_add_sum_Ico _ hm, Finset.sum_eq_single_of_mem (s := Ico n m) c (by simp; omega)]
      · rw [sub_eq_add_neg]
        congr 1
        · exact Finset.sum_congr rfl (fun k hk => by beta_reduce; rw [if_pos (Finset.mem_range.1 hk)])
        · beta_reduce; rw [if_neg (by omega), if_pos rfl]; ring
      · intro b hb hbc
        rw [Finset.mem_Ico] at hb
        beta_reduce
        rw [if_neg (by omega), if_neg hbc, mul_zero]
    have e2 : ∀ i < n, ((if i < n then x i else if i = c then -1 else 0)
        + ∑ k ∈ Ico n m, M' i k * (if k < n then x k else if k = c then -1 else 0)) = x i - ent l' n i c := by
      intro i hi
      rw [if_pos hi, Finset.sum_eq_single_of_mem (s := Ico n m) c (by simp; omega)]
      · rw [if_neg (by omega), if_pos rfl, hM' i hi]; ring
      · intro b hb hbc
        rw [Finset.mem_Ico] at hb
        beta_reduce
        rw [if_neg (by omega), if_neg hbc, mul_zero]
    constructor
    · intro hx i hi
      have := hk.1 (fun i hi => by rw [e1, hx i hi, sub_self]) i hi
      rw [e2 i hi] at this
      exact sub_eq_zero.1 this
    · intro hx i hi
      have := hk.2 (fun i hi => by rw [e2 i hi, hx i hi, sub_self]) i hi
      rw [e1] at this
      exact sub_eq_zero.1 this

/-- A singular matrix is always reported: if `A y = 0` for some non-zero `y`, the function returns `VL_ERR_OVERFLOW`. -/
theorem gaussianElimination_singular (tau : K) (htau : 0 < tau) (l : List K) (n m : Nat) (hm : n ≤ m) (hl : l.length = n * m)
    (y : Nat → K) (hy : ∃ i < n, y i ≠ 0) (hker : ∀ i < n, ∑ k ∈ range n, ent l n i k * y k = 0) :
    ∃ l', gaussianElimination tau l n m = some (true, l') := by
  rcases gauss_main htau (rep_ent hl) hm with ⟨l', e, -⟩ | ⟨l', M', e, r, k⟩
  · exact ⟨l', e⟩
  · exfalso
    have hk := (k (fun j => if j < n then y j else 0)).1 (by
      intro i hi
      unfold dot
      rw [← Finset.sum_range_add_sum_Ico _ hm, Finset.sum_eq_zero (s := Ico n m), add_zero, ← hker i hi]
      · exact Finset.sum_congr rfl (fun k hk => by beta_reduce; rw [if_pos (Finset.mem_range.1 hk)])
      · intro b hb
        rw [Finset.mem_Ico] at hb
        beta_reduce
        rw [if_neg (by omega), mul_zero])
    obtain ⟨i, hi, hne⟩ := hy
    have := hk i hi
    rw [if_pos hi, Finset.sum_eq_zero (s := Ico n m), add_zero] at this
    · exact hne this
    · intro b hb
      rw [Finset.mem_Ico] at hb
      beta_reduce
      rw [if_neg (by omega), mul_zero]

/-- `vl_solve_linear_system_3`: on success `x` is the only solution of `A x = b`. -/
theorem solve3_correct (tau : K) (htau : 0 < tau) (A b : List K) (hA : A.length = 9) (hb : b.length = 3) :
    ∃ err x, solve3 tau A b = some (err, x) ∧ x.length = 3 ∧
      (err = false → ∀ z : Nat → K,
        (∀ i < 3, ∑ k ∈ range 3, ent A 3 i k * z k = b.getD i 0) ↔ ∀ i < 3, z i = x.getD i 0) ∧
      (err = true → ∃ u : Nat → K, (∃ k < 3, u k = 1) ∧ ∀ i < 3, |∑ k ∈ range 3, ent A 3 i k * u k| < tau) := by
  obtain ⟨a0, a1, a2, a3, a4, a5, a6, a7, a8, rfl⟩ : ∃ a0 a1 a2 a3 a4 a5 a6 a7 a8, A = [a0, a1, a2, a3, a4, a5, a6, a7, a8] := by
    match A, hA with
    | [a0, a1, a2, a3, a4, a5, a6, a7, a8], _ => exact ⟨_, _, _, _, _, _, _, _, _, rfl⟩
  obtain ⟨b0, b1, b2, rfl⟩ : ∃ b0 b1 b2, b = [b0, b1, b2] := by
    match b, hb with
    | [b0, b1, b2], _ => exact ⟨_, _, _, rfl⟩
  obtain ⟨err, l', e, hl, hs, hu⟩ := gaussianElimination_correct tau htau [a0, a1, a2, a3, a4, a5, a6, a7, a8, b0, b1, b2] 3 4
    (by omega) rfl
  obtain ⟨m0, m1, m2, m3, m4, m5, m6, m7, m8, x0, x1, x2, rfl⟩ : ∃ m0 m1 m2 m3 m4 m5 m6 m7 m8 x0 x1 x2,
      l' = [m0, m1, m2, m3, m4, m5, m6, m7, m8, x0, x1, x2] := by
    match l', hl with
    | [m0, m1, m2, m3, m4, m5, m6, m7, m8, x0, x1, x2], _ => exact ⟨_, _, _, _, _, _, _, _, _, _, _, _, rfl⟩
  refine ⟨err, [x0, x1, x2], ?_, rfl, ?_, ?_⟩
  · simp [solve3, e]
  · intro he z
    have := hs he 3 le_rfl (by omega) z
    constructor
    · intro h i hi
      have h2 := this.1 (by
        intro i hi
        have := h i hi
        rcases (show i = 0 ∨ i = 1 ∨ i = 2 by omega) with rfl | rfl | rfl <;>
          simpa [Finset.sum_range_succ, ent] using this) i hi
      rcases (show i = 0 ∨ i = 1 ∨ i = 2 by omega) with rfl | rfl | rfl <;> simpa [ent] using h2
    · intro h i hi
      have h2 := this.2 (by
        intro i hi
        have := h i hi
        rcases (show i = 0 ∨ i = 1 ∨ i = 2 by omega) with rfl | rfl | rfl <;> simpa [ent] using this) i hi
      rcases (show i = 0 ∨ i = 1 ∨ i = 2 by omega) with rfl | rfl | rfl <;>
        simpa [Finset.sum_range_succ, ent] using h2
  · intro he
    obtain ⟨u, h1, h2⟩ := hu he
    refine ⟨u, h1, fun i hi => ?_⟩
    have h3 := h2 i hi
    rcases (show i = 0 ∨ i = 1 ∨ i = 2 by omega) with rfl | rfl | rfl <;>
      simpa [Finset.sum_range_succ, ent] using h3

/-- `vl_solve_linear_system_2`: on success `x` is the only solution of `A x = b`. -/
theorem solve2_correct (tau : K) (htau : 0 < tau) (A b : List K) (hA : A.length = 4) (hb : b.length = 2) :
    ∃ err x, solve2 tau A b = some (err, x) ∧ x.length = 2 ∧
      (err = false → ∀ z : Nat → K,
        (∀ i < 2, ∑ k ∈ range 2, ent A 2 i k * z k = b.getD i 0) ↔ ∀ i < 2, z i = x.getD i 0) ∧
      (err = true → ∃ u : Nat → K, (∃ k < 2, u k = 1) ∧ ∀ i < 2, |∑ k ∈ range 2, ent A 2 i k * u k| < tau) := by
  obtain ⟨a0, a1, a2, a3, rfl⟩ : ∃ a0 a1 a2 a3, A = [a0, a1, a2, a3] := by
    match A, hA with
    | [a0, a1, a2, a3], _ => exact ⟨_, _, _, _, rfl⟩
  obtain ⟨b0, b1, rfl⟩ : ∃ b0 b1, b = [b0, b1] := by
    match b, hb with
    | [b0, b1], _ => exact ⟨_, _, rfl⟩
  obtain ⟨err, l', e, hl, hs, hu⟩ := gaussianElimination_correct tau htau [a0, a1, a2, a3, b0, b1] 2 3 (by omega) rfl
  obtain ⟨m0, m1, m2, m3, x0, x1, rfl⟩ : ∃ m0 m1 m2 m3 x0 x1, l' = [m0, m1, m2, m3, x0, x1] := by
    match l', hl with
    | [m0, m1, m2, m3, x0, x1], _ => exact ⟨_, _, _, _, _, _, rfl⟩
  refine ⟨err, [x0, x1], ?_, rfl, ?_, ?_⟩
  · simp [solve2, e]
  · intro he z
    have := hs he 2 le_rfl (by omega) z
    constructor
    · intro h i hi
      have h2 := this.1 (by
        intro i hi
        have := h i hi
        rcases (show i = 0 ∨ i = 1 by omega) with rfl | rfl <;> simpa [Finset.sum_range_succ, ent] using this) i hi
      rcases (show i = 0 ∨ i = 1 by omega) with rfl | rfl <;> simpa [ent] using h2
    · intro h i hi
      have h2 := this.2 (by
        intro i hi
        have := h i hi
        rcases (show i = 0 ∨ i = 1 by omega) with rfl | rfl <;> simpa [ent] using this) i hi
      rcases (show i = 0 ∨ i = 1 by omega) with rfl | rfl <;> simpa [Finset.sum_range_succ, ent] using h2
  · intro he
    obtain ⟨u, h1, h2⟩ := hu he
    refine ⟨u, h1, fun i hi => ?_⟩
    have h3 := h2 i hi
    rcases (show i = 0 ∨ i = 1 by omega) with rfl | rfl <;>
      simpa [Finset.sum_range_succ, ent] using h3

/-- A system that needs a row exchange: `y = 3`, `2 x + y = 5`, and a singular one. -/
example : solve2 (K := ℚ) (1 / 10 ^ 10) [0, 2, 1, 1] [3, 5] = some (false, [1, 3]) ∧
    (solve2 (K := ℚ) (1 / 10 ^ 10) [1, 2, 2, 4] [3, 5]).map Prod.fst = some true := by decide +kernel

/-- The threshold is absolute: the regular 1 × 1 system `1e-11 x = 1` is rejected. -/
theorem gaussianElimination_rejects_small :
    gaussianElimination (K := ℚ) (1 / 10 ^ 10) [1 / 10 ^ 11, 1] 1 2 = some (true, [1 / 10 ^ 11, 1]) := by decide +kernel

end Verif.Linear
