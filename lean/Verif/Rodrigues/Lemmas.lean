import Verif.Rodrigues.ExpLemmas
import Mathlib.Analysis.SpecialFunctions.Sqrt
import Mathlib.Analysis.Calculus.FDeriv.Mul
import Mathlib.Analysis.Calculus.FDeriv.Pi
import Mathlib.Tactic.Linarith
import Mathlib.Tactic.IntervalCases

/-!
# Lemmas about Rodrigues' formula
-/

namespace Verif.Rodrigues

open Spec

theorem exists3 {α : Type} {l : List α} (h : l.length = 3) : ∃ a0 a1 a2, l = [a0, a1, a2] := by
  rcases l with _ | ⟨a0, l⟩
  · simp at h
  rcases l with _ | ⟨a1, l⟩
  · simp at h
  rcases l with _ | ⟨a2, l⟩
  · simp at h
  rcases l with _ | ⟨b, l⟩
  · exact ⟨a0, a1, a2, rfl⟩
  · simp only [List.length_cons] at h
    omega

theorem exists9 {α : Type} {l : List α} (h : l.length = 9) : ∃ a0 a1 a2 a3 a4 a5 a6 a7 a8, l = [a0, a1, a2, a3, a4, a5, a6, a7, a8] := by
  rcases l with _ | ⟨a0, l⟩
  · simp at h
  rcases l with _ | ⟨a1, l⟩
  · simp at h
  rcases l with _ | ⟨a2, l⟩
  · simp at h
  rcases l with _ | ⟨a3, l⟩
  · simp at h
  rcases l with _ | ⟨a4, l⟩
  · simp at h
  rcases l with _ | ⟨a5, l⟩
  · simp at h
  rcases l with _ | ⟨a6, l⟩
  · simp at h
  rcases l with _ | ⟨a7, l⟩
  · simp at h
  rcases l with _ | ⟨a8, l⟩
  · simp at h
  rcases l with _ | ⟨b, l⟩
  · exact ⟨a0, a1, a2, a3, a4, a5, a6, a7, a8, rfl⟩
  · simp only [List.length_cons] at h
    omega

/-- Assignments to all the places, in order -/
theorem store_seq : ∀ (s : List (Nat × ℝ)) (pre l : List ℝ), l.length = s.length → s.map Prod.fst = List.range' pre.length s.length → store (pre ++ l) s = some (pre ++ s.map Prod.snd) := by
  intro s
  induction s with
  | nil =>
    intro pre l h _
    rw [List.length_eq_zero_iff.1 h]
    rfl
  | cons p s ih =>
    intro pre l h h2
    rcases l with _ | ⟨a, l⟩
    · simp at h
    · simp only [List.length_cons, List.map_cons, List.range'_succ, List.cons.injEq] at h2
      have := ih (pre ++ [p.2]) l (by simpa using h) (by simpa using h2.2)
      rw [store, h2.1, wr, if_pos (by simp), Option.bind_some]
      simpa using this

/-- Assignments to distinct places -/
theorem store_get : ∀ (s : List (Nat × ℝ)) (l : List ℝ), (∀ p ∈ s, p.1 < l.length) → (s.map Prod.fst).Nodup →
    ∃ l', store l s = some l' ∧ l'.length = l.length ∧ (∀ p ∈ s, l'[p.1]? = some p.2) ∧ ∀ i, i ∉ s.map Prod.fst → l'[i]? = l[i]? := by
  intro s
  induction s with
  | nil => exact fun l _ _ => ⟨l, rfl, rfl, by simp, by simp⟩
  | cons p s ih =>
    intro l h hn
    rw [List.map_cons, List.nodup_cons] at hn
    have hp := h p (by simp)
    obtain ⟨l', e, h1, h2, h3⟩ := ih (l.set p.1 p.2) (fun q hq => by rw [List.length_set]; exact h q (by simp [hq])) hn.2
    refine ⟨l', by rw [store, wr, if_pos hp, Option.bind_some, e], by simpa using h1, ?_, ?_⟩
    · intro q hq
      rcases List.mem_cons.1 hq with rfl | hq
      · rw [h3 _ hn.1, List.getElem?_set_self hp]
      · exact h2 q hq
    · intro i hi
      rw [List.map_cons, List.mem_cons, not_or] at hi
      rw [h3 i hi.2, List.getElem?_set_ne (Ne.symm hi.1)]

theorem divv_of {x y : ℝ} (h : y ≠ 0) : divv x y = some (x / y) := if_neg h

theorem sqrtv_of {x : ℝ} (h : 0 ≤ x) : sqrtv real x = some (Real.sqrt x) := if_neg (not_lt.2 h)

theorem store9 {R : List ℝ} (h : R.length = 9) (x y z s m : ℝ) : store R (assignR x y z s m) = some ((assignR x y z s m).map Prod.snd) := by
  obtain ⟨a0, a1, a2, a3, a4, a5, a6, a7, a8, rfl⟩ := exists9 h
  rfl

theorem store9' {R : List ℝ} (h : R.length = 9) : store R assignR0 = some [1, 0, 0, 0, 1, 0, 0, 0, 1] := by
  obtain ⟨a0, a1, a2, a3, a4, a5, a6, a7, a8, rfl⟩ := exists9 h
  rfl

theorem store27 {R : List ℝ} (h : R.length = 27) (x y z a b c d : ℝ) : store R (assignD x y z a b c d) = some ((assignD x y z a b c d).map Prod.snd) :=
  store_seq (assignD x y z a b c d) [] R h rfl

theorem store27' {R : List ℝ} (h : R.length = 27) : store R assignD0 = some [0, 0, 0, 0, 0, 1, 0, -1, 0, 0, 0, -1, 0, 0, 0, 1, 0, 0, 0, 1, 0, -1, 0, 0, 0, 0, 0] := by
  have hlt : ∀ i ∈ (assignD0 (K := ℝ)).map Prod.fst, i < 27 := by
    show ∀ i ∈ [0, 9, 18, 1, 10, 19, 2, 11, 20, 3, 12, 21, 4, 13, 22, 5, 14, 23, 6, 15, 24, 7, 16, 25, 8, 17, 26], i < 27
    decide
  have hnd : ((assignD0 (K := ℝ)).map Prod.fst).Nodup := by
    show [0, 9, 18, 1, 10, 19, 2, 11, 20, 3, 12, 21, 4, 13, 22, 5, 14, 23, 6, 15, 24, 7, 16, 25, 8, 17, 26].Nodup
    decide
  obtain ⟨l, e, h1, h2, _⟩ := store_get assignD0 R (fun p hp => by rw [h]; exact hlt _ (List.mem_map_of_mem hp)) hnd
  rw [e]
  congr 1
  rw [h] at h1
  have key : ∀ n : Nat, ∀ p : Nat × ℝ, (assignD0 (K := ℝ))[n]? = some p → l[p.1]? = some p.2 := fun n p hp => h2 p (List.mem_of_getElem? hp)
  apply List.ext_getElem?
  intro i
  by_cases hi : i < 27
  · interval_cases i
    · exact key 0 _ rfl
    · exact key 3 _ rfl
    · exact key 6 _ rfl
    · exact key 9 _ rfl
    · exact key 12 _ rfl
    · exact key 15 _ rfl
    · exact key 18 _ rfl
    · exact key 21 _ rfl
    · exact key 24 _ rfl
    · exact key 1 _ rfl
    · exact key 4 _ rfl
    · exact key 7 _ rfl
    · exact key 10 _ rfl
    · exact key 13 _ rfl
    · exact key 16 _ rfl
    · exact key 19 _ rfl
    · exact key 22 _ rfl
    · exact key 25 _ rfl
    · exact key 2 _ rfl
    · exact key 5 _ rfl
    · exact key 8 _ rfl
    · exact key 11 _ rfl
    · exact key 14 _ rfl
    · exact key 17 _ rfl
    · exact key 20 _ rfl
    · exact key 23 _ rfl
    · exact key 26 _ rfl
  · rw [List.getElem?_eq_none (by omega), List.getElem?_eq_none (by simp; omega)]

/-- The nine entries, by columns -/
theorem rot_list {w : Fin 3 → ℝ} (h : len w ≠ 0) : IsMat ((assignR (w 0 / len w) (w 1 / len w) (w 2 / len w) (Real.sin (len w)) (1 - Real.cos (len w))).map Prod.snd) (rot w) := by
  have hl := len_sq w
  unfold IsMat
  rw [rot_eq h]
  simp only [assignR, List.map_cons, List.map_nil, hat, Matrix.add_apply, Matrix.smul_apply, Matrix.mul_apply, Fin.sum_univ_three, smul_eq_mul]
  simp
  refine ⟨?_, ?_, ?_, ?_, ?_, ?_, ?_, ?_, ?_⟩ <;> field_simp <;> ring

end Verif.Rodrigues
