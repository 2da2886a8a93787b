import Verif.Liop.Lemmas
import Mathlib.Tactic.Positivity

/-!
# Lemmas about the construction of a LIOP descriptor
-/

namespace Verif.Liop

open Verif.Sift (trunc trunc_eq)

theorem range_mul (a b : Nat) : List.range (a * b) = (List.range a).flatMap fun y => (List.range b).map fun x => x + y * b := by
  induction a with
  | zero => simp
  | succ a ih =>
    rw [Nat.succ_mul, List.range_add, ih, List.range_succ, List.flatMap_append]
    congr 1
    simp [Nat.add_comm]

theorem flatMap_filter (l : List Nat) (g : Nat → Nat) (f : Nat → List Nat) (Q : Nat → Bool) (h : ∀ x ∈ l, f x = if Q (g x) then [g x] else []) :
    l.flatMap f = (l.map g).filter Q := by
  induction l with
  | nil => rfl
  | cons a l ih =>
    rw [List.flatMap_cons, List.map_cons, ih (fun x hx => h x (by simp [hx])), h a (by simp)]
    by_cases c : Q (g a)
    · rw [if_pos c, List.filter_cons_of_pos c]; rfl
    · rw [if_neg c, List.filter_cons_of_neg c]; rfl

theorem patchPixels_eq (r : ℚ) (side : Nat) : patchPixels r side = discPixels r side := by
  unfold patchPixels discPixels
  simp only
  rw [trunc_eq _ (mul_self_nonneg _), range_mul, List.filter_flatMap]
  apply List.flatMap_congr
  intro y hy
  apply flatMap_filter
  intro x hx
  rw [List.mem_range] at hx hy
  have h1 : (x + y * side) % side = x := by rw [Nat.add_mul_mod_self_right, Nat.mod_eq_of_lt hx]
  have h2 : (x + y * side) / side = y := by rw [Nat.add_mul_div_right _ _ (by omega), Nat.div_eq_of_lt hx, Nat.zero_add]
  rw [h1, h2, pow_two, pow_two, pow_two]
  have h3 : (x + y * side = 0) ↔ (x = 0 ∧ y = 0) := by
    constructor
    · intro h
      have h4 : y * side = 0 := by omega
      rcases Nat.mul_eq_zero.mp h4 with h5 | h5 <;> omega
    · rintro ⟨rfl, rfl⟩; simp
  by_cases c : x = 0 ∧ y = 0
  · rw [if_pos c, if_neg (by simp [c.1, c.2])]
  · rw [if_neg c]
    have h5 : x + y * side ≠ 0 := fun h => c (h3.mp h)
    by_cases g : ((x : Int) - ((side : Int) - 1) / 2) * ((x : Int) - ((side : Int) - 1) / 2) + ((y : Int) - ((side : Int) - 1) / 2) * ((y : Int) - ((side : Int) - 1) / 2) ≤
        ⌊((((side : Int) - 1) / 2 : Int) - r + 6 / 10) * ((((side : Int) - 1) / 2 : Int) - r + 6 / 10)⌋
    · rw [if_pos g, if_pos (by rw [decide_eq_true_eq]; exact ⟨h5, g⟩)]
    · rw [if_neg g, if_neg (by rw [decide_eq_true_eq]; intro h; exact g h.2)]

theorem rd_blocks {l : List Nat} {n : Nat} (g : Nat → Nat → ℚ) {q t : Nat} (hq : q < l.length) (ht : t < n) :
    rd (l.flatMap fun p => (List.range n).map fun t => g p t) (n * q + t) = some (g (l.getD q 0) t) := by
  induction l generalizing q with
  | nil => simp at hq
  | cons a l ih =>
    rw [List.flatMap_cons, rd_getElem?]
    cases q with
    | zero =>
      rw [List.getElem?_append_left (by simp; omega)]
      simp [ht]
    | succ q =>
      rw [List.getElem?_append_right (by simp; rw [Nat.mul_succ]; omega), ← rd_getElem?]
      simp only [List.length_map, List.length_range]
      rw [show n * (q + 1) + t - n = n * q + t by rw [Nat.mul_succ]; omega, ih (by simpa using hq)]
      simp

/-- A sample lies less than one pixel outside the patch. -/
theorem sample_range {r : ℚ} {side : Nat} (hr : 0 ≤ r) (hr' : r ≤ ((side / 2 : Nat) : ℚ)) (_ : 1 ≤ side) {d e : Int} {co si : ℚ} (hcs : co ^ 2 + si ^ 2 = 1)
    (hd : (d - ((side : Int) - 1) / 2) ^ 2 + (e - ((side : Int) - 1) / 2) ^ 2 ≤ ⌊(((((side : Int) - 1) / 2 : Int) : ℚ) - r + 6 / 10) ^ 2⌋) :
    -1 ≤ d + r * co ∧ d + r * co < side := by
  have hco : |co| ≤ 1 := by
    rw [← sq_le_one_iff_abs_le_one]
    have := sq_nonneg si
    linarith
  obtain ⟨c1, c2⟩ := abs_le.mp hco
  have h1 : -r ≤ r * co := by nlinarith
  have h2 : r * co ≤ r := by nlinarith
  obtain ⟨c, hc⟩ : ∃ c : Int, ((side : Int) - 1) / 2 = c := ⟨_, rfl⟩
  rw [hc] at hd
  obtain ⟨H, hH⟩ : ∃ H : Nat, side / 2 = H := ⟨_, rfl⟩
  rw [hH] at hr'
  have k1 : 2 * c + 1 ≤ side := by omega
  have k2 : c + H + 1 = side := by omega
  have k3 : c + 1 ≥ H := by omega
  have k1' : 2 * (c : ℚ) + 1 ≤ side := by exact_mod_cast k1
  have k2' : (c : ℚ) + H + 1 = side := by exact_mod_cast k2
  have k3' : (c : ℚ) + 1 ≥ H := by exact_mod_cast k3
  have hd2 : (d - c) ^ 2 ≤ ⌊((c : ℚ) - r + 6 / 10) ^ 2⌋ := le_trans (by have := sq_nonneg (e - c); linarith) hd
  by_cases ht : 0 ≤ (c : ℚ) - r + 6 / 10
  · have h3 : ((d : ℚ) - c) ^ 2 ≤ ((c : ℚ) - r + 6 / 10) ^ 2 := by
      have := Int.le_floor.mp hd2
      push_cast at this
      exact this
    obtain ⟨h4, h5⟩ := abs_le_of_sq_le_sq' h3 ht
    constructor <;> linarith
  · have h3 : ⌊((c : ℚ) - r + 6 / 10) ^ 2⌋ ≤ 0 := by
      have : ⌊((c : ℚ) - r + 6 / 10) ^ 2⌋ < 1 := by
        rw [Int.floor_lt]
        push_cast
        nlinarith
      omega
    have h4 : d - c = 0 := by
      have : (d - c) ^ 2 ≤ 0 := le_trans hd2 h3
      have := pow_eq_zero_iff (two_ne_zero) |>.mp (le_antisymm this (sq_nonneg _))
      exact this
    have h5 : (d : ℚ) = c := by exact_mod_cast sub_eq_zero.mp h4
    rw [h5]
    constructor <;> linarith

theorem mem_disc {r : ℚ} {side p : Nat} (h : p ∈ discPixels r side) : p < side * side ∧
    (((p % side : Nat) : Int) - ((side : Int) - 1) / 2) ^ 2 + (((p / side : Nat) : Int) - ((side : Int) - 1) / 2) ^ 2 ≤
      ⌊(((((side : Int) - 1) / 2 : Int) : ℚ) - r + 6 / 10) ^ 2⌋ := by
  unfold discPixels at h
  simp only [List.mem_filter, List.mem_range, decide_eq_true_eq] at h
  exact ⟨h.1, h.2.2⟩

theorem disc_ne_nil {r : ℚ} {side : Nat} (hs : 3 ≤ side) : 1 ≤ (discPixels r side).length := by
  obtain ⟨c, hc⟩ : ∃ c : Nat, (side - 1) / 2 = c := ⟨_, rfl⟩
  have hc' : ((side : Int) - 1) / 2 = c := by omega
  apply List.length_pos_of_mem (a := c + c * side)
  unfold discPixels
  simp only [List.mem_filter, List.mem_range, decide_eq_true_eq]
  have h1 : (c + c * side) % side = c := by rw [Nat.add_mul_mod_self_right, Nat.mod_eq_of_lt (by omega)]
  have h2 : (c + c * side) / side = c := by rw [Nat.add_mul_div_right _ _ (by omega), Nat.div_eq_of_lt (by omega), Nat.zero_add]
  rw [h1, h2, hc']
  refine ⟨?_, by omega, ?_⟩
  · have := Flat.addr_lt (n := side) (m := side) (i := c) (j := c) (by omega) (by omega)
    omega
  · simp only [sub_self]
    exact Int.floor_nonneg.mpr (sq_nonneg _)

theorem disc_small {r : ℚ} {side : Nat} (hs : side ≤ 2) (hr : 0 ≤ r) (hr' : r ≤ ((side / 2 : Nat) : ℚ)) : discPixels r side = [] := by
  unfold discPixels
  simp only
  rw [List.filter_eq_nil_iff]
  intro p hp
  rw [List.mem_range] at hp
  rw [decide_eq_true_eq]
  rintro ⟨h1, h2⟩
  have : side = 0 ∨ side = 1 ∨ side = 2 := by omega
  rcases this with rfl | rfl | rfl
  · omega
  · omega
  · have h3 : r ≤ 1 := by simpa using hr'
    have hz : (((2 : Nat) : Int) - 1) / 2 = 0 := by decide
    rw [hz] at h2
    have h4 : ⌊(((0 : Int) : ℚ) - r + 6 / 10) ^ 2⌋ < 1 := by
      rw [Int.floor_lt]
      push_cast
      nlinarith
    have h5 : (((p % 2 : Nat) : Int) - 0) ^ 2 + (((p / 2 : Nat) : Int) - 0) ^ 2 < 1 := lt_of_le_of_lt h2 h4
    have : p = 1 ∨ p = 2 ∨ p = 3 := by omega
    rcases this with rfl | rfl | rfl <;> exact absurd h5 (by decide)

end Verif.Liop
