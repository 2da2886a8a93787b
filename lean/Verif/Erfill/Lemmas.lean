import Verif.Erfill.Model
import Verif.Erfill.Spec
import Mathlib.Data.List.Nodup
import Mathlib.Tactic.Ring
import Mathlib.Tactic.Linarith

/-!
# Lemmas about the filling of an extremal region
-/

namespace Verif.Erfill

theorem subscripts_spec : ∀ (ds : List Nat) (s index : Nat), index < s * ds.prod → subscripts (stridesFrom s ds) index = (index % s, coords ds (index / s)) := by
  intro ds
  induction ds with
  | nil =>
    intro s index h
    simp only [List.prod_nil, Nat.mul_one] at h
    simp [stridesFrom, subscripts, coords, Nat.mod_eq_of_lt h]
  | cons d ds ih =>
    intro s index h
    simp only [List.prod_cons] at h
    simp only [stridesFrom, subscripts, coords]
    rw [ih (s * d) index (by rw [Nat.mul_assoc]; exact h)]
    simp only
    rw [Nat.mod_mul_right_mod, Nat.mod_mul_right_div_self, Nat.div_div_eq_div_mul]

theorem coords_length : ∀ (ds : List Nat) (p : Nat), (coords ds p).length = ds.length := by
  intro ds
  induction ds with
  | nil => intro p; rfl
  | cons d ds ih => intro p; simp [coords, ih]

theorem neighbour_some : ∀ (ds : List Nat) (os : List Int) (ss : List Nat) (s : Nat) (n0 m : Int), os.length = ds.length → ss.length = ds.length →
    neighbour os ss ds (stridesFrom s ds) n0 = some m →
    ∃ q : Nat, m = n0 + s * q ∧ q < ds.prod ∧ (coords ds q).map (fun (x : Nat) => (x : Int)) = List.zipWith (fun (o : Int) (c : Nat) => o + c) os ss := by
  intro ds
  induction ds with
  | nil =>
    intro os ss s n0 m h1 h2 h
    obtain rfl := List.length_eq_zero_iff.mp h1
    simp only [neighbour, Option.some.injEq] at h
    exact ⟨0, by simp [h], by simp, by simp [coords]⟩
  | cons d ds ih =>
    intro os ss s n0 m h1 h2 h
    obtain ⟨o, os, rfl⟩ : ∃ o os', os = o :: os' := by cases os with
      | nil => simp at h1
      | cons o os => exact ⟨o, os, rfl⟩
    obtain ⟨c, ss, rfl⟩ : ∃ o os', ss = o :: os' := by cases ss with
      | nil => simp at h2
      | cons o os => exact ⟨o, os, rfl⟩
    simp only [stridesFrom, neighbour] at h
    by_cases g : 0 ≤ o + (c : Int) ∧ o + (c : Int) < d
    · rw [if_pos g] at h
      obtain ⟨q, e1, e2, e3⟩ := ih os ss (s * d) _ m (by simpa using h1) (by simpa using h2) h
      obtain ⟨t, ht⟩ := Int.eq_ofNat_of_zero_le g.1
      have htd : t < d := by omega
      refine ⟨t + d * q, ?_, ?_, ?_⟩
      · rw [e1, ht]; push_cast; ring
      · rw [List.prod_cons]
        have := Nat.mul_le_mul_left d (show q + 1 ≤ ds.prod by omega)
        rw [Nat.mul_succ] at this; omega
      · simp only [coords, List.map_cons, List.zipWith_cons_cons]
        rw [Nat.add_mul_mod_self_left, Nat.mod_eq_of_lt htd, Nat.add_mul_div_left _ _ (by omega), Nat.div_eq_of_lt htd, Nat.zero_add, e3, ht]
    · rw [if_neg g] at h; cases h

theorem neighbour_of : ∀ (ds : List Nat) (os : List Int) (ss : List Nat) (s : Nat) (n0 : Int) (q : Nat), os.length = ds.length → ss.length = ds.length → q < ds.prod →
    (coords ds q).map (fun (x : Nat) => (x : Int)) = List.zipWith (fun (o : Int) (c : Nat) => o + c) os ss →
    neighbour os ss ds (stridesFrom s ds) n0 = some (n0 + s * q) := by
  intro ds
  induction ds with
  | nil =>
    intro os ss s n0 q h1 h2 hq h
    obtain rfl := List.length_eq_zero_iff.mp h1
    have : q = 0 := by simpa using hq
    simp [neighbour, this]
  | cons d ds ih =>
    intro os ss s n0 q h1 h2 hq h
    obtain ⟨o, os, rfl⟩ : ∃ o os', os = o :: os' := by cases os with
      | nil => simp at h1
      | cons o os => exact ⟨o, os, rfl⟩
    obtain ⟨c, ss, rfl⟩ : ∃ o os', ss = o :: os' := by cases ss with
      | nil => simp at h2
      | cons o os => exact ⟨o, os, rfl⟩
    simp only [coords, List.map_cons, List.zipWith_cons_cons, List.cons.injEq] at h
    rw [List.prod_cons] at hq
    have hd : 0 < d := by
      rcases Nat.eq_zero_or_pos d with e | e
      · subst e; simp at hq
      · exact e
    have hm := Nat.mod_lt q hd
    simp only [stridesFrom, neighbour]
    rw [if_pos (by omega), ih os ss (s * d) _ (q / d) (by simpa using h1) (by simpa using h2) (by rw [Nat.div_lt_iff_lt_mul hd, Nat.mul_comm]; exact hq) h.2]
    congr 1
    rw [← h.1]
    have := Nat.div_add_mod q d
    conv_rhs => rw [← this]
    push_cast
    ring

theorem near_of : ∀ (a b : List Nat) (os : List Int), os.length = a.length → (∀ o ∈ os, -1 ≤ o ∧ o ≤ 1) →
    b.map (fun (x : Nat) => (x : Int)) = List.zipWith (fun (o : Int) (c : Nat) => o + c) os a → List.Forall₂ (fun a b => a ≤ b + 1 ∧ b ≤ a + 1) a b := by
  intro a
  induction a with
  | nil =>
    intro b os h1 _ h
    obtain rfl := List.length_eq_zero_iff.mp h1
    simp only [List.zipWith_nil_right, List.map_eq_nil_iff] at h
    subst h; exact List.Forall₂.nil
  | cons x a ih =>
    intro b os h1 h2 h
    obtain ⟨o, os, rfl⟩ : ∃ o os', os = o :: os' := by cases os with
      | nil => simp at h1
      | cons o os => exact ⟨o, os, rfl⟩
    cases b with
    | nil => simp at h
    | cons y b =>
      simp only [List.map_cons, List.zipWith_cons_cons, List.cons.injEq] at h
      have := h2 o (by simp)
      exact List.Forall₂.cons (by omega) (ih b os (by simpa using h1) (fun o ho => h2 o (by simp [ho])) h.2)

theorem of_near : ∀ (a b : List Nat), List.Forall₂ (fun a b => a ≤ b + 1 ∧ b ≤ a + 1) a b →
    ∃ os : List Int, os.length = a.length ∧ (∀ o ∈ os, -1 ≤ o ∧ o ≤ 1) ∧ b.map (fun (x : Nat) => (x : Int)) = List.zipWith (fun (o : Int) (c : Nat) => o + c) os a := by
  intro a b h
  induction h with
  | nil => exact ⟨[], rfl, by simp, by simp⟩
  | @cons x y a b hxy _ ih =>
    obtain ⟨os, h1, h2, h3⟩ := ih
    refine ⟨((y : Int) - x) :: os, by simp [h1], ?_, ?_⟩
    · intro o ho
      rcases List.mem_cons.mp ho with e | e
      · omega
      · exact h2 o e
    · simp only [List.map_cons, List.zipWith_cons_cons, h3]
      congr 1; omega

/-- The offsets in the order of the loop. -/
def offsetOf : Nat → Nat → List Int
  | 0, _ => []
  | n + 1, c => (((c % 3 : Nat) : Int) - 1) :: offsetOf n (c / 3)

theorem offsetOf_length : ∀ n c, (offsetOf n c).length = n := by
  intro n
  induction n with
  | zero => intro c; rfl
  | succ n ih => intro c; simp [offsetOf, ih]

theorem offsetOf_mem : ∀ n c, ∀ o ∈ offsetOf n c, -1 ≤ o ∧ o ≤ 1 := by
  intro n
  induction n with
  | zero => intro c o ho; simp [offsetOf] at ho
  | succ n ih =>
    intro c o ho
    rcases List.mem_cons.mp ho with e | e
    · omega
    · exact ih _ o e

theorem offsetOf_zero : ∀ n, offsetOf n 0 = List.replicate n (-1) := by
  intro n
  induction n with
  | zero => rfl
  | succ n ih => simp [offsetOf, ih, List.replicate_succ]

theorem offsetOf_surj : ∀ (os : List Int), (∀ o ∈ os, -1 ≤ o ∧ o ≤ 1) → ∃ c < 3 ^ os.length, offsetOf os.length c = os := by
  intro os
  induction os with
  | nil => intro _; exact ⟨0, by simp, rfl⟩
  | cons o os ih =>
    intro h
    obtain ⟨c, hc, e⟩ := ih (fun o ho => h o (by simp [ho]))
    obtain ⟨t, ht⟩ := Int.eq_ofNat_of_zero_le (show 0 ≤ o + 1 by have := h o (by simp); omega)
    have ht3 : t < 3 := by have := h o (by simp); omega
    refine ⟨t + 3 * c, ?_, ?_⟩
    · rw [List.length_cons, Nat.pow_succ]; omega
    · simp only [List.length_cons, offsetOf]
      rw [show (t + 3 * c) / 3 = c by omega, show (t + 3 * c) % 3 = t by omega, e]
      congr 1; omega

theorem nextOffset_spec : ∀ n c, c < 3 ^ n → nextOffset (offsetOf n c) = if c + 1 < 3 ^ n then some (offsetOf n (c + 1)) else none := by
  intro n
  induction n with
  | zero => intro c hc; simp at hc; subst hc; simp [offsetOf, nextOffset]
  | succ n ih =>
    intro c hc
    rw [Nat.pow_succ] at hc ⊢
    simp only [offsetOf, nextOffset]
    by_cases g : c % 3 = 2
    · rw [if_pos (by omega), ih (c / 3) (by omega)]
      by_cases g2 : c / 3 + 1 < 3 ^ n
      · rw [if_pos g2, if_pos (by omega), show (c + 1) / 3 = c / 3 + 1 by omega, show (c + 1) % 3 = 0 by omega]
        rfl
      · rw [if_neg g2, if_neg (by omega)]; rfl
    · rw [if_neg (by omega), if_pos (by omega), show (c + 1) / 3 = c / 3 by omega, show (c + 1) % 3 = c % 3 + 1 by omega]
      congr 2; push_cast; omega

end Verif.Erfill
