import Verif.Slic.CleanLemmas
import Verif.Slic.SegSpec
import Verif.ForStep
import Verif.Quickshift.Lemmas
import Mathlib.Tactic.FieldSimp
import Mathlib.Tactic.Ring
import Mathlib.Tactic.Linarith
import Mathlib.Tactic.Positivity
import Mathlib.Algebra.BigOperators.Ring.Finset

/-!
# Lemmas about the k-means part of SLIC
-/

namespace Verif.Slic

open Finset
open Quickshift (foldlM_flatMap intRange_sorted)

theorem numRegions1_eq (size rs : Nat) (hrs : 1 ≤ rs) : numRegions1 size rs = gridSize size rs := by
  unfold numRegions1 gridSize
  have hq : (0 : ℚ) < rs := by exact_mod_cast hrs
  have e := Nat.div_add_mod (size + rs - 1) rs
  have hm := Nat.mod_lt (size + rs - 1) (show 0 < rs by omega)
  set n := (size + rs - 1) / rs
  have h1 : size ≤ rs * n := by omega
  have h2 : rs * n < size + rs := by omega
  have : ⌈(size : ℚ) / rs⌉ = (n : Int) := by
    rw [Int.ceil_eq_iff]
    constructor
    · rw [lt_div_iff₀ hq]
      have : ((rs * n : Nat) : ℚ) < ((size + rs : Nat) : ℚ) := by exact_mod_cast h2
      push_cast at this ⊢
      linarith
    · rw [div_le_iff₀ hq]
      have : ((size : Nat) : ℚ) ≤ ((rs * n : Nat) : ℚ) := by exact_mod_cast h1
      push_cast at this ⊢
      linarith
  rw [this, Int.toNat_natCast]

theorem gridSize_le (size rs : Nat) (hrs : 1 ≤ rs) : gridSize size rs ≤ size := by
  unfold gridSize
  rw [Nat.div_le_iff_le_mul (by omega)]
  have := Nat.mul_le_mul_left size hrs
  rcases Nat.eq_zero_or_pos size with h | h
  · subst h; omega
  · obtain ⟨a, rfl⟩ := Nat.exists_eq_succ_of_ne_zero (show size ≠ 0 by omega)
    obtain ⟨b, rfl⟩ := Nat.exists_eq_succ_of_ne_zero (show rs ≠ 0 by omega)
    simp only [Nat.succ_eq_add_one]
    rw [show (a + 1) * (b + 1) = a * b + a + b + 1 by ring]
    omega

theorem gridSize_ge (size rs x : Nat) (hrs : 1 ≤ rs) (hx : x < size) : x / rs < gridSize size rs := by
  unfold gridSize
  rw [Nat.lt_iff_add_one_le, Nat.le_div_iff_mul_le (by omega), Nat.add_mul]
  have := Nat.div_mul_le_self x rs
  omega

theorem mem_near (size rs x : Nat) (hrs : 1 ≤ rs) (a : Int) :
    a ∈ intRange (max 0 ⌊(x : ℚ) / rs - 1 / 2⌋) (min ((gridSize size rs : Int) - 1) (⌊(x : ℚ) / rs - 1 / 2⌋ + 1)) ↔
      ∃ k : Nat, a = k ∧ k < gridSize size rs ∧ Near rs x k := by
  have hq : (0 : ℚ) < rs := by exact_mod_cast hrs
  have hnear : ∀ k : Nat, Near rs x k ↔ (k : Int) - 1 ≤ ⌊(x : ℚ) / rs - 1 / 2⌋ ∧ ⌊(x : ℚ) / rs - 1 / 2⌋ < (k : Int) + 1 := by
    intro k
    rw [Int.le_floor, Int.floor_lt]
    unfold Near
    have e : (x : ℚ) - rs * ((k : ℚ) + 1 / 2) = rs * ((x : ℚ) / rs - 1 / 2 - k) := by field_simp; ring
    rw [e]
    push_cast
    constructor
    · rintro ⟨h1, h2⟩
      have h1' : (-1 : ℚ) ≤ (x : ℚ) / rs - 1 / 2 - k := by
        by_contra hh; push Not at hh; nlinarith
      have h2' : (x : ℚ) / rs - 1 / 2 - k < 1 := by
        by_contra hh; push Not at hh; nlinarith
      constructor <;> linarith
    · rintro ⟨h1, h2⟩
      constructor <;> nlinarith
  rw [mem_intRange]
  constructor
  · rintro ⟨h1, h2⟩
    refine ⟨a.toNat, by omega, by omega, ?_⟩
    rw [hnear]; omega
  · rintro ⟨k, rfl, h1, h2⟩
    rw [hnear] at h2
    omega

theorem exists_near (size rs x : Nat) (hrs : 1 ≤ rs) (hx : x < size) : ∃ k < gridSize size rs, Near rs x k := by
  refine ⟨x / rs, gridSize_ge size rs x hrs hx, ?_⟩
  have e := Nat.div_add_mod x rs
  have hm := Nat.mod_lt x (show 0 < rs by omega)
  have e' : (x : ℚ) = rs * ((x / rs : Nat) : ℚ) + ((x % rs : Nat) : ℚ) := by exact_mod_cast e.symm
  have hm' : ((x % rs : Nat) : ℚ) < rs := by exact_mod_cast hm
  have h0 : (0 : ℚ) ≤ ((x % rs : Nat) : ℚ) := by positivity
  unfold Near
  constructor
  · nlinarith
  · nlinarith

/-- Scanning a list for the first smallest value. -/
theorem scan_min {α σ : Type} (D : α → ℚ) (lin : α → Int) (emb : Option α → σ) (g : σ → α → Option σ) (L : List α)
    (hs : L.Pairwise (fun a b => lin a < lin b)) (hn : ∀ c ∈ L, g (emb none) c = some (emb (some c)))
    (hg : ∀ a ∈ L, ∀ c ∈ L, g (emb (some a)) c = some (emb (if D c < D a then some c else some a))) :
    (L = [] ∧ L.foldlM g (emb none) = some (emb none)) ∨
      ∃ a ∈ L, L.foldlM g (emb none) = some (emb (some a)) ∧ (∀ c ∈ L, D a ≤ D c) ∧ ∀ c ∈ L, D c = D a → lin a ≤ lin c := by
  induction L using List.reverseRecOn with
  | nil => exact Or.inl ⟨rfl, rfl⟩
  | append_singleton L x ih =>
    right
    rw [List.pairwise_append] at hs
    have hlt : ∀ c ∈ L, lin c < lin x := fun c hc => hs.2.2 c hc x (by simp)
    rcases ih hs.1 (fun c hc => hn c (by simp [hc])) (fun a ha c hc => hg a (by simp [ha]) c (by simp [hc])) with ⟨rfl, _⟩ | ⟨a, ha, e, h1, h2⟩
    · refine ⟨x, by simp, ?_, by simp, by simp⟩
      simp [hn x (by simp)]
    · have e' : (L ++ [x]).foldlM g (emb none) = some (emb (if D x < D a then some x else some a)) := by
        rw [List.foldlM_append, e]
        simp [hg a (by simp [ha]) x (by simp)]
      by_cases c : D x < D a
      · rw [if_pos c] at e'
        refine ⟨x, by simp, e', ?_, ?_⟩
        · intro y hy
          rcases List.mem_append.mp hy with hy | hy
          · exact le_trans c.le (h1 y hy)
          · rw [List.mem_singleton] at hy; rw [hy]
        · intro y hy hD
          rcases List.mem_append.mp hy with hy | hy
          · have := h1 y hy; linarith
          · rw [List.mem_singleton] at hy; rw [hy]
      · rw [if_neg c] at e'
        refine ⟨a, by simp [ha], e', ?_, ?_⟩
        · intro y hy
          rcases List.mem_append.mp hy with hy | hy
          · exact h1 y hy
          · rw [List.mem_singleton] at hy; rw [hy]; exact not_lt.mp c
        · intro y hy hD
          rcases List.mem_append.mp hy with hy | hy
          · exact h2 y hy hD
          · rw [List.mem_singleton] at hy; rw [hy]; exact (hlt a ha).le

/-- Two nested loops as one over the pairs. -/
theorem forInt_pairs {σ : Type} (a b c d : Int) (f : Int → Int → σ → Option σ) (s : σ) :
    forInt a b (fun y s => forInt c d (fun x s => f y x s) s) s =
      ((intRange a b).flatMap (fun y => (intRange c d).map (fun x => (x, y)))).foldlM (fun s p => f p.2 p.1 s) s := by
  rw [forInt_eq, ← foldlM_flatMap]
  congr 1
  funext s y
  rw [forInt_eq, List.foldlM_map]

theorem pairs_sorted (a b c d : Int) (R : Nat) (h : ∀ x ∈ intRange c d, 0 ≤ x ∧ x < R) :
    ((intRange a b).flatMap (fun y => (intRange c d).map (fun x => (x, y)))).Pairwise (fun (p q : Int × Int) => p.1 + p.2 * (R : Int) < q.1 + q.2 * (R : Int)) := by
  rw [List.pairwise_flatMap]
  refine ⟨?_, ?_⟩
  · intro y _
    rw [List.pairwise_map]
    refine (intRange_sorted _ _).imp ?_
    intro a b h
    simp only; omega
  · refine List.Pairwise.imp ?_ (intRange_sorted a b)
    intro y y' hyy p hp q hq
    rw [List.mem_map] at hp hq
    obtain ⟨x, hx, rfl⟩ := hp
    obtain ⟨x', hx', rfl⟩ := hq
    have h1 := h x hx
    have h2 := h x' hx'
    have : (y + 1) * (R : Int) ≤ y' * R := Int.mul_le_mul_of_nonneg_right (by omega) (by omega)
    rw [Int.add_mul] at this
    simp only; omega

section
variable {I : List ℚ} {w h K rs : Nat}

theorem image_rd (hI : I.length = w * h * K) {p k : Nat} (hp : p < w * h) (hk : k < K) : rd I (p + k * w * h) = some (feat I w h p (k + 2)) := by
  have hlt : p + k * w * h < I.length := by
    rw [hI]
    have := Nat.mul_le_mul_left (w * h) (show k + 1 ≤ K by omega)
    rw [Nat.mul_succ] at this
    have e : k * w * h = w * h * k := by ring
    omega
  rw [rd_of_lt hlt]
  simp [feat, List.getD, hlt]

theorem distance_spec (hI : I.length = w * h * K) (factor : ℚ) (C : List ℚ) {n : Nat} (hC : C.length = (2 + K) * n) {x y r : Nat} (hx : x < w) (hy : y < h) (hr : r < n) :
    distance I w h K factor C x y r = some (dist I w h K factor C (x + y * w) r) := by
  have rdc : ∀ j < 2 + K, rd C ((2 + K) * r + j) = some (C.getD ((2 + K) * r + j) 0) := by
    intro j hj
    have hlt : (2 + K) * r + j < C.length := by
      rw [hC]
      have := Nat.mul_le_mul_left (2 + K) (show r + 1 ≤ n by omega)
      rw [Nat.mul_succ] at this
      omega
    rw [rd_of_lt hlt]; simp [List.getD, hlt]
  have hp := pix_lt hx hy
  unfold distance
  rw [rdI_eq _ _ ((2 + K) * r + 0) (by push_cast; ring), rdc 0 (by omega)]
  simp only [Option.bind_eq_bind, Option.bind_some]
  rw [rdI_eq _ _ ((2 + K) * r + 1) (by push_cast; ring), rdc 1 (by omega)]
  simp only [Option.bind_some]
  obtain ⟨s, e, hs⟩ := iter_inv (n := K) (f := fun (k : Nat) (appearance : ℚ) => (do
      let centerz ← rdI C (((2 + K : Nat) : Int) * r + k + 2)
      let z ← rd I (x + y * w + k * w * h)
      some (appearance + (z - centerz) * (z - centerz)) : Option ℚ)) (s := 0)
    (fun k s => s = ∑ t ∈ range k, (feat I w h (x + y * w) (t + 2) - C.getD ((2 + K) * r + (t + 2)) 0) ^ 2) (by simp) (by
    intro k hk s hs
    rw [rdI_eq _ _ ((2 + K) * r + (k + 2)) (by push_cast; ring), rdc (k + 2) (by omega), image_rd hI hp hk]
    refine ⟨_, rfl, ?_⟩
    rw [Finset.sum_range_succ, hs]
    ring)
  simp only [Option.bind_eq_bind] at e
  rw [e, hs]
  simp only [Option.bind_some]
  unfold dist
  simp only [feat, pix_mod hx, pix_div hx, Nat.add_zero]
  congr 1
  ring

end

end Verif.Slic
