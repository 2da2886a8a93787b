import Verif.Sift.GaussModel
import Mathlib.Algebra.BigOperators.Intervals
import Mathlib.Algebra.BigOperators.Field
import Mathlib.Algebra.BigOperators.Ring.Finset
import Mathlib.Tactic.Linarith
import Mathlib.Tactic.Ring
import Mathlib.Tactic.FieldSimp

/-!
# C72: the offset of a SIFT keypoint solves the linear system
-/

namespace Verif.Sift

open Finset

/-- `v` solves the system. -/
def Solves (n : Nat) (A : Nat → Nat → ℚ) (b v : Nat → ℚ) : Prop := ∀ i < n, ∑ k ∈ range n, A i k * v k = b i

/-- The first `j` columns are those of an upper triangular matrix with ones on the diagonal. -/
def Tri (n : Nat) (A : Nat → Nat → ℚ) (j : Nat) : Prop := ∀ c < j, A c c = 1 ∧ ∀ i, c < i → i < n → A i c = 0

/-- A vector that the first `j` rows of `A` send to zero and the others to less than `eps` is sent to less than `eps` by all rows of `A0`. -/
def Small (n : Nat) (eps : ℚ) (A0 A : Nat → Nat → ℚ) (j : Nat) : Prop := ∀ v : Nat → ℚ, (∀ i < j, ∑ k ∈ range n, A i k * v k = 0) →
  (∀ i, j ≤ i → i < n → |∑ k ∈ range n, A i k * v k| < eps) → ∀ i < n, |∑ k ∈ range n, A0 i k * v k| < eps

theorem pivot_spec (n : Nat) (A : Nat → Nat → ℚ) (j : Nat) :
    ∃ maxa maxabsa maxi, pivot n A j = some (maxa, maxabsa, maxi) ∧ 0 ≤ maxabsa ∧ (∀ i, j ≤ i → i < n → |A i j| ≤ maxabsa) ∧
      (maxabsa = 0 ∨ (j : Int) ≤ maxi ∧ maxi < n ∧ maxa = A maxi.toNat j ∧ maxabsa = |maxa|) := by
  obtain ⟨⟨a, b, c⟩, e, h1, h3, h2⟩ := iter_inv (n := n - j) (f := fun k (s : ℚ × ℚ × Int) => (
      let a := A (j + k) j
      let absa := |a|
      some (if absa > s.2.1 then (a, absa, ((j + k : Nat) : Int)) else (s.1, s.2.1, s.2.2)) : Option (ℚ × ℚ × Int))) (s := (0, 0, -1))
    (fun (m : Nat) (s : ℚ × ℚ × Int) => 0 ≤ s.2.1 ∧ (∀ i, j ≤ i → i < j + m → |A i j| ≤ s.2.1) ∧ (s.2.1 = 0 ∨ (j : Int) ≤ s.2.2 ∧ s.2.2 < (n : Int) ∧ s.1 = A s.2.2.toNat j ∧ s.2.1 = |s.1|)) ⟨le_refl _, by omega, Or.inl rfl⟩ (by
    rintro k hk ⟨a, b, c⟩ ⟨h1, h3, h2⟩
    refine ⟨_, rfl, ?_⟩
    simp only at h1 h2 h3 ⊢
    by_cases h : |A (j + k) j| > b
    · rw [if_pos h]
      refine ⟨abs_nonneg _, ?_, Or.inr ⟨?_, ?_, ?_, rfl⟩⟩
      · intro i hi hi'
        simp only
        by_cases e : i = j + k
        · rw [e]
        · exact le_trans (h3 i hi (by omega)) (le_of_lt h)
      · simp only; omega
      · simp only; omega
      · simp only; rw [Int.toNat_natCast]
    · rw [if_neg h]
      refine ⟨h1, ?_, h2⟩
      intro i hi hi'
      by_cases e : i = j + k
      · rw [e]; exact not_lt.mp h
      · exact h3 i hi (by omega))
  exact ⟨a, b, c, e, h1, fun i hi hi' => h3 i hi (by omega), h2⟩

theorem swapRows_rows (n : Nat) (s : Sys) (i j : Nat) (maxa : ℚ) (hi : i < n) (hj : j < n) (hji : j ≤ i) (ht : Tri n s.A j) (v : Nat → ℚ) :
    (∑ k ∈ range n, (swapRows s i j maxa).A j k * v k = (∑ k ∈ range n, s.A i k * v k) / maxa) ∧
    (i ≠ j → ∑ k ∈ range n, (swapRows s i j maxa).A i k * v k = ∑ k ∈ range n, s.A j k * v k) ∧
    (∀ r, r ≠ i → r ≠ j → ∑ k ∈ range n, (swapRows s i j maxa).A r k * v k = ∑ k ∈ range n, s.A r k * v k) := by
  have hj0 : ∀ r, j ≤ r → r < n → ∀ c < j, s.A r c = 0 := fun r h1 h2 c hc => (ht c hc).2 r (by omega) h2
  have rowj : ∑ k ∈ range n, (swapRows s i j maxa).A j k * v k = (∑ k ∈ range n, s.A i k * v k) / maxa := by
    rw [Finset.sum_div]
    apply Finset.sum_congr rfl
    intro c hc
    unfold swapRows
    simp only
    by_cases h : c < j
    · rw [if_pos h, hj0 j (Nat.le_refl _) hj c h, hj0 i hji hi c h]; simp
    · simp only [h, if_false, if_true]; ring
  have rowi : i ≠ j → ∑ k ∈ range n, (swapRows s i j maxa).A i k * v k = ∑ k ∈ range n, s.A j k * v k := by
    intro hne
    apply Finset.sum_congr rfl
    intro c hc
    unfold swapRows
    simp only
    by_cases h : c < j
    · rw [if_pos h, hj0 j (Nat.le_refl _) hj c h, hj0 i hji hi c h]
    · simp [h, hne]
  have rowr : ∀ r, r ≠ i → r ≠ j → ∑ k ∈ range n, (swapRows s i j maxa).A r k * v k = ∑ k ∈ range n, s.A r k * v k := by
    intro r h1 h2
    apply Finset.sum_congr rfl
    intro c hc
    unfold swapRows
    simp only
    by_cases h : c < j
    · rw [if_pos h]
    · rw [if_neg h, if_neg h2, if_neg h1]
  exact ⟨rowj, rowi, rowr⟩

theorem swapRows_solves (n : Nat) (s : Sys) (i j : Nat) (maxa : ℚ) (hi : i < n) (hj : j < n) (hji : j ≤ i) (hm : maxa ≠ 0) (ht : Tri n s.A j) (v : Nat → ℚ) :
    Solves n (swapRows s i j maxa).A (swapRows s i j maxa).b v ↔ Solves n s.A s.b v := by
  obtain ⟨rowj, rowi, rowr⟩ := swapRows_rows n s i j maxa hi hj hji ht v
  have bj : (swapRows s i j maxa).b j = s.b i / maxa := by simp [swapRows]
  have bi : i ≠ j → (swapRows s i j maxa).b i = s.b j := by intro h; simp [swapRows, h]
  have br : ∀ r, r ≠ i → r ≠ j → (swapRows s i j maxa).b r = s.b r := by intro r h1 h2; simp [swapRows, h1, h2]
  constructor
  · intro h r hr
    by_cases e1 : r = i
    · subst e1
      have := h j hj
      rw [rowj, bj] at this
      exact (div_left_inj' hm).mp this
    · by_cases e2 : r = j
      · subst e2
        have := h i hi
        rwa [rowi (fun e => e1 e.symm), bi (fun e => e1 e.symm)] at this
      · have := h r hr
        rwa [rowr r e1 e2, br r e1 e2] at this
  · intro h r hr
    by_cases e2 : r = j
    · subst e2
      rw [rowj, bj, h i hi]
    · by_cases e1 : r = i
      · subst e1
        rw [rowi e2, bi e2, h j hj]
      · rw [rowr r e1 e2, br r e1 e2, h r hr]

theorem elimRow_rows (n : Nat) (s : Sys) (j ii : Nat) (h0 : ∀ c < j, s.A j c = 0) (v : Nat → ℚ) :
    (∑ k ∈ range n, (elimRow s j ii).A ii k * v k = ∑ k ∈ range n, s.A ii k * v k - s.A ii j * ∑ k ∈ range n, s.A j k * v k) ∧
    (∀ r, r ≠ ii → ∑ k ∈ range n, (elimRow s j ii).A r k * v k = ∑ k ∈ range n, s.A r k * v k) := by
  have rowii : ∑ k ∈ range n, (elimRow s j ii).A ii k * v k = ∑ k ∈ range n, s.A ii k * v k - s.A ii j * ∑ k ∈ range n, s.A j k * v k := by
    rw [Finset.mul_sum, ← Finset.sum_sub_distrib]
    apply Finset.sum_congr rfl
    intro c hc
    unfold elimRow
    simp only
    by_cases h : j ≤ c
    · simp only [h, and_self, if_true]; ring
    · simp only [h, and_false, if_false]; rw [h0 c (by omega)]; ring
  have rowr : ∀ r, r ≠ ii → ∑ k ∈ range n, (elimRow s j ii).A r k * v k = ∑ k ∈ range n, s.A r k * v k := by
    intro r h
    apply Finset.sum_congr rfl
    intro c hc
    unfold elimRow
    simp only
    rw [if_neg (fun e => h e.1)]
  exact ⟨rowii, rowr⟩

theorem elimRow_solves (n : Nat) (s : Sys) (j ii : Nat) (hj : j < n) (hji : j < ii) (h0 : ∀ c < j, s.A j c = 0) (v : Nat → ℚ) :
    Solves n (elimRow s j ii).A (elimRow s j ii).b v ↔ Solves n s.A s.b v := by
  obtain ⟨rowii, rowr⟩ := elimRow_rows n s j ii h0 v
  have bii : (elimRow s j ii).b ii = s.b ii - s.A ii j * s.b j := by simp [elimRow]
  have br : ∀ r, r ≠ ii → (elimRow s j ii).b r = s.b r := by intro r h; simp [elimRow, h]
  have hne : j ≠ ii := by omega
  constructor
  · intro h r hr
    have hj' := h j hj
    rw [rowr j hne, br j hne] at hj'
    by_cases e : r = ii
    · subst e
      have := h r hr
      rw [rowii, bii, hj'] at this
      linarith
    · have := h r hr
      rwa [rowr r e, br r e] at this
  · intro h r hr
    by_cases e : r = ii
    · subst e
      rw [rowii, bii, h r hr, h j hj]
    · rw [rowr r e, br r e, h r hr]

theorem swapRows_small (n : Nat) (eps : ℚ) (A0 : Nat → Nat → ℚ) (s : Sys) (i j : Nat) (maxa : ℚ) (hi : i < n) (hj : j < n) (hji : j ≤ i) (hm : maxa ≠ 0)
    (he : 0 < eps) (ht : Tri n s.A j) (h : Small n eps A0 s.A j) : Small n eps A0 (swapRows s i j maxa).A (j + 1) := by
  intro v h1 h2
  obtain ⟨rowj, rowi, rowr⟩ := swapRows_rows n s i j maxa hi hj hji ht v
  apply h v
  · intro r hr
    rw [← rowr r (by omega) (by omega)]
    exact h1 r (by omega)
  · intro r hr hr'
    by_cases e : r = i
    · subst e
      have := h1 j (by omega)
      rw [rowj, div_eq_zero_iff] at this
      rw [this.resolve_right hm, abs_zero]
      exact he
    · by_cases e2 : r = j
      · subst e2
        rw [← rowi (fun h => e h.symm)]
        exact h2 i (by omega) hi
      · rw [← rowr r e e2]
        exact h2 r (by omega) hr'

theorem elimRow_small (n : Nat) (eps : ℚ) (A0 : Nat → Nat → ℚ) (s : Sys) (j ii : Nat) (hji : j < ii) (h0 : ∀ c < j, s.A j c = 0)
    (h : Small n eps A0 s.A (j + 1)) : Small n eps A0 (elimRow s j ii).A (j + 1) := by
  intro v h1 h2
  obtain ⟨rowii, rowr⟩ := elimRow_rows n s j ii h0 v
  have hj0 : ∑ k ∈ range n, s.A j k * v k = 0 := by rw [← rowr j (by omega)]; exact h1 j (by omega)
  have hall : ∀ r, ∑ k ∈ range n, (elimRow s j ii).A r k * v k = ∑ k ∈ range n, s.A r k * v k := by
    intro r
    by_cases e : r = ii
    · rw [e, rowii, hj0]; ring
    · exact rowr r e
  apply h v
  · intro r hr
    rw [← hall]; exact h1 r hr
  · intro r hr hr'
    rw [← hall]; exact h2 r hr hr'

/-- One column of the backward substitution. -/
theorem backSubst_col (A : Nat → Nat → ℚ) (x : ℚ) (i : Nat) (b : Nat → ℚ) :
    ∃ b', iter i (fun k b =>
      let ii := i - 1 - k
      some (fun r => if r = ii then b ii - x * A ii i else b r)) b = some b' ∧ ∀ r, b' r = if r < i then b r - x * A r i else b r := by
  obtain ⟨b', e, h⟩ := iter_inv (n := i) (f := fun k (b : Nat → ℚ) => (
      let ii := i - 1 - k
      some (fun r => if r = ii then b ii - x * A ii i else b r) : Option (Nat → ℚ))) (s := b)
    (fun m (b' : Nat → ℚ) => ∀ r, b' r = if r < i ∧ i ≤ r + m then b r - x * A r i else b r) (by
      intro r; rw [if_neg (by omega)]) (by
      intro m hm b' h
      refine ⟨_, rfl, ?_⟩
      intro r
      by_cases e : r = i - 1 - m
      · rw [if_pos e, if_pos (by omega), ← e, h r, if_neg (by omega)]
      · rw [if_neg e, h r]
        by_cases e' : r < i ∧ i ≤ r + m
        · rw [if_pos e', if_pos (by omega)]
        · rw [if_neg e', if_neg (by omega)])
  refine ⟨b', e, ?_⟩
  intro r
  rw [h r]
  by_cases e : r < i
  · rw [if_pos e, if_pos (by omega)]
  · rw [if_neg e, if_neg (by omega)]

theorem backSubst_spec (n : Nat) (s : Sys) (ht : Tri n s.A n) : ∃ b, backSubst n s = some b ∧ Solves n s.A s.b b := by
  obtain ⟨b, e, h⟩ := iter_inv (n := n - 1) (f := fun k (b : Nat → ℚ) => (
      let i := n - 1 - k
      let x := b i
      iter i (fun k b =>
        let ii := i - 1 - k
        some (fun r => if r = ii then b ii - x * s.A ii i else b r)) b : Option (Nat → ℚ))) (s := s.b)
    (fun m b => ∀ r < n, b r + ∑ c ∈ Finset.Ico (max (r + 1) (n - m)) n, s.A r c * b c = s.b r) (by
      intro r hr
      rw [Finset.Ico_eq_empty (by omega)]; simp) (by
      intro m hm b h
      obtain ⟨b', e, hb⟩ := backSubst_col s.A (b (n - 1 - m)) (n - 1 - m) b
      refine ⟨b', e, ?_⟩
      intro r hr
      have hsame : ∀ c, n - 1 - m ≤ c → b' c = b c := fun c hc => by rw [hb c, if_neg (by omega)]
      by_cases hlt : r < n - 1 - m
      · rw [show max (r + 1) (n - (m + 1)) = n - 1 - m by omega, Finset.sum_eq_sum_Ico_succ_bot (by omega)]
        rw [hb r, if_pos hlt, hsame (n - 1 - m) (Nat.le_refl _)]
        have := h r hr
        rw [show max (r + 1) (n - m) = n - 1 - m + 1 by omega] at this
        rw [Finset.sum_congr rfl (fun c hc => by rw [hsame c (by have := Finset.mem_Ico.mp hc; omega)])]
        rw [← this]; ring
      · have := h r hr
        rw [show max (r + 1) (n - (m + 1)) = max (r + 1) (n - m) by omega]
        rw [hsame r (by omega), Finset.sum_congr rfl (fun c hc => by rw [hsame c (by have := Finset.mem_Ico.mp hc; omega)])]
        exact this)
  refine ⟨b, e, ?_⟩
  intro r hr
  have h' := h r hr
  rw [show max (r + 1) (n - (n - 1)) = r + 1 by omega] at h'
  rw [← h', Finset.range_eq_Ico, ← Finset.sum_Ico_consecutive _ (Nat.zero_le r) (by omega), Finset.sum_eq_sum_Ico_succ_bot hr]
  rw [Finset.sum_eq_zero (s := Finset.Ico 0 r) (fun c hc => by
    have := Finset.mem_Ico.mp hc
    rw [(ht c (by omega)).2 r (by omega) hr]; ring)]
  rw [(ht r hr).1]
  ring

/-- A column below which nothing is left gives a vector with small image. -/
theorem small_vector (n : Nat) (eps : ℚ) (A0 : Nat → Nat → ℚ) (A : Nat → Nat → ℚ) (j : Nat) (hj : j < n) (ht : Tri n A j) (hs : Small n eps A0 A j)
    (hc : ∀ i, j ≤ i → i < n → |A i j| < eps) : ∃ v : Nat → ℚ, (∃ k < n, v k = 1) ∧ ∀ i < n, |∑ k ∈ range n, A0 i k * v k| < eps := by
  obtain ⟨u, -, hu⟩ := backSubst_spec j ⟨A, fun i => - A i j⟩ (fun c hc => ⟨(ht c hc).1, fun i h1 h2 => (ht c hc).2 i h1 (by omega)⟩)
  have hsum : ∀ i, ∑ k ∈ range n, A i k * (if k < j then u k else if k = j then 1 else 0) = ∑ k ∈ range j, A i k * u k + A i j := by
    intro i
    rw [Finset.range_eq_Ico, ← Finset.sum_Ico_consecutive _ (Nat.zero_le j) (by omega), Finset.sum_eq_sum_Ico_succ_bot hj]
    rw [Finset.sum_eq_zero (s := Finset.Ico (j + 1) n) (fun c hc => by
      have := Finset.mem_Ico.mp hc
      rw [if_neg (by omega), if_neg (by omega)]; ring)]
    rw [Finset.range_eq_Ico, Finset.sum_congr (s₁ := Finset.Ico 0 j) rfl (fun c hc => by
      have := Finset.mem_Ico.mp hc
      rw [if_pos (by omega)])]
    simp
  refine ⟨fun k => if k < j then u k else if k = j then 1 else 0, ⟨j, hj, by simp⟩, ?_⟩
  apply hs
  · intro i hi
    rw [hsum i]
    have := hu i hi
    simp only at this
    rw [this]; ring
  · intro i hi hi'
    rw [hsum i, Finset.sum_eq_zero (fun c hc => by
      rw [(ht c (Finset.mem_range.mp hc)).2 i (by have := Finset.mem_range.mp hc; omega) hi']; ring), zero_add]
    exact hc i hi hi'

theorem eliminate_spec (n : Nat) (eps : ℚ) (he : 0 < eps) (A0 : Nat → Nat → ℚ) (b0 : Nat → ℚ) : ∀ (k : Nat) (s : Sys), k ≤ n → Tri n s.A (n - k) →
    (∀ v, Solves n s.A s.b v ↔ Solves n A0 b0 v) → Small n eps A0 s.A (n - k) →
    ∃ s' sg, eliminate n eps k s = some (s', sg) ∧
      (sg = true → (∀ i, s'.b i = 0) ∧ ∃ v : Nat → ℚ, (∃ k < n, v k = 1) ∧ ∀ i < n, |∑ k ∈ range n, A0 i k * v k| < eps) ∧
      (sg = false → Tri n s'.A n ∧ ∀ v, Solves n s'.A s'.b v ↔ Solves n A0 b0 v) := by
  intro k
  induction k with
  | zero =>
    intro s _ ht hs _
    exact ⟨s, false, rfl, by simp, fun _ => ⟨by simpa using ht, hs⟩⟩
  | succ k ih =>
    intro s hk ht hs hsm
    obtain ⟨maxa, maxabsa, maxi, e, h1, h3, h2⟩ := pivot_spec n s.A (n - (k + 1))
    unfold eliminate
    simp only
    rw [e]
    simp only [Option.bind_eq_bind, Option.bind_some]
    by_cases hsing : maxabsa < eps
    · rw [if_pos hsing]
      exact ⟨_, true, rfl, fun _ => ⟨fun _ => rfl, small_vector n eps A0 s.A _ (by omega) ht hsm (fun i h4 h5 => lt_of_le_of_lt (h3 i h4 h5) hsing)⟩, by simp⟩
    · rw [if_neg hsing]
      have hpos : maxabsa ≠ 0 := by intro h; rw [h] at hsing; exact hsing he
      obtain ⟨p1, p2, p3, p4⟩ := h2.resolve_left hpos
      have hma : maxa ≠ 0 := by
        intro h; rw [h, abs_zero] at p4; exact hpos p4
      rw [if_neg (by omega)]
      generalize hj : n - (k + 1) = j at *
      have hjn : j < n := by omega
      obtain ⟨i, hi⟩ := Int.eq_ofNat_of_zero_le (show 0 ≤ maxi by omega)
      subst hi
      rw [Int.toNat_natCast] at *
      have hin : i < n := by omega
      have hji : j ≤ i := by omega
      have ht1 : Tri n (swapRows s i j maxa).A j := by
        intro c hc
        obtain ⟨t1, t2⟩ := ht c hc
        refine ⟨?_, ?_⟩
        · simp [swapRows, hc, t1]
        · intro r hr hr'
          simp [swapRows, hc, t2 r hr hr']
      have hjj : (swapRows s i j maxa).A j j = 1 := by
        simp only [swapRows, Nat.lt_irrefl, if_false, if_true]
        rw [← p3]
        exact div_self hma
      obtain ⟨s2, e2, q1, q2, q3, q4, q5⟩ := iter_inv (n := n - (j + 1)) (f := fun k (s : Sys) => some (elimRow s j (j + 1 + k))) (s := swapRows s i j maxa)
        (fun m (s2 : Sys) => Tri n s2.A j ∧ s2.A j j = 1 ∧ (∀ r, j < r → r < j + 1 + m → s2.A r j = 0) ∧ (∀ v, Solves n s2.A s2.b v ↔ Solves n A0 b0 v) ∧ Small n eps A0 s2.A (j + 1))
        ⟨ht1, hjj, by omega, fun v => (swapRows_solves n s i j maxa hin hjn hji hma ht v).trans (hs v), swapRows_small n eps A0 s i j maxa hin hjn hji hma he ht hsm⟩ (by
        rintro m hm s2 ⟨q1, q2, q3, q4, q5⟩
        refine ⟨_, rfl, ?_, ?_, ?_, ?_, elimRow_small n eps A0 s2 j (j + 1 + m) (by omega) (fun c hc => (q1 c hc).2 j hc hjn) q5⟩
        · intro c hc
          obtain ⟨t1, t2⟩ := q1 c hc
          refine ⟨?_, ?_⟩
          · simp only [elimRow]
            rw [if_neg (by omega)]; exact t1
          · intro r hr hr'
            simp only [elimRow]
            rw [if_neg (by omega)]; exact t2 r hr hr'
        · simp only [elimRow]
          rw [if_neg (by omega)]; exact q2
        · intro r hr hr'
          simp only [elimRow]
          by_cases e : r = j + 1 + m
          · subst e
            rw [if_pos ⟨rfl, Nat.le_refl _⟩, q2]; ring
          · rw [if_neg (fun h => e h.1)]
            exact q3 r hr (by omega)
        · intro v
          exact (elimRow_solves n s2 j (j + 1 + m) hjn (by omega) (fun c hc => (q1 c hc).2 j hc hjn) v).trans (q4 v))
      rw [e2]
      simp only [Option.bind_some]
      refine ih s2 (by omega) ?_ q4 (by rw [show n - k = j + 1 by omega]; exact q5)
      intro c hc
      by_cases hcj : c = j
      · subst hcj
        exact ⟨q2, fun r hr hr' => q3 r hr (by omega)⟩
      · exact q1 c (by omega)

/-- **C72.**  For every matrix and right hand side the code ends without undefined behaviour, and unless it finds the matrix singular the vector it returns solves the
system; in the singular case the vector
is zero, and the matrix sends some vector with an entry one to less than `eps` in all entries. -/
theorem solve_correct (n : Nat) (eps : ℚ) (he : 0 < eps) (A : Nat → Nat → ℚ) (b : Nat → ℚ) :
    ∃ v sg, solve n eps ⟨A, b⟩ = some (v, sg) ∧ (sg = false → ∀ i < n, ∑ k ∈ range n, A i k * v k = b i) ∧ 
      (sg = true → (∀ i < n, v i = 0) ∧ ∃ u : Nat → ℚ, (∃ k < n, u k = 1) ∧ ∀ i < n, |∑ k ∈ range n, A i k * u k| < eps) := by
  obtain ⟨s, sg, e, h1, h2⟩ := eliminate_spec n eps he A b n ⟨A, b⟩ (Nat.le_refl _) (by intro c hc; omega) (fun v => Iff.rfl) (by
      intro v _ h i hi; exact h i (by omega) hi)
  unfold solve
  rw [e]
  simp only [Option.bind_eq_bind, Option.bind_some]
  cases sg with
  | false =>
    obtain ⟨t, hs⟩ := h2 rfl
    obtain ⟨v, e', hv⟩ := backSubst_spec n s t
    rw [e']
    exact ⟨v, false, rfl, fun _ => (hs v).mp hv, by simp⟩
  | true =>
    obtain ⟨h0, hu⟩ := h1 rfl
    obtain ⟨v, e', hv⟩ := iter_inv (n := n - 1) (f := fun k (b : Nat → ℚ) => (
      let i := n - 1 - k
      let x := b i
      iter i (fun k b =>
        let ii := i - 1 - k
        some (fun r => if r = ii then b ii - x * s.A ii i else b r)) b : Option (Nat → ℚ))) (s := s.b)
      (fun _ b => ∀ r, b r = 0) h0 (by
        intro m _ b hb
        obtain ⟨b', e, hb'⟩ := backSubst_col s.A (b (n - 1 - m)) (n - 1 - m) b
        refine ⟨b', e, ?_⟩
        intro r
        rw [hb' r, hb, hb]
        split <;> ring)
    unfold backSubst
    rw [e']
    exact ⟨v, true, rfl, by simp, fun _ => ⟨fun i _ => hv i, hu⟩⟩

/-- The hypotheses can be met, with a system of three equations in which rows must be swapped. -/
example : ∃ v sg, solve 3 (1 / 10000000000) ⟨fun i j => ([[0, 2, 1], [1, 0, 0], [0, 0, 4]].getD i []).getD j 0, fun i => [5, 6, 4].getD i 0⟩ = some (v, sg) :=
  have ⟨v, sg, h, _⟩ := solve_correct 3 (1 / 10000000000) (by norm_num) _ _
  ⟨v, sg, h⟩

end Verif.Sift
