import Verif.Loop
import Verif.Flat
import Mathlib.Algebra.BigOperators.Group.Finset.Basic
import Mathlib.Algebra.BigOperators.Intervals

/-!
# Loops that update a row of a matrix or a vector in place, and loops that sum
-/

namespace Verif

variable {α : Type}

/-- `if (b) f()` -/
def whenB {σ : Type} (b : Bool) (f : σ → Option σ) (s : σ) : Option σ := if b then f s else some s

/-- A loop that updates each element of row `k` from itself. -/
theorem iter_row {l : List α} {C D : Nat} {f : Nat → Nat → α} (h : Flat l C D f) {k : Nat} (hk : k < C) (g : Nat → α → α) {body : Nat → List α → Option (List α)}
    (hbody : ∀ d < D, ∀ (l : List α) (f : Nat → Nat → α), Flat l C D f → body d l = wr l (k * D + d) (g d (f k d))) :
    ∃ l', iter D body l = some l' ∧ Flat l' C D (fun a b => if a = k then g b (f k b) else f a b) := by
  obtain ⟨l', h1, h2⟩ := iter_inv (n := D) (f := body) (s := l)
    (fun d l => Flat l C D (fun a b => if a = k ∧ b < d then g b (f k b) else f a b)) (h.congr (by intro a _ b _; simp)) (by
      intro d hd l hl
      obtain ⟨l', e1, e2⟩ := hl.wr hk hd (g d (f k d))
      refine ⟨l', ?_, e2.congr ?_⟩
      · rw [hbody d hd l _ hl, if_neg (by omega), e1]
      · intro a ha b hb
        unfold upd2
        beta_reduce
        by_cases h1 : a = k ∧ b = d
        · rw [if_pos h1, if_pos (by omega), h1.2]
        · rw [if_neg h1]
          by_cases h2 : a = k ∧ b < d
          · rw [if_pos h2, if_pos (by omega)]
          · rw [if_neg h2, if_neg (by omega)])
  refine ⟨l', h1, h2.congr ?_⟩
  intro a ha b hb
  by_cases h : a = k
  · rw [if_pos ⟨h, hb⟩, if_pos h]
  · rw [if_neg (fun h' => h h'.1), if_neg h]

/-- A loop that updates each element of a vector from itself. -/
theorem iter_arr {l : List α} {n : Nat} {f : Nat → α} (h : Arr l n f) (g : Nat → α → α) {body : Nat → List α → Option (List α)}
    (hbody : ∀ d < n, ∀ (l : List α) (f : Nat → α), Arr l n f → body d l = wr l d (g d (f d))) :
    ∃ l', iter n body l = some l' ∧ Arr l' n (fun b => g b (f b)) := by
  obtain ⟨l', h1, h2⟩ := iter_inv (n := n) (f := body) (s := l)
    (fun d l => Arr l n (fun b => if b < d then g b (f b) else f b)) (h.congr (by intro a _; simp)) (by
      intro d hd l hl
      obtain ⟨l', e1, e2⟩ := hl.wr hd (g d (f d))
      refine ⟨l', ?_, e2.congr ?_⟩
      · rw [hbody d hd l _ hl, if_neg (by omega), e1]
      · intro b hb
        unfold upd1
        beta_reduce
        by_cases h1 : b = d
        · rw [if_pos h1, if_pos (by omega), h1]
        · rw [if_neg h1]
          by_cases h2 : b < d
          · rw [if_pos h2, if_pos (by omega)]
          · rw [if_neg h2, if_neg (by omega)])
  exact ⟨l', h1, h2.congr (fun b hb => by rw [if_pos hb])⟩

/-- A loop that adds. -/
theorem iter_sum {K : Type} [AddCommMonoid K] (n : Nat) (v : Nat → K) {body : Nat → K → Option K} (s : K) (h : ∀ i < n, ∀ s, body i s = some (s + v i)) :
    iter n body s = some (s + ∑ i ∈ Finset.range n, v i) := by
  obtain ⟨t, h1, h2⟩ := iter_inv (n := n) (f := body) (s := s) (fun i (t : K) => t = s + ∑ i ∈ Finset.range i, v i) (by simp) (by
    intro i hi t ht
    exact ⟨_, h i hi t, by rw [ht, Finset.sum_range_succ, add_assoc]⟩)
  rw [h1, h2]

/-- A matrix as a vector. -/
theorem Flat.arr {l : List α} {n m : Nat} {f : Nat → Nat → α} (h : Flat l n m f) : Arr l (n * m) (fun i => f (i / m) (i % m)) := by
  refine ⟨h.len, fun i hi => ?_⟩
  have hm : 0 < m := by
    rcases Nat.eq_zero_or_pos m with h | h
    · subst h; omega
    · exact h
  have h1 := h.get (i / m) (Nat.div_lt_of_lt_mul (by rw [mul_comm]; exact hi)) (i % m) (Nat.mod_lt _ hm)
  rw [mul_comm, Nat.div_add_mod] at h1
  exact h1

/-- A vector as a matrix. -/
theorem Arr.flat {l : List α} {n m : Nat} {f : Nat → Nat → α} (h : Arr l (n * m) (fun i => f (i / m) (i % m))) : Flat l n m f := by
  refine ⟨h.len, fun i hi j hj => ?_⟩
  have h1 := h.get (i * m + j) (Flat.addr_lt hi hj)
  rw [h1, show (i * m + j) / m = i by rw [Nat.add_comm, Nat.add_mul_div_right _ _ (by omega), Nat.div_eq_of_lt hj, Nat.zero_add],
    show (i * m + j) % m = j by rw [Nat.add_comm, Nat.add_mul_mod_self_right, Nat.mod_eq_of_lt hj]]

/-- Sum over a matrix stored as a vector. -/
theorem sum_flat {K : Type} [AddCommMonoid K] (n m : Nat) (f : Nat → Nat → K) :
    ∑ i ∈ Finset.range (n * m), f (i / m) (i % m) = ∑ a ∈ Finset.range n, ∑ b ∈ Finset.range m, f a b := by
  induction n with
  | zero => simp
  | succ n ih =>
    rw [Finset.sum_range_succ, ← ih, Nat.add_mul, Nat.one_mul, Finset.sum_range_add]
    congr 1
    apply Finset.sum_congr rfl
    intro j hj
    rw [Finset.mem_range] at hj
    rw [show (n * m + j) / m = n by rw [Nat.add_comm, Nat.add_mul_div_right _ _ (by omega), Nat.div_eq_of_lt hj, Nat.zero_add],
      show (n * m + j) % m = j by rw [Nat.add_comm, Nat.add_mul_mod_self_right, Nat.mod_eq_of_lt hj]]

/-- Sums of lists and over ranges. -/
theorem sum_flat' {K : Type} [AddCommMonoid K] (n : Nat) (f : Nat → K) : ∑ i ∈ Finset.range n, f i = ((List.range n).map f).sum := by
  induction n with
  | zero => simp
  | succ n ih => rw [Finset.sum_range_succ, List.range_succ, List.map_append, List.sum_append, ih]; simp

/-- A loop that updates each element of row `k` of two matrices. -/
theorem iter_row2 {l1 l2 : List α} {C D : Nat} {f1 f2 : Nat → Nat → α} (h1 : Flat l1 C D f1) (h2 : Flat l2 C D f2) {k : Nat} (hk : k < C) (g1 g2 : Nat → α → α → α) {body : Nat → List α × List α → Option (List α × List α)}
    (hbody : ∀ d < D, ∀ (l1 l2 : List α) (f1 f2 : Nat → Nat → α), Flat l1 C D f1 → Flat l2 C D f2 →
      body d (l1, l2) = (wr l1 (k * D + d) (g1 d (f1 k d) (f2 k d))).bind (fun m => (wr l2 (k * D + d) (g2 d (f1 k d) (f2 k d))).bind (fun c => some (m, c)))) :
    ∃ l1' l2', iter D body (l1, l2) = some (l1', l2') ∧ Flat l1' C D (fun a b => if a = k then g1 b (f1 k b) (f2 k b) else f1 a b) ∧ Flat l2' C D (fun a b => if a = k then g2 b (f1 k b) (f2 k b) else f2 a b) := by
  have hstep : ∀ (d : Nat) (l : List α) (f : Nat → Nat → α) (w : Nat → α), d < D → Flat l C D (fun a b => if a = k ∧ b < d then w b else f a b) →
      ∃ l', wr l (k * D + d) (w d) = some l' ∧ Flat l' C D (fun a b => if a = k ∧ b < d + 1 then w b else f a b) := by
    intro d l f w hd hl
    obtain ⟨l', e1, e2⟩ := hl.wr hk hd (w d)
    refine ⟨l', e1, e2.congr ?_⟩
    intro a ha b hb
    unfold upd2
    beta_reduce
    by_cases h1 : a = k ∧ b = d
    · rw [if_pos h1, if_pos (by omega), h1.2]
    · rw [if_neg h1]
      by_cases h2 : a = k ∧ b < d
      · rw [if_pos h2, if_pos (by omega)]
      · rw [if_neg h2, if_neg (by omega)]
  obtain ⟨⟨l1', l2'⟩, e1, e2, e3⟩ := iter_inv (n := D) (f := body) (s := (l1, l2))
    (fun d l => Flat l.1 C D (fun a b => if a = k ∧ b < d then g1 b (f1 k b) (f2 k b) else f1 a b) ∧ Flat l.2 C D (fun a b => if a = k ∧ b < d then g2 b (f1 k b) (f2 k b) else f2 a b))
    ⟨h1.congr (by intro a _ b _; simp), h2.congr (by intro a _ b _; simp)⟩ (by
      rintro d hd ⟨l1, l2⟩ ⟨hl1, hl2⟩
      obtain ⟨m, a1, a2⟩ := hstep d l1 f1 (fun b => g1 b (f1 k b) (f2 k b)) hd hl1
      obtain ⟨c, b1, b2⟩ := hstep d l2 f2 (fun b => g2 b (f1 k b) (f2 k b)) hd hl2
      refine ⟨(m, c), ?_, a2, b2⟩
      rw [hbody d hd l1 l2 _ _ hl1 hl2, if_neg (by omega), if_neg (by omega), a1, Option.bind_some, b1, Option.bind_some])
  refine ⟨l1', l2', e1, e2.congr ?_, e3.congr ?_⟩
  · intro a ha b hb
    by_cases h : a = k
    · rw [if_pos ⟨h, hb⟩, if_pos h]
    · rw [if_neg (fun h' => h h'.1), if_neg h]
  · intro a ha b hb
    by_cases h : a = k
    · rw [if_pos ⟨h, hb⟩, if_pos h]
    · rw [if_neg (fun h' => h h'.1), if_neg h]

/-- Invariant rule for a loop over a list. -/
theorem foldlM_list {σ β : Type} (P : List β → σ → Prop) {body : σ → β → Option σ} :
    ∀ (order done : List β) (s : σ), P done s → (∀ (done : List β) (k : β) (s : σ), k ∈ order → P done s → ∃ s', body s k = some s' ∧ P (done ++ [k]) s') →
      ∃ s', order.foldlM body s = some s' ∧ P (done ++ order) s' := by
  intro order
  induction order with
  | nil => intro done s h _; exact ⟨s, rfl, by simpa using h⟩
  | cons k order ih =>
    intro done s h hs
    obtain ⟨s1, h1, h2⟩ := hs done k s (by simp) h
    obtain ⟨s2, h3, h4⟩ := ih (done ++ [k]) s1 h2 (fun d j s hj => hs d j s (by simp [hj]))
    refine ⟨s2, ?_, by simpa using h4⟩
    rw [List.foldlM_cons, h1]
    exact h3

/-- A loop that updates each element of row `k` and an accumulator. -/
theorem iter_row_acc {τ : Type} {l : List α} {t : τ} {C D : Nat} {f : Nat → Nat → α} (h : Flat l C D f) {k : Nat} (hk : k < C) (g : Nat → α → α) (u : Nat → α → τ → τ) (Q : Nat → τ → Prop) (h0 : Q 0 t)
    (hQ : ∀ d < D, ∀ t, Q d t → Q (d + 1) (u d (f k d) t)) {body : Nat → List α × τ → Option (List α × τ)}
    (hbody : ∀ d < D, ∀ (l : List α) (f : Nat → Nat → α) (t : τ), Flat l C D f → body d (l, t) = (wr l (k * D + d) (g d (f k d))).bind (fun l' => some (l', u d (f k d) t))) :
    ∃ l' t', iter D body (l, t) = some (l', t') ∧ Flat l' C D (fun a b => if a = k then g b (f k b) else f a b) ∧ Q D t' := by
  obtain ⟨⟨l', t'⟩, h1, h2, h3⟩ := iter_inv (n := D) (f := body) (s := (l, t))
    (fun d s => Flat s.1 C D (fun a b => if a = k ∧ b < d then g b (f k b) else f a b) ∧ Q d s.2) ⟨h.congr (by intro a _ b _; simp), h0⟩ (by
      rintro d hd ⟨l, t⟩ ⟨hl, hq⟩
      obtain ⟨l', e1, e2⟩ := hl.wr hk hd (g d (f k d))
      refine ⟨(l', u d (f k d) t), ?_, e2.congr ?_, hQ d hd t hq⟩
      · rw [hbody d hd l _ t hl, if_neg (by omega), e1, Option.bind_some]
      · intro a ha b hb
        unfold upd2
        beta_reduce
        by_cases h1 : a = k ∧ b = d
        · rw [if_pos h1, if_pos (by omega), h1.2]
        · rw [if_neg h1]
          by_cases h2 : a = k ∧ b < d
          · rw [if_pos h2, if_pos (by omega)]
          · rw [if_neg h2, if_neg (by omega)])
  refine ⟨l', t', h1, h2.congr ?_, h3⟩
  intro a ha b hb
  by_cases h : a = k
  · rw [if_pos ⟨h, hb⟩, if_pos h]
  · rw [if_neg (fun h' => h h'.1), if_neg h]

/-- A vector is the list of its values. -/
theorem Arr.eq_map {l : List α} {n : Nat} {f : Nat → α} (h : Arr l n f) : l = (List.range n).map f := by
  apply List.ext_getElem?
  intro i
  rcases Nat.lt_or_ge i n with hi | hi
  · rw [h.get i hi]; simp [hi]
  · rw [List.getElem?_eq_none (by rw [h.len]; exact hi), List.getElem?_eq_none (by simpa using hi)]

theorem Arr.of_map (n : Nat) (f : Nat → α) : Arr ((List.range n).map f) n f := ⟨by simp, fun i hi => by simp [hi]⟩

/-- All the values are numbers. -/
theorem mapM_some {β : Type} (f : β → α) (l : List β) : (l.map (fun b => some (f b))).mapM (fun a => (a : Option α)) = some (l.map f) := by
  induction l with
  | nil => rfl
  | cons b l ih => rw [List.map_cons, List.mapM_cons, ih]; rfl

end Verif
