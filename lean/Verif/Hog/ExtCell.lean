import Verif.Hog.ExtLemmas

/-!
# Features of a cell
-/

namespace Verif.Hog

open Finset

/-- The accumulators after `k` orientations. -/
def Sums (O : Nat) (sq : ℚ → ℚ) (n f : Nat → ℚ) (k : Nat) (e : Ext) : Prop :=
  e.t1 = ∑ j ∈ range k, saturated sq (n 0) (undirected O f j) ∧ e.t2 = ∑ j ∈ range k, saturated sq (n 1) (undirected O f j) ∧
  e.t3 = ∑ j ∈ range k, saturated sq (n 2) (undirected O f j) ∧ e.t4 = ∑ j ∈ range k, saturated sq (n 3) (undirected O f j)

/-- A write of the right value at plane `i` of cell `j`. -/
theorem wr_plane {l0 l : List ℚ} {n m : Nat} {v : Nat → Nat → ℚ} {S : Nat → Nat → Prop} (h : Filled l0 l n m v S) (hl : n * m ≤ l0.length) {i j : Nat} (hi : i < n) (hj : j < m)
    (S' : Nat → Nat → Prop) (hS : ∀ i' < n, ∀ j' < m, S' i' j' → S i' j' ∨ (i' = i ∧ j' = j)) {a : Nat} {x : ℚ} (ha : a = i * m + j) (hx : x = v i j) :
    ∃ l', wr l a x = some l' ∧ Filled l0 l' n m v S' := by
  subst ha hx
  exact h.wr hl hi hj hS

theorem dalal_orient (E : Cfg) (b : Bufs) (hV : E.variant = .dalalTriggs) (hb : Fits E.O b) (x y : Nat) (hx : x < b.w) (hy : y < b.h) (n : Nat → ℚ) (out0 : List ℚ) (v : Nat → Nat → ℚ)
    (hl : 4 * E.O * (b.w * b.h) ≤ out0.length)
    (hv : ∀ i < 4, ∀ k < E.O, v (i * E.O + k) (x + b.w * y) = saturated E.sq (n i) (undirected E.O (hist b.hog b.w b.h x y) k)) (k : Nat) (hk : k < E.O) (e : Ext)
    (hF : Filled out0 e.out (4 * E.O) (b.w * b.h) v (fun p q => q < x + b.w * y ∨ (q = x + b.w * y ∧
      (p < k ∨ (E.O ≤ p ∧ p < E.O + k) ∨ (2 * E.O ≤ p ∧ p < 2 * E.O + k) ∨ (3 * E.O ≤ p ∧ p < 3 * E.O + k)))))
    (hT : Sums E.O E.sq n (hist b.hog b.w b.h x y) k e) :
    ∃ e', extractOrient E b x y (1 / E.sq (n 0), 1 / E.sq (n 1), 1 / E.sq (n 2), 1 / E.sq (n 3)) k e = some e' ∧
      Filled out0 e'.out (4 * E.O) (b.w * b.h) v (fun p q => q < x + b.w * y ∨ (q = x + b.w * y ∧
        (p < k + 1 ∨ (E.O ≤ p ∧ p < E.O + (k + 1)) ∨ (2 * E.O ≤ p ∧ p < 2 * E.O + (k + 1)) ∨ (3 * E.O ≤ p ∧ p < 3 * E.O + (k + 1))))) ∧
      Sums E.O E.sq n (hist b.hog b.w b.h x y) (k + 1) e' := by
  set s := b.w * b.h with hs
  set q := x + b.w * y with hq
  set f := hist b.hog b.w b.h x y with hf
  have hqs : q < s := by
    have := Flat.addr_lt hy hx
    rw [hq, hs, mul_comm b.w y, mul_comm b.w b.h]; omega
  have r1 : rd b.hog (q + s * k) = some (f k) := rd_hist hb.1 hx hy (by omega) (by rw [hq, hs]; ring)
  have r2 : rd b.hog (q + s * (k + E.O)) = some (f (k + E.O)) := rd_hist hb.1 hx hy (by omega) (by rw [hq, hs]; ring)
  have sc : ∀ i, min (1 / 5) (1 / E.sq (n i) * f k + 1 / E.sq (n i) * f (k + E.O)) = saturated E.sq (n i) (undirected E.O f k) := by
    intro i; unfold saturated undirected; congr 1; ring
  obtain ⟨l1, w1, F1⟩ := wr_plane hF hl (i := k) (j := q) (by omega) hqs (fun p q' => q' < q ∨ (q' = q ∧
      (p < k + 1 ∨ (E.O ≤ p ∧ p < E.O + k) ∨ (2 * E.O ≤ p ∧ p < 2 * E.O + k) ∨ (3 * E.O ≤ p ∧ p < 3 * E.O + k)))) (by
        intro i' _ j' _ h'; omega) (a := q + s * k) (x := saturated E.sq (n 0) (undirected E.O f k)) (by ring) (by have := hv 0 (by omega) k hk; rw [Nat.zero_mul, Nat.zero_add] at this; exact this.symm)
  obtain ⟨l2, w2, F2⟩ := wr_plane F1 hl (i := E.O + k) (j := q) (by omega) hqs (fun p q' => q' < q ∨ (q' = q ∧
      (p < k + 1 ∨ (E.O ≤ p ∧ p < E.O + (k + 1)) ∨ (2 * E.O ≤ p ∧ p < 2 * E.O + k) ∨ (3 * E.O ≤ p ∧ p < 3 * E.O + k)))) (by
        intro i' _ j' _ h'; omega) (a := q + s * k + s * E.O) (x := saturated E.sq (n 1) (undirected E.O f k)) (by ring) (by have := hv 1 (by omega) k hk; rw [Nat.one_mul] at this; exact this.symm)
  obtain ⟨l3, w3, F3⟩ := wr_plane F2 hl (i := 2 * E.O + k) (j := q) (by omega) hqs (fun p q' => q' < q ∨ (q' = q ∧
      (p < k + 1 ∨ (E.O ≤ p ∧ p < E.O + (k + 1)) ∨ (2 * E.O ≤ p ∧ p < 2 * E.O + (k + 1)) ∨ (3 * E.O ≤ p ∧ p < 3 * E.O + k)))) (by
        intro i' _ j' _ h'; omega) (a := q + s * k + 2 * s * E.O) (x := saturated E.sq (n 2) (undirected E.O f k)) (by ring) (hv 2 (by omega) k hk).symm
  obtain ⟨l4, w4, F4⟩ := wr_plane F3 hl (i := 3 * E.O + k) (j := q) (by omega) hqs (fun p q' => q' < q ∨ (q' = q ∧
      (p < k + 1 ∨ (E.O ≤ p ∧ p < E.O + (k + 1)) ∨ (2 * E.O ≤ p ∧ p < 2 * E.O + (k + 1)) ∨ (3 * E.O ≤ p ∧ p < 3 * E.O + (k + 1))))) (by
        intro i' _ j' _ h'; omega) (a := q + s * k + 3 * s * E.O) (x := saturated E.sq (n 3) (undirected E.O f k)) (by ring) (hv 3 (by omega) k hk).symm
  refine ⟨{ out := l4, t1 := e.t1 + saturated E.sq (n 0) (undirected E.O f k), t2 := e.t2 + saturated E.sq (n 1) (undirected E.O f k), t3 := e.t3 + saturated E.sq (n 2) (undirected E.O f k), t4 := e.t4 + saturated E.sq (n 3) (undirected E.O f k) }, ?_, F4, ?_⟩
  · unfold extractOrient
    rw [← hs, ← hq]
    simp only [r1, r2, Option.bind_eq_bind, Option.bind_some, hV, sc]
    rw [w1]
    simp only [Option.bind_some]
    rw [w2]
    simp only [Option.bind_some]
    rw [w3]
    simp only [Option.bind_some]
    rw [w4]
    rfl
  · obtain ⟨t1, t2, t3, t4⟩ := hT
    unfold Sums
    simp only [Finset.sum_range_succ, t1, t2, t3, t4]
    exact ⟨trivial, trivial, trivial, trivial⟩

theorem uoctti_orient (E : Cfg) (b : Bufs) (hV : E.variant = .uoctti) (hb : Fits E.O b) (x y : Nat) (hx : x < b.w) (hy : y < b.h) (n : Nat → ℚ) (out0 : List ℚ) (v : Nat → Nat → ℚ)
    (hl : (3 * E.O + 4) * (b.w * b.h) ≤ out0.length)
    (hv1 : ∀ k < 2 * E.O, v k (x + b.w * y) = 1 / 2 * ∑ i ∈ range 4, saturated E.sq (n i) (hist b.hog b.w b.h x y k))
    (hv2 : ∀ k < E.O, v (2 * E.O + k) (x + b.w * y) = 1 / 2 * ∑ i ∈ range 4, saturated E.sq (n i) (undirected E.O (hist b.hog b.w b.h x y) k)) (k : Nat) (hk : k < E.O) (e : Ext)
    (hF : Filled out0 e.out (3 * E.O + 4) (b.w * b.h) v (fun p q => q < x + b.w * y ∨ (q = x + b.w * y ∧
      (p < k ∨ (E.O ≤ p ∧ p < E.O + k) ∨ (2 * E.O ≤ p ∧ p < 2 * E.O + k)))))
    (hT : Sums E.O E.sq n (hist b.hog b.w b.h x y) k e) :
    ∃ e', extractOrient E b x y (1 / E.sq (n 0), 1 / E.sq (n 1), 1 / E.sq (n 2), 1 / E.sq (n 3)) k e = some e' ∧
      Filled out0 e'.out (3 * E.O + 4) (b.w * b.h) v (fun p q => q < x + b.w * y ∨ (q = x + b.w * y ∧
        (p < k + 1 ∨ (E.O ≤ p ∧ p < E.O + (k + 1)) ∨ (2 * E.O ≤ p ∧ p < 2 * E.O + (k + 1))))) ∧
      Sums E.O E.sq n (hist b.hog b.w b.h x y) (k + 1) e' := by
  set s := b.w * b.h with hs
  set q := x + b.w * y with hq
  set f := hist b.hog b.w b.h x y with hf
  have hqs : q < s := by
    have := Flat.addr_lt hy hx
    rw [hq, hs, mul_comm b.w y, mul_comm b.w b.h]; omega
  have r1 : rd b.hog (q + s * k) = some (f k) := rd_hist hb.1 hx hy (by omega) (by rw [hq, hs]; ring)
  have r2 : rd b.hog (q + s * (k + E.O)) = some (f (k + E.O)) := rd_hist hb.1 hx hy (by omega) (by rw [hq, hs]; ring)
  have sc : ∀ i, min (1 / 5) (1 / E.sq (n i) * f k + 1 / E.sq (n i) * f (k + E.O)) = saturated E.sq (n i) (undirected E.O f k) := by
    intro i; unfold saturated undirected; congr 1; ring
  have sa : ∀ i j, min (1 / 5) (1 / E.sq (n i) * f j) = saturated E.sq (n i) (f j) := by
    intro i j; unfold saturated; congr 1; ring
  have s4 : ∀ g : Nat → ℚ, ∑ i ∈ range 4, g i = g 0 + g 1 + g 2 + g 3 := by
    intro g; simp [Finset.sum_range_succ]
  obtain ⟨l1, w1, F1⟩ := wr_plane hF hl (i := k) (j := q) (by omega) hqs (fun p q' => q' < q ∨ (q' = q ∧
      (p < k + 1 ∨ (E.O ≤ p ∧ p < E.O + k) ∨ (2 * E.O ≤ p ∧ p < 2 * E.O + k)))) (by
        intro i' _ j' _ h'; omega) (a := q + s * k)
      (x := 1 / 2 * (saturated E.sq (n 0) (f k) + saturated E.sq (n 1) (f k) + saturated E.sq (n 2) (f k) + saturated E.sq (n 3) (f k))) (by ring) (by rw [hv1 k (by omega), s4])
  obtain ⟨l2, w2, F2⟩ := wr_plane F1 hl (i := E.O + k) (j := q) (by omega) hqs (fun p q' => q' < q ∨ (q' = q ∧
      (p < k + 1 ∨ (E.O ≤ p ∧ p < E.O + (k + 1)) ∨ (2 * E.O ≤ p ∧ p < 2 * E.O + k)))) (by
        intro i' _ j' _ h'; omega) (a := q + s * k + s * E.O)
      (x := 1 / 2 * (saturated E.sq (n 0) (f (k + E.O)) + saturated E.sq (n 1) (f (k + E.O)) + saturated E.sq (n 2) (f (k + E.O)) + saturated E.sq (n 3) (f (k + E.O)))) (by ring)
      (by rw [hv1 (E.O + k) (by omega), s4, Nat.add_comm E.O k])
  obtain ⟨l3, w3, F3⟩ := wr_plane F2 hl (i := 2 * E.O + k) (j := q) (by omega) hqs (fun p q' => q' < q ∨ (q' = q ∧
      (p < k + 1 ∨ (E.O ≤ p ∧ p < E.O + (k + 1)) ∨ (2 * E.O ≤ p ∧ p < 2 * E.O + (k + 1))))) (by
        intro i' _ j' _ h'; omega) (a := q + s * k + 2 * s * E.O)
      (x := 1 / 2 * (saturated E.sq (n 0) (undirected E.O f k) + saturated E.sq (n 1) (undirected E.O f k) + saturated E.sq (n 2) (undirected E.O f k) + saturated E.sq (n 3) (undirected E.O f k)))
      (by ring) (by rw [hv2 k hk, s4])
  refine ⟨{ out := l3, t1 := e.t1 + saturated E.sq (n 0) (undirected E.O f k), t2 := e.t2 + saturated E.sq (n 1) (undirected E.O f k), t3 := e.t3 + saturated E.sq (n 2) (undirected E.O f k), t4 := e.t4 + saturated E.sq (n 3) (undirected E.O f k) }, ?_, F3, ?_⟩
  · unfold extractOrient
    rw [← hs, ← hq]
    simp only [r1, r2, Option.bind_eq_bind, Option.bind_some, hV, sc, sa]
    rw [w1]
    simp only [Option.bind_some]
    rw [w2]
    simp only [Option.bind_some]
    rw [w3]
    rfl
  · obtain ⟨t1, t2, t3, t4⟩ := hT
    unfold Sums
    simp only [Finset.sum_range_succ, t1, t2, t3, t4]
    exact ⟨trivial, trivial, trivial, trivial⟩

/-- The features of a cell are written. -/
theorem extractCell_spec (E : Cfg) (b : Bufs) (hb : Fits E.O b) (hO : 1 ≤ E.O) (N : Nat → Nat → ℚ) (hN : ∀ X < b.w, ∀ Y < b.h, b.norm[X + Y * b.w]? = some (N X Y)) (hpos : ∀ X < b.w, ∀ Y < b.h, 0 ≤ N X Y)
    (hsq : ∀ a, 0 < a → E.sq a ≠ 0) (out0 out : List ℚ) (hl : dimension E.variant E.O * (b.w * b.h) ≤ out0.length) (v : Nat → Nat → ℚ) (x y : Nat) (hx : x < b.w) (hy : y < b.h)
    (hv : ∀ d < dimension E.variant E.O, v d (x + b.w * y) = feature E.variant E.O E.sq (blockOf N E.transposed b.w b.h x y) (hist b.hog b.w b.h x y) d)
    (hF : Filled out0 out (dimension E.variant E.O) (b.w * b.h) v (fun _ q => q < x + b.w * y)) :
    ∃ out', extractCell E b x y out = some out' ∧ Filled out0 out' (dimension E.variant E.O) (b.w * b.h) v (fun _ q => q < x + b.w * y + 1) := by
  obtain ⟨-, hfac⟩ := factors_spec E b.norm N b.w b.h x y hN hpos hsq hx hy
  set n := blockOf N E.transposed b.w b.h x y with hn
  set f := hist b.hog b.w b.h x y with hf
  have hqs : x + b.w * y < b.w * b.h := by
    have := Flat.addr_lt hy hx
    rw [mul_comm b.w y, mul_comm b.w b.h]; omega
  have T0 : ∀ o : List ℚ, Sums E.O E.sq n f 0 { out := o, t1 := 0, t2 := 0, t3 := 0, t4 := 0 } := fun o => ⟨rfl, rfl, rfl, rfl⟩
  cases hV : E.variant with
  | dalalTriggs =>
    rw [hV] at hl hv hF
    simp only [dimension] at hl hv hF ⊢
    obtain ⟨e, he, h1, -⟩ := iter_inv (n := E.O) (f := extractOrient E b x y (1 / E.sq (n 0), 1 / E.sq (n 1), 1 / E.sq (n 2), 1 / E.sq (n 3)))
      (s := { out := out, t1 := 0, t2 := 0, t3 := 0, t4 := 0 })
      (fun k e => Filled out0 e.out (4 * E.O) (b.w * b.h) v (fun p q => q < x + b.w * y ∨ (q = x + b.w * y ∧
        (p < k ∨ (E.O ≤ p ∧ p < E.O + k) ∨ (2 * E.O ≤ p ∧ p < 2 * E.O + k) ∨ (3 * E.O ≤ p ∧ p < 3 * E.O + k)))) ∧ Sums E.O E.sq n f k e)
      ⟨hF.mono (by intro i _ j _ h; omega), T0 out⟩ (by
        rintro k hk e ⟨h1, h2⟩
        refine dalal_orient E b hV hb x y hx hy n out0 v hl ?_ k hk e h1 h2
        intro i hi k hk
        have hlt : i * E.O + k < 4 * E.O := Flat.addr_lt hi hk
        rw [hv _ hlt]
        unfold feature
        simp only
        rw [show (i * E.O + k) / E.O = i by rw [Nat.mul_comm, Nat.mul_add_div (by omega), Nat.div_eq_of_lt hk, Nat.add_zero],
          show (i * E.O + k) % E.O = k by rw [Nat.mul_comm, Nat.mul_add_mod, Nat.mod_eq_of_lt hk]])
    refine ⟨e.out, ?_, h1.mono (by intro i hi j _ h; omega)⟩
    unfold extractCell
    rw [hfac]
    simp only [Option.bind_eq_bind, Option.bind_some]
    rw [he]
    simp only [Option.bind_some, hV]
  | uoctti =>
    rw [hV] at hl hv hF
    simp only [dimension] at hl hv hF ⊢
    obtain ⟨e, he, h1, t1, t2, t3, t4⟩ := iter_inv (n := E.O) (f := extractOrient E b x y (1 / E.sq (n 0), 1 / E.sq (n 1), 1 / E.sq (n 2), 1 / E.sq (n 3)))
      (s := { out := out, t1 := 0, t2 := 0, t3 := 0, t4 := 0 })
      (fun k e => Filled out0 e.out (3 * E.O + 4) (b.w * b.h) v (fun p q => q < x + b.w * y ∨ (q = x + b.w * y ∧
        (p < k ∨ (E.O ≤ p ∧ p < E.O + k) ∨ (2 * E.O ≤ p ∧ p < 2 * E.O + k)))) ∧ Sums E.O E.sq n f k e)
      ⟨hF.mono (by intro i _ j _ h; omega), T0 out⟩ (by
        rintro k hk e ⟨h1, h2⟩
        refine uoctti_orient E b hV hb x y hx hy n out0 v hl ?_ ?_ k hk e h1 h2
        · intro k hk
          rw [hv k (by omega)]
          unfold feature
          simp only
          rw [if_pos hk]
        · intro k hk
          rw [hv _ (by omega)]
          unfold feature
          simp only
          rw [if_neg (by omega), if_pos (by omega), Nat.add_sub_cancel_left])
    have hv3 : ∀ i < 4, v (3 * E.O + i) (x + b.w * y) = 1 / E.sq 18 * ∑ k ∈ range E.O, saturated E.sq (n i) (undirected E.O f k) := by
      intro i hi
      rw [hv _ (by omega)]
      unfold feature
      simp only
      rw [if_neg (by omega), if_neg (by omega), Nat.add_sub_cancel_left]
    obtain ⟨l1, w1, F1⟩ := wr_plane h1 hl (i := 3 * E.O) (j := x + b.w * y) (by omega) hqs (fun p q' => q' < x + b.w * y ∨ (q' = x + b.w * y ∧ p < 3 * E.O + 1)) (by
        intro i' _ j' _ h'; omega) (a := x + b.w * y + b.w * b.h * E.O + 2 * (b.w * b.h) * E.O) (x := 1 / E.sq 18 * e.t1) (by ring) (by rw [t1]; exact (hv3 0 (by omega)).symm)
    obtain ⟨l2, w2, F2⟩ := wr_plane F1 hl (i := 3 * E.O + 1) (j := x + b.w * y) (by omega) hqs (fun p q' => q' < x + b.w * y ∨ (q' = x + b.w * y ∧ p < 3 * E.O + 2)) (by
        intro i' _ j' _ h'; omega) (a := x + b.w * y + b.w * b.h * E.O + 2 * (b.w * b.h) * E.O + b.w * b.h) (x := 1 / E.sq 18 * e.t2) (by ring) (by rw [t2]; exact (hv3 1 (by omega)).symm)
    obtain ⟨l3, w3, F3⟩ := wr_plane F2 hl (i := 3 * E.O + 2) (j := x + b.w * y) (by omega) hqs (fun p q' => q' < x + b.w * y ∨ (q' = x + b.w * y ∧ p < 3 * E.O + 3)) (by
        intro i' _ j' _ h'; omega) (a := x + b.w * y + b.w * b.h * E.O + 2 * (b.w * b.h) * E.O + 2 * (b.w * b.h)) (x := 1 / E.sq 18 * e.t3) (by ring) (by rw [t3]; exact (hv3 2 (by omega)).symm)
    obtain ⟨l4, w4, F4⟩ := wr_plane F3 hl (i := 3 * E.O + 3) (j := x + b.w * y) (by omega) hqs (fun _ q' => q' < x + b.w * y + 1) (by
        intro i' _ j' _ h'; omega) (a := x + b.w * y + b.w * b.h * E.O + 2 * (b.w * b.h) * E.O + 3 * (b.w * b.h)) (x := 1 / E.sq 18 * e.t4) (by ring) (by rw [t4]; exact (hv3 3 (by omega)).symm)
    refine ⟨l4, ?_, F4⟩
    unfold extractCell
    rw [hfac]
    simp only [Option.bind_eq_bind, Option.bind_some]
    rw [he]
    simp only [Option.bind_some, hV]
    rw [inverse_eq (hsq 18 (by norm_num))]
    simp only [Option.bind_some]
    rw [w1]
    simp only [Option.bind_some]
    rw [w2]
    simp only [Option.bind_some]
    rw [w3]
    simp only [Option.bind_some]
    rw [w4]

end Verif.Hog
