import Verif.Toolbox.IntHistModel
import Verif.Flat
import Mathlib.Algebra.BigOperators.Intervals
import Mathlib.Algebra.BigOperators.Ring.Finset
import Mathlib.Tactic.Ring
import Mathlib.Data.List.GetD

/-!
# Integral histograms: properties (C41)
-/

set_option linter.unusedSectionVars false

namespace Verif.Toolbox

open Finset

variable {R : Type} [CommRing R]

/-! ## Integration -/

/-- Sum of the first `x` columns of the first `y` rows of an image with rows of length `W`. -/
def rectSum (W : Nat) (D : Nat → R) (x y : Nat) : R := ∑ j ∈ range y, ∑ i ∈ range x, D (j * W + i)

theorem rectSum_step (W : Nat) (D : Nat → R) (x y : Nat) :
    rectSum W D (x + 1) (y + 1) = rectSum W D (x + 1) y - rectSum W D x y + rectSum W D x (y + 1) + D (y * W + x) := by
  unfold rectSum
  rw [sum_range_succ (fun j => ∑ i ∈ range (x + 1), D (j * W + i)) y, sum_range_succ (fun j => ∑ i ∈ range x, D (j * W + i)) y,
    sum_range_succ (fun i => D (y * W + i)) x]
  ring

@[simp] theorem rectSum_zero_left (W : Nat) (D : Nat → R) (y : Nat) : rectSum W D 0 y = 0 := by simp [rectSum]
@[simp] theorem rectSum_zero_right (W : Nat) (D : Nat → R) (x : Nat) : rectSum W D x 0 = 0 := by simp [rectSum]

/-- State of the integration before pixel `x` of row `y`. -/
structure IntSt (W H base : Nat) (d0 : List R) (D : Nat → R) (y x : Nat) (d : List R) : Prop where
  len : d.length = d0.length
  done : ∀ j < H, ∀ i < W, (j < y ∨ j = y ∧ i < x) → d[base + j * W + i]? = some (rectSum W D (i + 1) (j + 1))
  todo : ∀ j < H, ∀ i < W, ¬ (j < y ∨ j = y ∧ i < x) → d[base + j * W + i]? = some (D (j * W + i))
  frame : ∀ q, (q < base ∨ base + W * H ≤ q) → d[q]? = d0[q]?

theorem pos_eq {W j i y x : Nat} (hi : i < W) (hx : x < W) (h : j * W + i = y * W + x) : j = y ∧ i = x := by
  have h1 : (j * W + i) / W = (y * W + x) / W := by rw [h]
  have hW : 0 < W := by omega
  rw [Nat.mul_comm, Nat.mul_add_div hW, Nat.div_eq_of_lt hi, Nat.mul_comm, Nat.mul_add_div hW, Nat.div_eq_of_lt hx] at h1
  have : j = y := by omega
  subst this
  omega

theorem pos_lt {W H y x : Nat} (hx : x < W) (hy : y < H) : y * W + x < W * H := by
  have := Nat.mul_le_mul_right W hy
  rw [Nat.succ_mul, Nat.mul_comm H] at this
  omega

theorem intSt_write {W H base : Nat} {d0 : List R} {D : Nat → R} {y x : Nat} {d : List R} (h : IntSt W H base d0 D y x d)
    (hlen : base + W * H ≤ d0.length) (hy : y < H) (hx : x < W) {v : R} (hv : v = rectSum W D (x + 1) (y + 1)) :
    ∃ d', wr d (base + y * W + x) v = some d' ∧ IntSt W H base d0 D y (x + 1) d' := by
  have hp := pos_lt hx hy
  have hl : base + y * W + x < d.length := by rw [h.len]; omega
  rw [wr_of_lt hl]
  refine ⟨_, rfl, by simpa using h.len, fun j hj i hi hc => ?_, fun j hj i hi hc => ?_, fun q hq => ?_⟩
  · by_cases e : j * W + i = y * W + x
    · obtain ⟨rfl, rfl⟩ := pos_eq hi hx e
      rw [List.getElem?_set_self hl, hv]
    · rw [List.getElem?_set_ne (by omega)]
      refine h.done j hj i hi ?_
      rcases hc with hc | ⟨rfl, hc⟩
      · exact Or.inl hc
      · right; exact ⟨rfl, by omega⟩
  · have : ¬ (j * W + i = y * W + x) := fun e => by
      obtain ⟨rfl, rfl⟩ := pos_eq hi hx e
      exact hc (Or.inr ⟨rfl, by omega⟩)
    rw [List.getElem?_set_ne (by omega)]
    refine h.todo j hj i hi fun hc' => hc ?_
    rcases hc' with hc' | ⟨rfl, hc'⟩
    · exact Or.inl hc'
    · exact Or.inr ⟨rfl, by omega⟩
  · rw [List.getElem?_set_ne (by omega)]
    exact h.frame q hq

theorem intSt_row {W H base : Nat} {d0 : List R} {D : Nat → R} {y : Nat} {d : List R} (h : IntSt W H base d0 D y W d) :
    IntSt W H base d0 D (y + 1) 0 d := by
  refine ⟨h.len, fun j hj i hi hc => h.done j hj i hi ?_, fun j hj i hi hc => h.todo j hj i hi ?_, h.frame⟩
  · rcases hc with hc | hc
    · rcases Nat.lt_or_ge j y with h' | h'
      · exact Or.inl h'
      · exact Or.inr ⟨by omega, hi⟩
    · omega
  · rintro (hc' | ⟨rfl, -⟩)
    · exact hc (Or.inl (by omega))
    · exact hc (Or.inl (by omega))

theorem integralAt_spec {W H base : Nat} (hW : 0 < W) (hH : 0 < H) {d : List R} {D : Nat → R} (hlen : base + W * H ≤ d.length)
    (hD : ∀ p < W * H, d[base + p]? = some (D p)) :
    ∃ d', integralAt W H base d = some d' ∧ d'.length = d.length ∧
      (∀ y < H, ∀ x < W, d'[base + (y * W + x)]? = some (rectSum W D (x + 1) (y + 1))) ∧
      ∀ q, (q < base ∨ base + W * H ≤ q) → d'[q]? = d[q]? := by
  have h0 : IntSt W H base d D 0 0 d := ⟨rfl, fun j hj i hi hc => by omega, fun j hj i hi _ => by
    rw [Nat.add_assoc]; exact hD _ (pos_lt hi hj), fun _ _ => rfl⟩
  -- the first pixel
  obtain ⟨d1, w1, s1⟩ := intSt_write h0 hlen hH hW (v := D 0) (by rw [rectSum_step]; simp)
  have r1 : rd d base = some (D 0) := by
    have := hD 0 (Nat.mul_pos hW hH)
    rw [rd_getElem?]; exact this
  rw [Nat.zero_mul, Nat.add_zero] at w1
  -- the first row
  obtain ⟨d2, w2, s2⟩ := iter_inv (n := W - 1) (f := fun i d => do
      let x := i + 1
      let a ← rd d (base + x - 1)
      let v ← rd d (base + x)
      wr d (base + x) (a + v)) (s := d1) (fun n (d' : List R) => IntSt W H base d D 0 (n + 1) d') s1 (by
    intro i hi s hs
    have e1 : rd s (base + (i + 1) - 1) = some (rectSum W D (i + 1) 1) := by
      have := hs.done 0 hH i (by omega) (Or.inr ⟨rfl, by omega⟩)
      rw [rd_getElem?, ← this]; congr 1; omega
    have e2 : rd s (base + (i + 1)) = some (D (i + 1)) := by
      have := hs.todo 0 hH (i + 1) (by omega) (by omega)
      simpa [rd_getElem?] using this
    simp only [Option.bind_eq_bind]
    rw [e1, Option.bind_some, e2, Option.bind_some]
    obtain ⟨d', f1, f2⟩ := intSt_write hs hlen hH (show i + 1 < W by omega) (v := rectSum W D (i + 1) 1 + D (i + 1)) (by
      rw [rectSum_step W D (i + 1) 0]; simp)
    rw [Nat.zero_mul, Nat.add_zero] at f1
    exact ⟨d', f1, f2⟩)
  rw [show W - 1 + 1 = W by omega] at s2
  -- the other rows
  obtain ⟨d3, w3, s3⟩ := iter_inv (n := H - 1) (f := fun j d => do
      let y := j + 1
      let a ← rd d (base + y * W - W)
      let v ← rd d (base + y * W)
      let d ← wr d (base + y * W) (a + v)
      iter (W - 1) (fun i d => do
        let x := i + 1
        let a ← rd d (base + y * W + x - W)
        let b ← rd d (base + y * W + x - W - 1)
        let c ← rd d (base + y * W + x - 1)
        let v ← rd d (base + y * W + x)
        wr d (base + y * W + x) (a - b + c + v)) d) (s := d2) (fun n (d' : List R) => IntSt W H base d D n W d') s2 (by
    intro j hj s hs
    have hs := intSt_row hs
    have hm : (j + 1) * W = j * W + W := Nat.succ_mul j W
    have e1 : rd s (base + (j + 1) * W - W) = some (rectSum W D 1 (j + 1)) := by
      have := hs.done j (by omega) 0 hW (Or.inl (by omega))
      rw [rd_getElem?, ← this]; congr 1; omega
    have e2 : rd s (base + (j + 1) * W) = some (D ((j + 1) * W)) := by
      have := hs.todo (j + 1) (by omega) 0 hW (by omega)
      simpa [rd_getElem?] using this
    obtain ⟨d', f1, f2⟩ := intSt_write hs hlen (show j + 1 < H by omega) hW (v := rectSum W D 1 (j + 1) + D ((j + 1) * W)) (by
      rw [rectSum_step W D 0 (j + 1)]; simp)
    rw [Nat.add_zero] at f1
    simp only [Option.bind_eq_bind]
    rw [e1, Option.bind_some, e2, Option.bind_some, f1, Option.bind_some]
    obtain ⟨d'', g1, g2⟩ := iter_inv (n := W - 1) (f := fun i d => do
        let x := i + 1
        let a ← rd d (base + (j + 1) * W + x - W)
        let b ← rd d (base + (j + 1) * W + x - W - 1)
        let c ← rd d (base + (j + 1) * W + x - 1)
        let v ← rd d (base + (j + 1) * W + x)
        wr d (base + (j + 1) * W + x) (a - b + c + v)) (s := d') (fun n (d' : List R) => IntSt W H base d D (j + 1) (n + 1) d') f2 (by
      intro i hi s hs
      have a1 : rd s (base + (j + 1) * W + (i + 1) - W) = some (rectSum W D (i + 2) (j + 1)) := by
        have := hs.done j (by omega) (i + 1) (by omega) (Or.inl (by omega))
        rw [rd_getElem?, ← this]; congr 1; omega
      have a2 : rd s (base + (j + 1) * W + (i + 1) - W - 1) = some (rectSum W D (i + 1) (j + 1)) := by
        have := hs.done j (by omega) i (by omega) (Or.inl (by omega))
        rw [rd_getElem?, ← this]; congr 1; omega
      have a3 : rd s (base + (j + 1) * W + (i + 1) - 1) = some (rectSum W D (i + 1) (j + 2)) := by
        have := hs.done (j + 1) (by omega) i (by omega) (Or.inr ⟨rfl, by omega⟩)
        rw [rd_getElem?, ← this]; congr 1
      have a4 : rd s (base + (j + 1) * W + (i + 1)) = some (D ((j + 1) * W + (i + 1))) := by
        have := hs.todo (j + 1) (by omega) (i + 1) (by omega) (by omega)
        rw [rd_getElem?, ← this]
      simp only [Option.bind_eq_bind]
      rw [a1, Option.bind_some, a2, Option.bind_some, a3, Option.bind_some, a4, Option.bind_some]
      exact intSt_write hs hlen (show j + 1 < H by omega) (show i + 1 < W by omega) (by rw [rectSum_step W D (i + 1) (j + 1)]))
    rw [show W - 1 + 1 = W by omega] at g2
    simp only [Option.bind_eq_bind] at g1
    exact ⟨d'', g1, g2⟩)
  refine ⟨d3, ?_, s3.len, fun y hy x hx => ?_, s3.frame⟩
  · unfold integralAt
    simp only [Option.bind_eq_bind] at w2 w3 ⊢
    rw [r1, Option.bind_some, w1, Option.bind_some, w2, Option.bind_some, w3]
  · rw [← Nat.add_assoc]
    refine s3.done y hy x hx ?_
    rcases Nat.lt_or_ge y (H - 1) with h' | h'
    · exact Or.inl h'
    · exact Or.inr ⟨by omega, hx⟩

/-! ## The integral histogram -/

/-- Mass of label `l` (from zero) at pixel `p`, over all the maps. -/
def massOf (labels : List Nat) (w : Nat → R) (K numMaps l p : Nat) : R :=
  ∑ q ∈ range numMaps, if labels[q * K + p]? = some (l + 1) then w p else 0

theorem distribute_spec {labels : List Nat} {K numMaps n : Nat} (hl : labels.length = numMaps * K) (hn : ∀ l ∈ labels, l ≤ n)
    {mass : Option (List R)} {w : Nat → R} (hw : ∀ k < K, massAt mass k = some (w k)) {data : List R}
    (hd : Flat data n K fun _ _ => 0) :
    ∃ d, distribute labels mass K numMaps data = some d ∧ Flat d n K (massOf labels w K numMaps) := by
  obtain ⟨d, h1, h2⟩ := iter_inv (n := numMaps) (f := fun q data =>
      iter K (fun k data => do
        let l ← rd labels (q * K + k)
        if l ≠ 0 then do
          let v ← massAt mass k
          addAt data (k + (l - 1) * K) v
        else some data) data) (s := data) (fun q (d : List R) => Flat d n K (massOf labels w K q)) (hd.congr fun i _ j _ => by
      simp [massOf]) (by
    intro q hq d hd
    obtain ⟨d', e1, e2⟩ := iter_inv (n := K) (f := fun k data => do
        let l ← rd labels (q * K + k)
        if l ≠ 0 then do
          let v ← massAt mass k
          addAt data (k + (l - 1) * K) v
        else some data) (s := d) (fun k (d : List R) => Flat d n K fun l p =>
          massOf labels w K q l p + if p < k then (if labels[q * K + p]? = some (l + 1) then w p else 0) else 0)
      (hd.congr fun i _ j _ => by simp) (by
      intro k hk d hd
      have hlk : q * K + k < labels.length := by rw [hl]; exact Flat.addr_lt hq hk
      have hget := List.getElem?_eq_getElem hlk
      rw [rd_of_lt hlk]
      simp only [Option.bind_eq_bind, Option.bind_some]
      have hle := hn _ (List.getElem_mem hlk)
      generalize labels[q * K + k] = l at hget hle ⊢
      by_cases h0 : l = 0
      · rw [if_neg (by simpa using h0)]
        refine ⟨d, rfl, hd.congr fun i _ j _ => ?_⟩
        congr 1
        by_cases hj : j < k
        · rw [if_pos hj, if_pos (show j < k + 1 by omega)]
        · rw [if_neg hj]
          by_cases e : j = k
          · subst e
            rw [if_pos (show j < j + 1 by omega), hget, if_neg (by simp; omega)]
          · rw [if_neg (show ¬ j < k + 1 by omega)]
      · rw [if_pos h0, hw k hk]
        simp only [Option.bind_some]
        have hl1 : l - 1 < n := by omega
        rw [Nat.add_comm k]
        obtain ⟨d', w1, w2⟩ := hd.wr hl1 hk (massOf labels w K q (l - 1) k + w k)
        refine ⟨d', ?_, w2.congr fun i hi j hj => ?_⟩
        · unfold addAt
          rw [hd.rd hl1 hk]
          simp only [Option.bind_eq_bind, Option.bind_some, lt_irrefl, if_false, add_zero]
          exact w1
        · simp only [upd2]
          by_cases e : i = l - 1 ∧ j = k
          · obtain ⟨rfl, rfl⟩ := e
            rw [if_pos ⟨rfl, rfl⟩, if_pos (show j < j + 1 by omega), hget, if_pos (by congr 1; omega)]
          · rw [if_neg e]
            congr 1
            by_cases hj : j < k
            · rw [if_pos hj, if_pos (show j < k + 1 by omega)]
            · rw [if_neg hj]
              by_cases e' : j = k
              · subst e'
                rw [if_pos (show j < j + 1 by omega), hget, if_neg]
                intro h
                have := Option.some.inj h
                exact e ⟨by omega, rfl⟩
              · rw [if_neg (show ¬ j < k + 1 by omega)])
    refine ⟨d', e1, e2.congr fun i _ j hj => ?_⟩
    rw [if_pos hj]
    unfold massOf
    rw [sum_range_succ])
  exact ⟨d, h1, h2⟩

theorem countLabels_spec {labels : List Nat} {K given : Nat} (hl : K ≤ labels.length) :
    ∃ r, countLabels labels K given = some r ∧
      (given = 0 → ∃ n, r = some n ∧ (∀ k < K, ∀ l, labels[k]? = some l → l ≤ n) ∧ ∀ m, (∀ k < K, ∀ l, labels[k]? = some l → l ≤ m) → n ≤ m) ∧
      (given ≠ 0 → (r = some given ∧ ∀ k < K, ∀ l, labels[k]? = some l → l ≤ given) ∨
        (r = none ∧ ∃ k, k < K ∧ ∃ l, labels[k]? = some l ∧ given < l)) := by
  unfold countLabels
  by_cases h0 : given = 0
  · rw [if_pos h0]
    obtain ⟨n, h1, h2, h3⟩ := iter_inv (n := K) (f := fun k n => do
        let l ← rd labels k
        some (max n l)) (s := 0) (fun i (n : Nat) => (∀ k < i, ∀ l, labels[k]? = some l → l ≤ n) ∧
          ∀ m, (∀ k < i, ∀ l, labels[k]? = some l → l ≤ m) → n ≤ m) ⟨by simp, by simp⟩ (by
      intro k hk n ⟨q1, q2⟩
      rw [rd_of_lt (show k < labels.length by omega)]
      refine ⟨_, rfl, fun j hj l e => ?_, fun m hm => ?_⟩
      · by_cases ej : j = k
        · subst ej
          rw [List.getElem?_eq_getElem (by omega)] at e
          rw [← Option.some.inj e]
          exact le_max_right _ _
        · exact (q1 j (by omega) l e).trans (le_max_left _ _)
      · exact max_le (q2 m fun j hj l e => hm j (by omega) l e) (hm k (by omega) _ (List.getElem?_eq_getElem _)))
    simp only [Option.bind_eq_bind] at h1 ⊢
    rw [h1]
    exact ⟨some n, rfl, fun _ => ⟨n, rfl, h2, h3⟩, fun h => absurd h0 h⟩
  · rw [if_neg h0]
    obtain ⟨r, h1, h2⟩ := iter_inv (n := K) (f := fun k s => do
        let l ← rd labels k
        some (if given < l then none else s)) (s := some given)
      (fun i (r : Option Nat) => (r = some given ∧ ∀ k < i, ∀ l, labels[k]? = some l → l ≤ given) ∨
        (r = none ∧ ∃ k, k < i ∧ ∃ l, labels[k]? = some l ∧ given < l)) (Or.inl ⟨rfl, by simp⟩) (by
      intro k hk s hs
      rw [rd_of_lt (show k < labels.length by omega)]
      refine ⟨_, rfl, ?_⟩
      have hg : labels[k]? = some labels[k] := List.getElem?_eq_getElem (by omega)
      by_cases hlt : given < labels[k]
      · rw [if_pos hlt]
        exact Or.inr ⟨rfl, k, by omega, _, hg, hlt⟩
      · rw [if_neg hlt]
        rcases hs with ⟨e1, e2⟩ | ⟨e1, j, e2, e3⟩
        · left
          refine ⟨e1, fun j hj l e => ?_⟩
          by_cases ej : j = k
          · subst ej
            rw [hg] at e
            rw [← Option.some.inj e]; omega
          · exact e2 j (by omega) l e
        · exact Or.inr ⟨e1, j, by omega, e3⟩)
    exact ⟨r, h1, fun h => absurd h h0, fun _ => h2⟩

/-- The entries of an integral histogram of `height` rows and `width` columns. -/
def IsIntHist (D : Nat → Nat → R) (height width n : Nat) (ih : List R) : Prop :=
  ih.length = n * (width * height) ∧ ∀ k < n, ∀ y < width, ∀ x < height,
    ih[k * (width * height) + (y * height + x)]? = some (rectSum height (D k) (x + 1) (y + 1))

theorem integrals_spec {height width n : Nat} (hh : 0 < height) (hw : 0 < width) {data : List R} {D : Nat → Nat → R}
    (hd : Flat data n (width * height) D) :
    ∃ ih, iter n (fun k data => integralAt height width (k * (width * height)) data) data = some ih ∧ IsIntHist D height width n ih := by
  obtain ⟨ih, h1, h2, h3, -⟩ := iter_inv (n := n) (f := fun k data => integralAt height width (k * (width * height)) data) (s := data)
    (fun i (d : List R) => d.length = n * (width * height) ∧
      (∀ k < i, ∀ y < width, ∀ x < height, d[k * (width * height) + (y * height + x)]? = some (rectSum height (D k) (x + 1) (y + 1))) ∧
      ∀ q, i * (width * height) ≤ q → d[q]? = data[q]?) ⟨hd.len, by simp, fun _ _ => rfl⟩ (by
    intro k hk d ⟨q1, q2, q3⟩
    have hb := Nat.mul_le_mul_right (width * height) hk
    rw [Nat.succ_mul] at hb
    have hc : height * width = width * height := Nat.mul_comm _ _
    obtain ⟨d', e1, e2, e3, e4⟩ := integralAt_spec (D := D k) (base := k * (width * height)) (d := d) hh hw (by omega) (by
      intro p hp
      rw [q3 _ (by omega)]
      exact hd.get k hk p (by omega))
    refine ⟨d', e1, by omega, fun k' hk' y hy x hx => ?_, fun q hq => ?_⟩
    · rcases Nat.lt_or_ge k' k with h' | h'
      · have := Nat.mul_le_mul_right (width * height) h'
        rw [Nat.succ_mul] at this
        have hp := pos_lt hx hy
        rw [e4 _ (by omega)]
        exact q2 k' h' y hy x hx
      · obtain rfl : k' = k := by omega
        exact e3 y hy x hx
    · rw [Nat.succ_mul] at hq
      rw [e4 _ (by omega)]
      exact q3 q (by omega))
  exact ⟨ih, h1, h2, h3⟩

/-- **C41.** The integral histogram of any number of label maps without labels above the number of labels. -/
theorem inthist_correct {labels : List Nat} {height width numMaps given : Nat} (hh : 0 < height) (hw : 0 < width) (hm : 0 < numMaps)
    (hl : labels.length = numMaps * (width * height)) {mass : Option (List R)} {w : Nat → R}
    (hmass : ∀ k < width * height, massAt mass k = some (w k)) {n : Nat}
    (hn : (given ≠ 0 ∧ n = given) ∨ (given = 0 ∧ ∃ k < width * height, labels[k]? = some n)) (hall : ∀ l ∈ labels, l ≤ n) :
    ∃ ih, inthist labels mass height width numMaps given = some (some (n, ih)) ∧
      IsIntHist (massOf labels w (width * height) numMaps) height width n ih := by
  have hK : width * height ≤ labels.length := by
    rw [hl]; exact Nat.le_mul_of_pos_left _ hm
  obtain ⟨r, r1, r2, r3⟩ := countLabels_spec (labels := labels) (K := width * height) (given := given) hK
  have hr : r = some n := by
    rcases hn with ⟨h1, h2⟩ | ⟨h1, k, hk, h2⟩
    · rcases r3 h1 with ⟨e, -⟩ | ⟨-, k, hk, l, e1, e2⟩
      · rw [e, h2]
      · have := hall l (List.mem_of_getElem? e1)
        omega
    · obtain ⟨m, e1, e2, e3⟩ := r2 h1
      have a1 := e2 k hk n h2
      have a2 := e3 n fun k' _ l e => hall l (List.mem_of_getElem? e)
      rw [e1, show m = n by omega]
  have hz : Flat (List.replicate (height * width * n) (0 : R)) n (width * height) fun _ _ => 0 := by
    rw [show height * width * n = n * (width * height) by ring]
    exact Flat.replicate _ _ _
  obtain ⟨d, d1, d2⟩ := distribute_spec hl hall hmass hz
  obtain ⟨ih, e1, e2⟩ := integrals_spec hh hw d2
  refine ⟨ih, ?_, e2⟩
  unfold inthist
  simp only [Option.bind_eq_bind]
  rw [r1, hr]
  simp only [Option.bind_some]
  rw [d1, Option.bind_some, e1]
  rfl

/-! ## Sampling -/

/-- A loop over a segment of an array that writes each entry once. -/
theorem seg_spec {α : Type} (f : Nat → List α → Option (List α)) {L o : Nat} {m : List α} (hlen : o + L ≤ m.length) (V : Nat → α)
    (hf : ∀ k < L, ∀ m' : List α, m'.length = m.length → m'[o + k]? = m[o + k]? → f k m' = wr m' (o + k) (V k)) :
    ∃ m', iter L f m = some m' ∧ m'.length = m.length ∧ (∀ k < L, m'[o + k]? = some (V k)) ∧
      ∀ q, (q < o ∨ o + L ≤ q) → m'[q]? = m[q]? := by
  obtain ⟨m', h1, h2, h3, h4⟩ := iter_inv (n := L) (f := f) (s := m) (fun n (m' : List α) => m'.length = m.length ∧
      (∀ k < n, m'[o + k]? = some (V k)) ∧ ∀ q, (q < o ∨ o + n ≤ q) → m'[q]? = m[q]?) ⟨rfl, by simp, fun _ _ => rfl⟩ (by
    intro k hk m' ⟨q1, q2, q3⟩
    rw [hf k hk m' q1 (q3 _ (by omega)), wr_of_lt (by omega)]
    refine ⟨_, rfl, by simpa using q1, fun j hj => ?_, fun q hq => ?_⟩
    · by_cases e : j = k
      · rw [e, List.getElem?_set_self (by omega)]
      · rw [List.getElem?_set_ne (by omega)]
        exact q2 j (by omega)
    · rw [List.getElem?_set_ne (by omega)]
      exact q3 q (by omega))
  exact ⟨m', h1, h2, h3, h4⟩

theorem corner_spec (inside : Bool) (op : R → R → R) {ih : List R} {start ls L o : Nat} {m : List R} (hlen : o + L ≤ m.length)
    {F G : Nat → R} (hF : ∀ k < L, m[o + k]? = some (F k)) (hG : inside = true → ∀ k < L, rd ih (start + k * ls) = some (G k)) :
    ∃ m', corner inside op ih start ls L o m = some m' ∧ m'.length = m.length ∧
      (∀ k < L, m'[o + k]? = some (if inside then op (F k) (G k) else F k)) ∧ ∀ q, (q < o ∨ o + L ≤ q) → m'[q]? = m[q]? := by
  unfold corner
  cases inside with
  | false => exact ⟨m, rfl, rfl, hF, fun _ _ => rfl⟩
  | true =>
    simp only [if_true]
    exact seg_spec _ hlen _ fun k hk m' _ hm => by
      rw [rd_getElem?, hm, hF k hk]
      simp only [Option.bind_eq_bind, Option.bind_some]
      rw [hG rfl k hk, Option.bind_some]

/-- The box is empty or inside an image of `height` rows and `width` columns. -/
def BoxOk (height width x1 y1 x2 y2 : Nat) : Prop :=
  x2 < x1 ∨ y2 < y1 ∨ (1 ≤ x1 ∧ 1 ≤ y1 ∧ x2 ≤ height ∧ y2 ≤ width)

/-- Sum over the pixels of a box. -/
def boxSum (height width : Nat) (D : Nat → R) (x1 y1 x2 y2 : Nat) : R :=
  ∑ j ∈ range width, ∑ i ∈ range height, if (x1 ≤ i + 1 ∧ i + 1 ≤ x2) ∧ (y1 ≤ j + 1 ∧ j + 1 ≤ y2) then D (j * height + i) else 0

theorem filter_range {n a b : Nat} (ha : 1 ≤ a) (hb : b ≤ n) :
    (range n).filter (fun i => a ≤ i + 1 ∧ i + 1 ≤ b) = Ico (a - 1) b := by
  ext i
  simp only [mem_filter, mem_range, mem_Ico]
  omega

theorem boxSum_eq {height width : Nat} (D : Nat → R) {x1 y1 x2 y2 : Nat} (hx : x1 ≤ x2) (hy : y1 ≤ y2) (h1 : 1 ≤ x1) (h2 : 1 ≤ y1)
    (h3 : x2 ≤ height) (h4 : y2 ≤ width) :
    boxSum height width D x1 y1 x2 y2 = rectSum height D x2 y2 - rectSum height D (x1 - 1) y2 + rectSum height D (x1 - 1) (y1 - 1) -
      rectSum height D x2 (y1 - 1) := by
  have e : boxSum height width D x1 y1 x2 y2 = ∑ j ∈ Ico (y1 - 1) y2, ∑ i ∈ Ico (x1 - 1) x2, D (j * height + i) := by
    unfold boxSum
    rw [← filter_range h2 h4, sum_filter]
    refine sum_congr rfl fun j _ => ?_
    rw [← filter_range h1 h3, sum_filter]
    by_cases hj : y1 ≤ j + 1 ∧ j + 1 ≤ y2
    · simp [hj]
    · rw [if_neg hj]
      exact sum_eq_zero fun i _ => if_neg fun h => hj h.2
  rw [e]
  unfold rectSum
  rw [sum_Ico_eq_sub _ (by omega)]
  simp only [sum_Ico_eq_sub (fun i => D (_ * height + i)) (show x1 - 1 ≤ x2 by omega), sum_sub_distrib]
  ring

theorem boxSum_empty {height width : Nat} (D : Nat → R) {x1 y1 x2 y2 : Nat} (h : x2 < x1 ∨ y2 < y1) :
    boxSum height width D x1 y1 x2 y2 = 0 := by
  unfold boxSum
  refine sum_eq_zero fun j _ => sum_eq_zero fun i _ => if_neg ?_
  omega

theorem sampleBox_spec {D : Nat → Nat → R} {height width n : Nat} {ih : List R} (hih : IsIntHist D height width n ih)
    (x1 y1 x2 y2 : Nat) {o : Nat} {m : List R} (hlen : o + n ≤ m.length) :
    (¬ BoxOk height width x1 y1 x2 y2 → sampleBox ih height width n x1 y1 x2 y2 o m = some none) ∧
    (BoxOk height width x1 y1 x2 y2 → ∃ m', sampleBox ih height width n x1 y1 x2 y2 o m = some (some m') ∧ m'.length = m.length ∧
      (∀ k < n, m'[o + k]? = some (boxSum height width (D k) x1 y1 x2 y2)) ∧ ∀ q, (q < o ∨ o + n ≤ q) → m'[q]? = m[q]?) := by
  unfold BoxOk
  unfold sampleBox
  by_cases he : x2 < x1 ∨ y2 < y1
  · refine ⟨fun h => by omega, fun _ => ?_⟩
    rw [if_pos he]
    obtain ⟨m', e1, e2, e3, e4⟩ := seg_spec (fun k hist => wr hist (o + k) (0 : R)) hlen (fun _ => 0) fun k _ m' _ _ => rfl
    refine ⟨m', ?_, e2, fun k hk => ?_, e4⟩
    · rw [e1]; rfl
    · rw [e3 k hk, boxSum_empty (D k) he]
  · rw [if_neg he]
    by_cases h1 : x1 < 1 ∨ y1 < 1
    · rw [if_pos h1]
      exact ⟨fun _ => rfl, fun h => by omega⟩
    · rw [if_neg h1]
      by_cases h2 : height < x2 ∨ width < y2
      · rw [if_pos h2]
        exact ⟨fun _ => rfl, fun h => by omega⟩
      · rw [if_neg h2]
        refine ⟨fun h => by omega, fun _ => ?_⟩
        have hrd : ∀ k < n, ∀ x < height, ∀ y < width, rd ih (x + y * height + k * (height * width)) =
            some (rectSum height (D k) (x + 1) (y + 1)) := by
          intro k hk x hx y hy
          rw [rd_getElem?, ← hih.2 k hk y hy x hx]
          congr 1
          rw [Nat.mul_comm height width]; omega
        obtain ⟨m1, a1, a2, a3, a4⟩ := seg_spec (fun k hist => do
            let v ← rd ih (x2 - 1 + (y2 - 1) * height + k * (height * width))
            wr hist (o + k) v) hlen (fun k => rectSum height (D k) x2 y2) fun k hk m' _ _ => by
          rw [hrd k hk (x2 - 1) (by omega) (y2 - 1) (by omega), show x2 - 1 + 1 = x2 by omega, show y2 - 1 + 1 = y2 by omega]
          rfl
        obtain ⟨m2, b1, b2, b3, b4⟩ := corner_spec (decide (0 < x1 - 1)) (· - ·) (ih := ih) (start := x1 - 1 - 1 + (y2 - 1) * height)
          (ls := height * width) (show o + n ≤ m1.length by omega) a3 (G := fun k => rectSum height (D k) (x1 - 1) y2) (by
          intro hi k hk
          have := of_decide_eq_true hi
          rw [hrd k hk (x1 - 1 - 1) (by omega) (y2 - 1) (by omega), show x1 - 1 - 1 + 1 = x1 - 1 by omega, show y2 - 1 + 1 = y2 by omega])
        obtain ⟨m3, c1, c2, c3, c4⟩ := corner_spec (decide (0 < x1 - 1 ∧ 0 < y1 - 1)) (· + ·) (ih := ih)
          (start := x1 - 1 - 1 + (y1 - 1 - 1) * height)
          (ls := height * width) (show o + n ≤ m2.length by omega) b3 (G := fun k => rectSum height (D k) (x1 - 1) (y1 - 1)) (by
          intro hi k hk
          have := of_decide_eq_true hi
          rw [hrd k hk (x1 - 1 - 1) (by omega) (y1 - 1 - 1) (by omega), show x1 - 1 - 1 + 1 = x1 - 1 by omega,
            show y1 - 1 - 1 + 1 = y1 - 1 by omega])
        obtain ⟨m4, d1, d2, d3, d4⟩ := corner_spec (decide (0 < y1 - 1)) (· - ·) (ih := ih)
          (start := x2 - 1 + (y1 - 1 - 1) * height)
          (ls := height * width) (show o + n ≤ m3.length by omega) c3 (G := fun k => rectSum height (D k) x2 (y1 - 1)) (by
          intro hi k hk
          have := of_decide_eq_true hi
          rw [hrd k hk (x2 - 1) (by omega) (y1 - 1 - 1) (by omega), show x2 - 1 + 1 = x2 by omega,
            show y1 - 1 - 1 + 1 = y1 - 1 by omega])
        refine ⟨m4, ?_, by omega, fun k hk => ?_, fun q hq => by rw [d4 q hq, c4 q hq, b4 q hq, a4 q hq]⟩
        · simp only [Option.bind_eq_bind] at a1 ⊢
          rw [a1]
          simp only [Option.bind_some]
          rw [b1, Option.bind_some, c1, Option.bind_some, d1]
          rfl
        · rw [d3 k hk, boxSum_eq (D k) (by omega) (by omega) (by omega) (by omega) (by omega) (by omega)]
          congr 1
          by_cases hx : 0 < x1 - 1 <;> by_cases hy : 0 < y1 - 1
          · simp [hx, hy]
          · simp [hx, show y1 - 1 = 0 by omega]
          · simp [hy, show x1 - 1 = 0 by omega]
          · simp [show x1 - 1 = 0 by omega, show y1 - 1 = 0 by omega]

/-- Box `b` of a list of boxes is empty or inside the image. -/
def BoxAtOk (height width : Nat) (boxes : List Nat) (b : Nat) : Prop :=
  BoxOk height width (boxes.getD (b * 4) 0) (boxes.getD (b * 4 + 1) 0) (boxes.getD (b * 4 + 2) 0) (boxes.getD (b * 4 + 3) 0)

/-- **C41.** Sampling an integral histogram at any list of boxes: if each is empty or inside the image, the result contains for each
box and label the sum over the pixels of the box (zero if the box is empty); otherwise the call is rejected. -/
theorem sampleinthist_correct {D : Nat → Nat → R} {height width n : Nat} {ih : List R} (hih : IsIntHist D height width n ih)
    {boxes : List Nat} (hb : boxes.length % 4 = 0) :
    ((∀ b < boxes.length / 4, BoxAtOk height width boxes b) → ∃ hist, sampleinthist ih height width n boxes = some (some hist) ∧
      hist.length = n * (boxes.length / 4) ∧ ∀ b < boxes.length / 4, ∀ k < n, hist[b * n + k]? =
        some (boxSum height width (D k) (boxes.getD (b * 4) 0) (boxes.getD (b * 4 + 1) 0) (boxes.getD (b * 4 + 2) 0)
          (boxes.getD (b * 4 + 3) 0))) ∧
    ((∃ b, b < boxes.length / 4 ∧ ¬ BoxAtOk height width boxes b) → sampleinthist ih height width n boxes = some none) := by
  have hrd : ∀ b < boxes.length / 4, ∀ i < 4, rd boxes (b * 4 + i) = some (boxes.getD (b * 4 + i) 0) := fun b hb' i hi => by
    rw [rd_of_lt (by omega), List.getD_eq_getElem _ _ (by omega)]
  obtain ⟨r, h1, h2⟩ := iter_inv (n := boxes.length / 4) (f := fun bi (s : Option (List R)) =>
      match s with
      | none => some none
      | some hist => do
        let x1 ← rd boxes (bi * 4)
        let y1 ← rd boxes (bi * 4 + 1)
        let x2 ← rd boxes (bi * 4 + 2)
        let y2 ← rd boxes (bi * 4 + 3)
        sampleBox ih height width n x1 y1 x2 y2 (bi * n) hist) (s := some (List.replicate (n * (boxes.length / 4)) 0))
    (fun i (r : Option (List R)) => ((∃ b, b < i ∧ ¬ BoxAtOk height width boxes b) → r = none) ∧
      ((∀ b < i, BoxAtOk height width boxes b) → ∃ hist, r = some hist ∧ hist.length = n * (boxes.length / 4) ∧
        ∀ b < i, ∀ k < n, hist[b * n + k]? =
          some (boxSum height width (D k) (boxes.getD (b * 4) 0) (boxes.getD (b * 4 + 1) 0) (boxes.getD (b * 4 + 2) 0)
            (boxes.getD (b * 4 + 3) 0)))) ⟨fun ⟨b, h, _⟩ => by omega, fun _ => ⟨_, rfl, by simp, by simp⟩⟩ (by
    intro b hb' r ⟨q1, q2⟩
    by_cases hall : ∀ b' < b, BoxAtOk height width boxes b'
    · obtain ⟨hist, rfl, e2, e3⟩ := q2 hall
      have hbn : b * n + n ≤ hist.length := by
        rw [e2, Nat.mul_comm n]
        have := Nat.mul_le_mul_right n hb'
        rw [Nat.succ_mul] at this
        exact this
      obtain ⟨s1, s2⟩ := sampleBox_spec hih (boxes.getD (b * 4) 0) (boxes.getD (b * 4 + 1) 0) (boxes.getD (b * 4 + 2) 0)
        (boxes.getD (b * 4 + 3) 0) (o := b * n) (m := hist) hbn
      have g0 := hrd b hb' 0 (by omega)
      rw [Nat.add_zero] at g0
      simp only [Option.bind_eq_bind]
      rw [g0, hrd b hb' 1 (by omega), hrd b hb' 2 (by omega), hrd b hb' 3 (by omega)]
      simp only [Option.bind_some]
      by_cases hok : BoxAtOk height width boxes b
      · obtain ⟨m', f1, f2, f3, f4⟩ := s2 hok
        refine ⟨some m', f1, fun ⟨b', h', hn⟩ => ?_, fun _ => ⟨m', rfl, by omega, fun b' h' k hk => ?_⟩⟩
        · rcases Nat.lt_or_ge b' b with hlt | hge
          · exact absurd (hall b' hlt) hn
          · obtain rfl : b' = b := by omega
            exact absurd hok hn
        · rcases Nat.lt_or_ge b' b with hlt | hge
          · have := Nat.mul_le_mul_right n hlt
            rw [Nat.succ_mul] at this
            rw [f4 _ (by omega)]
            exact e3 b' hlt k hk
          · obtain rfl : b' = b := by omega
            exact f3 k hk
      · exact ⟨none, s1 hok, fun _ => rfl, fun h => absurd (h b (by omega)) hok⟩
    · have hex : ∃ b', b' < b ∧ ¬ BoxAtOk height width boxes b' := by
        push Not at hall
        exact hall
      rw [q1 hex]
      exact ⟨none, rfl, fun _ => rfl, fun h => absurd (fun b' h' => h b' (by omega)) hall⟩)
  have hs : sampleinthist ih height width n boxes = some r := by
    unfold sampleinthist sampleAll
    rw [if_neg (by omega)]
    exact h1
  rw [hs]
  refine ⟨fun h => ?_, fun h => by rw [h2.1 h]⟩
  obtain ⟨hist, e1, e2, e3⟩ := h2.2 h
  exact ⟨hist, by rw [e1], e2, e3⟩

theorem count_term (A B C : Prop) [Decidable A] [Decidable B] [Decidable C] :
    (if A ∧ B then (if C then (1 : R) else 0) else 0) = ((if A ∧ B ∧ C then 1 else 0 : Nat) : R) := by
  by_cases hA : A <;> by_cases hB : B <;> by_cases hC : C <;> simp [hA, hB, hC]

/-- **C41.** For every label image (a single map; zero denotes no label) and every list of boxes that are empty or inside the image,
the sampled integral histogram counts the pixels of each box with each label. -/
theorem inthist_counts {labels : List Nat} {height width given n : Nat} (hh : 0 < height) (hw : 0 < width)
    (hl : labels.length = width * height) (hn : (given ≠ 0 ∧ n = given) ∨ (given = 0 ∧ n ∈ labels)) (hall : ∀ l ∈ labels, l ≤ n)
    {boxes : List Nat} (hb : boxes.length % 4 = 0) (hok : ∀ b < boxes.length / 4, BoxAtOk height width boxes b) :
    ∃ ih hist, inthist (R := R) labels none height width 1 given = some (some (n, ih)) ∧
      sampleinthist ih height width n boxes = some (some hist) ∧ hist.length = n * (boxes.length / 4) ∧
      ∀ b < boxes.length / 4, ∀ k < n, hist[b * n + k]? = some ((((range width ×ˢ range height).filter fun p =>
        (boxes.getD (b * 4) 0 ≤ p.2 + 1 ∧ p.2 + 1 ≤ boxes.getD (b * 4 + 2) 0) ∧
        (boxes.getD (b * 4 + 1) 0 ≤ p.1 + 1 ∧ p.1 + 1 ≤ boxes.getD (b * 4 + 3) 0) ∧
        labels[p.1 * height + p.2]? = some (k + 1)).card : R)) := by
  obtain ⟨ih, h1, h2⟩ := inthist_correct (R := R) (numMaps := 1) hh hw (by omega) (by rw [hl, Nat.one_mul]) (mass := none) (w := fun _ => 1)
    (fun _ _ => rfl) (n := n) (given := given) (by
      rcases hn with h | ⟨h, hm⟩
      · exact Or.inl h
      · obtain ⟨k, hk, e⟩ := List.getElem_of_mem hm
        exact Or.inr ⟨h, k, by omega, by rw [List.getElem?_eq_getElem hk, e]⟩) hall
  obtain ⟨hist, e1, e2, e3⟩ := (sampleinthist_correct h2 hb).1 hok
  refine ⟨ih, hist, h1, e1, e2, fun b hb' k hk => ?_⟩
  rw [e3 b hb' k hk, Finset.card_filter, Nat.cast_sum, sum_product]
  unfold boxSum massOf
  congr 1
  refine sum_congr rfl fun j _ => sum_congr rfl fun i _ => ?_
  simp only [sum_range_one, Nat.zero_mul, Nat.zero_add]
  exact count_term _ _ _

/-- A label above the number of labels in the first map is rejected. -/
theorem inthist_rejects {labels : List Nat} {height width numMaps given k l : Nat} (hl : labels.length = numMaps * (width * height))
    (hm : 0 < numMaps) (mass : Option (List R)) (hg : given ≠ 0) (hk : k < width * height) (hlk : labels[k]? = some l) (hlt : given < l) :
    inthist labels mass height width numMaps given = some none := by
  obtain ⟨r, r1, -, r3⟩ := countLabels_spec (labels := labels) (K := width * height) (given := given) (by
    rw [hl]; exact Nat.le_mul_of_pos_left _ hm)
  unfold inthist
  simp only [Option.bind_eq_bind]
  rw [r1]
  rcases r3 hg with ⟨-, h⟩ | ⟨h, -⟩
  · have := h k hk l hlk
    omega
  · rw [h]; rfl

/-- The documentation admits several maps, with the number of labels being the maximum over all of them. -/
def LayersClaim : Prop :=
  ∀ (labels : List Nat) (height width numMaps given : Nat), 0 < height → 0 < width → 0 < numMaps →
    labels.length = numMaps * (width * height) → ∃ r, inthist (R := Int) labels none height width numMaps given = some r

/-- Only the first map is inspected: a greater label in another map is written outside of the array. -/
theorem layers_claim_false : ¬ LayersClaim := by
  intro h
  obtain ⟨r, hr⟩ := h [1, 5] 1 1 2 0 (by decide) (by decide) (by decide) rfl
  exact absurd hr (by rw [show inthist (R := Int) [1, 5] none 1 1 2 0 = none from by decide +kernel]; simp)

example : inthist (R := Int) [1, 2, 0, 1, 1, 2] none 2 3 1 0 =
    some (some (2, [1, 1, 1, 2, 2, 3, 0, 1, 0, 1, 0, 2])) := by decide +kernel
example : sampleinthist (R := Int) [1, 1, 1, 2, 2, 3, 0, 1, 0, 1, 0, 2] 2 3 2 [1, 1, 2, 3, 2, 2, 2, 3, 2, 1, 1, 9] =
    some (some [3, 2, 1, 1, 0, 0]) := by decide +kernel
example : sampleinthist (R := Int) [1, 1, 1, 2, 2, 3, 0, 1, 0, 1, 0, 2] 2 3 2 [1, 1, 3, 3] = some none := by decide +kernel
example := inthist_counts (R := Int) (labels := [1, 2, 0, 1, 1, 2]) (height := 2) (width := 3) (given := 0) (n := 2)
  (by decide) (by decide) rfl (by decide) (by decide) (boxes := [1, 1, 2, 3, 2, 2, 2, 3, 2, 1, 1, 9]) rfl (by
    unfold BoxAtOk BoxOk; decide)

end Verif.Toolbox
