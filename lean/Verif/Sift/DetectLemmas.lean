import Verif.Sift.DetectModel
import Verif.Sift.DetectSpec
import Verif.Sift.GaussProps
import Mathlib.Data.List.GetD
import Mathlib.Tactic.NormNum

/-!
# Lemmas on the SIFT detector
-/

namespace Verif.Sift

open Finset

/-- A loop that appends to a list. -/
theorem iter_collect {σ β : Type} (P : Nat → List β → σ → Prop) (g : Nat → List β) {n : Nat} {f : Nat → σ → Option σ} {s : σ} {acc : List β} (h0 : P 0 acc s)
    (hs : ∀ i < n, ∀ acc s, P i acc s → ∃ s', f i s = some s' ∧ P (i + 1) (acc ++ g i) s') :
    ∃ s', iter n f s = some s' ∧ P n (acc ++ (List.range n).flatMap g) s' := by
  have := iter_inv (n := n) (f := f) (s := s) (fun i s => P i (acc ++ (List.range i).flatMap g) s) (by simpa using h0) (by
    intro i hi s h
    obtain ⟨s', e, h'⟩ := hs i hi _ s h
    refine ⟨s', e, ?_⟩
    rw [List.range_succ, List.flatMap_append, ← List.append_assoc]
    simpa using h')
  exact this

theorem flatMap_intRange {β : Type} (lo hi : Int) (g : Int → List β) :
    (intRange lo hi).flatMap g = (List.range (hi + 1 - lo).toNat).flatMap (fun (i : Nat) => g (lo + i)) := by
  unfold intRange
  rw [List.flatMap_map]

theorem rd_getD {α : Type} (l : List α) (i : Nat) (a : α) (h : i < l.length) : rd l i = some (l.getD i a) := by
  rw [rd_of_lt h, List.getD_eq_getElem _ _ h]

theorem dogLevels_spec (octave : List ℚ) (w h L : Nat) (dog : List ℚ) (ho : (L + 1) * (w * h) ≤ octave.length) (hd : L * (w * h) ≤ dog.length) :
    ∃ dog', dogLevels octave w h L dog = some (L * (w * h), dog') ∧ dog'.length = dog.length ∧
      ∀ q < L * (w * h), dog'[q]? = some (octave.getD (q + w * h) 0 - octave.getD q 0) := by
  generalize hm : w * h = m at *
  obtain ⟨⟨pt, dog'⟩, e, h1, h2, h3⟩ := iter_inv (n := L) (f := fun t (st : Nat × List ℚ) =>
      (iter m (fun p (st : Nat × List ℚ) => do
      let b ← rd octave (m * (t + 1) + p)
      let a ← rd octave (m * t + p)
      let dog ← wr st.2 st.1 (b - a)
      some (st.1 + 1, dog)) st : Option (Nat × List ℚ))) (s := (0, dog))
    (fun t (st : Nat × List ℚ) => st.1 = t * m ∧ st.2.length = dog.length ∧ ∀ q < t * m, st.2[q]? = some (octave.getD (q + m) 0 - octave.getD q 0))
    ⟨by simp, rfl, by simp⟩ (by
    rintro t ht ⟨pt, dg⟩ ⟨h1, h2, h3⟩
    have hlt : (t + 1) * m ≤ L * m := Nat.mul_le_mul_right _ ht
    have hsm : (t + 1) * m = t * m + m := by ring
    have hsL : (L + 1) * m = L * m + m := by ring
    obtain ⟨⟨pt', dg'⟩, e, g1, g2, g3⟩ := iter_inv (n := m) (f := fun p (st : Nat × List ℚ) => (do
      let b ← rd octave (m * (t + 1) + p)
      let a ← rd octave (m * t + p)
      let dog ← wr st.2 st.1 (b - a)
      some (st.1 + 1, dog) : Option (Nat × List ℚ))) (s := (pt, dg))
      (fun p (st : Nat × List ℚ) => st.1 = t * m + p ∧ st.2.length = dog.length ∧ ∀ q < t * m + p, st.2[q]? = some (octave.getD (q + m) 0 - octave.getD q 0))
      ⟨h1, h2, h3⟩ (by
      rintro p hp ⟨pt, dg⟩ ⟨h1, h2, h3⟩
      simp only at h1 h2 h3 ⊢
      subst h1
      have e1 : m * (t + 1) + p = t * m + p + m := by ring
      have e2 : m * t + p = t * m + p := by ring
      rw [e1, e2, rd_getD _ _ 0 (by omega)]
      simp only [Option.bind_eq_bind, Option.bind_some]
      rw [rd_getD _ _ 0 (by omega)]
      simp only [Option.bind_some]
      have hl : t * m + p < dg.length := by omega
      rw [wr_of_lt hl]
      refine ⟨_, rfl, by simp only; omega, by simp [h2], ?_⟩
      intro q hq
      simp only
      rw [List.getElem?_set]
      by_cases e : t * m + p = q
      · rw [if_pos e, if_pos (by omega), ← e]
      · rw [if_neg e]; exact h3 q (by omega))
    refine ⟨_, e, ?_, g2, ?_⟩
    · simp only at g1 ⊢; rw [g1, hsm]
    · rw [hsm]; exact g3)
  simp only at h1 h2 h3
  subst h1
  refine ⟨dog', ?_, h2, h3⟩
  unfold dogLevels
  rw [hm]
  exact e

/-- The reads of the differences. -/
def Holds (dog : List ℚ) (D : Int → Int → Int → ℚ) (w h L : Nat) : Prop :=
  ∀ (q t y x : Int), q = x + w * y + w * h * t → 0 ≤ t → t < L → 0 ≤ y → y < h → 0 ≤ x → x < w → rdI dog q = some (D t y x)

theorem addr_range (w h L : Nat) (t y x : Int) (ht : 0 ≤ t) (ht' : t < L) (hy : 0 ≤ y) (hy' : y < h) (hx : 0 ≤ x) (hx' : x < w) :
    0 ≤ x + w * y + w * h * t ∧ x + w * y + w * h * t < L * (w * h) := by
  have h1 : (0 : Int) ≤ w * y := mul_nonneg (by omega) hy
  have h2 : (0 : Int) ≤ w * h * t := mul_nonneg (mul_nonneg (by omega) (by omega)) ht
  have h3 : (w : Int) * y ≤ w * (h - 1) := mul_le_mul_of_nonneg_left (by omega) (by omega)
  have h4 : (w : Int) * h * t ≤ w * h * (L - 1) := mul_le_mul_of_nonneg_left (by omega) (mul_nonneg (by omega) (by omega))
  refine ⟨by omega, ?_⟩
  nlinarith

theorem holds_of (octave dog : List ℚ) (w h L : Nat)
    (hd : ∀ q < L * (w * h), dog[q]? = some (octave.getD (q + w * h) 0 - octave.getD q 0)) : Holds dog (dogOf octave w h) w h L := by
  intro q t y x hq ht ht' hy hy' hx hx'
  obtain ⟨r1, r2⟩ := addr_range w h L t y x ht ht' hy hy' hx hx'
  obtain ⟨n, hn⟩ := Int.eq_ofNat_of_zero_le (show 0 ≤ q by omega)
  subst hn
  rw [rdI_nat, rd_getElem?, hd n (by have : ((L * (w * h) : Nat) : Int) = L * (w * h) := by push_cast; ring
                                     omega)]
  unfold dogOf
  have e1 : x + w * y + w * h * (t + 1) = ((n + w * h : Nat) : Int) := by push_cast; rw [hq]; ring
  rw [← hq, e1, Int.toNat_natCast, Int.toNat_natCast]

/-- The neighbours at distance one, as displacements. -/
def disp : List (Int × Int × Int) :=
  [(0, 0, 1), (0, 0, -1), (1, 0, 0), (-1, 0, 0), (0, 1, 0), (0, -1, 0),
   (0, 1, 1), (0, 1, -1), (0, -1, 1), (0, -1, -1),
   (1, 0, 1), (1, 0, -1), (1, 1, 0), (1, -1, 0), (1, 1, 1), (1, 1, -1), (1, -1, 1), (1, -1, -1),
   (-1, 0, 1), (-1, 0, -1), (-1, 1, 0), (-1, -1, 0), (-1, 1, 1), (-1, 1, -1), (-1, -1, 1), (-1, -1, -1)]

theorem offsets_disp (w so : Int) : offsets 1 w so = disp.map (fun d => d.2.2 + w * d.2.1 + so * d.1) := by
  simp only [offsets, disp, List.map_cons, List.map_nil]
  simp only [List.cons.injEq, and_true]
  constructorm* _ ∧ _ <;> ring

theorem disp_bound : ∀ d ∈ disp, -1 ≤ d.1 ∧ d.1 ≤ 1 ∧ -1 ≤ d.2.1 ∧ d.2.1 ≤ 1 ∧ -1 ≤ d.2.2 ∧ d.2.2 ≤ 1 := by decide

theorem disp_all (P : Int → Int → Int → Prop) :
    (∀ d ∈ disp, P d.1 d.2.1 d.2.2) ↔ ∀ dt ∈ [(-1 : Int), 0, 1], ∀ dy ∈ [(-1 : Int), 0, 1], ∀ dx ∈ [(-1 : Int), 0, 1], ¬ (dt = 0 ∧ dy = 0 ∧ dx = 0) → P dt dy dx := by
  constructor
  · intro h dt ht dy hy dx hx hne
    have : (dt, dy, dx) ∈ disp := by
      revert dt dy dx
      have : ∀ dt ∈ [(-1 : Int), 0, 1], ∀ dy ∈ [(-1 : Int), 0, 1], ∀ dx ∈ [(-1 : Int), 0, 1], ¬ (dt = 0 ∧ dy = 0 ∧ dx = 0) → (dt, dy, dx) ∈ disp := by decide
      intro dt ht dy hy dx hx hne
      exact this dt ht dy hy dx hx hne
    exact h _ this
  · intro h d hd
    have : ∀ d ∈ disp, d.1 ∈ [(-1 : Int), 0, 1] ∧ d.2.1 ∈ [(-1 : Int), 0, 1] ∧ d.2.2 ∈ [(-1 : Int), 0, 1] ∧ ¬ (d.1 = 0 ∧ d.2.1 = 0 ∧ d.2.2 = 0) := by decide
    obtain ⟨a, b, c, e⟩ := this d hd
    exact h _ a _ b _ c e

theorem checkAll_spec (cmp : ℚ → ℚ → Bool) (dog : List ℚ) (pt : Int) (v : ℚ) (u : Int × Int × Int → ℚ) (o : Int × Int × Int → Int) (l : List (Int × Int × Int))
    (h : ∀ d ∈ l, rdI dog (pt + o d) = some (u d)) : checkAll cmp dog pt v (l.map o) = some (decide (∀ d ∈ l, cmp v (u d) = true)) := by
  induction l with
  | nil => simp [checkAll]
  | cons d l ih =>
    rw [List.map_cons, checkAll, h d (by simp)]
    simp only [Option.bind_eq_bind, Option.bind_some]
    rw [ih (fun d hd => h d (by simp [hd]))]
    by_cases e : cmp v (u d) = true
    · rw [if_pos e]; simp [e]
    · rw [if_neg e]; simp [e]

theorem isExtremum_spec (dog : List ℚ) (D : Int → Int → Int → ℚ) (w h L : Nat) (hD : Holds dog D w h L) (tp : ℚ) (q t y x : Int) (hq : q = x + w * y + w * h * t)
    (ht : 1 ≤ t) (ht' : t + 1 < L) (hy : 1 ≤ y) (hy' : y + 1 < h) (hx : 1 ≤ x) (hx' : x + 1 < w) :
    isExtremum dog w h tp q (D t y x) = some (decide (Extremum D tp t y x)) := by
  have hrd : ∀ d ∈ disp, rdI dog (q + (d.2.2 + w * d.2.1 + (w * h : Int) * d.1)) = some (D (t + d.1) (y + d.2.1) (x + d.2.2)) := by
    intro d hd
    obtain ⟨a1, a2, a3, a4, a5, a6⟩ := disp_bound d hd
    exact hD _ _ _ _ (by rw [hq]; ring) (by omega) (by omega) (by omega) (by omega) (by omega) (by omega)
  have hgt := checkAll_spec (fun v u => decide (v > u)) dog q (D t y x) _ _ disp hrd
  have hlt := checkAll_spec (fun v u => decide (v < u)) dog q (D t y x) _ _ disp hrd
  rw [← offsets_disp] at hgt hlt
  simp only [decide_eq_true_eq, gt_iff_lt] at hgt hlt
  have e1 := disp_all (fun a b c => D (t + a) (y + b) (x + c) < D t y x)
  have e2 := disp_all (fun a b c => D t y x < D (t + a) (y + b) (x + c))
  have hE : Extremum D tp t y x ↔ (8 / 10 * tp ≤ D t y x ∧ ∀ d ∈ disp, D (t + d.1) (y + d.2.1) (x + d.2.2) < D t y x) ∨
      (D t y x ≤ - (8 / 10 * tp) ∧ ∀ d ∈ disp, D t y x < D (t + d.1) (y + d.2.1) (x + d.2.2)) := by
    unfold Extremum
    rw [e1, e2]
  obtain ⟨B1, hB1, hP1⟩ : ∃ B : Bool, B = decide (∀ d ∈ disp, D (t + d.1) (y + d.2.1) (x + d.2.2) < D t y x) ∧
      (B = true ↔ ∀ d ∈ disp, D (t + d.1) (y + d.2.1) (x + d.2.2) < D t y x) := ⟨_, rfl, by rw [decide_eq_true_eq]⟩
  obtain ⟨B2, hB2, hP2⟩ : ∃ B : Bool, B = decide (∀ d ∈ disp, D t y x < D (t + d.1) (y + d.2.1) (x + d.2.2)) ∧
      (B = true ↔ ∀ d ∈ disp, D t y x < D (t + d.1) (y + d.2.1) (x + d.2.2)) := ⟨_, rfl, by rw [decide_eq_true_eq]⟩
  rw [← hB1] at hgt
  rw [← hB2] at hlt
  rw [← hP1, ← hP2] at hE
  unfold isExtremum
  simp only [ge_iff_le, gt_iff_lt]
  rw [hgt, hlt, show - (8 / 10) * tp = - (8 / 10 * tp) by ring]
  simp only [hE]
  clear hE hP1 hP2 hB1 hB2 hgt hlt e1 e2
  by_cases c1 : 8 / 10 * tp ≤ D t y x <;> by_cases c2 : D t y x ≤ - (8 / 10 * tp) <;> cases B1 <;> cases B2 <;> simp [c1, c2]

/-- The position of a keypoint. -/
def posOf (sMin : Int) (k : Keypoint) : Int × Int × Int := (k.is - sMin, k.iy, k.ix)

theorem take_set {α : Type} (l : List α) (n : Nat) (a : α) (h : n < l.length) : (l.set n a).take (n + 1) = l.take n ++ [a] := by
  rw [List.take_add_one]
  congr 1
  · rw [List.take_set_of_le (Nat.le_refl _)]
  · simp [h]

/-- The keys found so far. -/
def Found (sMin : Int) (st : Scan) (found : List (Int × Int × Int)) : Prop :=
  st.keys.length = st.keysRes ∧ st.nkeys ≤ st.keysRes ∧ (st.keys.take st.nkeys).map (posOf sMin) = found

theorem appendKey_spec (junk : Keypoint) (st : Scan) (sMin x y t : Int) (found : List (Int × Int × Int)) (h : Found sMin st found) (s : Int) (hs : s = sMin + t) :
    ∃ st', appendKey junk st x y s = some st' ∧ st'.pt = st.pt ∧ Found sMin st' (found ++ [(t, y, x)]) := by
  obtain ⟨h1, h2, h3⟩ := h
  unfold appendKey
  simp only
  have key : ∀ st1 : Scan, st1.keys.length = st1.keysRes → st1.nkeys < st1.keysRes → (st1.keys.take st1.nkeys).map (posOf sMin) = found → st1.pt = st.pt →
      ∃ st', (do
        let k ← rd st1.keys st1.nkeys
        let keys ← wr st1.keys st1.nkeys { k with ix := x, iy := y, is := s }
        some { st1 with keys := keys, nkeys := st1.nkeys + 1 } : Option Scan) = some st' ∧ st'.pt = st.pt ∧ Found sMin st' (found ++ [(t, y, x)]) := by
    intro st1 g1 g2 g3 g4
    rw [rd_of_lt (by omega)]
    simp only [Option.bind_eq_bind, Option.bind_some]
    rw [wr_of_lt (by omega)]
    refine ⟨_, rfl, g4, by simp [g1], by simp only; omega, ?_⟩
    simp only
    rw [take_set _ _ _ (by omega), List.map_append, g3]
    simp [posOf, hs]
  by_cases hr : st.nkeys ≥ st.keysRes
  · rw [if_pos hr]
    refine key { st with keysRes := st.keysRes + 500, keys := st.keys ++ List.replicate 500 junk } ?_ ?_ ?_ rfl
    · simp only; rw [List.length_append, List.length_replicate, h1]
    · simp only; omega
    · simp only
      rw [List.take_append_of_le_length (by omega)]
      exact h3
  · rw [if_neg hr]
    exact key st h1 (by omega) h3 rfl

theorem findExtrema_spec (junk : Keypoint) (dog : List ℚ) (D : Int → Int → Int → ℚ) (w h : Nat) (sMin sMax : Int)
    (hD : Holds dog D w h (sMax - sMin).toNat) (tp : ℚ) (keys : List Keypoint) (keysRes : Nat) (hk : keys.length = keysRes) :
    ∃ st, findExtrema junk dog w h sMin sMax tp keys keysRes = some st ∧ Found sMin st (extrema D tp w h (sMax - sMin)) := by
  have ha : (intRange 1 (sMax - sMin - 2)) = (List.range (sMax - 2 - sMin).toNat).map (fun (i : Nat) => 1 + (i : Int)) := by
    unfold intRange; congr 2; omega
  have hb : ∀ n : Nat, (intRange 1 ((n : Int) - 2)) = (List.range (n - 2)).map (fun (i : Nat) => 1 + (i : Int)) := by
    intro n; unfold intRange; congr 2; omega
  unfold extrema findExtrema
  rw [ha, hb, hb, List.flatMap_map]
  simp only [List.flatMap_map]
  obtain ⟨st, e, -, hf⟩ := iter_collect (n := (sMax - 2 - sMin).toNat) (acc := ([] : List (Int × Int × Int))) (s := (⟨1 + w + w * h, keys, 0, keysRes⟩ : Scan))
    (f := fun t (st : Scan) => (do
    let s := sMin + 1 + t
    let st ← iter (h - 2) (fun yy (st : Scan) => do
      let y : Int := 1 + yy
      let st ← iter (w - 2) (fun xx (st : Scan) => do
        let x : Int := 1 + xx
        let v ← rdI dog st.pt
        let e ← isExtremum dog w h tp st.pt v
        let st ← if e then appendKey junk st x y s else some st
        some { st with pt := st.pt + 1 }) st
      some { st with pt := st.pt + 2 }) st
    some { st with pt := st.pt + 2 * w } : Option Scan))
    (fun t acc (st : Scan) => (3 ≤ w → 3 ≤ h → st.pt = 1 + w * 1 + w * h * (1 + t)) ∧ Found sMin st acc)
    (fun (t : Nat) => (List.range (h - 2)).flatMap fun (y : Nat) => (List.range (w - 2)).flatMap fun (x : Nat) =>
      if Extremum D tp (1 + t) (1 + y) (1 + x) then [((1 + t : Int), (1 + y : Int), (1 + x : Int))] else [])
    ⟨fun _ _ => by simp, by simpa using hk, Nat.zero_le _, by simp⟩ (by
    rintro t ht acc st ⟨hpt, hf⟩
    obtain ⟨st1, e1, hpt1, hf1⟩ := iter_collect (n := h - 2) (acc := acc) (s := st)
      (f := fun yy (st : Scan) => (do
        let y : Int := 1 + yy
        let st ← iter (w - 2) (fun xx (st : Scan) => do
          let x : Int := 1 + xx
          let v ← rdI dog st.pt
          let e ← isExtremum dog w h tp st.pt v
          let st ← if e then appendKey junk st x y (sMin + 1 + t) else some st
          some { st with pt := st.pt + 1 }) st
        some { st with pt := st.pt + 2 } : Option Scan))
      (fun y acc (st : Scan) => (3 ≤ w → 3 ≤ h → st.pt = 1 + w * (1 + y) + w * h * (1 + t)) ∧ Found sMin st acc)
      (fun (y : Nat) => (List.range (w - 2)).flatMap fun (x : Nat) =>
        if Extremum D tp (1 + t) (1 + y) (1 + x) then [((1 + t : Int), (1 + y : Int), (1 + x : Int))] else [])
      ⟨fun h1 h2 => by rw [hpt h1 h2]; simp, hf⟩ (by
      rintro y hy acc st ⟨hpt, hf⟩
      obtain ⟨st1, e1, hpt1, hf1⟩ := iter_collect (n := w - 2) (acc := acc) (s := st)
        (f := fun xx (st : Scan) => (do
          let x : Int := 1 + xx
          let v ← rdI dog st.pt
          let e ← isExtremum dog w h tp st.pt v
          let st ← if e then appendKey junk st x (1 + y) (sMin + 1 + t) else some st
          some { st with pt := st.pt + 1 } : Option Scan))
        (fun x acc (st : Scan) => (3 ≤ w → 3 ≤ h → st.pt = 1 + x + w * (1 + y) + w * h * (1 + t)) ∧ Found sMin st acc)
        (fun (x : Nat) => if Extremum D tp (1 + t) (1 + y) (1 + x) then [((1 + t : Int), (1 + y : Int), (1 + x : Int))] else [])
        ⟨fun h1 h2 => by rw [hpt h1 h2]; simp, hf⟩ (by
        rintro x hx acc st ⟨hpt, hf⟩
        have hp := hpt (by omega) (by omega)
        simp only
        rw [hD st.pt (1 + t) (1 + y) (1 + x) hp (by omega) (by omega) (by omega) (by omega) (by omega) (by omega)]
        simp only [Option.bind_eq_bind, Option.bind_some]
        rw [isExtremum_spec dog D w h _ hD tp st.pt (1 + t) (1 + y) (1 + x) hp (by omega) (by omega) (by omega) (by omega) (by omega) (by omega)]
        simp only [Option.bind_some]
        by_cases he : Extremum D tp (1 + t) (1 + y) (1 + x)
        · obtain ⟨st', e', p', f'⟩ := appendKey_spec junk st sMin (1 + x) (1 + y) (1 + t) acc hf (sMin + 1 + t) (by ring)
          simp only [he, decide_true, if_true]
          rw [e']
          refine ⟨_, rfl, ?_, f'⟩
          intro h1 h2
          simp only
          rw [p', hp]; push_cast; ring
        · simp only [he, decide_false, if_false]
          refine ⟨_, rfl, ?_, by rw [List.append_nil]; exact hf⟩
          intro h1 h2
          simp only
          rw [hp]; push_cast; ring)
      simp only [Option.bind_eq_bind] at e1 ⊢
      rw [e1]
      refine ⟨_, rfl, ?_, hf1⟩
      intro h1 h2
      simp only
      rw [hpt1 h1 h2]
      obtain ⟨w', rfl⟩ : ∃ w', w = w' + 2 := ⟨w - 2, by omega⟩
      rw [show w' + 2 - 2 = w' by omega]
      push_cast
      ring)
    simp only [Option.bind_eq_bind] at e1 ⊢
    rw [e1]
    refine ⟨_, rfl, ?_, hf1⟩
    intro h1 h2
    simp only
    rw [hpt1 h1 h2]
    obtain ⟨h', rfl⟩ : ∃ h', h = h' + 2 := ⟨h - 2, by omega⟩
    rw [show h' + 2 - 2 = h' by omega]
    push_cast
    ring)
  refine ⟨st, e, ?_⟩
  simpa using hf

end Verif.Sift
