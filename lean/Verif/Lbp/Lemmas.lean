import Verif.Lbp.Model
import Verif.Lbp.Spec
import Mathlib.Tactic.Linarith
import Mathlib.Tactic.Ring
import Mathlib.Tactic.Positivity
import Mathlib.Tactic.FieldSimp
import Mathlib.Tactic.Push

namespace Verif.Lbp
open Spec

theorem idx_lt {w h u v : Nat} (hu : u < w) (hv : v < h) : w * v + u < w * h :=
  calc w * v + u < w * v + w := by omega
    _ = w * (v + 1) := by ring
    _ ≤ w * h := Nat.mul_le_mul_left _ hv

/-- The image as a function of the coordinates. -/
def imgFn (image : List ℚ) (width : Nat) : Int → Int → ℚ := fun u v => image.getD (width * v.toNat + u.toNat) 0

theorem at'_eq {image : List ℚ} {width height u v : Nat} (hl : image.length = width * height) (hu : u < width)
    (hv : v < height) : at' image width u v = some (imgFn image width u v) := by
  have : width * v + u < image.length := by rw [hl]; exact idx_lt hu hv
  rw [at', rd_of_lt this, imgFn]
  simp [List.getD_eq_getElem?_getD, List.getElem?_eq_getElem this]

theorem bits_eq (p0 p1 p2 p3 p4 p5 p6 p7 : Prop) [Decidable p0] [Decidable p1] [Decidable p2] [Decidable p3]
    [Decidable p4] [Decidable p5] [Decidable p6] [Decidable p7] :
    (let b := 0
     let b := if p0 then b ||| (1 <<< 0) else b
     let b := if p1 then b ||| (1 <<< 1) else b
     let b := if p2 then b ||| (1 <<< 2) else b
     let b := if p3 then b ||| (1 <<< 3) else b
     let b := if p4 then b ||| (1 <<< 4) else b
     let b := if p5 then b ||| (1 <<< 5) else b
     let b := if p6 then b ||| (1 <<< 6) else b
     let b := if p7 then b ||| (1 <<< 7) else b
     b) = ([if p0 then 2 ^ 0 else 0, if p1 then 2 ^ 1 else 0, if p2 then 2 ^ 2 else 0, if p3 then 2 ^ 3 else 0,
      if p4 then 2 ^ 4 else 0, if p5 then 2 ^ 5 else 0, if p6 then 2 ^ 6 else 0, if p7 then 2 ^ 7 else 0] : List Nat).sum := by
  have key : ∀ b0 b1 b2 b3 b4 b5 b6 b7 : Bool,
    (let b := 0
     let b := if b0 then b ||| (1 <<< 0) else b
     let b := if b1 then b ||| (1 <<< 1) else b
     let b := if b2 then b ||| (1 <<< 2) else b
     let b := if b3 then b ||| (1 <<< 3) else b
     let b := if b4 then b ||| (1 <<< 4) else b
     let b := if b5 then b ||| (1 <<< 5) else b
     let b := if b6 then b ||| (1 <<< 6) else b
     let b := if b7 then b ||| (1 <<< 7) else b
     b) = ([if b0 then 2 ^ 0 else 0, if b1 then 2 ^ 1 else 0, if b2 then 2 ^ 2 else 0, if b3 then 2 ^ 3 else 0,
      if b4 then 2 ^ 4 else 0, if b5 then 2 ^ 5 else 0, if b6 then 2 ^ 6 else 0, if b7 then 2 ^ 7 else 0] : List Nat).sum := by
    decide +kernel
  have := key (decide p0) (decide p1) (decide p2) (decide p3) (decide p4) (decide p5) (decide p6) (decide p7)
  simpa only [decide_eq_true_eq] using this

theorem bitString_eq {image : List ℚ} {width height x y : Nat} (hl : image.length = width * height)
    (hx : 1 ≤ x) (hx' : x + 1 < width) (hy : 1 ≤ y) (hy' : y + 1 < height) :
    bitString image width x y = some (pattern (imgFn image width) x y) := by
  have e1 : ((x - 1 : Nat) : Int) = (x : Int) + -1 := by omega
  have e2 : ((y - 1 : Nat) : Int) = (y : Int) + -1 := by omega
  unfold bitString
  rw [at'_eq hl (by omega) (by omega), at'_eq hl (by omega) (by omega), at'_eq hl (by omega) (by omega),
    at'_eq hl (by omega) (by omega), at'_eq hl (by omega) (by omega), at'_eq hl (by omega) (by omega),
    at'_eq hl (by omega) (by omega), at'_eq hl (by omega) (by omega), at'_eq hl (by omega) (by omega)]
  simp only [Option.bind_eq_bind, Option.bind_some]
  refine congrArg some ?_
  refine (bits_eq _ _ _ _ _ _ _ _).trans ?_
  simp only [e1, e2, Nat.cast_add, Nat.cast_one]
  simp [pattern, neighbours]

theorem pattern_lt (I : Int → Int → ℚ) (x y : Int) : pattern I x y < 256 := by
  have h : ∀ (p : Prop) [Decidable p] (n : Nat), (if p then n else 0) ≤ n := by intro p _ n; split <;> omega
  simp only [pattern, neighbours, List.mapIdx_cons, List.mapIdx_nil, List.sum_cons, List.sum_nil]
  have h0 := h (I (x + 1) (y + 0) > I x y) (2 ^ 0)
  have h1 := h (I (x + 1) (y + 1) > I x y) (2 ^ 1)
  have h2 := h (I (x + 0) (y + 1) > I x y) (2 ^ 2)
  have h3 := h (I (x + -1) (y + 1) > I x y) (2 ^ 3)
  have h4 := h (I (x + -1) (y + 0) > I x y) (2 ^ 4)
  have h5 := h (I (x + -1) (y + -1) > I x y) (2 ^ 5)
  have h6 := h (I (x + 0) (y + -1) > I x y) (2 ^ 6)
  have h7 := h (I (x + 1) (y + -1) > I x y) (2 ^ 7)
  norm_num at *
  omega

/-- Continuous cell coordinate of a pixel coordinate. -/
def coord (cellSize x : Nat) : ℚ := ((x : ℚ) + 1 / 2) / cellSize - 1 / 2

theorem coord_floor_ge (cellSize x : Nat) : -1 ≤ ⌊coord cellSize x⌋ := by
  rw [Int.le_floor]
  have : (0 : ℚ) ≤ ((x : ℚ) + 1 / 2) / cellSize := by positivity
  simp only [coord]; push_cast; linarith

theorem weight_eq (cellSize x c : Nat) :
    weight cellSize x c = if (c : Int) = ⌊coord cellSize x⌋ then 1 - (coord cellSize x - ⌊coord cellSize x⌋)
      else if (c : Int) = ⌊coord cellSize x⌋ + 1 then coord cellSize x - ⌊coord cellSize x⌋ else 0 := by
  have hw : weight cellSize x c = hat (coord cellSize x - c) := rfl
  rw [hw]
  set u := coord cellSize x with hu
  have h1 := Int.floor_le u
  have h2 := Int.lt_floor_add_one u
  set f := ⌊u⌋ with hf
  have hc : (c : ℚ) = ((c : Int) : ℚ) := by simp
  unfold hat
  split
  · rename_i h
    rw [hc, h, abs_of_nonneg (by linarith), max_eq_right (by linarith)]
  · split
    · rename_i h h'
      rw [hc, h']; push_cast
      rw [abs_of_nonpos (by linarith), max_eq_right (by linarith)]; ring
    · rename_i h h'
      apply max_eq_left
      rcases lt_or_gt_of_ne h with hlt | hgt
      · have : ((c : Int) : ℚ) + 1 ≤ (f : ℚ) := by exact_mod_cast hlt
        rw [abs_of_nonneg (by rw [hc]; linarith), hc]; linarith
      · have : f + 2 ≤ (c : Int) := by omega
        have : (f : ℚ) + 2 ≤ ((c : Int) : ℚ) := by exact_mod_cast this
        rw [abs_of_nonpos (by rw [hc]; linarith), hc]; linarith

theorem ix_inj {cw ch k k' u u' v v' : Nat} (hu : u < cw) (hu' : u' < cw) (hv : v < ch) (hv' : v' < ch)
    (h : cw * ch * k + cw * v + u = cw * ch * k' + cw * v' + u') : k = k' ∧ v = v' ∧ u = u' := by
  have e1 : cw * ch * k + cw * v + u = cw * (ch * k + v) + u := by ring
  have e2 : cw * ch * k' + cw * v' + u' = cw * (ch * k' + v') + u' := by ring
  rw [e1, e2] at h
  have hcw : 0 < cw := by omega
  have m1 := congrArg (· % cw) h
  simp only [Nat.mul_add_mod, Nat.mod_eq_of_lt hu, Nat.mod_eq_of_lt hu'] at m1
  subst m1
  have h3 : ch * k + v = ch * k' + v' := Nat.eq_of_mul_eq_mul_left hcw (by omega)
  have m2 := congrArg (· % ch) h3
  simp only [Nat.mul_add_mod, Nat.mod_eq_of_lt hv, Nat.mod_eq_of_lt hv'] at m2
  subst m2
  refine ⟨?_, rfl, rfl⟩
  exact Nat.eq_of_mul_eq_mul_left (by omega : 0 < ch) (by omega)

theorem addTo_eq {f : List ℚ} {cw cs k : Nat} {u v : Int} {a : ℚ} (hu : 0 ≤ u) (hv : 0 ≤ v) :
    addTo f cw cs u v k a = addAt f (cs * k + cw * v.toNat + u.toNat) a := by
  unfold addTo
  obtain ⟨u', rfl⟩ := Int.eq_ofNat_of_zero_le hu
  obtain ⟨v', rfl⟩ := Int.eq_ofNat_of_zero_le hv
  have e : ((cs : Int) * k + cw * (v' : Int) + (u' : Int)) = ((cs * k + cw * v' + u' : Nat) : Int) := by push_cast; ring
  have e' : ((cs : Int) * k + cw * (v' : Int) + (u' : Int)).toNat = cs * k + cw * v' + u' := by rw [e, Int.toNat_natCast]
  simp only [e', Int.toNat_natCast]
  rw [if_neg (by omega)]

/-- The additions made for one pixel. -/
def contribs (cw ch cellSize bin y x : Nat) : List (Nat × ℚ) :=
  let cy1 : Int := ⌊coord cellSize y⌋
  let cx1 : Int := ⌊coord cellSize x⌋
  let wy2 : ℚ := coord cellSize y - cy1
  let wx2 : ℚ := coord cellSize x - cx1
  if cy1 ≥ ch then [] else if cx1 ≥ cw then [] else
  (if cx1 ≥ 0 ∧ cy1 ≥ 0 then [(cw * ch * bin + cw * cy1.toNat + cx1.toNat, (1 - wx2) * (1 - wy2))] else []) ++
  ((if cx1 + 1 < cw ∧ cy1 ≥ 0 then [(cw * ch * bin + cw * cy1.toNat + (cx1 + 1).toNat, wx2 * (1 - wy2))] else []) ++
  ((if cx1 ≥ 0 ∧ cy1 + 1 < ch then [(cw * ch * bin + cw * (cy1 + 1).toNat + cx1.toNat, (1 - wx2) * wy2)] else []) ++
  (if cx1 + 1 < cw ∧ cy1 + 1 < ch then [(cw * ch * bin + cw * (cy1 + 1).toNat + (cx1 + 1).toNat, wx2 * wy2)] else [])))

theorem pixel_eq {table : List Nat} {image f : List ℚ} {width cw ch cellSize y x b bin : Nat}
    (hb : bitString image width x y = some b) (hbin : rd table b = some bin) :
    pixel table image width cw ch cellSize f y x = addAll f (contribs cw ch cellSize bin y x) := by
  have hcx := coord_floor_ge cellSize x
  have hcy := coord_floor_ge cellSize y
  unfold pixel contribs
  simp only [← coord.eq_1]
  set cy1 := ⌊coord cellSize y⌋
  set cx1 := ⌊coord cellSize x⌋
  split
  · rfl
  split
  · rfl
  rw [hb]
  simp only [Option.bind_eq_bind, Option.bind_some, hbin]
  have step : ∀ (p : Prop) [Decidable p] (f : List ℚ) (u v : Int) (a : ℚ), (p → 0 ≤ u ∧ 0 ≤ v) →
      (if p then addTo f cw (cw * ch) u v bin a else some f) =
      addAll f (if p then [(cw * ch * bin + cw * v.toNat + u.toNat, a)] else []) := by
    intro p _ f u v a hp
    split
    · rename_i h
      rw [addTo_eq (hp h).1 (hp h).2]
      simp [addAll]
    · rfl
  rw [step _ f _ _ _ (by omega), addAll_append]
  congr 1; funext f1
  rw [step _ f1 _ _ _ (by omega), addAll_append]
  congr 1; funext f2
  rw [step _ f2 _ _ _ (by omega), addAll_append]
  congr 1; funext f3
  rw [step _ f3 _ _ _ (by omega)]

theorem contribs_lt {cw ch cellSize bin y x : Nat} (hbin : bin < dimension) :
    ∀ c ∈ contribs cw ch cellSize bin y x, c.1 < dimension * (cw * ch) := by
  have hcx := coord_floor_ge cellSize x
  have hcy := coord_floor_ge cellSize y
  have bound : ∀ u v : Nat, u < cw → v < ch → cw * ch * bin + cw * v + u < dimension * (cw * ch) := by
    intro u v hu hv
    have h1 := idx_lt hu hv
    calc cw * ch * bin + cw * v + u < cw * ch * bin + cw * ch := by omega
      _ = cw * ch * (bin + 1) := by ring
      _ ≤ cw * ch * dimension := Nat.mul_le_mul_left _ hbin
      _ = dimension * (cw * ch) := by ring
  intro c hc
  unfold contribs at hc
  simp only at hc
  set cy1 := ⌊coord cellSize y⌋
  set cx1 := ⌊coord cellSize x⌋
  split at hc
  · simp at hc
  split at hc
  · simp at hc
  simp only [List.mem_append] at hc
  rcases hc with hc | hc | hc | hc <;>
  · split at hc
    · simp only [List.mem_singleton] at hc
      subst hc
      exact bound _ _ (by omega) (by omega)
    · simp at hc

theorem contribs_contrib {cw ch cellSize bin y x : Nat} (k cx cy : Nat) (hcx : cx < cw) (hcy : cy < ch) :
    contrib (contribs cw ch cellSize bin y x) (cw * ch * k + cw * cy + cx) =
      if bin = k then weight cellSize x cx * weight cellSize y cy else 0 := by
  have gx := coord_floor_ge cellSize x
  have gy := coord_floor_ge cellSize y
  rw [weight_eq, weight_eq]
  unfold contribs
  simp only
  set cy1 := ⌊coord cellSize y⌋
  set cx1 := ⌊coord cellSize x⌋
  set wy := coord cellSize y - cy1
  set wx := coord cellSize x - cx1
  split
  · rename_i h
    rw [if_neg (show ¬ (cy : Int) = cy1 by omega), if_neg (show ¬ (cy : Int) = cy1 + 1 by omega)]
    simp
  split
  · rename_i h h'
    rw [if_neg (show ¬ (cx : Int) = cx1 by omega), if_neg (show ¬ (cx : Int) = cx1 + 1 by omega)]
    simp
  have step : ∀ (p : Prop) [Decidable p] (u v : Int) (a : ℚ), (p → 0 ≤ u ∧ 0 ≤ v ∧ u < cw ∧ v < ch) →
      ((cx : Int) = u ∧ (cy : Int) = v → p) →
      contrib (if p then [(cw * ch * bin + cw * v.toNat + u.toNat, a)] else []) (cw * ch * k + cw * cy + cx) =
      if bin = k ∧ (cy : Int) = v ∧ (cx : Int) = u then a else 0 := by
    intro p _ u v a hp hq
    by_cases h : p
    · rw [if_pos h, contrib_cons, contrib_nil, add_zero]
      obtain ⟨a1, a2, a3, a4⟩ := hp h
      simp only
      by_cases heq : bin = k ∧ (cy : Int) = v ∧ (cx : Int) = u
      · rw [if_pos heq, if_pos]
        obtain ⟨rfl, rfl, rfl⟩ := heq
        simp
      · rw [if_neg heq, if_neg]
        intro hh
        apply heq
        have := ix_inj (cw := cw) (ch := ch) (by omega) hcx (by omega) hcy hh
        omega
    · rw [if_neg h, contrib_nil, if_neg]
      rintro ⟨_, h1, h2⟩
      exact h (hq ⟨h2, h1⟩)
  rw [contrib_append, contrib_append, contrib_append]
  rw [step _ _ _ _ (by omega) (by omega), step _ _ _ _ (by omega) (by omega), step _ _ _ _ (by omega) (by omega),
    step _ _ _ _ (by omega) (by omega)]
  by_cases hk : bin = k
  · by_cases h1 : (cx : Int) = cx1
    · by_cases h2 : (cy : Int) = cy1
      · simp [hk, h1, h2]
      · by_cases h3 : (cy : Int) = cy1 + 1
        · simp [hk, h1, h3]
        · simp [hk, h1, h2, h3]
    · by_cases h4 : (cx : Int) = cx1 + 1
      · by_cases h2 : (cy : Int) = cy1
        · simp [hk, h4, h2]
        · by_cases h3 : (cy : Int) = cy1 + 1
          · simp [hk, h4, h3]
          · simp [hk, h4, h2, h3]
      · simp [h1, h4]
  · simp [hk]

theorem foldlM_addAll {α : Type} (l : List α) (f : List ℚ → α → Option (List ℚ)) (g : α → List (Nat × ℚ))
    (h : ∀ a ∈ l, ∀ m, f m a = addAll m (g a)) (m : List ℚ) : l.foldlM f m = addAll m (l.flatMap g) := by
  induction l generalizing m with
  | nil => simp [addAll]
  | cons a l ih =>
    rw [List.foldlM_cons, h a (by simp), List.flatMap_cons, addAll_append]
    simp only [Option.bind_eq_bind]
    congr 1; funext m'
    exact ih (fun b hb => h b (by simp [hb])) m'

end Verif.Lbp
