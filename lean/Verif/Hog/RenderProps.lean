import Verif.Hog.RenderModel
import Mathlib.Algebra.BigOperators.Fin
import Mathlib.Algebra.Order.Floor.Semiring
import Mathlib.Algebra.Order.Field.Basic
import Mathlib.Algebra.Order.Floor.Ring
import Mathlib.Data.Finset.Max
import Mathlib.Tactic.FieldSimp
import Mathlib.Tactic.Linarith
import Mathlib.Tactic.LinearCombination
import Mathlib.Tactic.NormNum

/-!
# Rendering of HOG descriptors: properties (C189, C190)
-/

namespace Verif.Hog

open Finset

/-! ## Specification -/

section Spec

variable {K : Type} [Field K] [LinearOrder K]

/-- The weight of the glyph of orientation `k`: the sum of the features of the cell that belong to the orientation (directed and undirected, or in the four blocks).  `f c` is feature `c` of the cell. -/
def glyphWeight (v : Variant) (O : Nat) (f : Nat → K) (k : Nat) : K :=
  match v with
  | .uoctti => f k + f (k + O) + f (k + 2 * O)
  | .dalalTriggs => f k + f (k + O) + f (k + 2 * O) + f (k + 3 * O)

/-- The largest of the weights and zero. -/
def largest (O : Nat) (w : Nat → K) : K := (insert 0 ((range O).image w)).max' ⟨0, mem_insert_self _ _⟩

/-- The smallest of the weights and zero. -/
def smallest (O : Nat) (w : Nat → K) : K := (insert 0 ((range O).image w)).min' ⟨0, mem_insert_self _ _⟩

/-- The sum of the glyphs by their weights, on top of a background and limited to the range of the weights. -/
def shade (O : Nat) (w g : Nat → K) (background : K) : K := max (smallest O w) (min (largest O w) (background + ∑ k ∈ range O, w k * g k))

end Spec

/-- The bar of direction orthogonal to the angle `t` in a square of `gs` pixels: one pixel for each column if the bar is closer to the horizontal, one for each row otherwise, the length being that of the
side of the square. -/
def Bar (gs : Nat) (t : ℝ) (x y : Nat) : Prop :=
  if |Real.cos t| ≤ |Real.sin t| then
    ⌊(1 - |Real.sin t|) / 2 * gs⌋₊ ≤ x ∧ x + ⌊(1 - |Real.sin t|) / 2 * gs⌋₊ < gs ∧ (y : Int) = ⌊((gs : ℝ) - 1) / 2 - (x - ((gs : ℝ) - 1) / 2) * (Real.cos t / Real.sin t) + 1 / 2⌋
  else
    ⌊(1 - |Real.cos t|) / 2 * gs⌋₊ ≤ y ∧ y + ⌊(1 - |Real.cos t|) / 2 * gs⌋₊ < gs ∧ (x : Int) = ⌊((gs : ℝ) - 1) / 2 - (y - ((gs : ℝ) - 1) / 2) * (Real.sin t / Real.cos t) + 1 / 2⌋

/-! ## Rendering -/

section Render

variable {K : Type} [Field K] [LinearOrder K]

theorem divmod_iff {gs a b r : Nat} (hb : b < gs) : r = a * gs + b ↔ r / gs = a ∧ r % gs = b := by
  constructor
  · rintro rfl
    rw [Nat.add_comm, Nat.mul_comm, Nat.add_mul_div_left _ _ (by omega), Nat.add_mul_mod_self_left, Nat.div_eq_of_lt hb, Nat.mod_eq_of_lt hb]
    omega
  · rintro ⟨rfl, rfl⟩
    rw [Nat.mul_comm, Nat.div_add_mod]

omit [Field K] [LinearOrder K] in
theorem cellLoop_spec {gs width height : Nat} (hgs : 0 < gs) {im : List K} {f : Nat → Nat → K} (h : Flat im (height * gs) (width * gs) f) {x y : Nat} (hx : x < width) (hy : y < height)
    {act : Nat → K → Option K} {A : Nat → K → K} (ha : ∀ q < gs * gs, ∀ a, act q a = some (A q a)) :
    ∃ im', cellLoop gs width act (gs * x + y * width * (gs * gs)) im = some im' ∧
      Flat im' (height * gs) (width * gs) (fun r c => if r / gs = y ∧ c / gs = x then A (r % gs * gs + c % gs) (f r c) else f r c) := by
  obtain ⟨p, hp⟩ : ∃ p, p = gs * x + y * width * (gs * gs) := ⟨_, rfl⟩
  obtain ⟨s, h1, h2, h3, h4⟩ := iter_inv (n := gs) (f := fun _ (s : Nat × Nat × List K) => (iter gs (fun _ (s : Nat × Nat × List K) => (rd s.2.2 s.1).bind fun v => (act s.2.1 v).bind fun v =>
      (wr s.2.2 s.1 v).bind fun im => some (s.1 + 1, s.2.1 + 1, im)) s).bind fun s => some (s.1 + (width - 1) * gs, s.2)) (s := (p, 0, im))
    (fun cy s => s.1 = p + cy * (width * gs) ∧ s.2.1 = cy * gs ∧ Flat s.2.2 (height * gs) (width * gs) (fun r c => if r / gs = y ∧ c / gs = x ∧ r % gs < cy then A (r % gs * gs + c % gs) (f r c) else f r c))
    ⟨by simp, by simp, h.congr fun r _ c _ => by simp⟩ (by
    rintro cy hcy s ⟨a1, a2, a3⟩
    obtain ⟨s', b1, b2, b3, b4⟩ := iter_inv (n := gs) (f := fun _ (s : Nat × Nat × List K) => (rd s.2.2 s.1).bind fun v => (act s.2.1 v).bind fun v =>
        (wr s.2.2 s.1 v).bind fun im => some (s.1 + 1, s.2.1 + 1, im)) (s := s)
      (fun cx s => s.1 = p + cy * (width * gs) + cx ∧ s.2.1 = cy * gs + cx ∧
        Flat s.2.2 (height * gs) (width * gs) (fun r c => if r / gs = y ∧ c / gs = x ∧ (r % gs < cy ∨ (r % gs = cy ∧ c % gs < cx)) then A (r % gs * gs + c % gs) (f r c) else f r c))
      ⟨by simpa using a1, by simpa using a2, a3.congr fun r _ c _ => by simp⟩ (by
      rintro cx hcx s ⟨c1, c2, c3⟩
      have hr : y * gs + cy < height * gs := Flat.addr_lt hy hcy
      have hc : x * gs + cx < width * gs := Flat.addr_lt hx hcx
      have hadr : s.1 = (y * gs + cy) * (width * gs) + (x * gs + cx) := by rw [c1, hp]; ring
      have d1 : (y * gs + cy) / gs = y ∧ (y * gs + cy) % gs = cy := (divmod_iff hcy).1 rfl
      have d2 : (x * gs + cx) / gs = x ∧ (x * gs + cx) % gs = cx := (divmod_iff hcx).1 rfl
      have e1 := c3.rd hr hc
      rw [d1.1, d1.2, d2.1, d2.2, if_neg (by omega)] at e1
      obtain ⟨im', e2, e3⟩ := c3.wr hr hc (A (cy * gs + cx) (f (y * gs + cy) (x * gs + cx)))
      refine ⟨(s.1 + 1, s.2.1 + 1, im'), ?_, ?_, ?_, e3.congr fun r _ c _ => ?_⟩
      · rw [hadr, e1, Option.bind_some, c2, ha _ (Flat.addr_lt hcy hcx), Option.bind_some, e2, Option.bind_some]
      · show s.1 + 1 = _
        rw [c1]; ring
      · show s.2.1 + 1 = _
        rw [c2]; ring
      · unfold upd2
        beta_reduce
        by_cases hh : r = y * gs + cy ∧ c = x * gs + cx
        · have z1 := (divmod_iff hcy).1 hh.1
          have z2 := (divmod_iff hcx).1 hh.2
          rw [if_pos hh, if_pos ⟨z1.1, z2.1, Or.inr ⟨z1.2, by omega⟩⟩, z1.2, z2.2, ← hh.1, ← hh.2]
        · rw [if_neg hh]
          by_cases h2 : r / gs = y ∧ c / gs = x ∧ (r % gs < cy ∨ (r % gs = cy ∧ c % gs < cx))
          · rw [if_pos h2, if_pos ⟨h2.1, h2.2.1, by omega⟩]
          · rw [if_neg h2, if_neg]
            rintro ⟨z1, z2, z3⟩
            by_cases h5 : r % gs = cy ∧ c % gs = cx
            · exact hh ⟨(divmod_iff hcy).2 ⟨z1, h5.1⟩, (divmod_iff hcx).2 ⟨z2, h5.2⟩⟩
            · exact h2 ⟨z1, z2, by omega⟩)
    refine ⟨(s'.1 + (width - 1) * gs, s'.2), by rw [b1]; rfl, ?_, ?_, b4.congr fun r _ c _ => ?_⟩
    · show s'.1 + (width - 1) * gs = _
      obtain ⟨w, rfl⟩ : ∃ w, width = w + 1 := ⟨width - 1, by omega⟩
      rw [b2, Nat.add_sub_cancel]; ring
    · show s'.2.1 = _
      rw [b3]; ring
    · have := Nat.mod_lt c hgs
      congr 1
      apply propext
      constructor
      · rintro ⟨z1, z2, z3⟩; exact ⟨z1, z2, by omega⟩
      · rintro ⟨z1, z2, z3⟩; exact ⟨z1, z2, by omega⟩)
  refine ⟨s.2.2, ?_, h4.congr fun r _ c _ => ?_⟩
  · unfold cellLoop
    rw [← hp]
    exact congrArg (fun o => Option.bind o fun s => some s.2.2) h1
  · have := Nat.mod_lt r hgs
    congr 1
    apply propext
    constructor
    · rintro ⟨z1, z2, z3⟩; exact ⟨z1, z2⟩
    · rintro ⟨z1, z2⟩; exact ⟨z1, z2, this⟩

omit [LinearOrder K] in
theorem weight_spec {v : Variant} {O S : Nat} {desc : List K} {F : Nat → Nat → K} (hd : Flat desc (dimension v O) S F) {d k : Nat} (hdS : d < S) (hk : k < O) :
    weight v O S desc d k = some (glyphWeight v O (fun c => F c d) k) := by
  cases v <;> simp only [dimension] at hd <;> simp only [weight, glyphWeight, Nat.add_comm d]
  · rw [hd.rd (show k < 4 * O by omega) hdS, hd.rd (show k + O < 4 * O by omega) hdS, hd.rd (show k + 2 * O < 4 * O by omega) hdS, hd.rd (show k + 3 * O < 4 * O by omega) hdS]
    rfl
  · rw [hd.rd (show k < 3 * O + 4 by omega) hdS, hd.rd (show k + O < 3 * O + 4 by omega) hdS, hd.rd (show k + 2 * O < 3 * O + 4 by omega) hdS]
    rfl

theorem largest_succ (k : Nat) (w : Nat → K) : max (w k) (largest k w) = largest (k + 1) w := by
  unfold largest
  have h : insert 0 ((range (k + 1)).image w) = insert (w k) (insert 0 ((range k).image w)) := by rw [range_add_one, image_insert, Finset.insert_comm]
  simp only [h]
  rw [max'_insert _ _ ⟨0, mem_insert_self _ _⟩, max_comm]

theorem smallest_succ (k : Nat) (w : Nat → K) : min (w k) (smallest k w) = smallest (k + 1) w := by
  unfold smallest
  have h : insert 0 ((range (k + 1)).image w) = insert (w k) (insert 0 ((range k).image w)) := by rw [range_add_one, image_insert, Finset.insert_comm]
  simp only [h]
  rw [min'_insert _ _ ⟨0, mem_insert_self _ _⟩, min_comm]

variable {v : Variant} {gs O width height : Nat} {glyphs image desc : List K} {G F I : Nat → Nat → K}

theorem renderCell_spec (hgs : 0 < gs) (hg : Flat glyphs O (gs * gs) G) (hd : Flat desc (dimension v O) (width * height) F) {im : List K} {f : Nat → Nat → K} (hi : Flat im (height * gs) (width * gs) f) {x y : Nat}
    (hx : x < width) (hy : y < height) :
    ∃ im', renderCell v gs O width height glyphs desc y x (im, y * width + x) = some (im', y * width + x + 1) ∧
      Flat im' (height * gs) (width * gs) (fun r c => if r / gs = y ∧ c / gs = x then
        shade O (glyphWeight v O (fun ch => F ch (y * width + x))) (fun k => G k (r % gs * gs + c % gs)) (f r c) else f r c) := by
  have hdS : y * width + x < width * height := by rw [Nat.mul_comm width]; exact Flat.addr_lt hy hx
  obtain ⟨W, hW⟩ : ∃ W, W = glyphWeight v O (fun ch => F ch (y * width + x)) := ⟨_, rfl⟩
  obtain ⟨t, h1, h2, h3, h4⟩ := iter_inv (n := O) (f := fun k (t : List K × K × K) => (weight v O (width * height) desc (y * width + x) k).bind fun w =>
      (cellLoop gs width (fun q a => (rd glyphs (k * (gs * gs) + q)).bind fun g => some (a + w * g)) (gs * x + y * width * (gs * gs)) t.1).bind fun im =>
      some (im, min w t.2.1, max w t.2.2)) (s := (im, 0, 0))
    (fun k t => Flat t.1 (height * gs) (width * gs) (fun r c => if r / gs = y ∧ c / gs = x then f r c + ∑ k ∈ range k, W k * G k (r % gs * gs + c % gs) else f r c) ∧ t.2.1 = smallest k W ∧ t.2.2 = largest k W)
    ⟨hi.congr fun r _ c _ => by simp, by simp [smallest], by simp [largest]⟩ (by
    rintro k hk t ⟨a1, a2, a3⟩
    obtain ⟨im', b1, b2⟩ := cellLoop_spec hgs a1 hx hy (act := fun q a => (rd glyphs (k * (gs * gs) + q)).bind fun g => some (a + W k * g)) (A := fun q a => a + W k * G k q) (by
      intro q hq a
      rw [hg.rd hk hq]; rfl)
    refine ⟨(im', min (W k) t.2.1, max (W k) t.2.2), ?_, b2.congr fun r _ c _ => ?_, ?_, ?_⟩
    · rw [weight_spec hd hdS hk, Option.bind_some, ← hW, b1, Option.bind_some]
    · by_cases h : r / gs = y ∧ c / gs = x
      · rw [if_pos h, if_pos h, if_pos h, sum_range_succ, add_assoc]
      · rw [if_neg h, if_neg h, if_neg h]
    · show min (W k) t.2.1 = _
      rw [a2, smallest_succ]
    · show max (W k) t.2.2 = _
      rw [a3, largest_succ])
  obtain ⟨im', b1, b2⟩ := cellLoop_spec hgs h2 hx hy (act := fun _ a => some (max t.2.1 (min t.2.2 a))) (A := fun _ a => max t.2.1 (min t.2.2 a)) (fun _ _ _ => rfl)
  refine ⟨im', ?_, b2.congr fun r _ c _ => ?_⟩
  · unfold renderCell
    simp only [Option.bind_eq_bind]
    rw [h1, Option.bind_some, b1]
    rfl
  · by_cases h : r / gs = y ∧ c / gs = x
    · rw [if_pos h, if_pos h, if_pos h, h3, h4, ← hW]
      rfl
    · rw [if_neg h, if_neg h, if_neg h]

/-- **C189.** For all descriptors, glyphs and contents of the image: no access out of bounds, and each pixel becomes the sum of the glyphs of its cell, by their weights, on top of what the image contained, limited to the
range of the weights and zero. -/
theorem render_correct (hgs : 0 < gs) (hw : 0 < width) (hh : 0 < height) (hg : Flat glyphs O (gs * gs) G) (hd : Flat desc (dimension v O) (width * height) F) (hi : Flat image (height * gs) (width * gs) I) :
    ∃ im', render v gs O glyphs image desc width height = some im' ∧
      Flat im' (height * gs) (width * gs) (fun r c =>
        shade O (glyphWeight v O (fun ch => F ch (r / gs * width + c / gs))) (fun k => G k (r % gs * gs + c % gs)) (I r c)) := by
  obtain ⟨P, hP⟩ : ∃ P : Nat → Nat → K, P = fun r c => shade O (glyphWeight v O (fun ch => F ch (r / gs * width + c / gs))) (fun k => G k (r % gs * gs + c % gs)) (I r c) := ⟨_, rfl⟩
  obtain ⟨s, h1, h2, h3⟩ := iter_inv (n := height) (f := fun y s => iter width (fun x s => renderCell v gs O width height glyphs desc y x s) s) (s := (image, 0))
    (fun y s => Flat s.1 (height * gs) (width * gs) (fun r c => if r / gs < y then P r c else I r c) ∧ s.2 = y * width) ⟨hi.congr fun r _ c _ => by simp, by simp⟩ (by
    rintro y hy s ⟨a1, a2⟩
    obtain ⟨s', b1, b2, b3⟩ := iter_inv (n := width) (f := fun x s => renderCell v gs O width height glyphs desc y x s) (s := s)
      (fun x s => Flat s.1 (height * gs) (width * gs) (fun r c => if r / gs < y ∨ (r / gs = y ∧ c / gs < x) then P r c else I r c) ∧ s.2 = y * width + x) ⟨a1.congr fun r _ c _ => by simp, by simpa using a2⟩ (by
      rintro x hx ⟨im, d⟩ ⟨c1, c2⟩
      obtain ⟨im', e1, e2⟩ := renderCell_spec hgs hg hd c1 hx hy
      simp only at c2
      subst c2
      refine ⟨_, e1, e2.congr fun r _ c _ => ?_, by rw [Nat.add_assoc]⟩
      by_cases h : r / gs = y ∧ c / gs = x
      · rw [if_pos h, if_pos (show r / gs < y ∨ (r / gs = y ∧ c / gs < x + 1) by omega), if_neg (show ¬ (r / gs < y ∨ (r / gs = y ∧ c / gs < x)) by omega), hP]
        beta_reduce
        rw [h.1, h.2]
      · rw [if_neg h]
        by_cases h2 : r / gs < y ∨ (r / gs = y ∧ c / gs < x)
        · rw [if_pos h2, if_pos (by omega)]
        · rw [if_neg h2, if_neg (by omega)])
    refine ⟨s', b1, b2.congr fun r _ c hc => ?_, by rw [b3]; ring⟩
    have hcw : c / gs < width := (Nat.div_lt_iff_lt_mul hgs).2 hc
    by_cases h : r / gs < y + 1
    · rw [if_pos h, if_pos (by omega)]
    · rw [if_neg h, if_neg (by omega)])
  refine ⟨s.1, ?_, h2.congr fun r hr c _ => ?_⟩
  · unfold render
    rw [show assert' (decide (width > 0)) = some () from if_pos (decide_eq_true hw), show assert' (decide (height > 0)) = some () from if_pos (decide_eq_true hh)]
    simp only [Option.bind_eq_bind, Option.bind_some]
    rw [h1]
    rfl
  · rw [if_pos ((Nat.div_lt_iff_lt_mul hgs).2 hr), hP]

end Render

/-- Claim (vl/hog.c:69-78, 412-425: the image is an output, allocated with `vl_malloc`): what the image contained does not matter. -/
def FreshImageClaim : Prop :=
  ∀ (v : Variant) (gs O width height : Nat) (glyphs desc image image' : List ℚ), 0 < gs → 0 < width → 0 < height → glyphs.length = O * (gs * gs) → desc.length = dimension v O * (width * height) →
    image.length = height * gs * (width * gs) → image'.length = height * gs * (width * gs) → render v gs O glyphs image desc width height = render v gs O glyphs image' desc width height

/-- **C189 (refuted).** The glyphs are added to the contents of the image. -/
theorem freshImage_claim_false : ¬ FreshImageClaim := by
  intro h
  have := h .dalalTriggs 1 1 1 1 [1] [1, 0, 0, 0] [0] [-1] (by decide) (by decide) (by decide) rfl rfl rfl rfl
  revert this
  decide +kernel

/-- Two cells of two orientations with glyphs of two by two pixels; negative weights are rendered too. -/
example : render .uoctti 2 2 ([1, 1, 0, 0, 0, 1, 0, 1] : List ℚ) [0, 0, 0, 0, 0, 0, 0, 0] [1, -1, 2, 5, 0, 0, 0, 0, 0, 0, 0, 0, 0, 0, 0, 0, 0, 0, 0, 0] 2 1 = some [1, 2, -1, 4, 0, 2, 0, 5] := by decide +kernel

/-! ## Glyphs -/

section Glyphs

open Classical

theorem pos_of_lt {o O : Nat} (h : o < O) : 0 ≤ (o : ℝ) * Real.pi / O ∧ (o : ℝ) * Real.pi / O < Real.pi := by
  have hO : (0 : ℝ) < O := by exact_mod_cast (show 0 < O by omega)
  have ho : (o : ℝ) < O := by exact_mod_cast h
  refine ⟨by positivity, ?_⟩
  rw [div_lt_iff₀ hO, mul_comm]
  exact mul_lt_mul_of_pos_left ho Real.pi_pos

theorem fmodPi_eq {a : ℝ} (n : Int) (h0 : n * Real.pi ≤ a) (h1 : a < (n + 1) * Real.pi) : fmodPi a = a - n * Real.pi := by
  have : ⌊a / Real.pi⌋ = n := by
    rw [Int.floor_eq_iff]
    exact ⟨by rwa [le_div_iff₀ Real.pi_pos], by rwa [div_lt_iff₀ Real.pi_pos]⟩
  unfold fmodPi
  rw [this, mul_comm]

/-- Comparison of sine and cosine in the first quadrant. -/
theorem cos_le_sin_iff {t : ℝ} (h0 : 0 ≤ t) (h1 : t ≤ Real.pi / 2) : Real.cos t ≤ Real.sin t ↔ Real.pi / 4 ≤ t := by
  have hp := Real.pi_pos
  rw [← Real.cos_pi_div_two_sub t, Real.strictAntiOn_cos.le_iff_ge ⟨h0, by linarith⟩ ⟨by linarith, by linarith⟩]
  constructor <;> intro h <;> linarith

/-- What the code computes from the angle of the bar, in terms of the angle of the gradient. -/
theorem angle_spec {t : ℝ} (h0 : 0 ≤ t) (h1 : t < Real.pi) :
    (fmodPi (t + Real.pi / 2) ≤ Real.pi / 4 ∨ fmodPi (t + Real.pi / 2) ≥ Real.pi * 3 / 4 ↔ |Real.cos t| ≤ |Real.sin t|) ∧ |Real.cos (fmodPi (t + Real.pi / 2))| = |Real.sin t| ∧
      Real.sin (fmodPi (t + Real.pi / 2)) = |Real.cos t| ∧ Real.sin (fmodPi (t + Real.pi / 2)) / Real.cos (fmodPi (t + Real.pi / 2)) = - (Real.cos t / Real.sin t) ∧
      Real.cos (fmodPi (t + Real.pi / 2)) / Real.sin (fmodPi (t + Real.pi / 2)) = - (Real.sin t / Real.cos t) := by
  have hp := Real.pi_pos
  have hs : 0 ≤ Real.sin t := Real.sin_nonneg_of_nonneg_of_le_pi h0 h1.le
  by_cases h : t < Real.pi / 2
  · have e : fmodPi (t + Real.pi / 2) = t + Real.pi / 2 := by
      rw [fmodPi_eq 0 (by push_cast; linarith) (by push_cast; linarith)]; simp
    have hc : 0 ≤ Real.cos t := Real.cos_nonneg_of_neg_pi_div_two_le_of_le (by linarith) h.le
    rw [e, Real.cos_add_pi_div_two, Real.sin_add_pi_div_two, abs_neg, abs_of_nonneg hc, abs_of_nonneg hs, cos_le_sin_iff h0 h.le]
    refine ⟨⟨?_, fun h' => Or.inr (by linarith)⟩, rfl, rfl, by rw [div_neg], by rw [neg_div]⟩
    rintro (h' | h') <;> linarith
  · have e : fmodPi (t + Real.pi / 2) = t - Real.pi / 2 := by
      rw [fmodPi_eq 1 (by push_cast; linarith) (by push_cast; linarith)]; push_cast; ring
    have hc : Real.cos t ≤ 0 := Real.cos_nonpos_of_pi_div_two_le_of_le (by linarith) (by linarith)
    have hq := cos_le_sin_iff (t := Real.pi - t) (by linarith) (by linarith)
    rw [Real.cos_pi_sub, Real.sin_pi_sub] at hq
    rw [e, Real.cos_sub_pi_div_two, Real.sin_sub_pi_div_two, abs_of_nonpos hc, abs_of_nonneg hs, hq]
    refine ⟨⟨?_, fun h' => Or.inl (by linarith)⟩, rfl, rfl, by rw [neg_div], by rw [div_neg]⟩
    rintro (h' | h') <;> linarith

/-- The index of a pixel of a glyph; transposed glyphs are stored by columns. -/
def pixelIx (gs : Nat) (transposed : Bool) (x y : Nat) : Nat := if transposed then x * gs + y else y * gs + x

theorem pixelIx_lt {gs x y : Nat} (tr : Bool) (hx : x < gs) (hy : y < gs) : pixelIx gs tr x y < gs * gs := by
  unfold pixelIx
  split
  · exact Flat.addr_lt hx hy
  · exact Flat.addr_lt hy hx

theorem setGlyph_spec {gs O : Nat} (tr : Bool) {o x y : Nat} (ho : o < O) (hx : x < gs) (hy : y < gs) {g : List ℝ} {f : Nat → Nat → ℝ} (h : Flat g O (gs * gs) f) :
    ∃ g', setGlyph gs tr o x y g = some g' ∧ Flat g' O (gs * gs) (upd2 f o (pixelIx gs tr x y) 1) := by
  obtain ⟨g', h1, h2⟩ := h.wr ho (pixelIx_lt tr hx hy) 1
  refine ⟨g', ?_, h2⟩
  unfold setGlyph
  rw [wrI_eq _ _ (o * (gs * gs) + pixelIx gs tr x y) _ (by unfold pixelIx; cases tr <;> simp <;> ring)]
  exact h1

theorem setLoop_spec {gs O : Nat} (tr : Bool) {o M : Nat} (ho : o < O) (X Y : Nat → Nat) (hX : ∀ n < M, X n < gs) (hY : ∀ n < M, Y n < gs) {body : Nat → List ℝ → Option (List ℝ)}
    (hb : ∀ n < M, ∀ g, body n g = setGlyph gs tr o (X n) (Y n) g) {g : List ℝ} {f : Nat → Nat → ℝ} (h : Flat g O (gs * gs) f) :
    ∃ g', iter M body g = some g' ∧ Flat g' O (gs * gs) (fun k q => if k = o ∧ ∃ n < M, q = pixelIx gs tr (X n) (Y n) then 1 else f k q) := by
  refine iter_inv (n := M) (f := body) (s := g) (fun m g => Flat g O (gs * gs) (fun k q => if k = o ∧ ∃ n < m, q = pixelIx gs tr (X n) (Y n) then 1 else f k q)) (h.congr fun k _ q _ => by simp) ?_
  intro m hm g hg
  obtain ⟨g', e1, e2⟩ := setGlyph_spec tr ho (hX m hm) (hY m hm) hg
  refine ⟨g', by rw [hb m hm, e1], e2.congr fun k _ q _ => ?_⟩
  unfold upd2
  beta_reduce
  by_cases h1 : k = o ∧ q = pixelIx gs tr (X m) (Y m)
  · rw [if_pos h1, if_pos ⟨h1.1, m, by omega, h1.2⟩]
  · rw [if_neg h1]
    by_cases h2 : k = o ∧ ∃ n < m, q = pixelIx gs tr (X n) (Y n)
    · obtain ⟨h3, n, h4, h5⟩ := h2
      rw [if_pos ⟨h3, n, h4, h5⟩, if_pos ⟨h3, n, by omega, h5⟩]
    · rw [if_neg h2, if_neg]
      rintro ⟨h3, n, h4, h5⟩
      by_cases h6 : n = m
      · subst h6; exact h1 ⟨h3, h5⟩
      · exact h2 ⟨h3, n, by omega, h5⟩

/-- The other coordinate of a pixel of the bar is inside the square. -/
theorem coord_spec {gs i : Nat} (hi : i < gs) {s : ℝ} (hs : |s| ≤ 1) :
    ∃ j : Nat, j < gs ∧ lround (s * i + (1 - s) * ((gs : ℝ) - 1) / 2) = j ∧ (j : Int) = ⌊((gs : ℝ) - 1) / 2 - (i - ((gs : ℝ) - 1) / 2) * (-s) + 1 / 2⌋ := by
  have h1 : (0 : ℝ) ≤ i := by positivity
  have h2 : (i : ℝ) ≤ gs - 1 := by
    have : (i : ℝ) + 1 ≤ gs := by exact_mod_cast hi
    linarith
  have h3 : |(i : ℝ) - ((gs : ℝ) - 1) / 2| ≤ ((gs : ℝ) - 1) / 2 := abs_le.2 ⟨by linarith, by linarith⟩
  have h4 : |s * (i - ((gs : ℝ) - 1) / 2)| ≤ ((gs : ℝ) - 1) / 2 := by
    rw [abs_mul]
    calc |s| * |(i : ℝ) - ((gs : ℝ) - 1) / 2| ≤ 1 * |(i : ℝ) - ((gs : ℝ) - 1) / 2| := mul_le_mul_of_nonneg_right hs (abs_nonneg _)
      _ ≤ _ := by rw [one_mul]; exact h3
  have h5 := abs_le.1 h4
  have e : s * i + (1 - s) * ((gs : ℝ) - 1) / 2 = ((gs : ℝ) - 1) / 2 + s * (i - ((gs : ℝ) - 1) / 2) := by ring
  have e2 : ((gs : ℝ) - 1) / 2 - (i - ((gs : ℝ) - 1) / 2) * (-s) + 1 / 2 = s * i + (1 - s) * ((gs : ℝ) - 1) / 2 + 1 / 2 := by ring
  have h6 : 0 ≤ s * i + (1 - s) * ((gs : ℝ) - 1) / 2 := by rw [e]; linarith
  have h7 : s * i + (1 - s) * ((gs : ℝ) - 1) / 2 ≤ gs - 1 := by rw [e]; linarith
  have h8 : 0 ≤ ⌊s * i + (1 - s) * ((gs : ℝ) - 1) / 2 + 1 / 2⌋ := Int.floor_nonneg.2 (by linarith)
  obtain ⟨j, hj⟩ := Int.eq_ofNat_of_zero_le h8
  refine ⟨j, ?_, ?_, ?_⟩
  · have : ⌊s * i + (1 - s) * ((gs : ℝ) - 1) / 2 + 1 / 2⌋ < (gs : Int) := Int.floor_lt.2 (by push_cast; linarith)
    omega
  · unfold lround
    rw [if_pos h6, hj]
  · rw [e2, hj]

/-- The pixels of one glyph. -/
theorem drawGlyph_spec {gs O : Nat} (hgs : 0 < gs) (tr : Bool) {o : Nat} (ho : o < O) {g : List ℝ} {f : Nat → Nat → ℝ} (h : Flat g O (gs * gs) f) :
    ∃ g', drawGlyph gs O tr o g = some g' ∧ Flat g' O (gs * gs) (fun k q => if k = o ∧ ∃ x < gs, ∃ y < gs, q = pixelIx gs tr x y ∧ Bar gs (o * Real.pi / O) x y then 1 else f k q) := by
  obtain ⟨t, ht⟩ : ∃ t : ℝ, t = o * Real.pi / O := ⟨_, rfl⟩
  obtain ⟨h0, h1⟩ := pos_of_lt ho
  rw [← ht] at h0 h1 ⊢
  obtain ⟨a1, a2, a3, a4, a5⟩ := angle_spec h0 h1
  have hg0 : (gs : ℝ) ≠ 0 := by exact_mod_cast hgs.ne'
  have hone := Real.sin_sq_add_cos_sq t
  unfold drawGlyph
  simp only
  rw [← ht]
  obtain ⟨φ, hφ⟩ : ∃ φ, φ = fmodPi (t + Real.pi / 2) := ⟨_, rfl⟩
  rw [← hφ] at a1 a2 a3 a4 a5 ⊢
  by_cases hc : |Real.cos t| ≤ |Real.sin t|
  · rw [if_pos (a1.2 hc)]
    have hsin : Real.sin t ≠ 0 := by
      intro hz
      rw [hz, abs_zero] at hc
      have := abs_nonpos_iff.1 hc
      rw [hz, this] at hone
      norm_num at hone
    have hcos : Real.cos φ ≠ 0 := by
      intro hz
      rw [hz, abs_zero] at a2
      exact hsin (abs_eq_zero.1 a2.symm)
    rw [if_neg (by positivity)]
    have hslope : gs * Real.sin φ / 2 / (gs * Real.cos φ / 2) = - (Real.cos t / Real.sin t) := by
      rw [← a4]; field_simp
    have hle : |- (Real.cos t / Real.sin t)| ≤ 1 := by
      rw [abs_neg, abs_div]
      exact div_le_one_of_le₀ hc (abs_nonneg _)
    rw [hslope, a2]
    obtain ⟨sk, hsk⟩ : ∃ sk, sk = ⌊(1 - |Real.sin t|) / 2 * gs⌋₊ := ⟨_, rfl⟩
    rw [← hsk]
    have hin : ∀ n < gs - sk - sk, sk + n < gs := fun n hn => by omega
    choose! Y hY1 hY2 hY3 using fun (i : Nat) (hi : i < gs) => coord_spec hi hle
    obtain ⟨g', e1, e2⟩ := setLoop_spec tr ho (M := gs - sk - sk) (fun n => sk + n) (fun n => Y (sk + n)) hin (fun n hn => hY1 _ (hin n hn)) (body := fun n g => setGlyph gs tr o ((sk + n : Nat) : Int)
      (lround (- (Real.cos t / Real.sin t) * ((sk + n : Nat) : ℝ) + (1 - - (Real.cos t / Real.sin t)) * ((gs : ℝ) - 1) / 2)) g) (fun n hn g => by rw [hY2 _ (hin n hn)]) h
    refine ⟨g', e1, e2.congr fun k _ q _ => ?_⟩
    congr 1
    apply propext
    refine and_congr_right fun _ => ⟨?_, ?_⟩
    · rintro ⟨n, hn, rfl⟩
      refine ⟨sk + n, hin n hn, Y (sk + n), hY1 _ (hin n hn), rfl, ?_⟩
      unfold Bar
      rw [if_pos hc, ← hsk]
      refine ⟨by omega, by omega, ?_⟩
      rw [hY3 _ (hin n hn), neg_neg]
    · rintro ⟨x, hx, y, hy, rfl, hb⟩
      unfold Bar at hb
      rw [if_pos hc, ← hsk] at hb
      refine ⟨x - sk, by omega, ?_⟩
      have hx' : sk + (x - sk) = x := by omega
      have := hY3 x hx
      rw [neg_neg, ← hb.2.2] at this
      simp only [hx']
      rw [show Y x = y by exact_mod_cast this]
  · rw [if_neg (fun h' => hc (a1.1 h'))]
    have hcos : Real.cos t ≠ 0 := by
      intro hz
      rw [hz, abs_zero] at hc
      exact hc (abs_nonneg _)
    have hsin : Real.sin φ ≠ 0 := by
      rw [a3]
      exact abs_ne_zero.2 hcos
    rw [if_neg (by positivity)]
    have hslope : gs * Real.cos φ / 2 / (gs * Real.sin φ / 2) = - (Real.sin t / Real.cos t) := by
      rw [← a5]; field_simp
    have hle : |- (Real.sin t / Real.cos t)| ≤ 1 := by
      rw [abs_neg, abs_div]
      exact div_le_one_of_le₀ (not_le.1 hc).le (abs_nonneg _)
    rw [hslope, a3]
    obtain ⟨sk, hsk⟩ : ∃ sk, sk = ⌊(1 - |Real.cos t|) / 2 * gs⌋₊ := ⟨_, rfl⟩
    rw [← hsk]
    have hin : ∀ n < gs - sk - sk, sk + n < gs := fun n hn => by omega
    choose! X hX1 hX2 hX3 using fun (i : Nat) (hi : i < gs) => coord_spec hi hle
    obtain ⟨g', e1, e2⟩ := setLoop_spec tr ho (M := gs - sk - sk) (fun n => X (sk + n)) (fun n => sk + n) (fun n hn => hX1 _ (hin n hn)) hin (body := fun n g => setGlyph gs tr o
      (lround (- (Real.sin t / Real.cos t) * ((sk + n : Nat) : ℝ) + (1 - - (Real.sin t / Real.cos t)) * ((gs : ℝ) - 1) / 2)) ((sk + n : Nat) : Int) g) (fun n hn g => by rw [hX2 _ (hin n hn)]) h
    refine ⟨g', e1, e2.congr fun k _ q _ => ?_⟩
    congr 1
    apply propext
    refine and_congr_right fun _ => ⟨?_, ?_⟩
    · rintro ⟨n, hn, rfl⟩
      refine ⟨X (sk + n), hX1 _ (hin n hn), sk + n, hin n hn, rfl, ?_⟩
      unfold Bar
      rw [if_neg hc, ← hsk]
      refine ⟨by omega, by omega, ?_⟩
      rw [hX3 _ (hin n hn), neg_neg]
    · rintro ⟨x, hx, y, hy, rfl, hb⟩
      unfold Bar at hb
      rw [if_neg hc, ← hsk] at hb
      refine ⟨y - sk, by omega, ?_⟩
      have hy' : sk + (y - sk) = y := by omega
      have := hX3 y hy
      rw [neg_neg, ← hb.2.2] at this
      simp only [hy']
      rw [show X y = x by exact_mod_cast this]

theorem pixelIx_inj {gs x y x' y' : Nat} (tr : Bool) (hx : x < gs) (hy : y < gs) (hx' : x' < gs) (hy' : y' < gs) (h : pixelIx gs tr x y = pixelIx gs tr x' y') : x = x' ∧ y = y' := by
  unfold pixelIx at h
  cases tr
  · have := Flat.addr_inj hx hx' (by simpa using h)
    exact ⟨this.2, this.1⟩
  · exact Flat.addr_inj hy hy' (by simpa using h)

/-- **C190.** For every number of orientations: the glyphs are drawn without accesses out of bounds and divisions by zero, and the glyph of orientation `k` is one on the bar orthogonal to the direction
`k pi / O` and zero elsewhere; glyphs for transposed images are transposed. -/
theorem drawGlyphs_correct {gs : Nat} (hgs : 0 < gs) (O : Nat) (tr : Bool) :
    ∃ g G, drawGlyphs gs O tr = some g ∧ Flat g O (gs * gs) G ∧
      ∀ k < O, ∀ x < gs, ∀ y < gs, G k (if tr then x * gs + y else y * gs + x) = if Bar gs (k * Real.pi / O) x y then 1 else 0 := by
  obtain ⟨g, h1, h2⟩ := iter_inv (n := O) (f := drawGlyph gs O tr) (s := List.replicate (gs * gs * O) 0)
    (fun m g => Flat g O (gs * gs) (fun k q => if k < m ∧ ∃ x < gs, ∃ y < gs, q = pixelIx gs tr x y ∧ Bar gs (k * Real.pi / O) x y then 1 else 0)) (by
      rw [Nat.mul_comm]
      exact (Flat.replicate O (gs * gs) 0).congr fun k _ q _ => by simp) (by
    intro m hm g hg
    obtain ⟨g', e1, e2⟩ := drawGlyph_spec hgs tr hm hg
    refine ⟨g', e1, e2.congr fun k _ q _ => ?_⟩
    by_cases h1 : k = m
    · subst h1
      by_cases h2 : ∃ x < gs, ∃ y < gs, q = pixelIx gs tr x y ∧ Bar gs (k * Real.pi / O) x y
      · rw [if_pos ⟨rfl, h2⟩, if_pos ⟨by omega, h2⟩]
      · rw [if_neg (fun h => h2 h.2), if_neg (fun h => h2 h.2), if_neg (fun h => h2 h.2)]
    · rw [if_neg (fun h => h1 h.1)]
      congr 1
      apply propext
      exact and_congr_left fun _ => ⟨fun h => by omega, fun h => by omega⟩)
  refine ⟨g, _, h1, h2, fun k hk x hx y hy => ?_⟩
  congr 1
  apply propext
  constructor
  · rintro ⟨-, x', hx', y', hy', e, hb⟩
    obtain ⟨rfl, rfl⟩ := pixelIx_inj tr hx hy hx' hy' e
    exact hb
  · intro hb
    exact ⟨hk, x, hx, y, hy, rfl, hb⟩

end Glyphs

/-- The pixels of the bar are within half a pixel of the line through the centre of the square that is orthogonal to the direction `t`. -/
theorem bar_near {gs x y : Nat} {t : ℝ} (h : Bar gs t x y) : |((x : ℝ) - ((gs : ℝ) - 1) / 2) * Real.cos t + ((y : ℝ) - ((gs : ℝ) - 1) / 2) * Real.sin t| ≤ 1 / 2 := by
  have hone := Real.sin_sq_add_cos_sq t
  unfold Bar at h
  by_cases hc : |Real.cos t| ≤ |Real.sin t|
  · rw [if_pos hc] at h
    have hsin : Real.sin t ≠ 0 := by
      intro hz
      rw [hz, abs_zero] at hc
      have := abs_nonpos_iff.1 hc
      rw [hz, this] at hone
      norm_num at hone
    obtain ⟨h1, h2⟩ := Int.floor_eq_iff.1 h.2.2.symm
    have e : ((x : ℝ) - ((gs : ℝ) - 1) / 2) * Real.cos t + ((y : ℝ) - ((gs : ℝ) - 1) / 2) * Real.sin t = ((y : ℝ) - (((gs : ℝ) - 1) / 2 - (x - ((gs : ℝ) - 1) / 2) * (Real.cos t / Real.sin t))) * Real.sin t := by
      field_simp
      ring
    rw [e, abs_mul]
    have h3 : |(y : ℝ) - (((gs : ℝ) - 1) / 2 - (x - ((gs : ℝ) - 1) / 2) * (Real.cos t / Real.sin t))| ≤ 1 / 2 := by
      push_cast at h1 h2
      exact abs_le.2 ⟨by linarith, by linarith⟩
    calc _ ≤ 1 / 2 * 1 := mul_le_mul h3 (Real.abs_sin_le_one t) (abs_nonneg _) (by norm_num)
      _ = 1 / 2 := by norm_num
  · rw [if_neg hc] at h
    have hcos : Real.cos t ≠ 0 := by
      intro hz
      rw [hz, abs_zero] at hc
      exact hc (abs_nonneg _)
    obtain ⟨h1, h2⟩ := Int.floor_eq_iff.1 h.2.2.symm
    have e : ((x : ℝ) - ((gs : ℝ) - 1) / 2) * Real.cos t + ((y : ℝ) - ((gs : ℝ) - 1) / 2) * Real.sin t = ((x : ℝ) - (((gs : ℝ) - 1) / 2 - (y - ((gs : ℝ) - 1) / 2) * (Real.sin t / Real.cos t))) * Real.cos t := by
      field_simp
      ring
    rw [e, abs_mul]
    have h3 : |(x : ℝ) - (((gs : ℝ) - 1) / 2 - (y - ((gs : ℝ) - 1) / 2) * (Real.sin t / Real.cos t))| ≤ 1 / 2 := by
      push_cast at h1 h2
      exact abs_le.2 ⟨by linarith, by linarith⟩
    calc _ ≤ 1 / 2 * 1 := mul_le_mul h3 (Real.abs_cos_le_one t) (abs_nonneg _) (by norm_num)
      _ = 1 / 2 := by norm_num

/-- The bar passes through the centre, in particular of the glyphs of 21 pixels. -/
theorem bar_center (c : Nat) (t : ℝ) : Bar (2 * c + 1) t c c := by
  have hfl : ⌊(1 : ℝ) / 2⌋ = 0 := by norm_num
  have hc2 : (((2 * c + 1 : Nat) : ℝ) - 1) / 2 = c := by push_cast; ring
  have hsk : ∀ a : ℝ, 0 < a → ⌊(1 - a) / 2 * ((2 * c + 1 : Nat) : ℝ)⌋₊ ≤ c := by
    intro a ha
    have : ⌊(1 - a) / 2 * ((2 * c + 1 : Nat) : ℝ)⌋₊ < c + 1 := by
      refine (Nat.floor_lt' (by omega)).2 ?_
      push_cast
      nlinarith [show (0 : ℝ) ≤ c by positivity]
    omega
  have hval : ∀ s : ℝ, ((c : Nat) : Int) = ⌊(((2 * c + 1 : Nat) : ℝ) - 1) / 2 - ((c : ℝ) - (((2 * c + 1 : Nat) : ℝ) - 1) / 2) * s + 1 / 2⌋ := by
    intro s
    rw [hc2, sub_self, zero_mul, sub_zero, eq_comm, Int.floor_eq_iff]
    push_cast
    constructor <;> linarith
  have hone := Real.sin_sq_add_cos_sq t
  unfold Bar
  by_cases hc : |Real.cos t| ≤ |Real.sin t|
  · rw [if_pos hc]
    have hpos : 0 < |Real.sin t| := by
      rcases (abs_nonneg (Real.sin t)).lt_or_eq with h | h
      · exact h
      · exfalso
        rw [← h] at hc
        rw [abs_eq_zero.1 h.symm, abs_nonpos_iff.1 hc] at hone
        norm_num at hone
    have := hsk _ hpos
    exact ⟨this, by omega, hval _⟩
  · rw [if_neg hc]
    have hpos : 0 < |Real.cos t| := lt_of_le_of_lt (abs_nonneg _) (not_le.1 hc)
    have := hsk _ hpos
    exact ⟨this, by omega, hval _⟩

/-- The hypotheses are met by the glyphs of the library: nine orientations of 21 pixels; all pass through the centre. -/
example : ∃ g G, drawGlyphs 21 9 false = some g ∧ Flat g 9 (21 * 21) G ∧ ∀ k < 9, G k (10 * 21 + 10) = 1 := by
  obtain ⟨g, G, h1, h2, h3⟩ := drawGlyphs_correct (gs := 21) (by decide) 9 false
  refine ⟨g, G, h1, h2, fun k hk => ?_⟩
  have := h3 k hk 10 (by decide) 10 (by decide)
  rw [if_pos (bar_center 10 _)] at this
  exact this

/-- The glyph of orientation zero is the vertical bar in the middle. -/
example : Bar 21 0 10 0 ∧ ¬ Bar 21 0 9 0 := by
  constructor
  · unfold Bar
    norm_num
  · unfold Bar
    norm_num

end Verif.Hog
