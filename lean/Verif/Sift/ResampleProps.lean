import Verif.Sift.ResampleModel
import Verif.Fill
import Mathlib.Data.List.GetD
import Mathlib.Tactic.Linarith

/-!
# C74, C75: upsampling and downsampling of images in SIFT
-/

namespace Verif.Sift

variable {K : Type} [Field K] [CharZero K]

/-- The image in a block of pixels stored row by row. -/
def img (l : List K) (width : Nat) (y x : Nat) : K := l.getD (y * width + x) 0

/-- Specification of doubling along an axis with `n` samples: the samples, and between them their means; the last one is repeated. -/
def double (n : Nat) (f : Nat → K) (j : Nat) : K := if j % 2 = 0 then f (j / 2) else (f (j / 2) + f (min (j / 2 + 1) (n - 1))) / 2

omit [CharZero K] in
theorem rdD (l : List K) (i : Nat) (h : i < l.length) : rd l i = some (l.getD i 0) := by
  rw [rd_of_lt h, List.getD_eq_getElem _ _ h]

/-- **C74.**  The rows are doubled and the image is transposed; nothing else is written. -/
theorem upsampleRows_correct (dst src : List K) (width height : Nat) (hw : 1 ≤ width) (hs : height * width ≤ src.length) (hd : 2 * width * height ≤ dst.length) :
    ∃ dst', upsampleRows dst src width height = some dst' ∧ dst'.length = dst.length ∧
      (∀ j < 2 * width, ∀ y < height, dst'[j * height + y]? = some (double width (img src width y) j)) ∧
      ∀ q, 2 * width * height ≤ q → dst'[q]? = dst[q]? := by
  let v : Nat → Nat → K := fun j y => double width (img src width y) j
  obtain ⟨st, e, -, -, hf⟩ := iter_inv (n := height) (s := (⟨dst, 0, 0, 0, 0⟩ : Up K)) (f := fun _ (st : Up K) => (do
      let a ← rd src st.s
      let st := { st with a := a, b := a, s := st.s + 1 }
      let st ← iter (width - 1) (fun _ (st : Up K) => do
        let b ← rd src st.s
        let out ← wrI st.out st.d st.a
        let d := st.d + height
        let out ← wrI out d (1 / 2 * (st.a + b))
        let d := d + height
        some { out := out, d := d, s := st.s + 1, a := b, b := b }) st
      let out ← wrI st.out st.d st.b
      let d := st.d + height
      let out ← wrI out d st.b
      let d := d + height
      some { st with out := out, d := d + (1 - (width : Int) * 2 * height) } : Option (Up K)))
    (fun y (st : Up K) => st.d = y ∧ st.s = y * width ∧ Filled dst st.out (2 * width) height v (fun _ y' => y' < y))
    ⟨by simp, by simp, Filled.start _ _ _ _ (by simp)⟩ (by
    rintro y hy ⟨out, d, s, a0, b0⟩ ⟨h1, h2, hf⟩
    simp only at h1 h2 hf ⊢
    subst h1 h2
    have hrow : (y + 1) * width ≤ height * width := Nat.mul_le_mul_right _ hy
    have hrow' : (y + 1) * width = y * width + width := by ring
    rw [rdD _ _ (by omega)]
    simp only [Option.bind_eq_bind, Option.bind_some]
    obtain ⟨⟨out1, d1, s1, a1, b1⟩, e1, g1, g2, g3, g4, gf⟩ := iter_inv (n := width - 1)
      (s := (⟨out, y, y * width + 1, src.getD (y * width) 0, src.getD (y * width) 0⟩ : Up K)) (f := fun _ (st : Up K) => (do
        let b ← rd src st.s
        let out ← wrI st.out st.d st.a
        let d := st.d + height
        let out ← wrI out d (1 / 2 * (st.a + b))
        let d := d + height
        some { out := out, d := d, s := st.s + 1, a := b, b := b } : Option (Up K)))
      (fun x (st : Up K) => st.d = ((2 * x * height + y : Nat) : Int) ∧ st.s = y * width + x + 1 ∧ st.a = img src width y x ∧ st.b = img src width y x ∧
        Filled dst st.out (2 * width) height v (fun j y' => y' < y ∨ (y' = y ∧ j < 2 * x)))
      ⟨by simp, by simp, by simp [img], by simp [img], hf.mono (by rintro _ _ _ _ (h | h); exact h; omega)⟩ (by
      rintro x hx ⟨out, d, s, a, b⟩ ⟨h1, h2, h3, h4, hf⟩
      simp only at h1 h2 h3 h4 hf ⊢
      subst h1 h2 h3 h4
      rw [rdD _ _ (by omega)]
      simp only [Option.bind_eq_bind, Option.bind_some]
      have v0 : v (2 * x) y = img src width y x := by simp [v, double]
      have v1 : v (2 * x + 1) y = 1 / 2 * (img src width y x + src.getD (y * width + x + 1) 0) := by
        simp only [v, double]
        rw [if_neg (by omega), show (2 * x + 1) / 2 = x by omega, show min (x + 1) (width - 1) = x + 1 by omega]
        simp only [img, ← Nat.add_assoc]
        ring
      obtain ⟨o1, w1, f1⟩ := hf.wr (by omega) (i := 2 * x) (j := y) (by omega) hy (S' := fun j y' => y' < y ∨ (y' = y ∧ j < 2 * x + 1))
        (by intro i' _ j' _ h; omega)
      obtain ⟨o2, w2, f2⟩ := f1.wr (by omega) (i := 2 * x + 1) (j := y) (by omega) hy (S' := fun j y' => y' < y ∨ (y' = y ∧ j < 2 * (x + 1)))
        (by intro i' _ j' _ h; omega)
      rw [v0] at w1
      rw [v1] at w2
      rw [wrI_nat, w1]
      simp only [Option.bind_some]
      rw [wrI_eq _ _ ((2 * x + 1) * height + y) _ (by push_cast; ring), w2]
      refine ⟨_, rfl, ?_, ?_, ?_, ?_, f2⟩
      · simp only; push_cast; ring
      · simp only; ring
      · simp only [img, Nat.add_assoc]
      · simp only [img, Nat.add_assoc])
    simp only [Option.bind_eq_bind] at e1
    rw [e1]
    simp only at g1 g2 g3 g4 gf
    subst g1 g2 g3 g4
    simp only [Option.bind_some]
    have v0 : v (2 * (width - 1)) y = img src width y (width - 1) := by simp [v, double]
    have v1 : v (2 * (width - 1) + 1) y = img src width y (width - 1) := by
      simp only [v, double]
      rw [if_neg (by omega), show (2 * (width - 1) + 1) / 2 = width - 1 by omega, show min (width - 1 + 1) (width - 1) = width - 1 by omega]
      ring
    obtain ⟨o1, w1, f1⟩ := gf.wr (by omega) (i := 2 * (width - 1)) (j := y) (by omega) hy (S' := fun j y' => y' < y ∨ (y' = y ∧ j < 2 * (width - 1) + 1))
      (by intro i' _ j' _ h; omega)
    obtain ⟨o2, w2, f2⟩ := f1.wr (by omega) (i := 2 * (width - 1) + 1) (j := y) (by omega) hy (S' := fun _ y' => y' < y + 1)
      (by intro i' _ j' _ h; omega)
    rw [v0] at w1
    rw [v1] at w2
    rw [wrI_nat, w1]
    simp only [Option.bind_some]
    rw [wrI_eq _ _ ((2 * (width - 1) + 1) * height + y) _ (by push_cast; ring), w2]
    obtain ⟨w', rfl⟩ : ∃ w', width = w' + 1 := ⟨width - 1, by omega⟩
    refine ⟨_, rfl, ?_, ?_, f2⟩
    · simp only [Nat.add_sub_cancel]; push_cast; ring
    · simp only [Nat.add_sub_cancel]; ring)
  refine ⟨st.out, ?_, hf.len, fun j hj y hy => hf.get j hj y hy hy, fun q hq => hf.rest q hq⟩
  unfold upsampleRows
  rw [e]
  rfl

omit [CharZero K] in
theorem downCols_spec (src : List K) (width d : Nat) (hd : 1 ≤ d) (l0 : List K) (rows cols : Nat) (hc : cols = width / d) (v : Nat → Nat → K) (y q0 : Nat)
    (hv : ∀ x < cols, v y x = src.getD (q0 + x * d) 0) (hq : q0 + width ≤ src.length) (hy : y < rows) (hl : rows * cols ≤ l0.length) :
    ∀ k x out, x ≤ cols → cols - x < k → Filled l0 out rows cols v (fun i j => i < y ∨ (i = y ∧ j < x)) →
    ∃ out', downCols src width d k (x * d) (out, y * cols + x, q0 + x * d) = some (out', y * cols + cols, q0 + cols * d) ∧
      Filled l0 out' rows cols v (fun i _ => i < y + 1) := by
  intro k
  induction k with
  | zero => intro x out _ h; omega
  | succ k ih =>
    intro x out hx hk hf
    unfold downCols
    have hiff : ((x * d : Nat) : Int) < (width : Int) - ((d : Int) - 1) ↔ x < cols := by
      rw [hc]
      have : x < width / d ↔ (x + 1) * d ≤ width := by
        rw [← Nat.succ_le_iff, Nat.le_div_iff_mul_le (by omega)]
      rw [this]
      have e : (x + 1) * d = x * d + d := by ring
      rw [e]
      omega
    by_cases h : x < cols
    · rw [if_pos (hiff.mpr h)]
      have hle : (x + 1) * d ≤ width := by
        have h' := h
        rw [hc] at h'
        exact (Nat.le_div_iff_mul_le (by omega)).mp h'
      have e : (x + 1) * d = x * d + d := by ring
      rw [rdD _ _ (by omega)]
      simp only [Option.bind_eq_bind, Option.bind_some]
      obtain ⟨o1, w1, f1⟩ := hf.wr hl (i := y) (j := x) hy h (S' := fun i j => i < y ∨ (i = y ∧ j < x + 1)) (by intro i' _ j' _ h; omega)
      rw [hv x h] at w1
      rw [w1]
      simp only [Option.bind_some]
      obtain ⟨out', e', f'⟩ := ih (x + 1) o1 (by omega) (by omega) f1
      rw [e] at e'
      rw [Nat.add_assoc, Nat.add_assoc]
      exact ⟨out', e', f'⟩
    · rw [if_neg (fun h' => h (hiff.mp h'))]
      have : x = cols := by omega
      subst this
      exact ⟨out, rfl, hf.mono (by intro i _ j hj hh; omega)⟩

omit [CharZero K] in
theorem downRows_spec (src : List K) (width height d : Nat) (hd : 1 ≤ d) (hs : height * width ≤ src.length) (l0 : List K) (rows cols : Nat) (hc : cols = width / d)
    (hr : rows = (height + d - 1) / d) (v : Nat → Nat → K) (hv : ∀ y < rows, ∀ x < cols, v y x = src.getD (y * d * width + x * d) 0) (hl : rows * cols ≤ l0.length) :
    ∀ k y out, y ≤ rows → rows - y < k → Filled l0 out rows cols v (fun i _ => i < y) →
    ∃ out', downRows src width height d k (y * d) (out, y * cols) = some (out', rows * cols) ∧ Filled l0 out' rows cols v (fun _ _ => True) := by
  intro k
  induction k with
  | zero => intro y out _ h; omega
  | succ k ih =>
    intro y out hy hk hf
    unfold downRows
    have hiff : y * d < height ↔ y < rows := by
      rw [hr]
      have : y < (height + d - 1) / d ↔ (y + 1) * d ≤ height + d - 1 := by
        rw [← Nat.succ_le_iff, Nat.le_div_iff_mul_le (by omega)]
      rw [this]
      have e : (y + 1) * d = y * d + d := by ring
      rw [e]
      omega
    by_cases h : y < rows
    · rw [if_pos (hiff.mpr h)]
      have hlt := hiff.mpr h
      have hle : (y * d + 1) * width ≤ height * width := Nat.mul_le_mul_right _ hlt
      have e : (y * d + 1) * width = y * d * width + width := by ring
      have hcw : cols ≤ width := by rw [hc]; exact Nat.div_le_self _ _
      obtain ⟨o1, e1, f1⟩ := downCols_spec src width d hd l0 rows cols hc v y (y * d * width) (hv y h) (by omega) h hl (width + 1) 0 out (by omega) (by omega)
        (hf.mono (by intro i _ j _ hh; omega))
      simp only [Nat.zero_mul, Nat.add_zero] at e1
      rw [e1]
      simp only [Option.bind_eq_bind, Option.bind_some]
      obtain ⟨out', e', f'⟩ := ih (y + 1) o1 (by omega) (by omega) f1
      rw [Nat.add_mul, Nat.add_mul, Nat.one_mul, Nat.one_mul] at e'
      exact ⟨out', e', f'⟩
    · rw [if_neg (fun h' => h (hiff.mp h'))]
      have : y = rows := by omega
      subst this
      exact ⟨out, rfl, hf.mono (by intro i hi j _ _; exact hi)⟩

omit [CharZero K] in
/-- **C75.**  Every `2^o`-th pixel of every `2^o`-th row is copied.  The result has `floor (width / 2^o)` columns, and a row for each multiple of `2^o` below the height. -/
theorem downsample_correct (dst src : List K) (width height o : Nat) (hs : height * width ≤ src.length)
    (hd : ((height + 2 ^ o - 1) / 2 ^ o) * (width / 2 ^ o) ≤ dst.length) :
    ∃ dst', downsample dst src width height o = some (dst', (height + 2 ^ o - 1) / 2 ^ o * (width / 2 ^ o)) ∧ dst'.length = dst.length ∧
      (∀ y < (height + 2 ^ o - 1) / 2 ^ o, ∀ x < width / 2 ^ o, dst'[y * (width / 2 ^ o) + x]? = some (img src width (2 ^ o * y) (2 ^ o * x))) ∧
      ∀ q, (height + 2 ^ o - 1) / 2 ^ o * (width / 2 ^ o) ≤ q → dst'[q]? = dst[q]? := by
  have hp : 1 ≤ 2 ^ o := Nat.one_le_two_pow
  obtain ⟨out, e, f⟩ := downRows_spec src width height (2 ^ o) hp hs dst _ _ rfl rfl (fun y x => img src width (2 ^ o * y) (2 ^ o * x)) (by
    intro y _ x _
    simp only [img]
    rw [Nat.mul_comm (2 ^ o) y, Nat.mul_comm (2 ^ o) x]) hd (height + 1) 0 dst (Nat.zero_le _) (by
      have : (height + 2 ^ o - 1) / 2 ^ o ≤ height := by
        rw [Nat.div_le_iff_le_mul_add_pred (by omega)]
        have : height * 1 ≤ 2 ^ o * height := by rw [Nat.mul_comm height]; exact Nat.mul_le_mul_right _ hp
        omega
      omega) (Filled.start _ _ _ _ (by simp))
  refine ⟨out, ?_, f.len, fun y hy x hx => f.get y hy x hx trivial, fun q hq => f.rest q hq⟩
  simpa [downsample] using e

/-- The documented number of pixels: the destination is assumed to have `floor (height / 2^d)` rows. -/
def DocumentedSizeClaim : Prop := ∀ (dst src : List ℚ) (width height o : Nat), src.length = width * height →
  (width / 2 ^ o) * (height / 2 ^ o) ≤ dst.length → downsample dst src width height o ≠ none

/-- The code writes one more row if the height is not a multiple: with the documented size it writes past the end of the block. -/
theorem documentedSize_claim_false : ¬ DocumentedSizeClaim := by
  intro h
  exact h [0] [1, 2, 3, 4, 5, 6] 2 3 1 rfl (by decide) (by decide +kernel)

/-- Specification of doubling an image of `w` columns and `h` rows along both axes. -/
def double2 (w h : Nat) (f : Nat → Nat → K) (y x : Nat) : K := double h (fun k => double w (f k) x) y

/-- Specification of the image doubled `n` times. -/
def doubled (w h : Nat) (f : Nat → Nat → K) : Nat → Nat → Nat → K
  | 0 => f
  | n + 1 => double2 (w * 2 ^ n) (h * 2 ^ n) (doubled w h f n)

/-- Two passes double both axes. -/
theorem twoPasses (temp octave src : List K) (w h : Nat) (f : Nat → Nat → K) (hw : 1 ≤ w) (hh : 1 ≤ h) (hs : h * w ≤ src.length) (hf : ∀ y < h, ∀ x < w, img src w y x = f y x)
    (ht : 2 * w * h ≤ temp.length) (ho : (2 * h) * (2 * w) ≤ octave.length) :
    ∃ temp' octave', upsampleRows temp src w h = some temp' ∧ upsampleRows octave temp' h (2 * w) = some octave' ∧ temp'.length = temp.length ∧
      octave'.length = octave.length ∧ ∀ y < 2 * h, ∀ x < 2 * w, img octave' (2 * w) y x = double2 w h f y x := by
  have hdbl : ∀ (n : Nat) (g g' : Nat → K), 1 ≤ n → (∀ i < n, g i = g' i) → ∀ j < 2 * n, double n g j = double n g' j := by
    intro n g g' hn hg j hj
    unfold double
    rw [hg (j / 2) (by omega), hg (min (j / 2 + 1) (n - 1)) (by omega)]
  obtain ⟨t', e1, l1, g1, -⟩ := upsampleRows_correct temp src w h hw hs ht
  obtain ⟨o', e2, l2, g2, -⟩ := upsampleRows_correct octave t' h (2 * w) hh (by omega) ho
  refine ⟨t', o', e1, e2, l1, l2, ?_⟩
  intro y hy x hx
  have := g2 y hy x hx
  rw [img, List.getD_eq_getElem?_getD, this, Option.getD_some]
  unfold double2
  apply hdbl h _ _ hh _ y hy
  intro k hk
  have := g1 x hx k hk
  rw [img, List.getD_eq_getElem?_getD, this, Option.getD_some]
  exact hdbl w _ _ hw (hf k hk) x hx

/-- **C74.**  The intended behaviour: for a first octave `- n` the first level is the image doubled `n` times. -/
def UpsampleClaim : Prop := ∀ (temp octave im : List ℚ) (w h n : Nat), 1 ≤ n → 1 ≤ w → 1 ≤ h → im.length = h * w →
  (h * 2 ^ n) * (w * 2 ^ n) ≤ temp.length → (h * 2 ^ n) * (w * 2 ^ n) ≤ octave.length →
  ∃ temp' octave', upsampleImage temp octave im w h n = some (temp', octave') ∧
    ∀ y < h * 2 ^ n, ∀ x < w * 2 ^ n, img octave' (w * 2 ^ n) y x = doubled w h (img im w) n y x

/-- **C74.**  It holds for a single doubling, and for square images. -/
theorem upsampleImage_correct_partial (temp octave im : List K) (w h n : Nat) (hn : 1 ≤ n) (hw : 1 ≤ w) (hh : 1 ≤ h) (him : im.length = h * w)
    (ht : (h * 2 ^ n) * (w * 2 ^ n) ≤ temp.length) (ho : (h * 2 ^ n) * (w * 2 ^ n) ≤ octave.length) (hsq : n = 1 ∨ w = h) :
    ∃ temp' octave', upsampleImage temp octave im w h n = some (temp', octave') ∧ temp'.length = temp.length ∧ octave'.length = octave.length ∧
      ∀ y < h * 2 ^ n, ∀ x < w * 2 ^ n, img octave' (w * 2 ^ n) y x = doubled w h (img im w) n y x := by
  have hsize : ∀ k, k ≤ n → (h * 2 ^ k) * (w * 2 ^ k) ≤ (h * 2 ^ n) * (w * 2 ^ n) := by
    intro k hk
    have := Nat.pow_le_pow_right (show 0 < 2 by omega) hk
    exact Nat.mul_le_mul (Nat.mul_le_mul_left _ this) (Nat.mul_le_mul_left _ this)
  have hs1 := hsize 1 hn
  simp only [pow_one] at hs1
  have q1 : (2 * h) * (2 * w) = h * 2 * (w * 2) := by ring
  have q2 : 2 * (2 * w * h) = h * 2 * (w * 2) := by ring
  obtain ⟨t1, o1, e1, e2, l1, l2, g⟩ := twoPasses temp octave im w h (img im w) hw hh (by omega) (fun _ _ _ _ => rfl) (by omega) (by omega)
  obtain ⟨⟨t', o'⟩, e3, g1, g2, g3⟩ := iter_inv (n := n - 1) (s := (t1, o1)) (f := fun i (st : List K × List K) => (do
      let o := i + 1
      let temp ← upsampleRows st.1 st.2 (w * 2 ^ o) (h * 2 ^ o)
      let octave ← upsampleRows st.2 temp (w * 2 ^ o) (2 * (h * 2 ^ o))
      some (temp, octave) : Option (List K × List K)))
    (fun i (st : List K × List K) => st.1.length = temp.length ∧ st.2.length = octave.length ∧
      ∀ y < h * 2 ^ (i + 1), ∀ x < w * 2 ^ (i + 1), img st.2 (w * 2 ^ (i + 1)) y x = doubled w h (img im w) (i + 1) y x)
    ⟨l1, l2, by
      intro y hy x hx
      have := g y (by simpa [Nat.mul_comm] using hy) x (by simpa [Nat.mul_comm] using hx)
      simp only [zero_add, pow_one, doubled, pow_zero, mul_one]
      rw [Nat.mul_comm w 2]
      exact this⟩ (by
    rintro i hi ⟨t, o⟩ ⟨h1, h2, h3⟩
    have hwh : w = h := hsq.resolve_left (by omega)
    subst hwh
    have hp : 1 ≤ 2 ^ (i + 1) := Nat.one_le_two_pow
    have hw' : 1 ≤ w * 2 ^ (i + 1) := Nat.mul_pos hw hp
    have s1 := hsize (i + 1) (by omega)
    have s2 := hsize (i + 2) (by omega)
    rw [pow_succ 2 (i + 1)] at s2
    generalize hW : w * 2 ^ (i + 1) = W at *
    have e4 : w * (2 ^ (i + 1) * 2) = 2 * W := by rw [← hW]; ring
    have q : 2 * (2 * W * W) = 2 * W * (2 * W) := by ring
    rw [e4] at s2
    simp only at h1 h2 h3 ⊢
    obtain ⟨t2, o2, f1, f2, k1, k2, gg⟩ := twoPasses t o o W W (doubled w w (img im w) (i + 1)) hw' hw' (by omega) h3 (by omega) (by omega)
    rw [hW, f1]
    simp only [Option.bind_eq_bind, Option.bind_some]
    rw [f2]
    refine ⟨_, rfl, by simp only; omega, by simp only; omega, ?_⟩
    rw [pow_succ 2 (i + 1), e4]
    intro y hy x hx
    rw [gg y hy x hx]
    conv_rhs => rw [doubled]
    rw [hW])
  refine ⟨t', o', ?_, g1, g2, ?_⟩
  · unfold upsampleImage
    rw [e1]
    simp only [Option.bind_eq_bind, Option.bind_some]
    rw [e2]
    simp only [Option.bind_some]
    simp only [Option.bind_eq_bind] at e3
    exact e3
  · rw [show n - 1 + 1 = n by omega] at g3
    exact g3

/-- For other sizes the second doubling exchanges width and height. -/
theorem upsample_claim_false : ¬ UpsampleClaim := by
  intro h
  obtain ⟨t, o, e, hp⟩ := h (List.replicate 32 0) (List.replicate 32 0) [0, 16] 2 1 2 (by decide) (by decide) (by decide) rfl (by decide) (by decide)
  have hd : (upsampleImage (K := ℚ) (List.replicate 32 0) (List.replicate 32 0) [0, 16] 2 1 2).map (fun r => img r.2 8 0 2) ≠ some (doubled 2 1 (img ([0, 16] : List ℚ) 2) 2 0 2) := by decide +kernel
  rw [e] at hd
  exact hd (by
    have := hp 0 (by decide) 2 (by decide)
    simp only [Option.map_some]
    exact congrArg some this)

/-- The hypotheses can be met. -/
example : ∃ t o, upsampleImage (K := ℚ) (List.replicate 16 0) (List.replicate 16 0) [1, 2, 3, 4] 2 2 1 = some (t, o) :=
  have ⟨t, o, h, _⟩ := upsampleImage_correct_partial (List.replicate 16 0) (List.replicate 16 0) [1, 2, 3, 4] 2 2 1 (by decide) (by decide) (by decide) rfl (by decide) (by decide) (Or.inl rfl)
  ⟨t, o, h⟩

end Verif.Sift
