import Verif.Imop.GradModel
import Verif.Put
import Mathlib.Tactic.Ring
import Mathlib.Algebra.Order.Ring.Rat
import Mathlib.Algebra.Field.Rat
import Mathlib.Tactic.NormNum

set_option linter.unusedSectionVars false

/-!
# The image gradients
-/

namespace Verif.Imop

variable {K : Type} [Field K]

/-- The difference along a line of `n` samples `f`: central inside, one sided at the ends. -/
def diff (n : Nat) (f : Nat → K) (i : Nat) : K :=
  if i = 0 then f 1 - f 0 else if i + 1 = n then f i - f (i - 1) else (f (i + 1) - f (i - 1)) / 2

/-- The horizontal and vertical differences of the image `I` with `h` rows and `w` columns -/
def gradX (w : Nat) (I : Nat → Nat → K) (y x : Nat) : K := diff w (fun x => I y x) x
def gradY (h : Nat) (I : Nat → Nat → K) (y x : Nat) : K := diff h (fun y => I y x) y

/-- The pairs before `(y, x)` in the order of the rows -/
def before (w y x i j : Nat) : Prop := j < w ∧ (i < y ∨ (i = y ∧ j < x))

/-- The address of a pixel -/
def gaddr (ws hs i j : Nat) : Nat := i * hs + j * ws

theorem gaddr_inj {w ws hs : Nat} (hws : 0 < ws) (hhs : w * ws ≤ hs) {i j i' j' : Nat} (hj : j < w) (hj' : j' < w) (h : gaddr ws hs i j = gaddr ws hs i' j') : i = i' ∧ j = j' := by
  unfold gaddr at h
  have b1 : j * ws + ws ≤ w * ws := by rw [← Nat.succ_mul]; exact Nat.mul_le_mul_right _ hj
  have b2 : j' * ws + ws ≤ w * ws := by rw [← Nat.succ_mul]; exact Nat.mul_le_mul_right _ hj'
  have hi : i = i' := by
    rcases Nat.lt_trichotomy i i' with hlt | he | hgt
    · have : i * hs + hs ≤ i' * hs := by rw [← Nat.succ_mul]; exact Nat.mul_le_mul_right _ hlt
      omega
    · exact he
    · have : i' * hs + hs ≤ i * hs := by rw [← Nat.succ_mul]; exact Nat.mul_le_mul_right _ hgt
      omega
  subst hi
  refine ⟨rfl, ?_⟩
  have : j * ws = j' * ws := by omega
  exact Nat.eq_of_mul_eq_mul_right hws this

/-- The state at pixel `(y, x)` -/
structure GradAt (ws hs stride w : Nat) (a0 b0 : List K) (A B : Nat → Nat → K) (y x : Nat) (s : GradSt K) : Prop where
  a : Put a0 s.a (gaddr ws hs) A (before w y x)
  b : Put b0 s.b (gaddr ws hs) B (before w y x)
  src : s.src = (y * stride + x : Nat)
  pa : s.pa = (gaddr ws hs y x : Nat)
  pb : s.pb = (gaddr ws hs y x : Nat)

variable {ws hs stride w h : Nat} {a0 b0 : List K} {A B : Nat → Nat → K}

theorem gradSave_spec {outA outB : K → K → K} (hws : 0 < ws) (hhs : w * ws ≤ hs) {y x : Nat} (hx : x < w) (ha : gaddr ws hs y x < a0.length) (hb : gaddr ws hs y x < b0.length) {gx gy : K} (hA : A y x = outA gx gy) (hB : B y x = outB gx gy)
    {s : GradSt K} (hs' : GradAt ws hs stride w a0 b0 A B y x s) : ∃ s', gradSave outA outB ws gx gy s = some s' ∧ GradAt ws hs stride w a0 b0 A B y (x + 1) s' := by
  have hset : ∀ i' j', before w y (x + 1) i' j' ↔ before w y x i' j' ∨ (i' = y ∧ j' = x) := by
    intro i' j'; unfold before; omega
  have hinj : ∀ i' j', before w y x i' j' → gaddr ws hs i' j' = gaddr ws hs y x → i' = y ∧ j' = x := fun i' j' hb' e => gaddr_inj hws hhs hb'.1 hx e
  obtain ⟨a, e1, h1⟩ := hs'.a.wr ha hset hinj
  obtain ⟨b, e2, h2⟩ := hs'.b.wr hb hset hinj
  rw [hA] at e1
  rw [hB] at e2
  refine ⟨⟨a, b, s.src + 1, s.pa + ws, s.pb + ws⟩, ?_, h1, h2, ?_, ?_, ?_⟩
  · unfold gradSave
    rw [hs'.pa, wrI_nat, e1, Option.bind_eq_bind, Option.bind_some, hs'.pb, wrI_nat, e2]
    rfl
  · simp only [hs'.src]; push_cast; ring
  · simp only [hs'.pa, gaddr]; push_cast; ring
  · simp only [hs'.pb, gaddr]; push_cast; ring

/-- One row -/
theorem gradRow_spec {outA outB : K → K → K} (hws : 0 < ws) (hhs : w * ws ≤ hs) (hw : 2 ≤ w) {img : List K} {I : Nat → Nat → K} {y : Nat}
    (hI : ∀ x < w, rd img (y * stride + x) = some (I y x)) {dy : Int → Option K} (hdy : ∀ x < w, dy (y * stride + x : Nat) = some (gradY h I y x))
    (ha : ∀ x < w, gaddr ws hs y x < a0.length) (hb : ∀ x < w, gaddr ws hs y x < b0.length) (hA : ∀ x < w, A y x = outA (gradX w I y x) (gradY h I y x)) (hB : ∀ x < w, B y x = outB (gradX w I y x) (gradY h I y x))
    {s : GradSt K} (hs' : GradAt ws hs stride w a0 b0 A B y 0 s) : ∃ s', gradRow outA outB ws dy img w s = some s' ∧ GradAt ws hs stride w a0 b0 A B y w s' := by
  have rI : ∀ x < w, rdI img (y * stride + x : Nat) = some (I y x) := fun x hx => by rw [rdI_nat, hI x hx]
  -- first pixel
  have g0 : gradX w I y 0 = I y 1 - I y 0 := by unfold gradX diff; rw [if_pos rfl]
  obtain ⟨s1, e1, h1⟩ := gradSave_spec (outA := outA) (outB := outB) (gx := I y 1 - I y 0) (gy := gradY h I y 0) hws hhs (x := 0) (by omega) (ha 0 (by omega)) (hb 0 (by omega)) (by rw [hA 0 (by omega), g0]) (by rw [hB 0 (by omega), g0]) hs'
  -- middle pixels
  obtain ⟨s2, e2, h2⟩ : ∃ s2, iter (w - 2) (fun _ s => (rdI img (s.src + 1)).bind fun r => (rdI img (s.src - 1)).bind fun l => (dy s.src).bind fun gy => gradSave outA outB ws (1 / 2 * (r - l)) gy s) s1 = some s2 ∧ GradAt ws hs stride w a0 b0 A B y (w - 2 + 1) s2 :=
    iter_inv (P := fun i s => GradAt ws hs stride w a0 b0 A B y (i + 1) s) h1 (fun i hi s hP => by
      have g : gradX w I y (i + 1) = 1 / 2 * (I y (i + 2) - I y i) := by
        unfold gradX diff
        rw [if_neg (by omega), if_neg (by omega)]
        rw [show i + 1 - 1 = i by omega, show i + 1 + 1 = i + 2 by omega]
        ring
      obtain ⟨s', e, h'⟩ := gradSave_spec (outA := outA) (outB := outB) (gx := 1 / 2 * (I y (i + 2) - I y i)) (gy := gradY h I y (i + 1)) hws hhs (x := i + 1) (by omega) (ha (i + 1) (by omega)) (hb (i + 1) (by omega)) (by rw [hA (i + 1) (by omega), g]) (by rw [hB (i + 1) (by omega), g]) hP
      refine ⟨s', ?_, h'⟩
      rw [hP.src, hdy (i + 1) (by omega), show ((y * stride + (i + 1) : Nat) : Int) + 1 = (y * stride + (i + 2) : Nat) by push_cast; ring, rI (i + 2) (by omega), show ((y * stride + (i + 1) : Nat) : Int) - 1 = (y * stride + i : Nat) by push_cast; ring, rI i (by omega)]
      exact e)
  -- last pixel
  have gl : gradX w I y (w - 1) = I y (w - 1) - I y (w - 2) := by
    unfold gradX diff
    rw [if_neg (by omega), if_pos (by omega), show w - 1 - 1 = w - 2 by omega]
  rw [show w - 2 + 1 = w - 1 by omega] at h2
  obtain ⟨s3, e3, h3⟩ := gradSave_spec (outA := outA) (outB := outB) (gx := I y (w - 1) - I y (w - 2)) (gy := gradY h I y (w - 1)) hws hhs (x := w - 1) (by omega) (ha (w - 1) (by omega)) (hb (w - 1) (by omega)) (by rw [hA (w - 1) (by omega), gl]) (by rw [hB (w - 1) (by omega), gl]) h2
  rw [show w - 1 + 1 = w by omega] at h3
  refine ⟨s3, ?_, h3⟩
  show (rdI img (s.src + 1)).bind _ = _
  rw [hs'.src, show ((y * stride + 0 : Nat) : Int) + 1 = (y * stride + 1 : Nat) by push_cast; ring, rI 1 (by omega), Option.bind_some]
  show (rdI img _).bind _ = _
  rw [rI 0 (by omega), Option.bind_some]
  show (dy _).bind _ = _
  rw [hdy 0 (by omega), Option.bind_some, e1]
  show (iter (w - 2) _ s1).bind _ = _
  rw [show iter (w - 2) (fun _ s => do
    let r ← rdI img (s.src + 1)
    let l ← rdI img (s.src - 1)
    let gy ← dy s.src
    gradSave outA outB ws (1 / 2 * (r - l)) gy s) s1 = some s2 from e2, Option.bind_some]
  show (rdI img _).bind _ = _
  rw [h2.src, rI (w - 1) (by omega), Option.bind_some]
  show (rdI img _).bind _ = _
  rw [show ((y * stride + (w - 1) : Nat) : Int) - 1 = (y * stride + (w - 2) : Nat) by omega, rI (w - 2) (by omega), Option.bind_some]
  show (dy _).bind _ = _
  rw [hdy (w - 1) (by omega), Option.bind_some, e3]

theorem gradNext_spec {y : Nat} {s : GradSt K} (hs' : GradAt ws hs stride w a0 b0 A B y w s) : GradAt ws hs stride w a0 b0 A B (y + 1) 0 (gradNext hs stride y s) := by
  have hset : ∀ i j, before w y w i j ↔ before w (y + 1) 0 i j := by intro i j; unfold before; omega
  exact ⟨hs'.a.congr hset, hs'.b.congr hset, by simp [gradNext], by simp [gradNext, gaddr], by simp [gradNext, gaddr]⟩

/-- For every image of at least two by two pixels, with any strides such that the rows do not overlap and that fit the blocks, the functions store at the pixel `(x, y)` of the outputs the two functions of the differences of the image there, change nothing else and make no access out of the blocks. -/
theorem imgradient_correct (outA outB : K → K → K) (a b : List K) (ws hs : Nat) (img : List K) (w h stride : Nat) (hw : 2 ≤ w) (hh : 2 ≤ h) (hws : 0 < ws) (hhs : w * ws ≤ hs)
    (himg : (h - 1) * stride + w ≤ img.length) (ha : (h - 1) * hs + (w - 1) * ws < a.length) (hb : (h - 1) * hs + (w - 1) * ws < b.length) :
    ∃ a' b', imgradient outA outB a b ws hs img w h stride = some (a', b') ∧ a'.length = a.length ∧ b'.length = b.length ∧
      (∀ y < h, ∀ x < w, a'[y * hs + x * ws]? = some (outA (gradX w (fun y x => img.getD (y * stride + x) 0) y x) (gradY h (fun y x => img.getD (y * stride + x) 0) y x)) ∧
        b'[y * hs + x * ws]? = some (outB (gradX w (fun y x => img.getD (y * stride + x) 0) y x) (gradY h (fun y x => img.getD (y * stride + x) 0) y x))) ∧
      (∀ q, (∀ y < h, ∀ x < w, y * hs + x * ws ≠ q) → a'[q]? = a[q]? ∧ b'[q]? = b[q]?) := by
  obtain ⟨I, hIdef⟩ : ∃ I : Nat → Nat → K, I = fun y x => img.getD (y * stride + x) 0 := ⟨_, rfl⟩
  have hI : ∀ y < h, ∀ x < w, rd img (y * stride + x) = some (I y x) := by
    intro y hy x hx
    have : y * stride ≤ (h - 1) * stride := Nat.mul_le_mul_right _ (by omega)
    rw [hIdef, rd_getElem?, List.getElem?_eq_getElem (by omega)]
    simp only [List.getD_eq_getElem?_getD]
    rw [List.getElem?_eq_getElem (by omega), Option.getD_some]
  have hbnd : ∀ y < h, ∀ x < w, gaddr ws hs y x ≤ (h - 1) * hs + (w - 1) * ws := by
    intro y hy x hx
    unfold gaddr
    exact Nat.add_le_add (Nat.mul_le_mul_right _ (by omega)) (Nat.mul_le_mul_right _ (by omega))
  have haa : ∀ y < h, ∀ x < w, gaddr ws hs y x < a.length := fun y hy x hx => lt_of_le_of_lt (hbnd y hy x hx) ha
  have hbb : ∀ y < h, ∀ x < w, gaddr ws hs y x < b.length := fun y hy x hx => lt_of_le_of_lt (hbnd y hy x hx) hb
  rw [← hIdef]
  obtain ⟨A, hA⟩ : ∃ A : Nat → Nat → K, A = fun y x => outA (gradX w I y x) (gradY h I y x) := ⟨_, rfl⟩
  obtain ⟨B, hB⟩ : ∃ B : Nat → Nat → K, B = fun y x => outB (gradX w I y x) (gradY h I y x) := ⟨_, rfl⟩
  have hA' : ∀ y x, A y x = outA (gradX w I y x) (gradY h I y x) := fun y x => by rw [hA]
  have hB' : ∀ y x, B y x = outB (gradX w I y x) (gradY h I y x) := fun y x => by rw [hB]
  have rI : ∀ y < h, ∀ x < w, rdI img (y * stride + x : Nat) = some (I y x) := fun y hy x hx => by rw [rdI_nat, hI y hy x hx]
  have hstart : GradAt ws hs stride w a b A B 0 0 ⟨a, b, 0, 0, 0⟩ :=
    ⟨Put.start a _ _ (by intro i j; unfold before; omega), Put.start b _ _ (by intro i j; unfold before; omega), by simp, by simp [gaddr], by simp [gaddr]⟩
  obtain ⟨s1, e1, h1⟩ := gradRow_spec (outA := outA) (outB := outB) (h := h) hws hhs hw (hI 0 (by omega)) (dy := gradTop img stride) (by
    intro x hx
    unfold gradTop gradY diff
    rw [if_pos rfl, show ((0 * stride + x : Nat) : Int) + stride = (1 * stride + x : Nat) by push_cast; ring, rI 1 (by omega) x hx, rI 0 (by omega) x hx]
    rfl) (haa 0 (by omega)) (hbb 0 (by omega)) (fun x _ => hA' 0 x) (fun x _ => hB' 0 x) hstart
  obtain ⟨s2, e2, h2⟩ : ∃ s2, iter (h - 2) (fun y s => (gradRow outA outB ws (gradMid img stride) img w s).bind fun s => some (gradNext hs stride (y + 1) s)) (gradNext hs stride 0 s1) = some s2 ∧ GradAt ws hs stride w a b A B (h - 2 + 1) 0 s2 :=
    iter_inv (P := fun i s => GradAt ws hs stride w a b A B (i + 1) 0 s) (gradNext_spec h1) (fun i hi s hP => by
      obtain ⟨s', e', h'⟩ := gradRow_spec (outA := outA) (outB := outB) (h := h) hws hhs hw (hI (i + 1) (by omega)) (dy := gradMid img stride) (by
        intro x hx
        unfold gradMid gradY diff
        rw [if_neg (by omega), if_neg (by omega), show (((i + 1) * stride + x : Nat) : Int) + stride = ((i + 2) * stride + x : Nat) by push_cast; ring, rI (i + 2) (by omega) x hx,
          show (((i + 1) * stride + x : Nat) : Int) - stride = (i * stride + x : Nat) by push_cast; ring, rI i (by omega) x hx]
        rw [show i + 1 - 1 = i by omega, show i + 1 + 1 = i + 2 by omega]
        simp only [Option.bind_eq_bind, Option.bind_some]
        congr 1
        ring) (haa (i + 1) (by omega)) (hbb (i + 1) (by omega)) (fun x _ => hA' (i + 1) x) (fun x _ => hB' (i + 1) x) hP
      exact ⟨_, by rw [e']; rfl, gradNext_spec h'⟩)
  rw [show h - 2 + 1 = h - 1 by omega] at h2
  obtain ⟨s3, e3, h3⟩ := gradRow_spec (outA := outA) (outB := outB) (h := h) hws hhs hw (hI (h - 1) (by omega)) (dy := gradBottom img stride) (by
    intro x hx
    unfold gradBottom gradY diff
    have hm : (h - 1) * stride = (h - 2) * stride + stride := by rw [← Nat.succ_mul]; congr 1; omega
    rw [if_neg (by omega), if_pos (by omega), rI (h - 1) (by omega) x hx, show (((h - 1) * stride + x : Nat) : Int) - stride = ((h - 2) * stride + x : Nat) by rw [hm]; push_cast; ring, rI (h - 2) (by omega) x hx, show h - 1 - 1 = h - 2 by omega]
    rfl) (haa (h - 1) (by omega)) (hbb (h - 1) (by omega)) (fun x _ => hA' (h - 1) x) (fun x _ => hB' (h - 1) x) h2
  refine ⟨s3.a, s3.b, ?_, h3.a.len, h3.b.len, ?_, ?_⟩
  · show (gradRow outA outB ws (gradTop img stride) img w _).bind _ = _
    rw [e1, Option.bind_some]
    show (iter (h - 2) _ _).bind _ = _
    rw [show iter (h - 2) (fun y s => do
      let s ← gradRow outA outB ws (gradMid img stride) img w s
      some (gradNext hs stride (y + 1) s)) (gradNext hs stride 0 s1) = some s2 from e2, Option.bind_some, e3]
    rfl
  · intro y hy x hx
    have hbf : before w (h - 1) w y x := by unfold before; omega
    exact ⟨by rw [← hA']; exact h3.a.get y x hbf, by rw [← hB']; exact h3.b.get y x hbf⟩
  · intro q hq
    have : ∀ i j, before w (h - 1) w i j → gaddr ws hs i j ≠ q := by
      intro i j hbf
      unfold before at hbf
      exact hq i (by omega) j (by omega)
    exact ⟨h3.a.rest q this, h3.b.rest q this⟩

/-- The claim that the functions take any non-empty image -/
def AnySizeClaim : Prop := ∀ (a b img : List ℚ) (w h : Nat), 0 < w → 0 < h → img.length = w * h → a.length = w * h → b.length = w * h →
  ∃ r, imgradient (fun gx _ => gx) (fun _ gy => gy) a b 1 w img w h w = some r

/-- The claim is false: an image of one row is read beyond its end. -/
theorem anySize_claim_false : ¬ AnySizeClaim := by
  intro h
  obtain ⟨r, hr⟩ := h [0, 0] [0, 0] [1, 2] 2 1 (by norm_num) (by norm_num) rfl rfl rfl
  have : imgradient (K := ℚ) (fun gx _ => gx) (fun _ gy => gy) [0, 0] [0, 0] 1 2 [1, 2] 2 1 2 = none := by decide +kernel
  rw [this] at hr
  simp at hr

/-- An image of one row is never handled. -/
theorem imgradient_one_row (outA outB : K → K → K) (a b : List K) (ws hs : Nat) (img : List K) (w stride : Nat) (himg : img.length ≤ stride) : imgradient outA outB a b ws hs img w 1 stride = none := by
  unfold imgradient gradRow gradTop
  have : rdI img ((0 : Int) + stride) = none := by
    rw [show ((0 : Int) + stride) = (stride : Nat) by simp, rdI_nat, rd_getElem?, List.getElem?_eq_none (by omega)]
  simp only [this]
  cases rdI img (0 + 1) <;> cases rdI img 0 <;> rfl

/-- The hypotheses are met by an image of two by three pixels. -/
example : imgradient (K := ℚ) (fun gx _ => gx) (fun _ gy => gy) [9, 9, 9, 9, 9, 9] [9, 9, 9, 9, 9, 9] 1 3 [1, 2, 4, 2, 5, 9] 3 2 3 = some ([1, 3 / 2, 2, 3, 7 / 2, 4], [1, 3, 5, 1, 3, 5]) := by decide +kernel

end Verif.Imop
