import Verif.Sift.GradModel
import Verif.Flat
import Mathlib.Data.List.GetD
import Mathlib.Tactic.Linarith

/-!
# C76: the gradients of SIFT are the differences of the levels
-/

namespace Verif.Sift

/-- The pixel in level `k`, row `y` and column `x` of an octave of levels of `w` columns and `h` rows. -/
def levPix (octave : List ℚ) (w h : Nat) (k y x : Nat) : ℚ := octave.getD ((k * h + y) * w + x) 0

/-- Specification of the derivative along an axis with `n` samples: central differences, one-sided at the two ends. -/
def deriv (n : Nat) (f : Nat → ℚ) (i : Nat) : ℚ :=
  if i = 0 then f 1 - f 0 else if i = n - 1 then f i - f (i - 1) else (f (i + 1) - f (i - 1)) / 2

/-- The difference used at a position. -/
def Kind.At (n i : Nat) : Kind → Prop
  | .fwd => i = 0
  | .mid => 0 < i ∧ i < n - 1
  | .bwd => 0 < i ∧ i = n - 1

theorem diff_spec (octave : List ℚ) (src o : Nat) (f : Nat → ℚ) (n i : Nat) (hn : 2 ≤ n) (hi : i < n) (kd : Kind) (hk : kd.At n i)
    (hrd : ∀ j < n, ∀ q : Int, q = src + ((j : Int) - i) * o → rdI octave q = some (f j)) : diff octave src o kd = some (deriv n f i) := by
  unfold deriv
  cases kd with
  | fwd =>
    simp only [Kind.At] at hk
    subst hk
    simp only [diff]
    rw [hrd 1 (by omega) _ (by push_cast; ring), hrd 0 (by omega) _ (by push_cast; ring)]
    simp
  | mid =>
    simp only [Kind.At] at hk
    simp only [diff]
    rw [hrd (i + 1) (by omega) _ (by push_cast; ring), hrd (i - 1) (by omega) _ (by rw [Nat.cast_sub (by omega)]; push_cast; ring)]
    rw [if_neg (by omega), if_neg (by omega)]
    simp only [Option.bind_eq_bind, Option.bind_some]
    congr 1; ring
  | bwd =>
    simp only [Kind.At] at hk
    simp only [diff]
    rw [hrd i (by omega) _ (by push_cast; ring), hrd (i - 1) (by omega) _ (by rw [Nat.cast_sub (by omega)]; push_cast; ring)]
    rw [if_neg (by omega), if_pos hk.2]
    simp

/-- The gradients of the first `N` pixels are in the block. -/
structure GInv (mag ang : ℚ → ℚ → ℚ) (octave : List ℚ) (w h levels : Nat) (out0 out : List ℚ) (N : Nat) : Prop where
  len : out.length = out0.length
  get : ∀ k < levels, ∀ y < h, ∀ x < w, (k * h + y) * w + x < N →
    out[2 * ((k * h + y) * w + x)]? = some (mag (deriv w (fun x => levPix octave w h (k + 1) y x) x) (deriv h (fun y => levPix octave w h (k + 1) y x) y)) ∧
    out[2 * ((k * h + y) * w + x) + 1]? = some (ang (deriv w (fun x => levPix octave w h (k + 1) y x) x) (deriv h (fun y => levPix octave w h (k + 1) y x) y))
  rest : ∀ q, 2 * (levels * h * w) ≤ q → out[q]? = out0[q]?

variable {mag ang : ℚ → ℚ → ℚ} {octave : List ℚ} {w h levels : Nat} {out0 : List ℚ}

theorem lev_lt {w h levels k y x : Nat} (hk : k < levels) (hy : y < h) (hx : x < w) : (k * h + y) * w + x < levels * h * w :=
  Flat.addr_lt (Flat.addr_lt hk hy) hx

theorem gradPixel_spec (ho : (levels + 1) * h * w ≤ octave.length) (hl : 2 * (levels * h * w) ≤ out0.length) (hw : 2 ≤ w) (hh : 2 ≤ h) (k y x : Nat) (hk : k < levels) (hy : y < h)
    (hx : x < w) (kx ky : Kind) (hkx : kx.At w x) (hky : ky.At h y) (st : GSt) (hg : st.g = 2 * ((k * h + y) * w + x)) (hs : st.s = ((k + 1) * h + y) * w + x)
    (hi : GInv mag ang octave w h levels out0 st.out ((k * h + y) * w + x)) :
    ∃ st', gradPixel mag ang octave w kx ky st = some st' ∧ st'.g = st.g + 2 ∧ st'.s = st.s + 1 ∧
      GInv mag ang octave w h levels out0 st'.out ((k * h + y) * w + x + 1) := by
  have hin := lev_lt hk hy hx
  have hread : ∀ y' < h, ∀ x' < w, ∀ q : Int, q = ((((k + 1) * h + y') * w + x' : Nat) : Int) → rdI octave q = some (levPix octave w h (k + 1) y' x') := by
    intro y' hy' x' hx' q hq
    rw [rdI_eq _ _ _ hq]
    have := lev_lt (levels := levels + 1) (k := k + 1) (by omega) hy' hx'
    rw [rd_of_lt (by omega)]
    unfold levPix
    rw [List.getD_eq_getElem _ _ (by omega)]
  unfold gradPixel
  rw [show (1 : Int) = ((1 : Nat) : Int) by rfl]
  rw [diff_spec octave st.s 1 (fun x => levPix octave w h (k + 1) y x) w x hw hx kx hkx (by
    intro j hj q hq
    exact hread y hy j hj q (by rw [hq, hs]; push_cast; ring))]
  simp only [Option.bind_eq_bind, Option.bind_some]
  rw [diff_spec octave st.s w (fun y => levPix octave w h (k + 1) y x) h y hh hy ky hky (by
    intro j hj q hq
    exact hread j hj x hx q (by rw [hq, hs]; push_cast; ring))]
  simp only [Option.bind_some]
  have hl1 : st.g < st.out.length := by rw [hi.len]; omega
  rw [wr_of_lt hl1]
  simp only [Option.bind_some]
  rw [wr_of_lt (by rw [List.length_set, hi.len]; omega)]
  refine ⟨_, rfl, rfl, rfl, by simp [hi.len], ?_, ?_⟩
  · intro k' hk' y' hy' x' hx' hlt
    simp only
    by_cases e : (k' * h + y') * w + x' = (k * h + y) * w + x
    · obtain ⟨e1, e2⟩ := Flat.addr_inj hx' hx e
      obtain ⟨e3, e4⟩ := Flat.addr_inj hy' hy e1
      subst e2 e3 e4
      rw [← hg]
      constructor
      · rw [List.getElem?_set_ne (by omega), List.getElem?_set_self hl1]
      · rw [List.getElem?_set_self (by rw [List.length_set, hi.len]; omega)]
    · obtain ⟨a1, a2⟩ := hi.get k' hk' y' hy' x' hx' (by omega)
      constructor
      · rw [List.getElem?_set_ne (by omega), List.getElem?_set_ne (by omega), a1]
      · rw [List.getElem?_set_ne (by omega), List.getElem?_set_ne (by omega), a2]
  · intro q hq
    simp only
    rw [List.getElem?_set_ne (by omega), List.getElem?_set_ne (by omega)]
    exact hi.rest q hq

theorem gradRow_spec (ho : (levels + 1) * h * w ≤ octave.length) (hl : 2 * (levels * h * w) ≤ out0.length) (hw : 2 ≤ w) (hh : 2 ≤ h) (k y : Nat) (hk : k < levels) (hy : y < h)
    (ky : Kind) (hky : ky.At h y) (st : GSt) (hg : st.g = 2 * ((k * h + y) * w)) (hs : st.s = ((k + 1) * h + y) * w)
    (hi : GInv mag ang octave w h levels out0 st.out ((k * h + y) * w)) :
    ∃ st', gradRow mag ang octave w ky st = some st' ∧ st'.g = 2 * ((k * h + (y + 1)) * w) ∧ st'.s = ((k + 1) * h + (y + 1)) * w ∧
      GInv mag ang octave w h levels out0 st'.out ((k * h + (y + 1)) * w) := by
  obtain ⟨st1, e1, g1, s1, i1⟩ := gradPixel_spec (mag := mag) (ang := ang) ho hl hw hh k y 0 hk hy (by omega) .fwd ky rfl hky st hg hs hi
  unfold gradRow
  rw [e1]
  simp only [Option.bind_eq_bind, Option.bind_some]
  obtain ⟨st2, e2, g2, s2, i2⟩ := iter_inv (n := st1.s - 1 + w - 1 - st1.s) (f := fun _ st => gradPixel mag ang octave w .mid ky st) (s := st1)
    (fun x st => st.g = 2 * ((k * h + y) * w + (x + 1)) ∧ st.s = ((k + 1) * h + y) * w + (x + 1) ∧ GInv mag ang octave w h levels out0 st.out ((k * h + y) * w + (x + 1)))
    ⟨by omega, by omega, i1⟩ (by
    rintro x hx st ⟨a1, a2, a3⟩
    obtain ⟨st', e, b1, b2, b3⟩ := gradPixel_spec (mag := mag) (ang := ang) ho hl hw hh k y (x + 1) hk hy (by omega) .mid ky ⟨by omega, by omega⟩ hky st a1 a2 a3
    exact ⟨st', e, by omega, by omega, b3⟩)
  rw [e2]
  simp only [Option.bind_some]
  rw [show st1.s - 1 + w - 1 - st1.s = w - 2 by omega] at g2 s2 i2
  rw [show w - 2 + 1 = w - 1 by omega] at g2 s2 i2
  obtain ⟨st3, e3, g3, s3, i3⟩ := gradPixel_spec (mag := mag) (ang := ang) ho hl hw hh k y (w - 1) hk hy (by omega) .bwd ky ⟨by omega, rfl⟩ hky st2 g2 s2 i2
  have q1 : (k * h + (y + 1)) * w = (k * h + y) * w + w := by ring
  have q2 : ((k + 1) * h + (y + 1)) * w = ((k + 1) * h + y) * w + w := by ring
  refine ⟨st3, e3, by omega, by omega, ?_⟩
  rw [q1]
  rw [show (k * h + y) * w + (w - 1) + 1 = (k * h + y) * w + w by omega] at i3
  exact i3

/-- **C76.**  For octaves of at least two by two pixels the code stays in the blocks, and the block of gradients gets the modulus and the angle of the vector of the derivatives of every
pixel of the levels from the second on; nothing else is written. -/
theorem gradients_correct (mag ang : ℚ → ℚ → ℚ) (octave : List ℚ) (w h levels : Nat) (out : List ℚ) (hw : 2 ≤ w) (hh : 2 ≤ h)
    (ho : (levels + 1) * h * w ≤ octave.length) (hl : 2 * (levels * h * w) ≤ out.length) :
    ∃ out', gradients mag ang octave w h levels out = some out' ∧ out'.length = out.length ∧
      (∀ k < levels, ∀ y < h, ∀ x < w,
        out'[2 * ((k * h + y) * w + x)]? = some (mag (deriv w (fun x => levPix octave w h (k + 1) y x) x) (deriv h (fun y => levPix octave w h (k + 1) y x) y)) ∧
        out'[2 * ((k * h + y) * w + x) + 1]? = some (ang (deriv w (fun x => levPix octave w h (k + 1) y x) x) (deriv h (fun y => levPix octave w h (k + 1) y x) y))) ∧
      ∀ q, 2 * (levels * h * w) ≤ q → out'[q]? = out[q]? := by
  obtain ⟨out', e, hi⟩ := iter_inv (n := levels) (s := out) (f := fun k out => (do
    let st : GSt := { out := out, g := 2 * (h * w) * k, s := w * h * (k + 1) }
    let st ← gradRow mag ang octave w .fwd st
    let st ← iter (h - 2) (fun _ st => gradRow mag ang octave w .mid st) st
    let st ← gradRow mag ang octave w .bwd st
    some st.out : Option (List ℚ)))
    (fun k out' => GInv mag ang octave w h levels out out' (k * h * w)) ⟨rfl, by intro _ _ _ _ _ _ h; omega, fun _ _ => rfl⟩ (by
    intro k hk out1 hi
    obtain ⟨st1, e1, g1, s1, i1⟩ := gradRow_spec ho hl hw hh k 0 hk (by omega) .fwd rfl { out := out1, g := 2 * (h * w) * k, s := w * h * (k + 1) } (by simp only; ring) (by simp only; ring)
      (by simpa using hi)
    simp only
    rw [e1]
    simp only [Option.bind_eq_bind, Option.bind_some]
    obtain ⟨st2, e2, g2, s2, i2⟩ := iter_inv (n := h - 2) (f := fun _ st => gradRow mag ang octave w .mid st) (s := st1)
      (fun y st => st.g = 2 * ((k * h + (y + 1)) * w) ∧ st.s = ((k + 1) * h + (y + 1)) * w ∧ GInv mag ang octave w h levels out st.out ((k * h + (y + 1)) * w))
      ⟨g1, s1, i1⟩ (by
      rintro y hy st ⟨a1, a2, a3⟩
      exact gradRow_spec ho hl hw hh k (y + 1) hk (by omega) .mid ⟨by omega, by omega⟩ st a1 a2 a3)
    rw [e2]
    simp only [Option.bind_some]
    rw [show h - 2 + 1 = h - 1 by omega] at g2 s2 i2
    obtain ⟨st3, e3, g3, s3, i3⟩ := gradRow_spec ho hl hw hh k (h - 1) hk (by omega) .bwd ⟨by omega, rfl⟩ st2 g2 s2 i2
    rw [e3]
    refine ⟨_, rfl, ?_⟩
    rw [show h - 1 + 1 = h by omega] at i3
    rw [show (k + 1) * h * w = (k * h + h) * w by ring]
    exact i3)
  refine ⟨out', e, hi.len, ?_, hi.rest⟩
  intro k hk y hy x hx
  exact hi.get k hk y hy x hx (lev_lt hk hy hx)

/-- The claim without the condition on the size. -/
def GradientsClaim : Prop := ∀ (mag ang : ℚ → ℚ → ℚ) (octave : List ℚ) (w h levels : Nat) (out : List ℚ), 1 ≤ w → 1 ≤ h →
  octave.length = (levels + 3) * h * w → out.length = 2 * (h * w) * (levels + 2) → gradients mag ang octave w h levels out ≠ none

/-- With one level per octave and a single pixel the code writes four gradients and reads past the level; with one row of one pixel it leaves the blocks. -/
theorem gradients_claim_false : ¬ GradientsClaim := by
  intro h
  exact h (fun _ _ => 0) (fun _ _ => 0) [0, 0, 0, 0] 1 1 1 [0, 0, 0, 0, 0, 0] (by decide) (by decide) rfl rfl (by decide +kernel)

/-- The hypotheses can be met. -/
example : ∃ out, gradients (fun x y => x + y) (fun x y => x - y) [0, 0, 0, 0, 0, 0, 1, 2, 3, 4, 5, 7] 3 2 1 (List.replicate 12 0) = some out ∧ out[4]? = some (5 : ℚ) := by
  obtain ⟨out, h, -, h', -⟩ := gradients_correct (fun x y => x + y) (fun x y => x - y) [0, 0, 0, 0, 0, 0, 1, 2, 3, 4, 5, 7] 3 2 1 (List.replicate 12 0)
    (by decide) (by decide) (by decide) (by decide)
  refine ⟨out, h, ?_⟩
  have := (h' 0 (by decide) 0 (by decide) 2 (by decide)).1
  rw [show 2 * ((0 * 2 + 0) * 3 + 2) = 4 by rfl] at this
  rw [this]
  decide +kernel

end Verif.Sift
