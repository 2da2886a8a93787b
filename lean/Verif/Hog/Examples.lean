import Verif.Hog.AccProps
import Verif.Hog.PolarProps
import Verif.Hog.ExtProps

/-!
# Concrete cases for the HOG theorems
-/

namespace Verif.Hog

/-- Two orientations; the square root is the identity, which is enough for an example. -/
def exCfg : Cfg := { variant := .uoctti, O := 2, transposed := false, bilinear := false, ox := [1, 0], oy := [0, 1], sq := id, acos := id, pi := 22 / 7 }

/-- A 4 x 4 image with a vertical edge. -/
def exImage : List ℚ := [0, 0, 1, 1, 0, 0, 1, 1, 0, 0, 1, 1, 0, 0, 1, 1]

example : (putImage exCfg none exImage 4 4 1 2).map (fun b => (b.w, b.h, b.hog)) = some (2, 2, [1, 1, 1, 1, 0, 0, 0, 0, 0, 0, 0, 0, 0, 0, 0, 0]) := by decide +kernel

/-- The hypotheses of `putImage_correct` are met. -/
example : ∃ (b : Bufs) (g : Nat → Nat → ℚ × ℚ) (ow : Nat → Nat → Nat → ℚ), putImage exCfg none exImage 4 4 1 2 = some b ∧ b.w = 2 ∧ b.h = 2 ∧
    entry b.hog 2 2 1 0 0 = some (∑ y ∈ Finset.Icc 1 2, ∑ x ∈ Finset.Icc 1 2, exCfg.sq (norm2 (g x y)) * ow x y 0 * share 2 x y 1 0) := by
  obtain ⟨b, g, ow, h1, h2, h3, -, -, -, h7⟩ := putImage_correct exCfg none exImage 4 4 1 2 (by decide) rfl rfl (by intro b h; cases h) rfl (by decide) (by decide) (by decide) (by decide) (by decide)
  have h2' : b.w = 2 := h2
  have h3' : b.h = 2 := h3
  refine ⟨b, g, ow, h1, h2', h3', ?_⟩
  have := h7 1 (by omega) 0 (by omega) 0 (by decide)
  rw [h2', h3'] at this
  exact this

/-- The hypotheses of `putImage_mass` are met. -/
example : ∃ (b : Bufs) (g : Nat → Nat → ℚ × ℚ), putImage exCfg none exImage 4 4 1 2 = some b ∧
    ∑ p ∈ Finset.range 4, ∑ Y ∈ Finset.range 2, ∑ X ∈ Finset.range 2, (entry b.hog b.w b.h X Y p).getD 0 = ∑ y ∈ Finset.Icc 1 2, ∑ x ∈ Finset.Icc 1 2, exCfg.sq (norm2 (g x y)) * (coverage 2 4 x * coverage 2 4 y) := by
  obtain ⟨b, g, h1, -, h3⟩ := putImage_mass exCfg none exImage 4 4 1 2 (by decide) rfl rfl (by intro b h; cases h) rfl (by decide) (by decide) (by decide) (by decide) (by decide) (Or.inl rfl)
  exact ⟨b, g, h1, h3⟩

/-- All the mass of pixels away from the border is kept; a pixel at the corner keeps a part of it. -/
example : coverage 2 4 1 = 1 ∧ coverage 2 4 0 = 3 / 4 ∧ coverage 4 7 6 = 7 / 8 := by decide +kernel

/-- The vectors point to the second orientation, and the hypotheses of `putPolarField_partial` are met. -/
example : (putPolarField exCfg none (List.replicate 16 1) (List.replicate 16 (11 / 7)) true 4 4 4).map (fun b => (b.w, b.h, b.hog)) = some (1, 1, [0, 9, 0, 0]) := by decide +kernel

example : ∃ b : Bufs, putPolarField exCfg none (List.replicate 16 1) (List.replicate 16 (11 / 7)) true 4 4 4 = some b ∧ b.w = 1 := by
  obtain ⟨b, h1, h2, -⟩ := putPolarField_partial exCfg none (List.replicate 16 1) (List.replicate 16 (11 / 7)) true 4 4 4 (by decide) (by intro b h; cases h) rfl rfl (by decide) (by decide) (by decide) (by decide) (by decide)
  exact ⟨b, h1, h2⟩

/-- Two cells side by side, and their mirror image. -/
def exBufs : Bufs := { hog := [1, 2, 0, 0, 0, 0, 3, 0], norm := [0, 0], w := 2, h := 1 }
def exMirror : Bufs := { hog := [0, 0, 0, 0, 2, 1, 0, 3], norm := [0, 0], w := 2, h := 1 }

theorem exHists : ∀ X < 2, ∀ Y < 1, MirrorHist 2 (hist exBufs.hog 2 1 (mirrorX false 2 X) (mirrorY false 1 Y)) (hist exMirror.hog 2 1 X Y) := by
  intro X hX Y hY p q hp hq h
  have : ∀ X < 2, ∀ Y < 1, ∀ p < 2 * 2, ∀ q < 2 * 2, (p + q) % (2 * 2) = 2 → hist exMirror.hog 2 1 X Y p = hist exBufs.hog 2 1 (mirrorX false 2 X) (mirrorY false 1 Y) q := by decide +kernel
  exact this X hX Y hY p hp q hq h

/-- The hypotheses of `extract_correct` and `extract_mirror` are met. -/
example : ∃ r r' o o', extract exCfg exBufs (List.replicate 20 7) = some (r, o) ∧ extract exCfg exMirror (List.replicate 20 7) = some (r', o') ∧
    entry o' 2 1 0 0 0 = entry o 2 1 1 0 2 := by
  obtain ⟨r, r', o, o', h1, h2, h3⟩ := extract_mirror exCfg exBufs exMirror (List.replicate 20 7) (List.replicate 20 7) ⟨rfl, rfl⟩ ⟨rfl, rfl⟩ rfl rfl rfl rfl (by decide) (fun a ha => ne_of_gt ha)
    (by decide) (by decide) exHists (List.replicate 10 0) [2, 1, 0, 3, 4, 5, 7, 6, 9, 8] (by decide) (by decide)
  refine ⟨r, r', o, o', h1, h2, ?_⟩
  obtain ⟨e, e1, -, e3⟩ := h3 0 (by decide) 0 (by decide) 0 (by decide)
  have : 2 = e := Option.some_inj.1 e1
  rw [← this] at e3
  exact e3

end Verif.Hog
