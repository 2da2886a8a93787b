import Verif.Sift.DetectProps
import Verif.Sift.DescrModel
import Mathlib.Tactic.Linarith
import Mathlib.Tactic.NormNum
import Mathlib.Tactic.FieldSimp

/-!
# C176: which detected keypoints have a descriptor

`vl_sift_calc_keypoint_descriptor` returns without writing when its checks at vl/sift.c:1976-1984 fail; `vl_sift_detect` keeps keypoints that do not pass them.
-/

namespace Verif.Sift

/-- The claim: every keypoint that the detector keeps is at a place of the octave, in whole pixels, with a descriptor. -/
def DetectedClaim : Prop := ∀ (eps : ℚ) (xper : ℚ) (sig : ℚ → ℚ) (junk : Keypoint) (f f' : DetFilt), 0 < eps → 0 < xper →
  ((f.sMax - f.sMin).toNat + 1) * (f.w * f.h) ≤ f.octave.length → (f.sMax - f.sMin).toNat * (f.w * f.h) ≤ f.dog.length → f.keys.length = f.keysRes → 0 < f.te →
  detect eps xper sig junk f = some f' → ∀ k ∈ f'.keys.take f'.nkeys,
    0 ≤ trunc (k.x / xper + 1 / 2) ∧ trunc (k.x / xper + 1 / 2) < f.w ∧ 0 ≤ trunc (k.y / xper + 1 / 2) ∧ trunc (k.y / xper + 1 / 2) < (f.h : Int) - 1 ∧ f.sMin + 1 ≤ k.is ∧ k.is ≤ f.sMax - 2

theorem trunc_round (v : ℚ) (n : Nat) (h0 : 0 ≤ v) (h1 : v ≤ (n : ℚ) - 1) : 0 ≤ trunc (v + 1 / 2) ∧ trunc (v + 1 / 2) < n := by
  unfold trunc
  rw [if_pos (by linarith)]
  refine ⟨Int.floor_nonneg.mpr (by linarith), ?_⟩
  rw [Int.floor_lt]
  push_cast
  linarith

/-- **C176.**  The keypoints that the detector keeps are in the current octave, at a pixel of the octave and at a level with gradients.  They have a descriptor except those in the last row: what
is missing is the stronger bound on the row, which does not hold, see `detected_claim_false`. -/
theorem detected_partial (eps : ℚ) (he : 0 < eps) (xper : ℚ) (hx : 0 < xper) (sig : ℚ → ℚ) (junk : Keypoint) (f : DetFilt)
    (ho : ((f.sMax - f.sMin).toNat + 1) * (f.w * f.h) ≤ f.octave.length) (hd : (f.sMax - f.sMin).toNat * (f.w * f.h) ≤ f.dog.length)
    (hk : f.keys.length = f.keysRes) (hte : 0 < f.te) :
    ∃ f', detect eps xper sig junk f = some f' ∧ ∀ k ∈ f'.keys.take f'.nkeys, k.o = f.oCur ∧
      0 ≤ trunc (k.x / xper + 1 / 2) ∧ trunc (k.x / xper + 1 / 2) < f.w ∧ 0 ≤ trunc (k.y / xper + 1 / 2) ∧ trunc (k.y / xper + 1 / 2) < f.h ∧ f.sMin + 1 ≤ k.is ∧ k.is ≤ f.sMax - 2 ∧
      (trunc (k.y / xper + 1 / 2) ≠ (f.h : Int) - 1 → ∀ (df : DescrFilt) (grad d1 d2 : List ℚ) (sigma st0 ct0 a : ℚ),
        keypointDescriptor df grad d1 f.w f.h f.sMin f.sMax true (k.x / xper) (k.y / xper) sigma k.is st0 ct0 a =
        keypointDescriptor df grad d2 f.w f.h f.sMin f.sMax true (k.x / xper) (k.y / xper) sigma k.is st0 ct0 a) := by
  obtain ⟨f', r, e, -, -, hl, hr⟩ := detect_correct eps he xper sig junk f ho hd hk hte
  refine ⟨f', e, ?_⟩
  intro k hkm
  rw [hl, List.mem_filterMap] at hkm
  obtain ⟨⟨t, y, x⟩, hm, hrk⟩ := hkm
  obtain ⟨y', x', b, -, -, -, -, -, -, -, ha, hna⟩ := hr t y x hm
  have hm' := mem_extrema.mp hm
  by_cases hacc : Accept (dogOf f.octave f.w f.h) f.te f.tp f.w f.h (f.sMax - f.sMin) t y' x' b
  · rw [ha hacc] at hrk
    obtain rfl := Option.some.inj hrk
    obtain ⟨-, -, -, -, a1, a2, a3, a4, -, -⟩ := hacc
    dsimp only
    rw [mul_div_cancel_right₀ _ (ne_of_gt hx), mul_div_cancel_right₀ _ (ne_of_gt hx)]
    have hxx := trunc_round _ _ a1 a2
    have hyy := trunc_round _ _ a3 a4
    refine ⟨rfl, hxx.1, hxx.2, hyy.1, hyy.2, by omega, by omega, ?_⟩
    intro hne df grad d1 d2 sigma st0 ct0 a
    unfold keypointDescriptor
    dsimp only
    have hn : ¬ (true = false ∨ trunc ((x' : ℚ) + b 0 + 1 / 2) < 0 ∨ trunc ((x' : ℚ) + b 0 + 1 / 2) ≥ (f.w : Int) ∨ trunc ((y' : ℚ) + b 1 + 1 / 2) < 0 ∨
        trunc ((y' : ℚ) + b 1 + 1 / 2) ≥ (f.h : Int) - 1 ∨ f.sMin + t < f.sMin + 1 ∨ f.sMin + t > f.sMax - 2) := by
      rintro (h | h | h | h | h | h | h)
      · cases h
      all_goals omega
    rw [if_neg hn, if_neg hn]
  · rw [hna hacc] at hrk
    cases hrk

/-- An octave of 3 by 3 pixels: the difference in the middle has its maximum at the middle and the stationary point of the quadratic is 0.8 rows and columns further. -/
def exDet : DetFilt :=
  { octave := List.replicate 9 0 ++ List.replicate 9 (-1) ++ [-1/10, -9/10, -11/10, -9/10, 0, -1/10, -11/10, -1/10, -1/10] ++ [-11/10, -19/10, -21/10, -19/10, -1, -11/10, -21/10, -11/10, -11/10]
    dog := List.replicate 27 0, w := 3, h := 3, sMin := -1, sMax := 2, oCur := 0, te := 10, tp := 0, keys := [], nkeys := 0, keysRes := 0 }

/-- C176.  Refuted: a keypoint of the last inner row can be refined to the last row, where the descriptor is not written. -/
theorem detected_claim_false : ¬ DetectedClaim := by
  intro h
  have e : ((detect (1 / 1000) 1 id ⟨0, 0, 0, 0, 0, 0, 0, 0⟩ exDet).map fun g => (g.keys.take g.nkeys).map fun k => trunc (k.y / 1 + 1 / 2)) = some [2] := by decide +kernel
  rw [Option.map_eq_some_iff] at e
  obtain ⟨g, eg, hg⟩ := e
  have h1 := h (1 / 1000) 1 id ⟨0, 0, 0, 0, 0, 0, 0, 0⟩ exDet g (by norm_num) (by norm_num) (by decide) (by decide) rfl (by norm_num [exDet]) eg
  obtain ⟨k, hk, e2⟩ := List.mem_map.mp (show (2 : Int) ∈ (g.keys.take g.nkeys).map fun k => trunc (k.y / 1 + 1 / 2) by rw [hg]; simp)
  obtain ⟨-, -, -, h2, -⟩ := h1 k hk
  rw [e2] at h2
  exact absurd h2 (by decide)

/-- The hypotheses of C176 can be met. -/
example : ∃ f', detect (1 / 1000) 1 id ⟨0, 0, 0, 0, 0, 0, 0, 0⟩ exDet = some f' ∧ ∀ k ∈ f'.keys.take f'.nkeys, k.o = 0 := by
  obtain ⟨f', e, h⟩ := detected_partial (1 / 1000) (by norm_num) 1 (by norm_num) id ⟨0, 0, 0, 0, 0, 0, 0, 0⟩ exDet (by decide) (by decide) rfl (by norm_num [exDet])
  exact ⟨f', e, fun k hk => (h k hk).1⟩

end Verif.Sift
