import Verif.Sift.RefineLemmas

/-!
# C59: the SIFT detector finds the extrema and its refinement stays inside the octave
-/

namespace Verif.Sift

theorem mem_extrema {D : Int → Int → Int → ℚ} {tp : ℚ} {w h : Nat} {L : Int} {t y x : Int} :
    (t, y, x) ∈ extrema D tp w h L ↔ 1 ≤ t ∧ t ≤ L - 2 ∧ 1 ≤ y ∧ y ≤ (h : Int) - 2 ∧ 1 ≤ x ∧ x ≤ (w : Int) - 2 ∧ Extremum D tp t y x := by
  unfold extrema
  simp only [List.mem_flatMap, mem_intRange]
  constructor
  · rintro ⟨t', ht, y', hy, x', hx, h⟩
    split at h
    · rename_i he
      rw [List.mem_singleton] at h
      simp only [Prod.mk.injEq] at h
      obtain ⟨rfl, rfl, rfl⟩ := h
      exact ⟨ht.1, ht.2, hy.1, hy.2, hx.1, hx.2, he⟩
    · simp at h
  · rintro ⟨h1, h2, h3, h4, h5, h6, h7⟩
    exact ⟨t, ⟨h1, h2⟩, y, ⟨h3, h4⟩, x, ⟨h5, h6⟩, by rw [if_pos h7]; simp⟩

/-- **C59.**  The detector never accesses memory out of its blocks, whatever the octave holds.  The keypoints it reports are those of the extrema of the differences of
Gaussians, each replaced by the point reached in at most four moves of one pixel, which is an inner point of the octave at most four pixels away, with the offset
to the stationary point there; those that do not meet the thresholds are removed and the others are in the order of the extrema. -/
theorem detect_correct (eps : ℚ) (he : 0 < eps) (xper : ℚ) (sig : ℚ → ℚ) (junk : Keypoint) (f : DetFilt)
    (ho : ((f.sMax - f.sMin).toNat + 1) * (f.w * f.h) ≤ f.octave.length) (hd : (f.sMax - f.sMin).toNat * (f.w * f.h) ≤ f.dog.length)
    (hk : f.keys.length = f.keysRes) (_hte : 0 < f.te) :
    ∃ (f' : DetFilt) (r : Int × Int × Int → Option Keypoint),
      detect eps xper sig junk f = some f' ∧
      f'.keys.length = f'.keysRes ∧ f'.nkeys ≤ f'.keysRes ∧
      f'.keys.take f'.nkeys = (extrema (dogOf f.octave f.w f.h) f.tp f.w f.h (f.sMax - f.sMin)).filterMap r ∧
      ∀ t y x, (t, y, x) ∈ extrema (dogOf f.octave f.w f.h) f.tp f.w f.h (f.sMax - f.sMin) → ∃ y' x' b,
        Walk eps (dogOf f.octave f.w f.h) f.w f.h t 4 y x y' x' b ∧
        1 ≤ y' ∧ y' ≤ f.h - 2 ∧ 1 ≤ x' ∧ x' ≤ f.w - 2 ∧ |x' - x| ≤ 4 ∧ |y' - y| ≤ 4 ∧
        (Accept (dogOf f.octave f.w f.h) f.te f.tp f.w f.h (f.sMax - f.sMin) t y' x' b →
          r (t, y, x) = some { o := f.oCur, ix := x', iy := y', is := f.sMin + t, x := (x' + b 0) * xper, y := (y' + b 1) * xper,
                               s := f.sMin + t + b 2, sigma := sig (f.sMin + t + b 2) * xper }) ∧
        (¬ Accept (dogOf f.octave f.w f.h) f.te f.tp f.w f.h (f.sMax - f.sMin) t y' x' b → r (t, y, x) = none) := by
  obtain ⟨dog, e1, hdl, hq⟩ := dogLevels_spec f.octave f.w f.h (f.sMax - f.sMin).toNat f.dog ho hd
  have hD := holds_of f.octave dog f.w f.h _ hq
  generalize dogOf f.octave f.w f.h = D at *
  obtain ⟨st, e2, g1, g2, g3⟩ := findExtrema_spec junk dog D f.w f.h f.sMin f.sMax hD f.tp f.keys f.keysRes hk
  have hpt : ∀ t y x, (t, y, x) ∈ extrema D f.tp f.w f.h (f.sMax - f.sMin) → _ := fun t y x hm =>
    have hm := mem_extrema.mp hm
    refinePoint_spec eps he xper sig dog D f.w f.h f.sMin f.sMax f.oCur hD f.te f.tp x y (f.sMin + t) (by omega) (by omega) (by omega) (by omega) (by omega) (by omega)
  obtain ⟨keys', k, e3, k1, k2, k3⟩ := refineAll_spec (refinePoint eps xper sig dog f.w f.h f.sMin f.sMax f.oCur f.te f.tp) st.nkeys st.keys (by omega) (by
    intro kp hkp hnone
    have hm : posOf f.sMin kp ∈ extrema D f.tp f.w f.h (f.sMax - f.sMin) := by rw [← g3]; exact List.mem_map_of_mem hkp
    obtain ⟨r, y', x', b, er, -⟩ := hpt _ _ _ hm
    rw [show f.sMin + (kp.is - f.sMin) = kp.is by ring] at er
    rw [er] at hnone
    cases hnone)
  refine ⟨{ f with dog := dog, keys := keys', nkeys := k, keysRes := st.keysRes },
    fun p => (refinePoint eps xper sig dog f.w f.h f.sMin f.sMax f.oCur f.te f.tp p.2.2 p.2.1 (f.sMin + p.1)).join, ?_, by simp only; omega, by simp only; omega, ?_, ?_⟩
  · unfold detect
    rw [e1]
    simp only [Option.bind_eq_bind, Option.bind_some]
    rw [e2]
    simp only [Option.bind_some]
    rw [e3]
    rfl
  · simp only
    rw [k3, ← g3, List.filterMap_map]
    apply List.filterMap_congr
    intro kp _
    simp only [Function.comp, posOf]
    rw [show f.sMin + (kp.is - f.sMin) = kp.is by ring]
  · intro t y x hm
    obtain ⟨r, y', x', b, er, hw, h1, h2⟩ := hpt t y x hm
    have hm' := mem_extrema.mp hm
    rw [show f.sMin + t - f.sMin = t by ring] at hw h1 h2
    obtain ⟨d1, d2, d3, d4, d5, d6⟩ := hw.dist (by omega) (by omega) (by omega) (by omega)
    refine ⟨y', x', b, hw, d1, by omega, d3, by omega, d5, d6, ?_, ?_⟩
    · intro ha
      simp only
      rw [er, h1 ha]
      push_cast
      rfl
    · intro ha
      simp only
      rw [er, h2 ha]
      rfl

/-- The hypotheses can be met, with an octave of three differences that has an extremum in the middle. -/
example : ∃ f : DetFilt, f.sMin ≤ f.sMax ∧ ((f.sMax - f.sMin).toNat + 1) * (f.w * f.h) ≤ f.octave.length ∧
    (f.sMax - f.sMin).toNat * (f.w * f.h) ≤ f.dog.length ∧ f.keys.length = f.keysRes ∧ 0 < f.te ∧
    extrema (dogOf f.octave f.w f.h) f.tp f.w f.h (f.sMax - f.sMin) = [(1, 1, 1)] :=
  ⟨{ octave := List.replicate 22 0 ++ [1] ++ List.replicate 8 0 ++ [1] ++ List.replicate 4 0, dog := List.replicate 27 0, w := 3, h := 3, sMin := -1, sMax := 2,
     oCur := 0, te := 10, tp := 1 / 10, keys := [], nkeys := 0, keysRes := 0 }, by decide, by decide, by decide, by decide, by decide, by decide +kernel⟩

end Verif.Sift
