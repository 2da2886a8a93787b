import Verif.Dsift.DescrModel
import Verif.Dsift.DescrSpec
import Verif.Imop.TriProps
import Verif.Flat
import Mathlib.Tactic.Linarith
import Mathlib.Tactic.FieldSimp
import Mathlib.Algebra.BigOperators.Intervals

set_option linter.unusedSectionVars false

/-!
# Lemmas for the dense SIFT descriptors
-/

namespace Verif.Dsift

open Finset

/-! ## Gradients -/

/-- `T` images of `h` rows of `w` pixels -/
structure Grads (g : List (List ℚ)) (T h w : Nat) (F : Nat → Nat → Nat → ℚ) : Prop where
  len : g.length = T
  get : ∀ t < T, ∃ im, g[t]? = some im ∧ Flat im h w (F t)

theorem Grads.congr {g : List (List ℚ)} {T h w : Nat} {F F' : Nat → Nat → Nat → ℚ} (hg : Grads g T h w F) (e : ∀ t < T, ∀ y < h, ∀ x < w, F t y x = F' t y x) : Grads g T h w F' :=
  ⟨hg.len, fun t ht => by obtain ⟨im, h1, h2⟩ := hg.get t ht; exact ⟨im, h1, h2.congr (fun y hy x hx => e t ht y hy x hx)⟩⟩

theorem putGrad_spec {g : List (List ℚ)} {T h w : Nat} {F : Nat → Nat → Nat → ℚ} (hg : Grads g T h w F) {t y x : Nat} (ht : t < T) (hy : y < h) (hx : x < w) (v : ℚ) :
    ∃ g', putGrad g (t : Nat) (x + y * w) v = some g' ∧ Grads g' T h w (fun t' y' x' => if t' = t ∧ y' = y ∧ x' = x then v else F t' y' x') := by
  obtain ⟨im, h1, h2⟩ := hg.get t ht
  obtain ⟨im', e, h3⟩ := h2.wr hy hx v
  refine ⟨g.set t im', ?_, by simp [hg.len], fun t' ht' => ?_⟩
  · unfold putGrad
    rw [rdI_nat, rd_getElem?, h1, Option.bind_eq_bind, Option.bind_some, Nat.add_comm x, e, Option.bind_some, wrI_nat, wr_of_lt (by rw [hg.len]; exact ht)]
  · by_cases et : t' = t
    · subst et
      refine ⟨im', List.getElem?_set_self (by rw [hg.len]; exact ht), h3.congr fun y' hy' x' hx' => ?_⟩
      unfold upd2
      by_cases e : y' = y ∧ x' = x
      · rw [if_pos e, if_pos ⟨rfl, e⟩]
      · rw [if_neg e, if_neg (fun h => e h.2)]
    · obtain ⟨im2, a1, a2⟩ := hg.get t' ht'
      refine ⟨im2, by rw [List.getElem?_set_ne (Ne.symm et)]; exact a1, a2.congr fun y' _ x' _ => ?_⟩
      rw [if_neg (fun h => et h.1)]

/-- The image as a function -/
def imF (im : List ℚ) (w y x : Nat) : ℚ := im.getD (y * w + x) 0

section grad

variable {im : List ℚ} {w h : Nat}

theorem imAt_spec (hl : im.length = h * w) {x y : Int} (hx : 0 ≤ x) (hx' : x < w) (hy : 0 ≤ y) (hy' : y < h) : imAt im w x y = some (imF im w y.toNat x.toNat) := by
  obtain ⟨x, rfl⟩ := Int.eq_ofNat_of_zero_le hx
  obtain ⟨y, rfl⟩ := Int.eq_ofNat_of_zero_le hy
  have := Flat.addr_lt (n := h) (m := w) (i := y) (j := x) (by omega) (by omega)
  unfold imAt imF
  rw [rdI_eq _ _ (y * w + x) (by push_cast; rfl), rd_of_lt (by omega), List.getD_eq_getElem?_getD, Int.toNat_natCast, Int.toNat_natCast, List.getElem?_eq_getElem (by omega), Option.getD_some]

theorem gradYAt_spec (hl : im.length = h * w) (hh : 2 ≤ h) {x y : Nat} (hx : x < w) (hy : y < h) : gradYAt im w h x y = some (Imop.gradY h (imF im w) y x) := by
  unfold gradYAt Imop.gradY Imop.diff
  by_cases h0 : y = 0
  · rw [if_pos h0, if_pos h0, imAt_spec hl (by omega) (by omega) (by omega) (by omega), imAt_spec hl (by omega) (by omega) (by omega) (by omega)]
    subst h0
    rfl
  · rw [if_neg h0, if_neg h0]
    by_cases h1 : y + 1 = h
    · rw [if_pos (by omega), if_pos h1, imAt_spec hl (by omega) (by omega) (by omega) (by omega), imAt_spec hl (by omega) (by omega) (by omega) (by omega)]
      rw [show ((y : Int) - 1).toNat = y - 1 by omega]
      rfl
    · rw [if_neg (by omega), if_neg h1, imAt_spec hl (by omega) (by omega) (by omega) (by omega), imAt_spec hl (by omega) (by omega) (by omega) (by omega)]
      rw [show ((y : Int) - 1).toNat = y - 1 by omega, show ((y : Int) + 1).toNat = y + 1 by omega, Int.toNat_natCast]
      simp only [Option.bind_eq_bind, Option.bind_some]
      congr 1
      ring

theorem gradXAt_spec (hl : im.length = h * w) (hw : 2 ≤ w) {x y : Nat} (hx : x < w) (hy : y < h) : gradXAt im w x y = some (Imop.gradX w (imF im w) y x) := by
  unfold gradXAt Imop.gradX Imop.diff
  by_cases h0 : x = 0
  · rw [if_pos h0, if_pos h0, imAt_spec hl (by omega) (by omega) (by omega) (by omega), imAt_spec hl (by omega) (by omega) (by omega) (by omega)]
    subst h0
    rfl
  · rw [if_neg h0, if_neg h0]
    by_cases h1 : x + 1 = w
    · rw [if_pos (by omega), if_pos h1, imAt_spec hl (by omega) (by omega) (by omega) (by omega), imAt_spec hl (by omega) (by omega) (by omega) (by omega)]
      rw [show ((x : Int) - 1).toNat = x - 1 by omega]
      rfl
    · rw [if_neg (by omega), if_neg h1, imAt_spec hl (by omega) (by omega) (by omega) (by omega), imAt_spec hl (by omega) (by omega) (by omega) (by omega)]
      rw [show ((x : Int) - 1).toNat = x - 1 by omega, show ((x : Int) + 1).toNat = x + 1 by omega, Int.toNat_natCast]
      simp only [Option.bind_eq_bind, Option.bind_some]
      congr 1
      ring

variable {M : Maths} {T : Nat}

theorem mod_ne (hT : 2 ≤ T) (a : Int) : a % T ≠ (a + 1) % T := by
  intro h
  have h2 : ((a + 1) - a) % (T : Int) = 0 := Int.emod_emod_of_dvd _ (dvd_refl (T : Int)) ▸ by rw [Int.sub_emod, h, sub_self]; simp
  rw [show a + 1 - a = 1 by ring, Int.emod_eq_of_lt (by omega) (by omega)] at h2
  omega

theorem gradPixel_spec (hl : im.length = h * w) (hw : 2 ≤ w) (hh : 2 ≤ h) (hT : 2 ≤ T) (hM : ∀ gy gx, 0 ≤ M.turn gy gx) {x y : Nat} (hx : x < w) (hy : y < h) {g : List (List ℚ)} {F : Nat → Nat → Nat → ℚ} (hg : Grads g T h w F) (h0 : ∀ t < T, F t y x = 0) :
    ∃ g', gradPixel M T im w h y x g = some g' ∧ Grads g' T h w (fun t y' x' => if y' = y ∧ x' = x then oriented M.sqrt M.turn T w h (imF im w) t y x else F t y' x') := by
  obtain ⟨gx, hgx⟩ : ∃ gx, gx = Imop.gradX w (imF im w) y x := ⟨_, rfl⟩
  obtain ⟨gy, hgy⟩ : ∃ gy, gy = Imop.gradY h (imF im w) y x := ⟨_, rfl⟩
  have hf : 0 ≤ ⌊M.turn gy gx⌋ := Int.floor_nonneg.2 (hM gy gx)
  have hTT : (0 : Int) < T := by omega
  have m1 := Int.emod_nonneg ⌊M.turn gy gx⌋ (show (T : Int) ≠ 0 by omega)
  have m2 := Int.emod_lt_of_pos ⌊M.turn gy gx⌋ hTT
  have m3 := Int.emod_nonneg (⌊M.turn gy gx⌋ + 1) (show (T : Int) ≠ 0 by omega)
  have m4 := Int.emod_lt_of_pos (⌊M.turn gy gx⌋ + 1) hTT
  obtain ⟨t1, e1⟩ := Int.eq_ofNat_of_zero_le m1
  obtain ⟨t2, e2⟩ := Int.eq_ofNat_of_zero_le m3
  have hne : t1 ≠ t2 := by
    intro e
    exact mod_ne hT ⌊M.turn gy gx⌋ (by rw [e1, e2, e])
  obtain ⟨g1, p1, q1⟩ := putGrad_spec hg (t := t1) (by omega) hy hx ((1 - (M.turn gy gx - ⌊M.turn gy gx⌋)) * M.sqrt (gx * gx + gy * gy))
  obtain ⟨g2, p2, q2⟩ := putGrad_spec q1 (t := t2) (by omega) hy hx ((M.turn gy gx - ⌊M.turn gy gx⌋) * M.sqrt (gx * gx + gy * gy))
  refine ⟨g2, ?_, q2.congr ?_⟩
  · unfold gradPixel
    rw [gradYAt_spec hl hh hx hy, gradXAt_spec hl hw hx hy, ← hgx, ← hgy]
    simp only [Option.bind_eq_bind, Option.bind_some]
    rw [Int.tmod_eq_emod_of_nonneg hf, Int.tmod_eq_emod_of_nonneg (by omega), e1, e2, p1, Option.bind_some, p2]
  · intro t ht y' _ x' _
    unfold oriented share
    rw [← hgx, ← hgy, e1, e2]
    by_cases hp : y' = y ∧ x' = x
    · obtain ⟨rfl, rfl⟩ := hp
      simp only [and_true, if_true, Nat.cast_inj, and_self]
      by_cases c2 : t = t2
      · rw [if_pos c2, if_neg (show ¬ t = t1 by omega), if_pos c2, Int.fract, sq, sq]
        ring
      · rw [if_neg c2]
        by_cases c1 : t = t1
        · rw [if_pos c1, if_pos c1, Int.fract, sq, sq]
          ring
        · rw [if_neg c1, if_neg c1, if_neg c2, h0 t ht, mul_zero]
    · rw [if_neg (fun h => hp h.2), if_neg (fun h => hp h.2), if_neg hp]

/-- The images of the gradients -/
theorem gradients_spec (hl : im.length = h * w) (hw : 2 ≤ w) (hh : 2 ≤ h) (hT : 2 ≤ T) (hM : ∀ gy gx, 0 ≤ M.turn gy gx) :
    ∃ g, gradients M T im w h = some g ∧ Grads g T h w (oriented M.sqrt M.turn T w h (imF im w)) := by
  unfold gradients
  obtain ⟨g, e, hg⟩ := iter_inv (n := h) (f := fun y g => iter w (fun x g => gradPixel M T im w h y x g) g) (s := List.replicate T (List.replicate (w * h) 0))
    (fun y g => Grads g T h w (fun t y' x' => if y' < y then oriented M.sqrt M.turn T w h (imF im w) t y' x' else 0))
    ⟨by simp, fun t ht => ⟨_, List.getElem?_replicate_of_lt ht, by rw [Nat.mul_comm]; exact (Flat.replicate h w 0).congr (by simp)⟩⟩ (by
      intro y hy g hg
      obtain ⟨g', e', hg'⟩ := iter_inv (n := w) (f := fun x g => gradPixel M T im w h y x g) (s := g)
        (fun x g => Grads g T h w (fun t y' x' => if y' < y ∨ (y' = y ∧ x' < x) then oriented M.sqrt M.turn T w h (imF im w) t y' x' else 0))
        (hg.congr (by intro t _ y' _ x' _; simp)) (by
          intro x hx g hg
          obtain ⟨g', e', hg'⟩ := gradPixel_spec (M := M) hl hw hh hT hM hx hy hg (by intro t _; rw [if_neg (by omega)])
          refine ⟨g', e', hg'.congr ?_⟩
          intro t _ y' _ x' _
          by_cases hp : y' = y ∧ x' = x
          · rw [if_pos hp, if_pos (by omega), hp.1, hp.2]
          · rw [if_neg hp]
            by_cases hq : y' < y ∨ (y' = y ∧ x' < x)
            · rw [if_pos hq, if_pos (by omega)]
            · rw [if_neg hq, if_neg (by omega)])
      refine ⟨g', e', hg'.congr ?_⟩
      intro t _ y' _ x' hx'
      by_cases hq : y' < y + 1
      · rw [if_pos hq, if_pos (by omega)]
      · rw [if_neg hq, if_neg (by omega)])
  exact ⟨g, e, hg.congr (fun t _ y hy x _ => by rw [if_pos hy])⟩

end grad

/-! ## Convolutions -/

section conv

variable {w h : Nat} {buf src : List ℚ} {F : Nat → Nat → ℚ}

theorem flat_fits (hs : Flat src h w F) : Imop.Fits src.length w w h := fun x hx y hy => by
  rw [hs.len]; exact Flat.addr_lt hy hx

theorem flat_pix (hs : Flat src h w F) {x y : Nat} (hx : x < w) (hy : y < h) : Imop.pix src w x y = F y x := by
  unfold Imop.pix
  rw [List.getD_eq_getElem?_getD, hs.get y hy x hx, Option.getD_some]

/-- A convolution along the columns that transposes the image -/
theorem convcol_flat (hh : 0 < h) (hb : buf.length = w * h) (hs : Flat src h w F) {filt : List ℚ} {n : Nat} (hf : filt.length = 2 * n + 1) :
    ∃ b, Imop.imconvcol buf h src w h w filt (-(n : Int)) n 1 true false = some b ∧ Flat b w h (fun x y => ∑ i ∈ range (2 * n + 1), filt.getD i 0 * F (Imop.clampTo h ((y : Int) - ((i : Int) - n))) x) := by
  have one : (h - 1) / 1 + 1 = h := by simp; omega
  obtain ⟨b, e1, l1, v1, -⟩ := Imop.imconvcol_correct_partial buf src filt h w h w (-(n : Int)) n 1 true false hh (by omega) (flat_fits hs) (by omega) (by omega) (Or.inr (by omega)) (by
    rw [one]
    refine ⟨fun x hx j hj => ?_, by simp⟩
    rw [hb]
    exact Flat.addr_lt hx hj)
  rw [one] at v1
  refine ⟨b, e1, by rw [l1, hb], fun x hx y hy => ?_⟩
  have h1 := v1 x hx y hy
  simp only [Imop.dstAddr, if_true, mul_one] at h1
  rw [h1, Imop.convSpec, hf]
  congr 1
  refine sum_congr rfl fun i _ => ?_
  rw [Imop.padded_clamp, flat_pix hs hx (Imop.clampTo_lt hh _)]
  congr 3
  ring

/-- The triangular filter along the columns, transposing the image -/
theorem convtri_flat (hh : 0 < h) (hb : buf.length = w * h) (hs : Flat src h w F) {fs : Nat} (hfs : 0 < fs) {tmp : List ℚ} (ht : tmp.length = h + fs) :
    ∃ b, Imop.imconvcoltri buf h src w h w fs 1 true false tmp = some b ∧ Flat b w h (fun x y => 1 / ((fs : ℚ) * fs) * ∑ i ∈ range (2 * fs - 1), ((fs - Imop.ndist i (fs - 1) : Nat) : ℚ) * F (Imop.clampTo h ((y : Int) + ((i : Int) - (fs - 1)))) x) := by
  have one : (h - 1) / 1 + 1 = h := by simp; omega
  obtain ⟨b, e1, l1, v1, -⟩ := Imop.imconvcoltri_correct buf src tmp h w h w fs 1 true false hh hfs (by omega) (flat_fits hs) ht (by
    rw [one]
    refine ⟨fun x hx j hj => ?_, by simp⟩
    rw [hb]
    exact Flat.addr_lt hx hj)
  rw [one] at v1
  refine ⟨b, e1, by rw [l1, hb], fun x hx y hy => ?_⟩
  have h1 := v1 x hx y hy
  simp only [Imop.dstAddr, if_true, mul_one] at h1
  rw [h1, Imop.triSpec]
  congr 2
  refine sum_congr rfl fun i _ => ?_
  rw [Imop.padded_clamp, flat_pix hs hx (Imop.clampTo_lt hh _)]

end conv

/-! ## Kernels -/

theorem newKernel_spec (M : Maths) {b N k : Nat} {ws : ℚ} (hs : (b : ℚ) * ws ≠ 0) {ker : List ℚ} (hk : ker.length = 2 * b - 1) :
    ∃ r, newKernel M b N k ws ker = some r ∧ Arr r (2 * b - 1) (fun i => (1 - |((- (b : Int) + 1 + i : Int) : ℚ)| / b) * bellAt M b N k ws (- (b : Int) + 1 + i)) := by
  unfold newKernel assert'
  rw [decide_eq_true hs]
  obtain ⟨r, e, hr⟩ := iter_inv (n := 2 * b - 1) (f := fun i ker => wr ker i ((1 - |((- (b : Int) + 1 + i : Int) : ℚ)| / b) * bellAt M b N k ws (- (b : Int) + 1 + i))) (s := ker)
    (fun n (r : List ℚ) => r.length = 2 * b - 1 ∧ ∀ i < n, r[i]? = some ((1 - |((- (b : Int) + 1 + i : Int) : ℚ)| / b) * bellAt M b N k ws (- (b : Int) + 1 + i)))
    ⟨hk, by omega⟩ (by
      rintro i hi r ⟨h1, h2⟩
      refine ⟨_, wr_of_lt (by omega) _, by simpa using h1, fun j hj => ?_⟩
      by_cases ej : j = i
      · subst ej; rw [List.getElem?_set_self (by omega)]
      · rw [List.getElem?_set_ne (by omega)]; exact h2 j (by omega))
  exact ⟨r, e, hr.1, hr.2⟩

theorem binWindowMean_spec (M : Maths) {b N k : Nat} {ws : ℚ} (hs : (b : ℚ) * ws ≠ 0) :
    binWindowMean M b N k ws = some ((∑ i ∈ range (2 * b - 1), bellAt M b N k ws (- (b : Int) + 1 + i)) / (2 * b - 1)) := by
  unfold binWindowMean assert'
  rw [decide_eq_true hs]
  obtain ⟨t, h1, h2⟩ := iter_inv (n := 2 * b - 1) (f := fun (i : Nat) (acc : ℚ) => some (acc + bellAt M b N k ws (- (b : Int) + 1 + i))) (s := 0) (fun n (t : ℚ) => t = ∑ i ∈ range n, bellAt M b N k ws (- (b : Int) + 1 + i)) (by simp) (by
    intro i hi t ht
    exact ⟨_, rfl, by rw [ht, sum_range_succ]⟩)
  show (iter (2 * b - 1) _ _).bind _ = _
  rw [h1, Option.bind_some, h2]

end Verif.Dsift
