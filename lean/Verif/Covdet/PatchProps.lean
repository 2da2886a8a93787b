import Verif.Covdet.PatchLemmas
import Mathlib.Tactic.FieldSimp
import Mathlib.Data.Rat.Floor

/-!
# What a patch extracted from the scale space contains
-/

namespace Verif.Covdet

set_option linter.unusedSectionVars false

/-! ### Specification -/

section spec

variable {K : Type} [Field K] [LinearOrder K] [FloorRing K]

/-- The image of `w` columns stored by rows, at column `x` and row `y`. -/
def pixelAt (level : List K) (w : Nat) (x y : Int) : K := level.getD (y * w + x).toNat 0

/-- The image of `w` columns and `h` rows extended by continuity. -/
def extended (level : List K) (w h : Nat) (x y : Int) : K := pixelAt level w (max 0 (min x ((w : Int) - 1))) (max 0 (min y ((h : Int) - 1)))

/-- The image without its last column, extended by continuity. -/
def extendedShort (level : List K) (w h : Nat) (x y : Int) : K := pixelAt level w (max 0 (min x ((w : Int) - 2))) (max 0 (min y ((h : Int) - 1)))

/-- Bilinear interpolation. -/
def bilinear (I : Int → Int → K) (x y : K) : K :=
  (1 - Int.fract y) * ((1 - Int.fract x) * I ⌊x⌋ ⌊y⌋ + Int.fract x * I (⌊x⌋ + 1) ⌊y⌋) +
    Int.fract y * ((1 - Int.fract x) * I ⌊x⌋ (⌊y⌋ + 1) + Int.fract x * I (⌊x⌋ + 1) (⌊y⌋ + 1))

/-- Abscissa in the level of the point `(u, v)` of the frame of the patch. -/
def Warp.x (A : Warp K) (step u v : K) : K := (A.a0 * u + A.a2 * v + A.t0) / step

/-- Ordinate in the level of the point `(u, v)` of the frame of the patch. -/
def Warp.y (A : Warp K) (step u v : K) : K := (A.a1 * u + A.a3 * v + A.t1) / step

/-- The largest abscissa in the level of the points of the patch. -/
def Warp.right (A : Warp K) (step extent : K) : K := (A.t0 + (|A.a0| + |A.a2|) * extent) / step

/-- Some point of the patch falls in the image. -/
def Meets (A : Warp K) (step extent : K) (w h : Nat) : Prop := ∃ u v, |u| ≤ extent ∧ |v| ≤ extent ∧
  0 ≤ A.x step u v ∧ A.x step u v ≤ (w : K) - 1 ∧ 0 ≤ A.y step u v ∧ A.y step u v ≤ (h : K) - 1

/-- All the points of the patch fall in the image. -/
def Inside (A : Warp K) (step extent : K) (w h : Nat) : Prop := ∀ u v, |u| ≤ extent → |v| ≤ extent →
  0 ≤ A.x step u v ∧ A.x step u v ≤ (w : K) - 1 ∧ 0 ≤ A.y step u v ∧ A.y step u v ≤ (h : K) - 1

/-- Coordinate in the patch frame of the sample `i` out of `2 R + 1`. -/
def gridAt (R : Nat) (extent : K) (i : Nat) : K := ((i : K) - R) * (extent / R)

/-- The patch is the interpolation of the image `I`. -/
def IsPatch (I : Int → Int → K) (A : Warp K) (step extent : K) (R : Nat) (p : List K) : Prop := p.length = (2 * R + 1) * (2 * R + 1) ∧
  ∀ j < 2 * R + 1, ∀ i < 2 * R + 1, p[j * (2 * R + 1) + i]? = some (bilinear I (A.x step (gridAt R extent i) (gridAt R extent j)) (A.y step (gridAt R extent i) (gridAt R extent j)))

end spec

section proof

variable {K : Type} [Field K] [LinearOrder K] [IsStrictOrderedRing K] [FloorRing K]

/-! ### The interpolation -/

theorem resample_spec {level : List K} {w h R : Nat} {ext st : K} {A : Warp K} {patch : List K} (hp : patch.length = (2 * R + 1) * (2 * R + 1)) {v : Nat → Nat → K}
    (hs : ∀ j < 2 * R + 1, ∀ i < 2 * R + 1, sample level w h (A.a0 * (-ext + i * st) + (A.a2 * (-ext + j * st) + A.t0)) (A.a1 * (-ext + i * st) + (A.a3 * (-ext + j * st) + A.t1)) = some (v j i)) :
    ∃ p, resample level w h R ext st A patch = some p ∧ p.length = (2 * R + 1) * (2 * R + 1) ∧ ∀ j < 2 * R + 1, ∀ i < 2 * R + 1, p[j * (2 * R + 1) + i]? = some (v j i) := by
  obtain ⟨m, hm⟩ : ∃ m, m = 2 * R + 1 := ⟨_, rfl⟩
  rw [← hm] at hp hs ⊢
  obtain ⟨s, e, p, rfl, ho⟩ := iter_inv (fun k (s : PatchWalk K) => ∃ p, s = ⟨k * m, -ext + k * st, p⟩ ∧ Rows (m * m) m v (fun r => r < k) p) (n := m)
    (f := fun _ (s : PatchWalk K) => (iter m (fun _ (r : PatchWalk K) => (sample level w h (A.a0 * r.hat + (A.a2 * s.hat + A.t0)) (A.a1 * r.hat + (A.a3 * s.hat + A.t1))).bind fun v =>
        (wr r.patch r.pt v).bind fun patch => some (⟨r.pt + 1, r.hat + st, patch⟩ : PatchWalk K)) ⟨s.pt, -ext, s.patch⟩).bind fun r => some (⟨r.pt, s.hat + st, r.patch⟩ : PatchWalk K)) (s := ⟨0, -ext, patch⟩)
    ⟨patch, by simp, hp, fun r hr => by omega⟩ (by
      rintro k hk s ⟨p, rfl, hr⟩
      obtain ⟨r, e, p', rfl, o⟩ := iter_inv (fun i (s : PatchWalk K) => ∃ p', s = ⟨k * m + i, -ext + i * st, p'⟩ ∧ Over p p' (k * m) i (v k)) (n := m)
        (f := fun _ (r : PatchWalk K) => (sample level w h (A.a0 * r.hat + (A.a2 * (-ext + k * st) + A.t0)) (A.a1 * r.hat + (A.a3 * (-ext + k * st) + A.t1))).bind fun v =>
          (wr r.patch r.pt v).bind fun patch => some (⟨r.pt + 1, r.hat + st, patch⟩ : PatchWalk K)) (s := ⟨k * m, -ext, p⟩)
        ⟨p, by simp, Over.refl (by rw [hr.len]; exact Nat.mul_le_mul_right m hk.le) _⟩ (by
          rintro i hi s ⟨p', rfl, o⟩
          obtain ⟨p'', e, o'⟩ := o.step (by
            rw [hr.len]
            have := Nat.mul_le_mul_right m (show k + 1 ≤ m from hk)
            rw [Nat.add_mul, one_mul] at this
            omega)
          refine ⟨⟨k * m + (i + 1), -ext + ((i + 1 : Nat) : K) * st, p''⟩, ?_, p'', rfl, o'⟩
          simp only
          rw [hs k hk i hi, Option.bind_some, e, Option.bind_some]
          push_cast
          congr 2
          ring)
      refine ⟨⟨(k + 1) * m, -ext + ((k + 1 : Nat) : K) * st, p'⟩, ?_, p', rfl, hr.over o (fun c _ => rfl) (fun i hi => by omega)⟩
      simp only
      rw [e, Option.bind_some]
      push_cast
      congr 2
      · ring
      · ring)
  refine ⟨p, ?_, ho.len, fun j hj i hi => ho.get j hj i hi⟩
  unfold resample
  rw [← hm]
  exact congrArg (fun o => Option.bind o fun s : PatchWalk K => some s.patch) e

/-- One sample, from the four values around it. -/
theorem sample_spec {level : List K} {w h : Nat} {x y : K} {X Y : Nat} (hX : ⌊x⌋ = X) (hY : ⌊y⌋ = Y) (hx : X < w) (hy : Y < h) {a b c d : K} (ha : level[Y * w + X]? = some a) (hb : level[Y * w + (X + 1)]? = some b)
    (hc : level[(Y + 1) * w + X]? = some c) (hd : level[(Y + 1) * w + (X + 1)]? = some d) :
    sample level w h x y = some ((1 - Int.fract y) * ((1 - Int.fract x) * a + Int.fract x * b) + Int.fract y * ((1 - Int.fract x) * c + Int.fract x * d)) := by
  unfold sample
  simp only
  rw [hX, hY]
  have e1 : rdI level ((Y : Int) * w + X) = some a := by rw [rdI_eq _ _ (Y * w + X) (by push_cast; ring), rd_getElem?, ha]
  have e2 : rdI level ((Y : Int) * w + X + 1) = some b := by rw [rdI_eq _ _ (Y * w + (X + 1)) (by push_cast; ring), rd_getElem?, hb]
  have e3 : rdI level (((Y : Int) + 1) * w + X) = some c := by rw [rdI_eq _ _ ((Y + 1) * w + X) (by push_cast; ring), rd_getElem?, hc]
  have e4 : rdI level (((Y : Int) + 1) * w + X + 1) = some d := by rw [rdI_eq _ _ ((Y + 1) * w + (X + 1)) (by push_cast; ring), rd_getElem?, hd]
  have a1 : (decide ((X : Int) ≥ 0) && decide ((X : Int) ≤ (w : Int) - 1)) = true := by simp; omega
  have a2 : (decide ((Y : Int) ≥ 0) && decide ((Y : Int) ≤ (h : Int) - 1)) = true := by simp; omega
  have f1 : Int.fract x = x - (X : Int) := by rw [Int.fract, hX]
  have f2 : Int.fract y = y - (Y : Int) := by rw [Int.fract, hY]
  simp only [Option.bind_eq_bind, e1, e2, e3, e4, Option.bind_some, a1, a2, assert', if_true, f1, f2]

/-! ### The patch -/

theorem grid_eq {R : Nat} (hR : 0 < R) (ext : K) (i : Nat) : -ext + i * (ext / R) = gridAt R ext i := by
  have : (R : K) ≠ 0 := by exact_mod_cast hR.ne'
  unfold gridAt
  field_simp
  ring

theorem grid_bound {R : Nat} (hR : 0 < R) {ext : K} (he : 0 ≤ ext) {i : Nat} (hi : i < 2 * R + 1) : |gridAt R ext i| ≤ ext := by
  have h0 : (0 : K) < R := by exact_mod_cast hR
  have h1 : ((i : K) - R) ≤ R := by
    have : (i : K) ≤ ((2 * R : Nat) : K) := by exact_mod_cast (show i ≤ 2 * R by omega)
    push_cast at this
    linarith
  have h2 : -(R : K) ≤ ((i : K) - R) := by
    have : (0 : K) ≤ (i : K) := Nat.cast_nonneg i
    linarith
  unfold gridAt
  rw [abs_mul, abs_div, abs_of_pos h0, abs_of_nonneg he, ← mul_div_assoc, div_le_iff₀ h0, mul_comm]
  exact mul_le_mul_of_nonneg_left (abs_le.mpr ⟨h2, h1⟩) he

theorem scaled_x (A : Warp K) (step u v : K) : (A.scaled step).a0 * u + ((A.scaled step).a2 * v + (A.scaled step).t0) = A.x step u v := by
  simp only [Warp.scaled, Warp.x]; ring

theorem scaled_y (A : Warp K) (step u v : K) : (A.scaled step).a1 * u + ((A.scaled step).a3 * v + (A.scaled step).t1) = A.y step u v := by
  simp only [Warp.scaled, Warp.y]; ring

/-- For every level and every frame, if the patch meets the image then the extraction succeeds without any access out of
bounds; the patch is the bilinear interpolation of the image extended by continuity if it stays to the left of the second last column,
and that of the image without its last column otherwise. -/
theorem extractPatch_exact (junk : Nat → K) {level : List K} {w h R : Nat} (hw : 0 < w) (hh : 0 < h) (hl : level.length = h * w) (hR : 0 < R) {extent step : K} (he : 0 ≤ extent) (hstep : 0 < step) (A : Warp K)
    (hm : Meets A step extent w h) {patch : List K} (hp : patch.length = (2 * R + 1) * (2 * R + 1)) (buf : List K) :
    ∃ p buf', extractPatch junk true level w h R extent step A patch buf = some (.done p buf') ∧
      IsPatch (if A.right step extent ≤ (w : K) - 2 then extended level w h else extendedShort level w h) A step extent R p := by
  obtain ⟨x0, hx0⟩ : ∃ x, x = lowest ((corners (A.scaled step) extent).map (·.1)) := ⟨_, rfl⟩
  obtain ⟨x1, hx1⟩ : ∃ x, x = highest ((corners (A.scaled step) extent).map (·.1)) := ⟨_, rfl⟩
  obtain ⟨y0, hy0⟩ : ∃ x, x = lowest ((corners (A.scaled step) extent).map (·.2)) := ⟨_, rfl⟩
  obtain ⟨y1, hy1⟩ : ∃ x, x = highest ((corners (A.scaled step) extent).map (·.2)) := ⟨_, rfl⟩
  obtain ⟨b, hb⟩ : ∃ b : PatchBox, b = ⟨⌊x0⌋ - 1, ⌊y0⌋ - 1, ⌈x1⌉ + 1, ⌈y1⌉ + 1⟩ := ⟨_, rfl⟩
  have cx : (corners (A.scaled step) extent).map (·.1) = cornerVals (A.scaled step).a0 (A.scaled step).a2 (A.scaled step).t0 extent := rfl
  have cy : (corners (A.scaled step) extent).map (·.2) = cornerVals (A.scaled step).a1 (A.scaled step).a3 (A.scaled step).t1 extent := rfl
  have bx (u v : K) (hu : |u| ≤ extent) (hv : |v| ≤ extent) : x0 ≤ A.x step u v ∧ A.x step u v ≤ x1 := by
    rw [hx0, hx1, cx, lowest_corners _ _ _ he, highest_corners _ _ _ he, ← scaled_x, ← add_assoc]
    exact affine_bounds _ _ _ hu hv
  have by' (u v : K) (hu : |u| ≤ extent) (hv : |v| ≤ extent) : y0 ≤ A.y step u v ∧ A.y step u v ≤ y1 := by
    rw [hy0, hy1, cy, lowest_corners _ _ _ he, highest_corners _ _ _ he, ← scaled_y, ← add_assoc]
    exact affine_bounds _ _ _ hu hv
  have hright : A.right step extent = x1 := by
    rw [hx1, cx, highest_corners _ _ _ he]
    simp only [Warp.right, Warp.scaled, abs_div, abs_of_pos hstep]
    ring
  obtain ⟨u, v, hu, hv, m1, m2, m3, m4⟩ := hm
  have q1 : (0 : Int) ≤ ⌈x1⌉ := by
    have : (0 : K) ≤ x1 := m1.trans (bx u v hu hv).2
    have : ((0 : Int) : K) ≤ (⌈x1⌉ : K) := by rw [Int.cast_zero]; exact this.trans (Int.le_ceil _)
    exact_mod_cast this
  have q2 : ⌊x0⌋ ≤ (w : Int) - 1 := by
    have := (bx u v hu hv).1.trans m2
    have : (⌊x0⌋ : K) ≤ (((w : Int) - 1 : Int) : K) := by push_cast; exact (Int.floor_le _).trans this
    exact_mod_cast this
  have q3 : (0 : Int) ≤ ⌈y1⌉ := by
    have : (0 : K) ≤ y1 := m3.trans (by' u v hu hv).2
    have : ((0 : Int) : K) ≤ (⌈y1⌉ : K) := by rw [Int.cast_zero]; exact this.trans (Int.le_ceil _)
    exact_mod_cast this
  have q4 : ⌊y0⌋ ≤ (h : Int) - 1 := by
    have := (by' u v hu hv).1.trans m4
    have : (⌊y0⌋ : K) ≤ (((h : Int) - 1 : Int) : K) := by push_cast; exact (Int.floor_le _).trans this
    exact_mod_cast this
  have q5 : ⌊x0⌋ ≤ ⌈x1⌉ := by
    have := (bx u v hu hv).1.trans (bx u v hu hv).2
    have : (⌊x0⌋ : K) ≤ (⌈x1⌉ : K) := (Int.floor_le _).trans (this.trans (Int.le_ceil _))
    exact_mod_cast this
  have q6 : ⌊y0⌋ ≤ ⌈y1⌉ := by
    have := (by' u v hu hv).1.trans (by' u v hu hv).2
    have : (⌊y0⌋ : K) ≤ (⌈y1⌉ : K) := (Int.floor_le _).trans (this.trans (Int.le_ceil _))
    exact_mod_cast this
  have qr : (A.right step extent ≤ (w : K) - 2) ↔ b.x1 ≤ (w : Int) - 1 := by
    rw [hright, hb]
    have : x1 ≤ (w : K) - 2 ↔ ⌈x1⌉ ≤ (w : Int) - 2 := by rw [Int.ceil_le]; push_cast; rfl
    rw [this]
    simp only
    omega
  -- the places of the samples
  have place (j i : Nat) (hj : j < 2 * R + 1) (hi : i < 2 * R + 1) : b.x0 + 1 ≤ ⌊A.x step (gridAt R extent i) (gridAt R extent j)⌋ ∧ ⌊A.x step (gridAt R extent i) (gridAt R extent j)⌋ ≤ b.x1 - 1 ∧
      (⌊A.x step (gridAt R extent i) (gridAt R extent j)⌋ = b.x1 - 1 → Int.fract (A.x step (gridAt R extent i) (gridAt R extent j)) = 0) ∧
      b.y0 + 1 ≤ ⌊A.y step (gridAt R extent i) (gridAt R extent j)⌋ ∧ ⌊A.y step (gridAt R extent i) (gridAt R extent j)⌋ ≤ b.y1 - 1 := by
    have hx := bx _ _ (grid_bound hR he hi) (grid_bound hR he hj)
    have hy := by' _ _ (grid_bound hR he hi) (grid_bound hR he hj)
    generalize A.x step (gridAt R extent i) (gridAt R extent j) = X at *
    generalize A.y step (gridAt R extent i) (gridAt R extent j) = Y at *
    rw [hb]
    have f1 := Int.floor_le_floor hx.1
    have f2 : ⌊X⌋ ≤ ⌈x1⌉ := Int.cast_le (R := K).mp ((Int.floor_le _).trans (hx.2.trans (Int.le_ceil _)))
    have f3 := Int.floor_le_floor hy.1
    have f4 : ⌊Y⌋ ≤ ⌈y1⌉ := Int.cast_le (R := K).mp ((Int.floor_le _).trans (hy.2.trans (Int.le_ceil _)))
    refine ⟨by simp only; omega, by simp only; omega, fun hc => ?_, by simp only; omega, by simp only; omega⟩
    simp only at hc
    have hc' : ⌊X⌋ = ⌈x1⌉ := by omega
    have : X = (⌊X⌋ : K) := le_antisymm (by rw [hc']; exact hx.2.trans (Int.le_ceil _)) (Int.floor_le _)
    rw [Int.fract]
    exact sub_eq_zero.mpr this
  obtain ⟨I, hI⟩ : ∃ I, I = if A.right step extent ≤ (w : K) - 2 then extended level w h else extendedShort level w h := ⟨_, rfl⟩
  rw [← hI]
  have hpix (y : Nat) (hy : y < h) (x : Nat) (hx : x < w) : level[y * w + x]? = some (pixelAt level w x y) := by
    have hlt : y * w + x < level.length := by
      rw [hl]
      have := Nat.mul_le_mul_right w (show y + 1 ≤ h from hy)
      rw [Nat.add_mul, one_mul] at this
      omega
    unfold pixelAt
    rw [show ((y : Int) * w + x).toNat = y * w + x by rw [← Nat.cast_mul, ← Nat.cast_add, Int.toNat_natCast], List.getD_eq_getElem?_getD, List.getElem?_eq_getElem hlt]
    rfl
  by_cases hpad : b.x0 < 0 ∨ b.x1 > (w : Int) - 1 ∨ b.y0 < 0 ∨ b.y1 > (h : Int) - 1
  · -- with padding
    obtain ⟨pw, hpw⟩ : ∃ pw : Nat, (pw : Int) = b.x1 - b.x0 + 1 := ⟨(b.x1 - b.x0 + 1).toNat, by rw [hb]; simp only; omega⟩
    obtain ⟨ph, hph⟩ : ∃ ph : Nat, (ph : Int) = b.y1 - b.y0 + 1 := ⟨(b.y1 - b.y0 + 1).toNat, by rw [hb]; simp only; omega⟩
    obtain ⟨P, hP⟩ : ∃ P : Nat, (P : Int) = max 0 (-b.x0) := ⟨(max 0 (-b.x0)).toNat, by omega⟩
    obtain ⟨n, hn⟩ : ∃ n, n = ((pw : Int) - max 0 (b.x1 - ((w : Int) - 1)) - 2 - P).toNat := ⟨_, rfl⟩
    obtain ⟨buf', e, hlen, hget⟩ := padCopy_spec junk hw hh (b := b) (by rw [hb]; simp only; omega) (by rw [hb]; simp only; omega) (by rw [hb]; simp only; omega) (by rw [hb]; simp only; omega) (by rw [hb]; simp only; omega) (by rw [hb]; simp only; omega)
      buf hpw hph hP hn (f := pixelAt level w) hpix
    -- the values in the buffer
    have b1 : b.x1 = ⌈x1⌉ + 1 := by rw [hb]
    have b0 : b.x0 = ⌊x0⌋ - 1 := by rw [hb]
    have hval (c : Nat) (r : Nat) (hr : r < ph) (hc : c < pw) (hlast : b.x1 ≤ (w : Int) - 1 → c + 1 < pw) : buf'[r * pw + c]? = some (I (b.x0 + c) (b.y0 + r)) := by
      rw [hget r hr c hc, hI]
      by_cases hq : b.x1 ≤ (w : Int) - 1
      · rw [if_pos (qr.mpr hq)]
        have := hlast hq
        unfold extended clampI
        congr 2
        omega
      · rw [if_neg (fun h => hq (qr.mp h))]
        unfold extendedShort clampI
        congr 2
        omega
    obtain ⟨p, ep, lp, gp⟩ := resample_spec (level := buf') (w := pw) (h := ph) (R := R) (ext := extent) (st := extent / R) (A := { A.scaled step with t0 := (A.scaled step).t0 - b.x0, t1 := (A.scaled step).t1 - b.y0 }) (patch := patch) hp
      (v := fun j i => bilinear I (A.x step (gridAt R extent i) (gridAt R extent j)) (A.y step (gridAt R extent i) (gridAt R extent j))) (by
        intro j hj i hi
        obtain ⟨p1, p2, p3, p4, p5⟩ := place j i hj hi
        simp only
        rw [grid_eq hR, grid_eq hR, ← add_sub_assoc, ← add_sub_assoc, ← add_sub_assoc, ← add_sub_assoc, scaled_x, scaled_y]
        generalize A.x step (gridAt R extent i) (gridAt R extent j) = X at *
        generalize A.y step (gridAt R extent i) (gridAt R extent j) = Y at *
        obtain ⟨c, hc⟩ : ∃ c : Nat, (c : Int) = ⌊X⌋ - b.x0 := ⟨(⌊X⌋ - b.x0).toNat, by omega⟩
        obtain ⟨r, hr⟩ : ∃ r : Nat, (r : Int) = ⌊Y⌋ - b.y0 := ⟨(⌊Y⌋ - b.y0).toNat, by omega⟩
        have hb01 : ∃ z, buf'[r * pw + (c + 1)]? = some z ∧ Int.fract X * z = Int.fract X * I (⌊X⌋ + 1) ⌊Y⌋ := by
          by_cases hlast : b.x1 ≤ (w : Int) - 1 → c + 1 + 1 < pw
          · exact ⟨_, hval (c + 1) r (by omega) (by omega) hlast, by rw [show b.x0 + ((c + 1 : Nat) : Int) = ⌊X⌋ + 1 by push_cast; omega, show b.y0 + (r : Int) = ⌊Y⌋ by omega]⟩
          · exact ⟨_, hget r (by omega) (c + 1) (by omega), by rw [p3 (by omega)]; ring⟩
        have hb11 : ∃ z, buf'[(r + 1) * pw + (c + 1)]? = some z ∧ Int.fract X * z = Int.fract X * I (⌊X⌋ + 1) (⌊Y⌋ + 1) := by
          by_cases hlast : b.x1 ≤ (w : Int) - 1 → c + 1 + 1 < pw
          · exact ⟨_, hval (c + 1) (r + 1) (by omega) (by omega) hlast, by rw [show b.x0 + ((c + 1 : Nat) : Int) = ⌊X⌋ + 1 by push_cast; omega, show b.y0 + ((r + 1 : Nat) : Int) = ⌊Y⌋ + 1 by push_cast; omega]⟩
          · exact ⟨_, hget (r + 1) (by omega) (c + 1) (by omega), by rw [p3 (by omega)]; ring⟩
        obtain ⟨z1, g1, k1⟩ := hb01
        obtain ⟨z2, g2, k2⟩ := hb11
        rw [sample_spec (X := c) (Y := r) (by rw [Int.floor_sub_intCast, hc]) (by rw [Int.floor_sub_intCast, hr]) (by omega) (by omega) (hval c r (by omega) (by omega) (by omega)) g1 (hval c (r + 1) (by omega) (by omega) (by omega)) g2]
        rw [Int.fract_sub_intCast, Int.fract_sub_intCast, k1, k2, show b.x0 + (c : Int) = ⌊X⌋ by omega, show b.y0 + (r : Int) = ⌊Y⌋ by omega, show b.y0 + ((r + 1 : Nat) : Int) = ⌊Y⌋ + 1 by push_cast; omega]
        rfl)
    refine ⟨p, buf', ?_, lp, gp⟩
    unfold extractPatch
    simp only [Bool.not_true, Bool.and_false, Bool.false_eq_true, if_false]
    have t1 : (⌈x1⌉ + 1 - (⌊x0⌋ - 1) + 1).toNat = pw := by omega
    have t2 : (⌈y1⌉ + 1 - (⌊y0⌋ - 1) + 1).toNat = ph := by
      have : b.y1 = ⌈y1⌉ + 1 := by rw [hb]
      have : b.y0 = ⌊y0⌋ - 1 := by rw [hb]
      omega
    clear hval
    subst hb
    rw [← hx0, ← hx1, ← hy0, ← hy1, if_pos (by simpa [or_assoc] using hpad), t1, t2, e]
    exact congrArg (fun o => Option.bind o fun q => some (Extracted.done q buf')) ep
  · -- without
    rw [not_or, not_or, not_or] at hpad
    obtain ⟨n1, n2, n3, n4⟩ := hpad
    have hval (x y : Nat) (hx : x < w) (hy : y < h) : level[y * w + x]? = some (I x y) := by
      rw [hpix y hy x hx, hI, if_pos (qr.mpr (by omega))]
      unfold extended
      congr 2 <;> omega
    obtain ⟨p, ep, lp, gp⟩ := resample_spec (level := level) (w := w) (h := h) (R := R) (ext := extent) (st := extent / R) (A := A.scaled step) (patch := patch) hp
      (v := fun j i => bilinear I (A.x step (gridAt R extent i) (gridAt R extent j)) (A.y step (gridAt R extent i) (gridAt R extent j))) (by
        intro j hj i hi
        obtain ⟨p1, p2, p3, p4, p5⟩ := place j i hj hi
        rw [grid_eq hR, grid_eq hR, scaled_x, scaled_y]
        generalize A.x step (gridAt R extent i) (gridAt R extent j) = X at *
        generalize A.y step (gridAt R extent i) (gridAt R extent j) = Y at *
        obtain ⟨c, hc⟩ : ∃ c : Nat, (c : Int) = ⌊X⌋ := ⟨⌊X⌋.toNat, by omega⟩
        obtain ⟨r, hr⟩ : ∃ r : Nat, (r : Int) = ⌊Y⌋ := ⟨⌊Y⌋.toNat, by omega⟩
        rw [sample_spec (X := c) (Y := r) hc.symm hr.symm (by omega) (by omega) (hval c r (by omega) (by omega)) (hval (c + 1) r (by omega) (by omega)) (hval c (r + 1) (by omega) (by omega)) (hval (c + 1) (r + 1) (by omega) (by omega))]
        unfold bilinear
        push_cast
        rw [hc, hr])
    refine ⟨p, buf, ?_, lp, gp⟩
    unfold extractPatch
    simp only [Bool.not_true, Bool.and_false, Bool.false_eq_true, if_false]
    subst hb
    rw [← hx0, ← hx1, ← hy0, ← hy1, if_neg (by simp at n1 n2 n3 n4 ⊢; omega)]
    exact congrArg (fun o => Option.bind o fun q => some (Extracted.done q buf)) ep

/-- A patch that meets the image and stays to the left of the second last column is the bilinear interpolation of the image extended
by continuity. -/
theorem extractPatch_continuity (junk : Nat → K) {level : List K} {w h R : Nat} (hw : 0 < w) (hh : 0 < h) (hl : level.length = h * w) (hR : 0 < R) {extent step : K} (he : 0 ≤ extent) (hstep : 0 < step) (A : Warp K)
    (hm : Meets A step extent w h) (hr : A.right step extent ≤ (w : K) - 2) {patch : List K} (hp : patch.length = (2 * R + 1) * (2 * R + 1)) (buf : List K) :
    ∃ p buf', extractPatch junk true level w h R extent step A patch buf = some (.done p buf') ∧ IsPatch (extended level w h) A step extent R p := by
  obtain ⟨p, buf', e, h⟩ := extractPatch_exact junk hw hh hl hR he hstep A hm hp buf
  rw [if_pos hr] at h
  exact ⟨p, buf', e, h⟩

/-- The interpolation depends on the values at the four pixels only, and on the last ones only if the point is not at a pixel. -/
theorem bilinear_congr {I J : Int → Int → K} {w h : Nat} (hIJ : ∀ x y : Int, 0 ≤ x → x ≤ (w : Int) - 1 → 0 ≤ y → y ≤ (h : Int) - 1 → I x y = J x y) {x y : K} (h0 : 0 ≤ x) (h1 : x ≤ (w : K) - 1) (h2 : 0 ≤ y) (h3 : y ≤ (h : K) - 1) :
    bilinear I x y = bilinear J x y := by
  have fx0 : 0 ≤ ⌊x⌋ := Int.floor_nonneg.mpr h0
  have fy0 : 0 ≤ ⌊y⌋ := Int.floor_nonneg.mpr h2
  have fx1 : ⌊x⌋ ≤ (w : Int) - 1 := by
    have : (⌊x⌋ : K) ≤ (((w : Int) - 1 : Int) : K) := by push_cast; exact (Int.floor_le _).trans h1
    exact_mod_cast this
  have fy1 : ⌊y⌋ ≤ (h : Int) - 1 := by
    have : (⌊y⌋ : K) ≤ (((h : Int) - 1 : Int) : K) := by push_cast; exact (Int.floor_le _).trans h3
    exact_mod_cast this
  have zx : ⌊x⌋ = (w : Int) - 1 → Int.fract x = 0 := fun h => by
    have h' : (⌊x⌋ : K) = (w : K) - 1 := by rw [h]; push_cast; rfl
    rw [Int.fract, sub_eq_zero]
    exact le_antisymm (by rw [h']; exact h1) (Int.floor_le _)
  have zy : ⌊y⌋ = (h : Int) - 1 → Int.fract y = 0 := fun hy => by
    have h' : (⌊y⌋ : K) = (h : K) - 1 := by rw [hy]; push_cast; rfl
    rw [Int.fract, sub_eq_zero]
    exact le_antisymm (by rw [h']; exact h3) (Int.floor_le _)
  have e00 := hIJ ⌊x⌋ ⌊y⌋ fx0 fx1 fy0 fy1
  have e10 : Int.fract x * I (⌊x⌋ + 1) ⌊y⌋ = Int.fract x * J (⌊x⌋ + 1) ⌊y⌋ := by
    by_cases c : ⌊x⌋ = (w : Int) - 1
    · rw [zx c]; ring
    · rw [hIJ _ _ (by omega) (by omega) fy0 fy1]
  have e01 : Int.fract y * I ⌊x⌋ (⌊y⌋ + 1) = Int.fract y * J ⌊x⌋ (⌊y⌋ + 1) := by
    by_cases c : ⌊y⌋ = (h : Int) - 1
    · rw [zy c]; ring
    · rw [hIJ _ _ fx0 fx1 (by omega) (by omega)]
  have e11 : Int.fract y * (Int.fract x * I (⌊x⌋ + 1) (⌊y⌋ + 1)) = Int.fract y * (Int.fract x * J (⌊x⌋ + 1) (⌊y⌋ + 1)) := by
    by_cases c : ⌊y⌋ = (h : Int) - 1
    · rw [zy c]; ring
    · by_cases c' : ⌊x⌋ = (w : Int) - 1
      · rw [zx c']; ring
      · rw [hIJ _ _ (by omega) (by omega) (by omega) (by omega)]
  unfold bilinear
  rw [e00, e10, mul_add (Int.fract y), mul_add (Int.fract y), e11, mul_left_comm (Int.fract y) (1 - Int.fract x), e01, mul_left_comm (1 - Int.fract x)]

/-- When padding is not allowed, a patch that leaves the image is refused and nothing is computed. -/
theorem extractPatch_refuses (junk : Nat → K) (level : List K) (w h R : Nat) {extent step : K} (he : 0 ≤ extent) (A : Warp K) (patch buf : List K) (hi : ¬ Inside A step extent w h) :
    extractPatch junk false level w h R extent step A patch buf = some .outside := by
  have cx : (corners (A.scaled step) extent).map (·.1) = cornerVals (A.scaled step).a0 (A.scaled step).a2 (A.scaled step).t0 extent := rfl
  have cy : (corners (A.scaled step) extent).map (·.2) = cornerVals (A.scaled step).a1 (A.scaled step).a3 (A.scaled step).t1 extent := rfl
  unfold extractPatch
  simp only [Bool.not_false, Bool.and_true]
  rw [if_pos]
  by_contra hc
  apply hi
  intro u v hu hv
  simp only [Bool.or_eq_true, decide_eq_true_eq, not_or, not_lt, gt_iff_lt, cx, cy] at hc
  rw [lowest_corners _ _ _ he, highest_corners _ _ _ he, lowest_corners _ _ _ he, highest_corners _ _ _ he] at hc
  have b1 := affine_bounds (A.scaled step).a0 (A.scaled step).a2 (A.scaled step).t0 hu hv
  have b2 := affine_bounds (A.scaled step).a1 (A.scaled step).a3 (A.scaled step).t1 hu hv
  rw [add_assoc, scaled_x] at b1
  rw [add_assoc, scaled_y] at b2
  obtain ⟨⟨⟨c1, c2⟩, c3⟩, c4⟩ := hc
  exact ⟨c1.trans b1.1, b1.2.trans c2, c3.trans b2.1, b2.2.trans c4⟩

/-- The extremes of an affine function of the patch frame are reached. -/
theorem affine_reaches (a c t : K) {e : K} (he : 0 ≤ e) : (∃ u v, |u| ≤ e ∧ |v| ≤ e ∧ a * u + c * v + t = t + (|a| + |c|) * e) ∧ ∃ u v, |u| ≤ e ∧ |v| ≤ e ∧ a * u + c * v + t = t - (|a| + |c|) * e := by
  have key (a : K) : ∃ u, |u| ≤ e ∧ a * u = |a| * e := by
    rcases le_total 0 a with h | h
    · exact ⟨e, by rw [abs_of_nonneg he], by rw [abs_of_nonneg h]⟩
    · exact ⟨-e, by rw [abs_neg, abs_of_nonneg he], by rw [abs_of_nonpos h]; ring⟩
  obtain ⟨u, hu, eu⟩ := key a
  obtain ⟨v, hv, ev⟩ := key c
  refine ⟨⟨u, v, hu, hv, by rw [eu, ev]; ring⟩, -u, -v, by rwa [abs_neg], by rwa [abs_neg], ?_⟩
  rw [mul_neg, mul_neg, eu, ev]
  ring

/-- A patch that lies in the image is computed whether padding is allowed or not, with the same result; if it stays to the left of the
second last column, the result is the interpolation of the image itself. -/
theorem extractPatch_inside (junk : Nat → K) (allow : Bool) {level : List K} {w h R : Nat} (hw : 0 < w) (hh : 0 < h) (hl : level.length = h * w) (hR : 0 < R) {extent step : K} (he : 0 ≤ extent) (hstep : 0 < step) (A : Warp K)
    (hi : Inside A step extent w h) {patch : List K} (hp : patch.length = (2 * R + 1) * (2 * R + 1)) (buf : List K) :
    ∃ p buf', extractPatch junk allow level w h R extent step A patch buf = some (.done p buf') ∧
      IsPatch (if A.right step extent ≤ (w : K) - 2 then pixelAt level w else extendedShort level w h) A step extent R p := by
  have hm : Meets A step extent w h := ⟨0, 0, by simpa using he, by simpa using he, hi 0 0 (by simpa using he) (by simpa using he)⟩
  obtain ⟨p, buf', e, lp, gp⟩ := extractPatch_exact junk hw hh hl hR he hstep A hm hp buf
  refine ⟨p, buf', ?_, lp, fun j hj i hi' => ?_⟩
  · rw [← e]
    cases allow
    · have cx : (corners (A.scaled step) extent).map (·.1) = cornerVals (A.scaled step).a0 (A.scaled step).a2 (A.scaled step).t0 extent := rfl
      have cy : (corners (A.scaled step) extent).map (·.2) = cornerVals (A.scaled step).a1 (A.scaled step).a3 (A.scaled step).t1 extent := rfl
      obtain ⟨⟨u1, v1, hu1, hv1, r1⟩, u2, v2, hu2, hv2, r2⟩ := affine_reaches (A.scaled step).a0 (A.scaled step).a2 (A.scaled step).t0 he
      obtain ⟨⟨u3, v3, hu3, hv3, r3⟩, u4, v4, hu4, hv4, r4⟩ := affine_reaches (A.scaled step).a1 (A.scaled step).a3 (A.scaled step).t1 he
      rw [add_assoc, scaled_x] at r1 r2
      rw [add_assoc, scaled_y] at r3 r4
      have i1 := hi _ _ hu1 hv1
      have i2 := hi _ _ hu2 hv2
      have i3 := hi _ _ hu3 hv3
      have i4 := hi _ _ hu4 hv4
      rw [r1] at i1
      rw [r2] at i2
      rw [r3] at i3
      rw [r4] at i4
      unfold extractPatch
      simp only [Bool.not_false, Bool.not_true, Bool.and_true, Bool.and_false, Bool.false_eq_true, if_false]
      rw [if_neg]
      simp only [Bool.or_eq_true, decide_eq_true_eq, not_or, not_lt, gt_iff_lt, cx, cy]
      rw [lowest_corners _ _ _ he, highest_corners _ _ _ he, lowest_corners _ _ _ he, highest_corners _ _ _ he]
      exact ⟨⟨⟨i2.1, i1.2.1⟩, i4.2.2.1⟩, i3.2.2.2⟩
    · rfl
  · rw [gp j hj i hi']
    split
    · obtain ⟨i1, i2, i3, i4⟩ := hi _ _ (grid_bound hR he hi') (grid_bound hR he hj)
      rw [bilinear_congr (J := pixelAt level w) (w := w) (h := h) (fun x y x0 x1 y0 y1 => by unfold extended; congr 1 <;> omega) i1 i2 i3 i4]
    · rfl

end proof

/-! ### A case of the theorems -/

/-- A 3 by 3 image. -/
def demoLevel : List ℚ := [1, 2, 3, 4, 5, 6, 7, 8, 9]

/-- The patch of half width one half around the centre of the pixel (1/2, 1). -/
def demoWarp : Warp ℚ := ⟨1, 0, 0, 1, 1 / 2, 1⟩

theorem demo_inside : Inside demoWarp 1 (1 / 2) 3 3 := by
  intro u v hu hv
  rw [abs_le] at hu hv
  simp only [Warp.x, Warp.y, demoWarp]
  norm_num
  refine ⟨?_, ?_, ?_, ?_⟩ <;> linarith

example : ∃ p buf', extractPatch (fun _ => (0 : ℚ)) false demoLevel 3 3 1 (1 / 2) 1 demoWarp (List.replicate 9 0) [] = some (.done p buf') ∧ IsPatch (pixelAt demoLevel 3) demoWarp 1 (1 / 2) 1 p := by
  obtain ⟨p, b, e, h⟩ := extractPatch_inside (fun _ => (0 : ℚ)) false (level := demoLevel) (w := 3) (h := 3) (R := 1) (by decide) (by decide) rfl (by decide) (extent := 1 / 2) (step := 1) (by norm_num) (by norm_num) demoWarp demo_inside (patch := List.replicate 9 0) rfl []
  rw [if_pos (by simp only [Warp.right, demoWarp]; norm_num)] at h
  exact ⟨p, b, e, h⟩

example : bilinear (pixelAt demoLevel 3) (1 / 2) (3 / 2) = (6 : ℚ) := by decide +kernel

/-! ### What the code does not do -/

/-- Every patch inside the image is interpolated from the image. -/
def PatchInteriorClaim : Prop := ∀ (junk : Nat → ℚ) (level : List ℚ) (w h R : Nat) (extent step : ℚ) (A : Warp ℚ) (patch buf : List ℚ), 0 < w → 0 < h → level.length = h * w → 0 < R → 0 ≤ extent → 0 < step →
  Inside A step extent w h → patch.length = (2 * R + 1) * (2 * R + 1) → ∃ p buf', extractPatch junk true level w h R extent step A patch buf = some (.done p buf') ∧ IsPatch (pixelAt level w) A step extent R p

/-- The patch of the same size and at the same place as the image. -/
def wholeWarp : Warp ℚ := ⟨1, 0, 0, 1, 1, 1⟩

theorem whole_inside : Inside wholeWarp 1 1 3 3 := by
  intro u v hu hv
  rw [abs_le] at hu hv
  simp only [Warp.x, Warp.y, wholeWarp]
  norm_num
  refine ⟨?_, ?_, ?_, ?_⟩ <;> linarith

/-- The patch of the whole image has its second column twice in place of the last one. -/
theorem patchInterior_claim_false : ¬ PatchInteriorClaim := by
  intro hc
  obtain ⟨p, b, e, _, g⟩ := hc (fun _ => 0) demoLevel 3 3 1 1 1 wholeWarp (List.replicate 9 0) [] (by decide) (by decide) rfl (by decide) (by norm_num) (by norm_num) whole_inside rfl
  have hp : (match extractPatch (fun _ => (0 : ℚ)) true demoLevel 3 3 1 1 1 wholeWarp (List.replicate 9 0) [] with
    | some (.done p _) => p | _ => []) = [1, 2, 2, 4, 5, 5, 7, 8, 8] := by decide +kernel
  rw [e] at hp
  simp only at hp
  have := g 0 (by decide) 2 (by decide)
  rw [hp] at this
  have hv : bilinear (pixelAt demoLevel 3) (wholeWarp.x 1 (gridAt 1 1 2) (gridAt 1 1 0)) (wholeWarp.y 1 (gridAt 1 1 2) (gridAt 1 1 0)) = (3 : ℚ) := by decide +kernel
  rw [hv] at this
  simp at this

/-- When padding is allowed, every patch is extracted without undefined behaviour, wherever the frame is. -/
def PatchSafeClaim : Prop := ∀ (junk : Nat → ℚ) (level : List ℚ) (w h R : Nat) (extent step : ℚ) (A : Warp ℚ) (patch buf : List ℚ), 0 < w → 0 < h → level.length = h * w → 0 < R → 0 ≤ extent → 0 < step →
  patch.length = (2 * R + 1) * (2 * R + 1) → (extractPatch junk true level w h R extent step A patch buf).isSome

/-- For a frame to the left of the image, the padding is wider than the buffer and it is written past its end. -/
theorem patchSafe_claim_false : ¬ PatchSafeClaim := by
  intro hc
  have h1 := hc (fun _ => 0) demoLevel 3 3 1 1 1 ⟨1, 0, 0, 1, -20, 1⟩ (List.replicate 9 0) [] (by decide) (by decide) rfl (by decide) (by norm_num) (by norm_num) rfl
  have h2 : (extractPatch (fun _ => (0 : ℚ)) true demoLevel 3 3 1 1 1 ⟨1, 0, 0, 1, -20, 1⟩ (List.replicate 9 0) []).isSome = false := by decide +kernel
  rw [h2] at h1
  exact absurd h1 (by decide)

end Verif.Covdet
