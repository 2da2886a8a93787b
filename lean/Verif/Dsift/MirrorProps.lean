import Verif.Dsift.DescrProps
import Verif.Dsift.TransposeProps
import Verif.Rows

/-!
# The orientations share the gradient, and the descriptors of the transposed image
-/

namespace Verif.Dsift

open Finset

/-! ## The orientations share the modulus of the gradient -/

theorem mod_iff {T t : Nat} (ht : t < T) (a : Int) : (t : Int) = a % T ↔ (T : Int) ∣ a - t := by
  constructor
  · intro h
    rw [h]
    exact Int.dvd_self_sub_emod
  · rintro ⟨z, hz⟩
    rw [show a = t + T * z by omega, Int.add_mul_emod_self_left, Int.emod_eq_of_lt (by omega) (by omega)]

theorem share_sum {T : Nat} (hT : 2 ≤ T) (n : ℚ) : ∑ t ∈ range T, share T n t = 1 := by
  have hTT : (0 : Int) < T := by omega
  obtain ⟨a, ha⟩ := Int.eq_ofNat_of_zero_le (Int.emod_nonneg ⌊n⌋ (show (T : Int) ≠ 0 by omega))
  obtain ⟨b, hb⟩ := Int.eq_ofNat_of_zero_le (Int.emod_nonneg (⌊n⌋ + 1) (show (T : Int) ≠ 0 by omega))
  have h1 := Int.emod_lt_of_pos ⌊n⌋ hTT
  have h2 := Int.emod_lt_of_pos (⌊n⌋ + 1) hTT
  have hne : a ≠ b := fun e => mod_ne hT ⌊n⌋ (by rw [ha, hb, e])
  have e : ∀ t ∈ range T, share T n t = (if t = a then 1 - Int.fract n else 0) + (if t = b then Int.fract n else 0) := by
    intro t _
    unfold share
    rw [ha, hb]
    by_cases c1 : t = a
    · rw [if_pos (by omega), if_pos c1, if_neg (by omega), add_zero]
    · rw [if_neg (by omega), if_neg c1, zero_add]
      by_cases c2 : t = b
      · rw [if_pos (by omega), if_pos c2]
      · rw [if_neg (by omega), if_neg c2]
  rw [sum_congr rfl e, sum_add_distrib, sum_ite_eq', sum_ite_eq', if_pos (mem_range.2 (by omega)), if_pos (mem_range.2 (by omega))]
  ring

/-- Each pixel gives the modulus of its gradient to the `T` orientations together. -/
def Shares (sqrt : ℚ → ℚ) (g : List (List ℚ)) (T w h : Nat) (im : List ℚ) : Prop :=
  ∀ y < h, ∀ x < w, ∑ t ∈ range T, ((g.getD t []).getD (y * w + x) 0) = sqrt (Imop.gradX w (fun r c => im.getD (r * w + c) 0) y x ^ 2 + Imop.gradY h (fun r c => im.getD (r * w + c) 0) y x ^ 2)

/-- **C112**: with at least two orientations, the images of the oriented gradients add up to the modulus of the gradient. -/
theorem shares_partial {M : Maths} {T w h : Nat} {im : List ℚ} (hl : im.length = w * h) (hw : 2 ≤ w) (hh : 2 ≤ h) (hT : 2 ≤ T) (hM : ∀ gy gx, 0 ≤ M.turn gy gx) :
    ∃ g, gradients M T im w h = some g ∧ Shares M.sqrt g T w h im := by
  obtain ⟨g, e, hg⟩ := gradients_spec (M := M) (im := im) (T := T) (by rw [hl, Nat.mul_comm]) hw hh hT hM
  refine ⟨g, e, fun y hy x hx => ?_⟩
  have e1 : ∀ t ∈ range T, (g.getD t []).getD (y * w + x) 0 = oriented M.sqrt M.turn T w h (imF im w) t y x := by
    intro t ht
    obtain ⟨l, l1, l2⟩ := hg.get t (mem_range.1 ht)
    rw [List.getD_eq_getElem?_getD (l := g), l1, Option.getD_some, List.getD_eq_getElem?_getD, l2.get y hy x hx, Option.getD_some]
  rw [sum_congr rfl e1]
  unfold oriented
  rw [← mul_sum, share_sum hT, mul_one]
  rfl

/-- The same claim for any number of orientations -/
def SharesClaim : Prop := ∀ (M : Maths) (T w h : Nat) (im : List ℚ), im.length = w * h → 2 ≤ w → 2 ≤ h → 1 ≤ T → (∀ gy gx, 0 ≤ M.turn gy gx ∧ M.turn gy gx < T) →
  ∃ g, gradients M T im w h = some g ∧ Shares M.sqrt g T w h im

/-- The functions of the witnesses -/
def halfTurn : Maths := { sqrt := fun _ => 1, eps := 1, exp := fun _ => 1, turn := fun gy gx => if gy < gx then 0 else if gx < gy then 1 / 2 else 1 / 4 }

/-- **C112**: with one orientation, the second of the two parts of the modulus replaces the first. -/
theorem shares_claim_false : ¬ SharesClaim := by
  intro h
  obtain ⟨g, e, hg⟩ := h halfTurn 1 2 2 [0, 1, 0, 1] rfl (by decide) (by decide) (by decide) (by
    intro gy gx
    unfold halfTurn
    dsimp only
    split_ifs <;> norm_num)
  have e2 : gradients halfTurn 1 [0, 1, 0, 1] 2 2 = some [[0, 0, 0, 0]] := by decide +kernel
  rw [e2] at e
  cases e
  have := hg 0 (by decide) 0 (by decide)
  revert this
  decide +kernel

/-! ## Transposition -/

theorem share_mirror {T t t' : Nat} (hT : 2 ≤ T) (h4 : 4 ∣ T) (ht : t < T) (ht' : t' < T) (hs : (t + t') % T = T / 4 % T) {n n' : ℚ} {m : Int} (hn : n' = (T : ℚ) / 4 - n + m * T) : share T n' t' = share T n t := by
  obtain ⟨q, hq⟩ := h4
  have hq' : T / 4 = q := by omega
  rw [hq'] at hs
  obtain ⟨z, hz⟩ : ∃ z : Int, (t : Int) + t' = q + T * z := by
    have h1 := Nat.div_add_mod (t + t') T
    have h2 := Nat.div_add_mod q T
    refine ⟨((t + t') / T : Nat) - (q / T : Nat), ?_⟩
    rw [mul_sub]
    rw [hs] at h1
    zify at h1 h2
    push_cast
    omega
  have hn' : n' = ((q + m * T : Int) : ℚ) - n := by
    rw [hn, hq]
    push_cast
    ring
  obtain ⟨a, ha⟩ : ∃ a : Int, a = q + m * T := ⟨_, rfl⟩
  rw [← ha] at hn'
  -- a bin `b` of the first direction corresponds to the bin `a - b` of the second
  have hb : ∀ b : Int, ((t' : Int) = (a - b) % T ↔ (t : Int) = b % T) := by
    intro b
    rw [mod_iff ht', mod_iff ht]
    constructor
    · rintro ⟨k, hk⟩
      exact ⟨m - z - k, by rw [mul_sub, mul_sub]; rw [mul_comm m] at ha; omega⟩
    · rintro ⟨k, hk⟩
      exact ⟨m - z - k, by rw [mul_sub, mul_sub]; rw [mul_comm m] at ha; omega⟩
  unfold share
  by_cases hf : Int.fract n = 0
  · have e : n = ⌊n⌋ := by have := Int.floor_add_fract n; rw [hf, add_zero] at this; exact this.symm
    have e1 : n' = ((a - ⌊n⌋ : Int) : ℚ) := by rw [hn', Int.cast_sub, ← e]
    have e2 : ⌊n'⌋ = a - ⌊n⌋ := by rw [e1]; exact Int.floor_intCast _
    have e3 : Int.fract n' = 0 := by rw [e1]; exact Int.fract_intCast _
    rw [e2, e3, hf]
    simp only [hb]
    split_ifs <;> rfl
  · have f1 := Int.fract_nonneg n
    have f2 := Int.fract_lt_one n
    have f3 : 0 < Int.fract n := lt_of_le_of_ne f1 (Ne.symm hf)
    have e0 := Int.floor_add_fract n
    have e2 : ⌊n'⌋ = a - (⌊n⌋ + 1) := by
      rw [Int.floor_eq_iff, hn']
      push_cast
      constructor <;> linarith
    have e3 : Int.fract n' = 1 - Int.fract n := by
      rw [Int.fract, e2, hn']
      push_cast
      linarith
    rw [e2, e3, show a - (⌊n⌋ + 1) + 1 = a - ⌊n⌋ by ring]
    simp only [hb]
    by_cases c1 : (t : Int) = ⌊n⌋ % T
    · rw [if_pos c1, if_neg (fun c2 => mod_ne hT ⌊n⌋ (c1.symm.trans c2)), if_pos c1]
    · rw [if_neg c1, if_neg c1]
      split_ifs <;> ring

/-- The directions of a gradient and of its mirror image add up to a quarter of a turn. -/
def Mirror (T : Nat) (turn : ℚ → ℚ → ℚ) : Prop := ∀ gy gx, ∃ m : Int, turn gx gy = (T : ℚ) / 4 - turn gy gx + m * T

theorem diff_congr {n : Nat} (hn : 2 ≤ n) {f g : Nat → ℚ} (h : ∀ i < n, f i = g i) {i : Nat} (hi : i < n) : Imop.diff n f i = Imop.diff n g i := by
  unfold Imop.diff
  split_ifs
  · rw [h 1 (by omega), h 0 (by omega)]
  · rw [h i hi, h (i - 1) (by omega)]
  · rw [h (i + 1) (by omega), h (i - 1) (by omega)]

theorem oriented_mirror {sqrt : ℚ → ℚ} {turn : ℚ → ℚ → ℚ} {T t t' w h : Nat} (hT : 2 ≤ T) (h4 : 4 ∣ T) (ht : t < T) (ht' : t' < T) (hs : (t + t') % T = T / 4 % T) (hm : Mirror T turn) (hw : 2 ≤ w) (hh : 2 ≤ h) {I I' : Nat → Nat → ℚ} (hI : ∀ y < h, ∀ x < w, I' x y = I y x) {y x : Nat} (hy : y < h) (hx : x < w) :
    oriented sqrt turn T h w I' t' x y = oriented sqrt turn T w h I t y x := by
  obtain ⟨m, e⟩ := hm (Imop.gradY h I y x) (Imop.gradX w I y x)
  have e1 : Imop.gradX h I' x y = Imop.gradY h I y x := diff_congr hh (fun i hi => hI i hi x hx) hy
  have e2 : Imop.gradY w I' x y = Imop.gradX w I y x := diff_congr hw (fun i hi => hI y hy i hi) hx
  unfold oriented
  rw [e1, e2, share_mirror hT h4 ht ht' hs e, add_comm]

theorem binValue_mirror (exp : ℚ → ℚ) (ws : ℚ) (bx bY : Nat) {w h : Nat} (hw : 0 < w) (hh : 0 < h) {G G' : Nat → Nat → ℚ} (hG : ∀ y < h, ∀ x < w, G' x y = G y x) (cy cx : ℚ) (py px : Int) :
    binValue exp ws bY bx h w G' cx cy px py = binValue exp ws bx bY w h G cy cx py px := by
  unfold binValue
  simp only [around_sum, mul_sum]
  rw [sum_comm]
  refine sum_congr rfl fun i _ => sum_congr rfl fun j _ => ?_
  rw [hG _ (Imop.clampTo_lt hh _) _ (Imop.clampTo_lt hw _)]
  ring

theorem flatValue_mirror (exp : ℚ → ℚ) (ws : ℚ) (bx bY : Nat) {w h : Nat} (hw : 0 < w) (hh : 0 < h) {G G' : Nat → Nat → ℚ} (hG : ∀ y < h, ∀ x < w, G' x y = G y x) (cy cx : ℚ) (py px : Int) :
    flatValue exp ws bY bx h w G' cx cy px py = flatValue exp ws bx bY w h G cy cx py px := by
  unfold flatValue
  rw [mul_comm (meanBell exp ws bY cy py)]
  congr 1
  simp only [around_sum, mul_sum]
  rw [sum_comm]
  refine sum_congr rfl fun i _ => sum_congr rfl fun j _ => ?_
  rw [hG _ (Imop.clampTo_lt hh _) _ (Imop.clampTo_lt hw _)]
  ring

/-- The bins of two descriptors correspond to each other by the transposition. -/
def Match (T X Y : Nat) (v v' : Nat → Nat → Nat → ℚ) : Prop := ∀ t < T, ∀ t' < T, (t + t') % T = T / 4 % T → ∀ y < Y, ∀ x < X, v' t' x y = v t y x

theorem layout_sum (T X Y : Nat) (v : Nat → Nat → Nat → ℚ) : ∑ c ∈ range (T * X * Y), Layout T X v c = ∑ y ∈ range Y, ∑ x ∈ range X, ∑ t ∈ range T, v t y x := by
  rw [← sum_flat Y X (fun y x => ∑ t ∈ range T, v t y x), ← sum_flat (Y * X) T (fun a t => v t (a / X) (a % X)), show T * X * Y = Y * X * T by ring]
  rfl

theorem Match.sum {T X Y : Nat} {v v' : Nat → Nat → Nat → ℚ} (h : Match T X Y v v') : ∑ c ∈ range (T * Y * X), Layout T Y v' c = ∑ c ∈ range (T * X * Y), Layout T X v c := by
  rw [layout_sum, layout_sum, sum_comm]
  refine sum_congr rfl fun y hy => sum_congr rfl fun x hx => ?_
  refine sum_nbij' (fun t => (T / 4 + T - t) % T) (fun t => (T / 4 + T - t) % T) ?_ ?_ ?_ ?_ ?_
  · intro t ht; exact mem_range.2 (refl_lt (mem_range.1 ht))
  · intro t ht; exact mem_range.2 (refl_lt (mem_range.1 ht))
  · intro t ht; exact refl_invol (mem_range.1 ht)
  · intro t ht; exact refl_invol (mem_range.1 ht)
  · intro t ht
    have ht := mem_range.1 ht
    exact h _ (refl_lt ht) t ht (by rw [Nat.add_comm]; exact refl_sum' ht) y (mem_range.1 hy) x (mem_range.1 hx)

theorem unit_mirror (sqrt : ℚ → ℚ) (eps : ℚ) {T X Y : Nat} {v v' : Nat → Nat → Nat → ℚ} (h : Match T X Y v v') :
    ∃ u u', Match T X Y u u' ∧ unit sqrt eps (T * X * Y) (Layout T X v) = Layout T X u ∧ unit sqrt eps (T * Y * X) (Layout T Y v') = Layout T Y u' := by
  obtain ⟨A, hA⟩ : ∃ A, A = sqrt (∑ c ∈ range (T * X * Y), Layout T X v c * Layout T X v c) + eps := ⟨_, rfl⟩
  have hA' : A = sqrt (∑ c ∈ range (T * Y * X), Layout T Y v' c * Layout T Y v' c) + eps := by
    rw [hA]
    congr 2
    have h2 : Match T X Y (fun t y x => v t y x * v t y x) (fun t x y => v' t x y * v' t x y) := fun t ht t' ht' hs y hy x hx => by
      beta_reduce
      rw [h t ht t' ht' hs y hy x hx]
    exact h2.sum.symm
  refine ⟨fun t y x => v t y x / A, fun t x y => v' t x y / A, ?_, ?_, ?_⟩
  · intro t ht t' ht' hs y hy x hx
    beta_reduce
    rw [h t ht t' ht' hs y hy x hx]
  · funext c
    unfold unit
    rw [← hA]
    rfl
  · funext c
    unfold unit
    rw [← hA']
    rfl

theorem finished_mirror (sqrt : ℚ → ℚ) (eps : ℚ) {T X Y : Nat} {v v' : Nat → Nat → Nat → ℚ} (h : Match T X Y v v') :
    ∃ u u', Match T X Y u u' ∧ finished sqrt eps (T * X * Y) (Layout T X v) = Layout T X u ∧ finished sqrt eps (T * Y * X) (Layout T Y v') = Layout T Y u' := by
  obtain ⟨u, u', h1, e1, e2⟩ := unit_mirror sqrt eps h
  have h2 : Match T X Y (fun t y x => min (1 / 5) (u t y x)) (fun t x y => min (1 / 5) (u' t x y)) := fun t ht t' ht' hs y hy x hx => by
    beta_reduce
    rw [h1 t ht t' ht' hs y hy x hx]
  unfold finished
  rw [e1, e2]
  exact unit_mirror sqrt eps h2

/-- The filter for the transposed image: the two axes are exchanged. -/
structure Swapped (f f2 : Filter) : Prop where
  imWidth : f2.imWidth = f.imHeight
  imHeight : f2.imHeight = f.imWidth
  stepX : f2.stepX = f.stepY
  stepY : f2.stepY = f.stepX
  boundMinX : f2.boundMinX = f.boundMinY
  boundMinY : f2.boundMinY = f.boundMinX
  boundMaxX : f2.boundMaxX = f.boundMaxY
  boundMaxY : f2.boundMaxY = f.boundMaxX
  numBinT : f2.geom.numBinT = f.geom.numBinT
  numBinX : f2.geom.numBinX = f.geom.numBinY
  numBinY : f2.geom.numBinY = f.geom.numBinX
  binSizeX : f2.geom.binSizeX = f.geom.binSizeY
  binSizeY : f2.geom.binSizeY = f.geom.binSizeX
  flat : f2.useFlatWindow = f.useFlatWindow

/-- Descriptor `k` of size `n` -/
def descrOf (d : List ℚ) (n k : Nat) : List ℚ := (d.drop (k * n)).take n

/-- **C113**: when the number of orientations is a multiple of four, the transpose of the descriptor at `(x, y)` is the descriptor at `(y, x)` of the transposed image. -/
theorem transposed_image_partial {M : Maths} {mem mem2 : Mem} {fuel : Nat} {f f2 : Filter} {ws : ℚ} {w h bx bY T X Y nx ny : Nat} {tmp1 tmp2 tmp1' tmp2' im im2 : List ℚ} (hI : Inv f) (hI2 : Inv f2) (hv : Valid f) (hv2 : Valid f2) (S : Sizes f w h bx bY T X Y) (hS : Swapped f f2)
    (hws : ws ≠ 0) (hw : 2 ≤ w) (hh : 2 ≤ h) (hT : 2 ≤ T) (h4 : 4 ∣ T) (hM : ∀ gy gx, 0 ≤ M.turn gy gx) (hm : Mirror T M.turn)
    (ht1 : tmp1.length = w * h) (ht2 : tmp2.length = w * h) (ht1' : tmp1'.length = w * h) (ht2' : tmp2'.length = w * h)
    (hl : im.length = w * h) (hl2 : im2.length = w * h) (him : ∀ y < h, ∀ x < w, im2[x * h + y]? = im[y * w + x]?)
    (hx : IsCount f.boundMinX f.boundMaxX f.stepX f.geom.numBinX f.geom.binSizeX nx) (hy : IsCount f.boundMinY f.boundMaxY f.stepY f.geom.numBinY f.geom.binSizeY ny) (fx : nx ≤ fuel) (fy : ny ≤ fuel) :
    ∃ f' r1 r2 f2' r1' r2', processFull M mem fuel f ws tmp1 tmp2 im = some (f', r1, r2) ∧ processFull M mem2 fuel f2 ws tmp1' tmp2' im2 = some (f2', r1', r2') ∧
      ∀ j < ny, ∀ i < nx, ∀ dst : List ℚ, dst.length = T * X * Y → transpose (descrOf f'.descrs (T * X * Y) (j * nx + i)) T X Y dst = some (descrOf f2'.descrs (T * X * Y) (i * ny + j)) := by
  have S2 : Sizes f2 h w bY bx T Y X := ⟨S.h0, S.w0, S.bY0, S.bx0, by rw [hS.imWidth, S.h], by rw [hS.imHeight, S.w], by rw [hS.binSizeX, S.bY], by rw [hS.binSizeY, S.bx], by rw [hS.numBinT, S.T], by rw [hS.numBinX, S.Y], by rw [hS.numBinY, S.X]⟩
  obtain ⟨f', r1, r2, e1, -, -, -, -, l1, d1⟩ := descriptors_exact (M := M) (mem := mem) (fuel := fuel) hI hv S hws hw hh hT hM ht1 ht2 hl hx hy fx fy
  obtain ⟨f2', r1', r2', e2, -, -, -, -, l2, d2⟩ := descriptors_exact (M := M) (mem := mem2) (fuel := fuel) (nx := ny) (ny := nx) hI2 hv2 S2 hws hh hw hT hM (by rw [ht1', Nat.mul_comm]) (by rw [ht2', Nat.mul_comm]) (by rw [hl2, Nat.mul_comm])
    (by rw [hS.boundMinX, hS.boundMaxX, hS.stepX, hS.numBinX, hS.binSizeX]; exact hy) (by rw [hS.boundMinY, hS.boundMaxY, hS.stepY, hS.numBinY, hS.binSizeY]; exact hx) fy fx
  refine ⟨f', r1, r2, f2', r1', r2', e1, e2, fun j hj i hi dst hdst => ?_⟩
  obtain ⟨k, v, -, k2, hv1, c1⟩ := d1 j hj i hi
  obtain ⟨k', v', -, k2', hv2, c2⟩ := d2 i hi j hj
  have hn : T * X * Y = T * Y * X := by ring
  have ex : k'.x = k.y := by
    rw [k2.2.1, k2'.1, hS.boundMinX, hS.stepX, hS.binSizeX, hS.numBinX]
  have ey : k'.y = k.x := by
    rw [k2.1, k2'.2.1, hS.boundMinY, hS.stepY, hS.binSizeY, hS.numBinY]
  have hmatch : Match T X Y v v' := by
    intro t ht t' ht' hs y hy' x hx'
    rw [hv1 t ht y hy' x hx', hv2 t' ht' x hx' y hy', ex, ey, hS.flat, hS.boundMinX, hS.boundMinY, hS.stepX, hS.stepY, hS.binSizeX, hS.binSizeY]
    unfold siftValue
    have hG := fun y hy x hx => oriented_mirror (sqrt := M.sqrt) (turn := M.turn) hT h4 ht ht' hs hm hw hh (I := fun r c => im.getD (r * w + c) 0) (I' := fun r c => im2.getD (r * h + c) 0) (by
      intro y hy x hx
      rw [List.getD_eq_getElem?_getD, List.getD_eq_getElem?_getD, him y hy x hx]) (y := y) (x := x) hy hx
    rw [binValue_mirror M.exp ws bx bY (by omega) (by omega) hG, flatValue_mirror M.exp ws bx bY (by omega) (by omega) hG]
  obtain ⟨u, u', hu, q1, q2⟩ := finished_mirror M.sqrt M.eps hmatch
  have b1 : (j * nx + i + 1) * (T * X * Y) ≤ nx * ny * (T * X * Y) := Nat.mul_le_mul_right _ (by rw [Nat.mul_comm nx]; exact Flat.addr_lt hj hi)
  have b2 : (i * ny + j + 1) * (T * X * Y) ≤ ny * nx * (T * X * Y) := Nat.mul_le_mul_right _ (by rw [Nat.mul_comm ny]; exact Flat.addr_lt hi hj)
  rw [Nat.add_mul, Nat.one_mul] at b1 b2
  rw [← hn] at l2
  have len1 : (descrOf f'.descrs (T * X * Y) (j * nx + i)).length = T * X * Y := by
    unfold descrOf
    rw [List.length_take, List.length_drop, l1]
    omega
  have len2 : (descrOf f2'.descrs (T * X * Y) (i * ny + j)).length = T * X * Y := by
    unfold descrOf
    rw [List.length_take, List.length_drop, l2]
    omega
  obtain ⟨d', g1, g2, -⟩ := transpose_correct (descrOf f'.descrs (T * X * Y) (j * nx + i)) T X Y len1 dst hdst
  rw [g1, isTranspose_unique g2 (d2 := descrOf f2'.descrs (T * X * Y) (i * ny + j)) ⟨len2, fun x hx' y hy' t ht t' ht' hs => ?_⟩]
  have z1 := bin_lt (T := T) ht hx' hy'
  have z2 := bin_lt (T := T) ht' hy' hx'
  have z3 : T * (x + y * X) + t = bin T X t y x := by unfold bin; ring
  have z4 : T * (y + x * Y) + t' = bin T Y t' x y := by unfold bin; ring
  unfold entry descrOf
  rw [z3, z4, List.getElem?_take_of_lt z1, List.getElem?_take_of_lt (by omega), List.getElem?_drop, List.getElem?_drop, c1 _ z1, q1, hn, c2 _ z2, q2]
  obtain ⟨y1, y2, y3⟩ := bin_inv (y := y) ht hx'
  obtain ⟨w1, w2, w3⟩ := bin_inv (y := x) ht' hy'
  unfold Layout
  rw [y1, y2, y3, w1, w2, w3, hu t ht t' ht' hs y hy' x hx']

/-- The equation for any number of orientations, for a filter with one bin of one pixel -/
def TransposedImageClaim : Prop := ∀ (M : Maths) (mem : Mem) (T : Nat) (im im2 : List ℚ) (f' f2' : Filter) (r1 r2 r1' r2' : List ℚ), 2 ≤ T → im.length = 4 → im2.length = 4 → (∀ y < 2, ∀ x < 2, im2[x * 2 + y]? = im[y * 2 + x]?) →
  (∀ gy gx, 0 ≤ M.turn gy gx ∧ M.turn gy gx < T) → Mirror T M.turn →
  processFull M mem 2 (setSteps (setGeometry (new 2 2) ⟨T, 1, 1, 1, 1⟩) 1 1) 2 [0, 0, 0, 0] [0, 0, 0, 0] im = some (f', r1, r2) →
  processFull M mem 2 (setSteps (setGeometry (new 2 2) ⟨T, 1, 1, 1, 1⟩) 1 1) 2 [0, 0, 0, 0] [0, 0, 0, 0] im2 = some (f2', r1', r2') →
  ∀ j < 2, ∀ i < 2, ∀ dst : List ℚ, dst.length = T → transpose (descrOf f'.descrs T (j * 2 + i)) T 1 1 dst = some (descrOf f2'.descrs T (i * 2 + j))

/-- Blocks of zeros -/
def zeroMem : Mem := { frames := fun n => List.replicate n ⟨0, 0, 0, 0⟩, floats := fun n => List.replicate n 0, frames_length := by simp, floats_length := by simp }

/-- **C113**: with two orientations the equation fails, because a quarter of a turn is half a bin. -/
theorem transposedImage_claim_false : ¬ TransposedImageClaim := by
  intro h
  obtain ⟨p, hp⟩ : ∃ p, processFull halfTurn zeroMem 2 (setSteps (setGeometry (new 2 2) ⟨(2 : Nat), 1, 1, 1, 1⟩) 1 1) 2 [0, 0, 0, 0] [0, 0, 0, 0] [0, 1, 0, 1] = some p := Option.isSome_iff_exists.1 (by decide +kernel)
  obtain ⟨p2, hp2⟩ : ∃ p, processFull halfTurn zeroMem 2 (setSteps (setGeometry (new 2 2) ⟨(2 : Nat), 1, 1, 1, 1⟩) 1 1) 2 [0, 0, 0, 0] [0, 0, 0, 0] [0, 0, 1, 1] = some p := Option.isSome_iff_exists.1 (by decide +kernel)
  have h1 := h halfTurn zeroMem 2 [0, 1, 0, 1] [0, 0, 1, 1] p.1 p2.1 p.2.1 p.2.2 p2.2.1 p2.2.2 (by decide) rfl rfl (by decide) (by
    intro gy gx
    unfold halfTurn
    dsimp only
    split_ifs <;> norm_num) (by
    intro gy gx
    refine ⟨0, ?_⟩
    unfold halfTurn
    dsimp only
    split_ifs <;> first | (exfalso; linarith) | norm_num) hp hp2 0 (by decide) 0 (by decide) [0, 0] rfl
  have e : (do
      let p ← processFull halfTurn zeroMem 2 (setSteps (setGeometry (new 2 2) ⟨(2 : Nat), 1, 1, 1, 1⟩) 1 1) 2 [0, 0, 0, 0] [0, 0, 0, 0] [0, 1, 0, 1]
      let p2 ← processFull halfTurn zeroMem 2 (setSteps (setGeometry (new 2 2) ⟨(2 : Nat), 1, 1, 1, 1⟩) 1 1) 2 [0, 0, 0, 0] [0, 0, 0, 0] [0, 0, 1, 1]
      some (decide (transpose (descrOf p.1.descrs 2 0) 2 1 1 [0, 0] = some (descrOf p2.1.descrs 2 0)))) = some false := by decide +kernel
  rw [hp, hp2] at e
  simp only [Option.bind_eq_bind, Option.bind_some, Option.some.injEq, decide_eq_false_iff_not] at e
  exact e h1

/-- A direction with eight orientations -/
def eightTurn : ℚ → ℚ → ℚ := fun gy gx => if gy < gx then 0 else if gx < gy then 2 else 1

/-- The hypotheses are met: a 30 by 25 image, steps 3 and 4, two columns and three rows of bins of size 5, eight orientations; and the filter of the transposed image. -/
example : Mirror 8 eightTurn ∧ (∀ gy gx, 0 ≤ eightTurn gy gx) ∧
    (let f := setSteps (setGeometry (new 30 25) ⟨8, 2, 3, 5, 5⟩) 3 4
     let f2 := setSteps (setGeometry (new 25 30) ⟨8, 3, 2, 5, 5⟩) 4 3
     Inv f ∧ Inv f2 ∧ Valid f ∧ Valid f2 ∧ Sizes f 30 25 5 5 8 2 3 ∧ Swapped f f2 ∧ IsCount f.boundMinX f.boundMaxX f.stepX f.geom.numBinX f.geom.binSizeX 9 ∧ IsCount f.boundMinY f.boundMaxY f.stepY f.geom.numBinY f.geom.binSizeY 4) := by
  refine ⟨?_, ?_, ?_, ?_, by constructor <;> decide, by constructor <;> decide, by constructor <;> decide, by constructor <;> decide, fun i => ?_, fun i => ?_⟩
  · intro gy gx
    refine ⟨0, ?_⟩
    unfold eightTurn
    split_ifs <;> first | (exfalso; linarith) | norm_num
  · intro gy gx
    unfold eightTurn
    split_ifs <;> norm_num
  · exact update_inv rfl rfl
  · exact update_inv rfl rfl
  · show i < 9 ↔ (0 : Int) + i * 3 + (2 - 1) * 5 ≤ 30 - 1
    omega
  · show i < 4 ↔ (0 : Int) + i * 4 + (3 - 1) * 5 ≤ 25 - 1
    omega

end Verif.Dsift
