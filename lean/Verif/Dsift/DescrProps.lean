import Verif.Dsift.DescrLemmas
import Verif.Dsift.Props

set_option linter.unusedSectionVars false

/-!
# Dense SIFT descriptors are what they should be
-/

namespace Verif.Dsift

open Finset

/-! ## Loops and images -/

/-- A loop follows another one, of which it carries the state. -/
theorem iter_sim {σ τ : Type} (p : σ → τ) (Q : σ → Prop) {n : Nat} {f : Nat → σ → Option σ} {g : Nat → τ → Option τ}
    (hs : ∀ i < n, ∀ s, Q s → ∀ d, g i (p s) = some d → ∃ s', f i s = some s' ∧ p s' = d ∧ Q s') {s : σ} {d : τ} (hQ : Q s) (h : iter n g (p s) = some d) :
    ∃ s', iter n f s = some s' ∧ p s' = d ∧ Q s' := by
  induction n generalizing d with
  | zero => exact ⟨s, rfl, by simpa [iter] using h, hQ⟩
  | succ n ih =>
    simp only [iter] at h
    obtain ⟨d1, h1, h2⟩ := Option.bind_eq_some_iff.1 h
    obtain ⟨s1, e1, rfl, q1⟩ := ih (fun i hi => hs i (by omega)) h1
    obtain ⟨s2, e2, e3, q2⟩ := hs n (by omega) s1 q1 d h2
    exact ⟨s2, by simp [iter, e1, e2], e3, q2⟩

/-- The image with the given pixels -/
def imageOf (h w : Nat) (V : Nat → Nat → ℚ) : List ℚ := (List.range (h * w)).map fun k => V (k / w) (k % w)

theorem imageOf_flat (h w : Nat) (V : Nat → Nat → ℚ) : Flat (imageOf h w V) h w V := by
  refine ⟨by simp [imageOf], fun y hy x hx => ?_⟩
  have := Flat.addr_lt (n := h) (m := w) hy hx
  have hw : 0 < w := by omega
  simp only [imageOf, List.getElem?_map, List.getElem?_range this, Option.map_some]
  rw [Nat.add_comm, Nat.add_mul_div_right _ _ hw, Nat.div_eq_of_lt hx, Nat.add_mul_mod_self_right, Nat.mod_eq_of_lt hx, Nat.zero_add]

theorem flat_eq {l : List ℚ} {h w : Nat} {V : Nat → Nat → ℚ} (hl : Flat l h w V) : l = imageOf h w V := by
  have h2 := imageOf_flat h w V
  apply List.ext_getElem?
  intro k
  rcases Nat.lt_or_ge k (h * w) with hk | hk
  · have hw : 0 < w := by
      rcases Nat.eq_zero_or_pos w with rfl | h'
      · simp at hk
      · exact h'
    have e : k = (k / w) * w + k % w := by rw [Nat.mul_comm]; exact (Nat.div_add_mod k w).symm
    have a1 : k / w < h := Nat.div_lt_of_lt_mul (by rw [Nat.mul_comm]; exact hk)
    have a2 := Nat.mod_lt k hw
    rw [e, hl.get _ a1 _ a2, h2.get _ a1 _ a2]
  · rw [List.getElem?_eq_none (by rw [hl.len]; exact hk), List.getElem?_eq_none (by rw [h2.len]; exact hk)]

/-! ## Sums over a bin -/

theorem around_sum (b : Nat) (p : Int) (f : Int → ℚ) : ((around b p).map f).sum = ∑ i ∈ range (2 * b - 1), f (p + ((i : Int) - (b - 1))) := by
  unfold around
  rw [List.map_map, ← Finset.sum_map_val]
  rw [show (range (2 * b - 1)).val.map (fun i : Nat => f (p + ((i : Int) - (b - 1)))) = ((List.range (2 * b - 1)).map (fun i : Nat => f (p + ((i : Int) - (b - 1)))) : Multiset ℚ) from rfl, Multiset.sum_coe]
  congr 1
  refine List.map_congr_left fun i _ => ?_
  show f _ = f _
  congr 1
  ring

theorem around_sum' {b : Nat} (hb : 1 ≤ b) (p : Int) (f : Int → ℚ) : ((around b p).map f).sum = ∑ i ∈ range (2 * b - 1), f (p - ((i : Int) - (b - 1))) := by
  rw [around_sum, ← Finset.sum_range_reflect]
  refine sum_congr rfl fun i hi => ?_
  have := mem_range.1 hi
  congr 1
  omega

/-! ## The two passes over the bins -/

section passes

variable {M : Maths} {mem : Mem} {fuel : Nat} {f : Filter} {ws : ℚ} {w h bx bY T X Y : Nat} {G : Nat → Nat → Nat → ℚ} {grads : List (List ℚ)}

/-- The parameters of the filter as natural numbers -/
structure Sizes (f : Filter) (w h bx bY T X Y : Nat) : Prop where
  w0 : 1 ≤ w
  h0 : 1 ≤ h
  bx0 : 1 ≤ bx
  bY0 : 1 ≤ bY
  w : f.imWidth = w
  h : f.imHeight = h
  bx : f.geom.binSizeX = bx
  bY : f.geom.binSizeY = bY
  T : f.geom.numBinT = T
  X : f.geom.numBinX = X
  Y : f.geom.numBinY = Y

/-- The value of the kernel of a bin at distance `x` -/
def kerAt (M : Maths) (b N k : Nat) (ws : ℚ) (i : Nat) : ℚ := (1 - |((- (b : Int) + 1 + i : Int) : ℚ)| / b) * bellAt M b N k ws (- (b : Int) + 1 + i)

/-- The image that the Gaussian pass samples -/
def gaussPix (M : Maths) (ws : ℚ) (w h bx bY X Y : Nat) (G : Nat → Nat → Nat → ℚ) (t ky kx y x : Nat) : ℚ :=
  ∑ i ∈ range (2 * bx - 1), kerAt M bx X kx ws i * ∑ j ∈ range (2 * bY - 1), kerAt M bY Y ky ws j * G t (Imop.clampTo h ((y : Int) - ((j : Int) - (bY - 1)))) (Imop.clampTo w ((x : Int) - ((i : Int) - (bx - 1))))

/-- The temporary images have the size of the image. -/
def Work.Ok (w h : Nat) (s : Work) : Prop := s.tmp1.length = w * h ∧ s.tmp2.length = h * w

theorem gaussianFull_spec (S : Sizes f w h bx bY T X Y) (hws : ws ≠ 0) (hg : Grads grads T h w G) {s : Work} (hs : s.Ok w h) {d : List ℚ}
    (hd : gaussianWindow fuel f (fun t ky kx => imageOf h w (gaussPix M ws w h bx bY X Y G t ky kx)) s.descrs = some d) :
    ∃ s', gaussianFull M mem fuel f ws grads s = some s' ∧ s'.descrs = d ∧ s'.Ok w h := by
  have zx : (bx : ℚ) * ws ≠ 0 := mul_ne_zero (by have := S.bx0; exact_mod_cast (by omega : bx ≠ 0)) hws
  have zy : (bY : ℚ) * ws ≠ 0 := mul_ne_zero (by have := S.bY0; exact_mod_cast (by omega : bY ≠ 0)) hws
  have hbx := S.bx0
  have hby := S.bY0
  have hw0 := S.w0
  have hh0 := S.h0
  unfold gaussianFull
  unfold gaussianWindow at hd
  simp only [S.w, S.h, S.bx, S.bY, S.T, S.X, S.Y, Int.toNat_natCast] at hd ⊢
  refine iter_sim Work.descrs (Work.Ok w h) (fun ky hky s hs d hd => ?_) hs hd
  obtain ⟨yker, ey, hy⟩ := newKernel_spec M (N := Y) (k := ky) zy (mem.floats_length (2 * bY - 1))
  simp only [Option.bind_eq_bind]
  rw [ey, Option.bind_some]
  refine iter_sim Work.descrs (Work.Ok w h) (fun kx hkx s hs d hd => ?_) hs hd
  obtain ⟨xker, ex, hx⟩ := newKernel_spec M (N := X) (k := kx) zx (mem.floats_length (2 * bx - 1))
  rw [ex, Option.bind_some]
  refine iter_sim Work.descrs (Work.Ok w h) (fun t ht s hs d hd => ?_) hs hd
  obtain ⟨im, i1, i2⟩ := hg.get t ht
  obtain ⟨t1, e1, f1⟩ := convcol_flat (buf := s.tmp1) (by omega) hs.1 i2 (filt := yker) (n := bY - 1) (by rw [hy.len]; omega)
  obtain ⟨t2, e2, f2⟩ := convcol_flat (buf := s.tmp2) (by omega) hs.2 f1 (filt := xker) (n := bx - 1) (by rw [hx.len]; omega)
  have f3 : Flat t2 h w (gaussPix M ws w h bx bY X Y G t ky kx) := by
    refine f2.congr fun y _ x _ => ?_
    unfold gaussPix
    rw [show 2 * (bx - 1) + 1 = 2 * bx - 1 by omega, show 2 * (bY - 1) + 1 = 2 * bY - 1 by omega]
    refine sum_congr rfl fun i hi => ?_
    rw [List.getD_eq_getElem?_getD, hx.get i (mem_range.1 hi), Option.getD_some]
    congr 1
    refine sum_congr rfl fun j hj => ?_
    rw [List.getD_eq_getElem?_getD, hy.get j (mem_range.1 hj), Option.getD_some, Nat.cast_sub hbx, Nat.cast_sub hby]
    rfl
  rw [rd_getElem?, i1, Option.bind_some, e1, Option.bind_some, e2, Option.bind_some, flat_eq f3, hd, Option.bind_some]
  exact ⟨_, rfl, rfl, f1.len, (imageOf_flat h w _).len⟩

/-- The image that the flat pass samples -/
def flatPix (w h bx bY : Nat) (G : Nat → Nat → Nat → ℚ) (t y x : Nat) : ℚ :=
  1 / ((bx : ℚ) * bx) * ∑ i ∈ range (2 * bx - 1), ((bx - Imop.ndist i (bx - 1) : Nat) : ℚ) * (1 / ((bY : ℚ) * bY) * ∑ j ∈ range (2 * bY - 1), ((bY - Imop.ndist j (bY - 1) : Nat) : ℚ) * G t (Imop.clampTo h ((y : Int) + ((j : Int) - (bY - 1)))) (Imop.clampTo w ((x : Int) + ((i : Int) - (bx - 1)))))

/-- The weight of a bin in the flat pass -/
def weight (M : Maths) (b N : Nat) (ws : ℚ) (k : Nat) : ℚ := (∑ i ∈ range (2 * b - 1), bellAt M b N k ws (- (b : Int) + 1 + i)) / (2 * b - 1) * b

theorem flatFull_spec (S : Sizes f w h bx bY T X Y) (hws : ws ≠ 0) (hg : Grads grads T h w G) {s : Work} (hs : s.Ok w h) {d : List ℚ}
    (hd : flatWindow fuel f (fun t _ _ => imageOf h w (flatPix w h bx bY G t)) (weight M bx X ws) (weight M bY Y ws) s.descrs = some d) :
    ∃ s', flatFull M mem fuel f ws grads s = some s' ∧ s'.descrs = d ∧ s'.Ok w h := by
  have zx : (bx : ℚ) * ws ≠ 0 := mul_ne_zero (by have := S.bx0; exact_mod_cast (by omega : bx ≠ 0)) hws
  have zy : (bY : ℚ) * ws ≠ 0 := mul_ne_zero (by have := S.bY0; exact_mod_cast (by omega : bY ≠ 0)) hws
  have hbx := S.bx0
  have hby := S.bY0
  have hw0 := S.w0
  have hh0 := S.h0
  unfold flatFull
  unfold flatWindow at hd
  simp only [S.w, S.h, S.bx, S.bY, S.T, S.X, S.Y, Int.toNat_natCast] at hd ⊢
  refine iter_sim Work.descrs (Work.Ok w h) (fun t ht s hs d hd => ?_) hs hd
  obtain ⟨im, i1, i2⟩ := hg.get t ht
  obtain ⟨t1, e1, f1⟩ := convtri_flat (buf := s.tmp1) (by omega) hs.1 i2 (fs := bY) (by omega) (mem.floats_length (h + bY))
  obtain ⟨t2, e2, f2⟩ := convtri_flat (buf := s.tmp2) (by omega) hs.2 f1 (fs := bx) (by omega) (mem.floats_length (w + bx))
  have f3 : Flat t2 h w (flatPix w h bx bY G t) := f2
  simp only [Option.bind_eq_bind]
  rw [rd_getElem?, i1, Option.bind_some, e1, Option.bind_some, e2, Option.bind_some]
  have e3 : iter Y (fun biny d => (binWindowMean M bY Y biny ws).bind fun wy => iter X (fun binx d => (binWindowMean M bx X binx ws).bind fun wx => sampleBin fuel f t2 (wx * bx * (wy * bY)) t biny binx d) d) s.descrs = some d := by
    rw [← hd]
    refine iter_congr fun ky _ d => ?_
    rw [binWindowMean_spec M zy, Option.bind_some]
    refine iter_congr fun kx _ d => ?_
    rw [binWindowMean_spec M zx, Option.bind_some, flat_eq f3]
    rfl
  rw [e3, Option.bind_some]
  exact ⟨_, rfl, rfl, f1.len, f2.len⟩

end passes

/-! ## The values of the bins -/

theorem bell_kernel (M : Maths) {b N k : Nat} {ws c : ℚ} {p : Int} (hc : c = p - b * (k - ((N : ℚ) - 1) / 2)) (i : Nat) :
    bellAt M b N k ws (- (b : Int) + 1 + i) = bell M.exp (b * ws) (((p - ((i : Int) - (b - 1)) : Int) : ℚ) - c) := by
  unfold bellAt bell delta
  rw [hc]
  push_cast
  rw [show (-(b : ℚ) + 1 + i - b * (k - 1 / 2 * ((N : ℚ) - 1))) = - ((p : ℚ) - (i - (b - 1)) - (p - b * (k - ((N : ℚ) - 1) / 2))) by ring]
  congr 1
  ring

theorem tent_kernel {b : Nat} (p : Int) (i : Nat) : 1 - |((- (b : Int) + 1 + i : Int) : ℚ)| / b = tent b (p - ((i : Int) - (b - 1)) - p) := by
  unfold tent
  rw [show (p - ((i : Int) - (b - 1)) - p : Int) = - (- (b : Int) + 1 + i) by ring, Int.cast_neg, abs_neg]

theorem gaussPix_eq (M : Maths) {ws cx cy : ℚ} {w h bx bY X Y kx ky : Nat} (hbx : 1 ≤ bx) (hby : 1 ≤ bY) (G : Nat → Nat → Nat → ℚ) (t : Nat) {px py : Nat}
    (hx : cx = (px : Int) - bx * (kx - ((X : ℚ) - 1) / 2)) (hy : cy = (py : Int) - bY * (ky - ((Y : ℚ) - 1) / 2)) :
    gaussPix M ws w h bx bY X Y G t ky kx py px = binValue M.exp ws bx bY w h (G t) cy cx py px := by
  unfold gaussPix binValue
  rw [around_sum' hbx]
  refine sum_congr rfl fun i _ => ?_
  rw [around_sum' hby]
  unfold kerAt
  rw [bell_kernel M hx, tent_kernel (px : Int)]
  congr 1
  refine sum_congr rfl fun j _ => ?_
  rw [bell_kernel M hy, tent_kernel (py : Int)]

theorem tent_tri {b : Nat} (hb : 1 ≤ b) (p : Int) {i : Nat} (hi : i < 2 * b - 1) : 1 / (b : ℚ) * ((b - Imop.ndist i (b - 1) : Nat) : ℚ) = tent b (p + ((i : Int) - (b - 1)) - p) := by
  have hz : (b : ℚ) ≠ 0 := by exact_mod_cast (by omega : b ≠ 0)
  have h1 : Imop.ndist i (b - 1) ≤ b := by unfold Imop.ndist; omega
  have h2 : |((p + ((i : Int) - (b - 1)) - p : Int) : ℚ)| = (Imop.ndist i (b - 1) : ℚ) := by
    rw [← Int.cast_abs, show |p + ((i : Int) - (b - 1)) - p| = ((Imop.ndist i (b - 1) : Nat) : Int) by rw [Int.abs_eq_natAbs]; unfold Imop.ndist; omega, Int.cast_natCast]
  unfold tent
  rw [h2, Nat.cast_sub h1]
  field_simp

theorem weight_eq (M : Maths) {b N k : Nat} (hb : 1 ≤ b) {ws c : ℚ} {p : Int} (hc : c = p - b * (k - ((N : ℚ) - 1) / 2)) : weight M b N ws k = meanBell M.exp ws b c p * b := by
  unfold weight meanBell
  rw [around_sum' hb]
  congr 2
  exact sum_congr rfl fun i _ => bell_kernel M hc i

theorem flatPix_eq (M : Maths) {ws cx cy : ℚ} {w h bx bY X Y kx ky : Nat} (hbx : 1 ≤ bx) (hby : 1 ≤ bY) (G : Nat → Nat → Nat → ℚ) (t : Nat) {px py : Nat}
    (hx : cx = (px : Int) - bx * (kx - ((X : ℚ) - 1) / 2)) (hy : cy = (py : Int) - bY * (ky - ((Y : ℚ) - 1) / 2)) :
    weight M bx X ws kx * weight M bY Y ws ky * flatPix w h bx bY G t py px = flatValue M.exp ws bx bY w h (G t) cy cx py px := by
  have zx : (bx : ℚ) ≠ 0 := by exact_mod_cast (by omega : bx ≠ 0)
  have zy : (bY : ℚ) ≠ 0 := by exact_mod_cast (by omega : bY ≠ 0)
  have e : flatPix w h bx bY G t py px = 1 / bx * (1 / bY) * ((around bx px).map fun (qx : Int) => tent bx (qx - px) * ((around bY py).map fun (qy : Int) => tent bY (qy - py) * G t (Imop.clampTo h qy) (Imop.clampTo w qx)).sum).sum := by
    unfold flatPix
    rw [around_sum, mul_sum, mul_sum]
    refine sum_congr rfl fun i hi => ?_
    rw [around_sum, ← tent_tri hbx px (mem_range.1 hi)]
    have e2 : ∀ S : ℚ, ∀ S' : ℚ, 1 / (bY : ℚ) * S = S' → 1 / ((bx : ℚ) * bx) * (((bx - Imop.ndist i (bx - 1) : Nat) : ℚ) * (1 / ((bY : ℚ) * bY) * S)) = 1 / bx * (1 / bY) * (1 / bx * ((bx - Imop.ndist i (bx - 1) : Nat) : ℚ) * S') := by
      rintro S S' rfl
      field_simp
    refine e2 _ _ ?_
    rw [mul_sum]
    refine sum_congr rfl fun j hj => ?_
    rw [← tent_tri hby py (mem_range.1 hj)]
    ring
  unfold flatValue
  rw [e, weight_eq M hbx hx, weight_eq M hby hy]
  field_simp

/-! ## The descriptors -/

theorem finished_congr {sqrt : ℚ → ℚ} {eps : ℚ} {n : Nat} {v v' : Nat → ℚ} (h : ∀ c < n, v c = v' c) {c : Nat} (hc : c < n) : finished sqrt eps n v c = finished sqrt eps n v' c := by
  have e : ∀ u u' : Nat → ℚ, (∀ c < n, u c = u' c) → ∀ c < n, unit sqrt eps n u c = unit sqrt eps n u' c := by
    intro u u' hu c hc
    unfold unit
    rw [hu c hc, sum_congr rfl fun i hi => by rw [hu i (mem_range.1 hi)]]
  exact e _ _ (fun c hc => by rw [e _ _ h c hc]) c hc

theorem layout_congr {T X Y : Nat} {v v' : Nat → Nat → Nat → ℚ} (h : ∀ t < T, ∀ y < Y, ∀ x < X, v t y x = v' t y x) {c : Nat} (hc : c < T * X * Y) : Layout T X v c = Layout T X v' c := by
  obtain ⟨t, ht, y, hy, x, hx, rfl⟩ := bin_surj hc
  obtain ⟨e1, e2, e3⟩ := bin_inv (y := y) ht hx
  unfold Layout
  rw [e1, e2, e3]
  exact h t ht y hy x hx

theorem pixel_imageOf {f : Filter} {w h : Nat} (hw : f.imWidth = w) (V : Nat → Nat → ℚ) {x y : Nat} (hx : x < w) (hy : y < h) : pixel f (imageOf h w V) x y = V y x := by
  unfold pixel
  rw [hw, show ((x : Int) + (y : Int) * (w : Int)).toNat = y * w + x by rw [show (x : Int) + (y : Int) * (w : Int) = ((y * w + x : Nat) : Int) by push_cast; ring, Int.toNat_natCast], List.getD_eq_getElem?_getD, (imageOf_flat h w V).get y hy x hx, Option.getD_some]

/-- What the images and the weights are -/
def envOf (M : Maths) (mem : Mem) (flat : Bool) (ws : ℚ) (w h bx bY X Y : Nat) (G : Nat → Nat → Nat → ℚ) : Env :=
  { mem := mem, sqrt := M.sqrt, eps := M.eps, conv := fun t ky kx => imageOf h w (if flat then flatPix w h bx bY G t else gaussPix M ws w h bx bY X Y G t ky kx), wx := weight M bx X ws, wy := weight M bY Y ws }

theorem alloc_same (mem : Mem) (f : Filter) : (allocBuffers mem f).imWidth = f.imWidth ∧ (allocBuffers mem f).imHeight = f.imHeight ∧ (allocBuffers mem f).geom = f.geom ∧ (allocBuffers mem f).useFlatWindow = f.useFlatWindow := by
  unfold allocBuffers
  dsimp only
  split <;> exact ⟨rfl, rfl, rfl, rfl⟩

theorem Sizes.alloc {f : Filter} {w h bx bY T X Y : Nat} (S : Sizes f w h bx bY T X Y) (mem : Mem) : Sizes (allocBuffers mem f) w h bx bY T X Y := by
  obtain ⟨e1, e2, e3, -⟩ := alloc_same mem f
  exact ⟨S.w0, S.h0, S.bx0, S.bY0, by rw [e1, S.w], by rw [e2, S.h], by rw [e3, S.bx], by rw [e3, S.bY], by rw [e3, S.T], by rw [e3, S.X], by rw [e3, S.Y]⟩

/-- **C111**: each descriptor of the grid is the vector of the spatial bins of the oriented gradients, weighted by bilinear interpolation and by the window centred at its keypoint, normalised, clamped at 0.2 and normalised again, whatever the buffers of the filter held before. -/
theorem descriptors_exact {M : Maths} {mem : Mem} {fuel : Nat} {f : Filter} {ws : ℚ} {w h bx bY T X Y nx ny : Nat} {tmp1 tmp2 im : List ℚ} (hI : Inv f) (hv : Valid f) (S : Sizes f w h bx bY T X Y)
    (hws : ws ≠ 0) (hw : 2 ≤ w) (hh : 2 ≤ h) (hT : 2 ≤ T) (hM : ∀ gy gx, 0 ≤ M.turn gy gx) (ht1 : tmp1.length = w * h) (ht2 : tmp2.length = w * h) (hl : im.length = w * h)
    (hx : IsCount f.boundMinX f.boundMaxX f.stepX f.geom.numBinX f.geom.binSizeX nx) (hy : IsCount f.boundMinY f.boundMaxY f.stepY f.geom.numBinY f.geom.binSizeY ny) (fx : nx ≤ fuel) (fy : ny ≤ fuel) :
    ∃ f' t1 t2, processFull M mem fuel f ws tmp1 tmp2 im = some (f', t1, t2) ∧ Inv f' ∧ t1.length = w * h ∧ t2.length = w * h ∧ f'.frames.length = nx * ny ∧ f'.descrs.length = nx * ny * (T * X * Y) ∧
      ∀ j < ny, ∀ i < nx, ∃ k v, f'.frames[j * nx + i]? = some k ∧ IsFrame f (T * X * Y) (Layout T X v) j i k ∧
        (∀ t < T, ∀ y < Y, ∀ x < X, v t y x = siftValue f.useFlatWindow M.sqrt M.exp M.turn ws T bx bY w h (fun r c => im.getD (r * w + c) 0) k.y k.x t (f.boundMinY + j * f.stepY + y * f.geom.binSizeY) (f.boundMinX + i * f.stepX + x * f.geom.binSizeX)) ∧
        ∀ c < T * X * Y, f'.descrs[(j * nx + i) * (T * X * Y) + c]? = some (finished M.sqrt M.eps (T * X * Y) (Layout T X v) c) := by
  obtain ⟨g, eg, hg⟩ := gradients_spec (M := M) (im := im) (T := T) (by rw [hl, Nat.mul_comm]) hw hh hT hM
  obtain ⟨env, henv⟩ : ∃ env, env = envOf M mem f.useFlatWindow ws w h bx bY X Y (oriented M.sqrt M.turn T w h (imF im w)) := ⟨_, rfl⟩
  obtain ⟨f', e1, h1, -, -, h2, h3, -, -, h4⟩ := process_correct hI hv (env := env) (by
    intro t y x
    rw [henv]
    show ((imageOf h w _).length : Int) = _
    rw [(imageOf_flat h w _).len, S.w, S.h]
    push_cast
    ring) S.T S.X S.Y hx hy fx fy
  obtain ⟨a1, a2, a3, a4⟩ := alloc_same mem f
  have SA := S.alloc mem
  unfold process at e1
  rw [show env.mem = mem by rw [henv]; rfl, show env.sqrt = M.sqrt by rw [henv]; rfl, show env.eps = M.eps by rw [henv]; rfl] at e1
  obtain ⟨d, ed, e2⟩ := Option.bind_eq_some_iff.1 e1
  obtain ⟨o, eo, e3⟩ := Option.bind_eq_some_iff.1 e2
  obtain ⟨s, es, sd, so⟩ : ∃ s, (if (allocBuffers mem f).useFlatWindow = true then flatFull M mem fuel (allocBuffers mem f) ws g ⟨(allocBuffers mem f).descrs, tmp1, tmp2⟩ else gaussianFull M mem fuel (allocBuffers mem f) ws g ⟨(allocBuffers mem f).descrs, tmp1, tmp2⟩) = some s ∧ s.descrs = d ∧ s.Ok w h := by
    have hok : Work.Ok w h ⟨(allocBuffers mem f).descrs, tmp1, tmp2⟩ := ⟨ht1, by rw [Nat.mul_comm h]; exact ht2⟩
    unfold window at ed
    rw [henv] at ed
    unfold envOf at ed
    dsimp only at ed
    rw [a4] at ed ⊢
    cases hf : f.useFlatWindow
    · rw [hf] at ed
      exact gaussianFull_spec SA hws hg hok ed
    · rw [hf] at ed
      exact flatFull_spec SA hws hg hok ed
  refine ⟨f', s.tmp1, s.tmp2, ?_, h1, so.1, by rw [so.2, Nat.mul_comm], h2, h3, ?_⟩
  · have eg' : gradients M (allocBuffers mem f).geom.numBinT.toNat im (allocBuffers mem f).imWidth.toNat (allocBuffers mem f).imHeight.toNat = some g := by
      rw [SA.T, SA.w, SA.h, Int.toNat_natCast, Int.toNat_natCast, Int.toNat_natCast, eg]
    unfold processFull
    dsimp only
    rw [eg']
    simp only [Option.bind_eq_bind, Option.bind_some]
    cases e3
    by_cases hf : (allocBuffers mem f).useFlatWindow = true
    · rw [if_pos hf] at es ⊢
      rw [es, Option.bind_some, sd, eo, Option.bind_some]
    · rw [if_neg hf] at es ⊢
      rw [es, Option.bind_some, sd, eo, Option.bind_some]
  · intro j hj i hi
    obtain ⟨⟨k, k1, k2⟩, k3⟩ := h4 j hj i hi
    refine ⟨k, raw env f j i, k1, k2, ?_, fun c hc => ?_⟩
    · intro t ht y hyY x hxX
      obtain ⟨c1, c2, c3, c4⟩ := centres_inside hv hx hy hi hj (x := x) (y := y) (by rw [S.X]; omega) (by rw [S.Y]; omega)
      have v1 := hv.minX
      have v2 := hv.minY
      have v3 := hv.maxX
      have v4 := hv.maxY
      obtain ⟨k5, k6, -⟩ := k2
      rw [S.w] at v3
      rw [S.h] at v4
      obtain ⟨px, epx⟩ := Int.eq_ofNat_of_zero_le (v1.trans c1)
      obtain ⟨py, epy⟩ := Int.eq_ofNat_of_zero_le (v2.trans c3)
      have hcx : k.x = (px : Int) - bx * (x - ((X : ℚ) - 1) / 2) := by
        rw [← epx, k5, S.X, S.bx]
        push_cast
        ring
      have hcy : k.y = (py : Int) - bY * (y - ((Y : ℚ) - 1) / 2) := by
        rw [← epy, k6, S.Y, S.bY]
        push_cast
        ring
      unfold raw siftValue
      rw [epx, epy, henv]
      unfold envOf
      dsimp only
      rw [pixel_imageOf S.w _ (by omega) (by omega)]
      cases hf : f.useFlatWindow
      · simp only [Bool.false_eq_true, if_false, one_mul]
        exact gaussPix_eq M S.bx0 S.bY0 _ t hcx hcy
      · simp only [if_true]
        exact flatPix_eq M S.bx0 S.bY0 _ t hcx hcy
    · rw [show M.sqrt = env.sqrt by rw [henv]; rfl, show M.eps = env.eps by rw [henv]; rfl]
      exact k3 c hc

end Verif.Dsift
