import Verif.Dsift.Model
import Verif.Flat
import Mathlib.Algebra.BigOperators.Intervals
import Mathlib.Data.List.GetD
import Mathlib.Tactic.Linarith

/-!
# Dense SIFT announces exactly the keypoints it writes
-/

namespace Verif.Dsift

open Finset

/-! ## Specification -/

/-- Parameters that make sense for the image: positive steps and numbers of bins, bins of non-negative size, and bounds
inside the image.  The bounds may be empty. -/
structure Valid (f : Filter) : Prop where
  stepX : 1 ≤ f.stepX
  stepY : 1 ≤ f.stepY
  numBinT : 1 ≤ f.geom.numBinT
  numBinX : 1 ≤ f.geom.numBinX
  numBinY : 1 ≤ f.geom.numBinY
  binSizeX : 0 ≤ f.geom.binSizeX
  binSizeY : 0 ≤ f.geom.binSizeY
  minX : 0 ≤ f.boundMinX
  minY : 0 ≤ f.boundMinY
  maxX : f.boundMaxX < f.imWidth
  maxY : f.boundMaxY < f.imHeight

/-- Along one axis, exactly the `n` first positions of the grid `lo, lo + step, …` are such that the last of the `num` bins
of the descriptor, `size` pixels apart, is inside the bound `hi`. -/
def IsCount (lo hi step num size : Int) (n : Nat) : Prop :=
  ∀ i : Nat, i < n ↔ lo + i * step + (num - 1) * size ≤ hi

/-- Pixel `(x, y)` of an image of the size of the filter. -/
def pixel (f : Filter) (im : List ℚ) (x y : Int) : ℚ := im.getD (x + y * f.imWidth).toNat 0

/-- The value sampled for the bin `(t, y, x)` of the descriptor in column `i` and row `j` of the grid. -/
def raw (env : Env) (f : Filter) (j i t y x : Nat) : ℚ :=
  (if f.useFlatWindow then env.wx x * env.wy y else 1) *
    pixel f (env.conv t y x) (f.boundMinX + i * f.stepX + x * f.geom.binSizeX) (f.boundMinY + j * f.stepY + y * f.geom.binSizeY)

/-- A vector divided by its norm, plus a small constant. -/
def unit (sqrt : ℚ → ℚ) (eps : ℚ) (n : Nat) (v : Nat → ℚ) : Nat → ℚ :=
  fun k => v k / (sqrt (∑ i ∈ range n, v i * v i) + eps)

/-- Normalise, clamp at 0.2 and normalise again. -/
def finished (sqrt : ℚ → ℚ) (eps : ℚ) (n : Nat) (v : Nat → ℚ) : Nat → ℚ :=
  unit sqrt eps n (fun k => min (1 / 5) (unit sqrt eps n v k))

/-- A vector of bins is laid out with the orientations first, then the columns, then the rows. -/
def Layout (T X : Nat) (v : Nat → Nat → Nat → ℚ) : Nat → ℚ := fun c => v (c % T) (c / T / X) (c / T % X)

/-- The calls of the interface. -/
inductive Op where
  | steps (sx sy : Int)
  | bounds (minX minY maxX maxY : Int)
  | geometry (g : Geom)
  | flat (b : Bool)
  | process (env : Env)

/-- Effect of a call. -/
def Op.run (fuel : Nat) (f : Filter) : Op → Option Filter
  | .steps sx sy => some (setSteps f sx sy)
  | .bounds a b c d => some (setBounds f a b c d)
  | .geometry g => some (setGeometry f g)
  | .flat b => some (setFlatWindow f b)
  | .process env => Dsift.process env fuel f

/-! ## Loops over the grid -/

/-- `numFrames` along one axis is the number of positions. -/
theorem count_spec {lo hi step num size : Int} (hs : 1 ≤ step) : ∃ n : Nat, IsCount lo hi step num size n ∧
    (n : Int) = if 0 ≤ hi - lo - (num - 1) * size then (hi - lo - (num - 1) * size).tdiv step + 1 else 0 := by
  generalize hr : hi - lo - (num - 1) * size = r
  by_cases h : 0 ≤ r
  · rw [if_pos h, Int.tdiv_eq_ediv_of_nonneg h]
    have hq : 0 ≤ r / step := Int.ediv_nonneg h (by omega)
    refine ⟨(r / step + 1).toNat, fun i => ?_, by omega⟩
    have h1 : (i : Int) ≤ r / step ↔ i * step ≤ r := Int.le_ediv_iff_mul_le (by omega)
    constructor
    · intro hi'
      have := h1.1 (by omega)
      linarith
    · intro hi'
      have := h1.2 (by linarith)
      omega
  · rw [if_neg h]
    refine ⟨0, fun i => ⟨fun hi' => by omega, fun hi' => ?_⟩, rfl⟩
    have : 0 ≤ (i : Int) * step := Int.mul_nonneg (by omega) (by omega)
    exact absurd (by linarith) h

theorem count_unique {lo hi step num size : Int} {n m : Nat} (h1 : IsCount lo hi step num size n)
    (h2 : IsCount lo hi step num size m) : n = m := by
  rcases Nat.lt_trichotomy n m with h | h | h
  · exact absurd ((h1 n).2 ((h2 n).1 h)) (by omega)
  · exact h
  · exact absurd ((h2 m).2 ((h1 m).1 h)) (by omega)

theorem forFrames_eq {σ : Type} {f : Filter} {nx ny fuel : Nat} (body : Int → Int → σ → Option σ) (s : σ)
    (hx : IsCount f.boundMinX f.boundMaxX f.stepX f.geom.numBinX f.geom.binSizeX nx)
    (hy : IsCount f.boundMinY f.boundMaxY f.stepY f.geom.numBinY f.geom.binSizeY ny) (fx : nx ≤ fuel) (fy : ny ≤ fuel) :
    forFrames fuel f body s = iter ny (fun j s => iter nx (fun i s =>
      body (f.boundMinY + j * f.stepY) (f.boundMinX + i * f.stepX) s) s) s := by
  unfold forFrames
  have ex : ∀ i : Nat, f.boundMinX + i * f.stepX ≤ f.boundMaxX - frameSizeX f + 1 ↔ i < nx := by
    intro i
    rw [hx i, frameSizeX, Int.mul_comm f.geom.binSizeX]
    constructor <;> intro h <;> linarith
  have ey : ∀ i : Nat, f.boundMinY + i * f.stepY ≤ f.boundMaxY - frameSizeY f + 1 ↔ i < ny := by
    intro i
    rw [hy i, frameSizeY, Int.mul_comm f.geom.binSizeY]
    constructor <;> intro h <;> linarith
  rw [forStep_eq _ _ _ fy _ (fun i hi => (ey i).2 hi) (fun h => by have := (ey ny).1 h; omega)]
  refine iter_congr fun j _ s => ?_
  rw [forStep_eq _ _ _ fx _ (fun i hi => (ex i).2 hi) (fun h => by have := (ex nx).1 h; omega)]

theorem pixel_rd {f : Filter} {im : List ℚ} (hl : (im.length : Int) = f.imWidth * f.imHeight) {x y : Int} (hx : 0 ≤ x)
    (hx' : x < f.imWidth) (hy : 0 ≤ y) (hy' : y < f.imHeight) : rdI im (x * 1 + y * f.imWidth) = some (pixel f im x y) := by
  have h0 : 0 ≤ x + y * f.imWidth := by
    have := Int.mul_nonneg hy (show 0 ≤ f.imWidth by omega)
    omega
  have h1 : x + y * f.imWidth < f.imWidth * f.imHeight := by
    have := Int.mul_le_mul_of_nonneg_right (show y + 1 ≤ f.imHeight by omega) (show 0 ≤ f.imWidth by omega)
    rw [Int.mul_comm f.imWidth]
    linarith
  have hb : (x + y * f.imWidth).toNat < im.length := by omega
  rw [Int.mul_one, rdI, if_neg (by omega), rd_of_lt hb, pixel, List.getD_eq_getElem _ _ hb]

/-- Bin centres are inside the bounds. -/
theorem centre_bounds {lo hi step num size : Int} {n : Nat} (h : IsCount lo hi step num size n) (hs : 1 ≤ step) (hz : 0 ≤ size) {i : Nat}
    (hi' : i < n) {b : Nat} (hb : (b : Int) < num) : lo ≤ lo + i * step + b * size ∧ lo + i * step + b * size ≤ hi := by
  have h1 := (h i).1 hi'
  have h2 : 0 ≤ (i : Int) * step := Int.mul_nonneg (by omega) (by omega)
  have h3 : 0 ≤ (b : Int) * size := Int.mul_nonneg (by omega) hz
  have h4 : (b : Int) * size ≤ (num - 1) * size := Int.mul_le_mul_of_nonneg_right (by omega) hz
  exact ⟨by linarith, by linarith⟩

/-- Facts about a valid filter in natural numbers. -/
structure Dims (f : Filter) (T X Y nx ny : Nat) : Prop where
  valid : Valid f
  T : f.geom.numBinT = T
  X : f.geom.numBinX = X
  Y : f.geom.numBinY = Y
  cx : IsCount f.boundMinX f.boundMaxX f.stepX f.geom.numBinX f.geom.binSizeX nx
  cy : IsCount f.boundMinY f.boundMaxY f.stepY f.geom.numBinY f.geom.binSizeY ny

/-- Index of a bin in a descriptor. -/
def bin (T X t y x : Nat) : Nat := t + x * T + y * (X * T)

theorem bin_lt {T X Y t y x : Nat} (ht : t < T) (hx : x < X) (hy : y < Y) : bin T X t y x < T * X * Y := by
  have h1 := Flat.addr_lt (n := Y) (m := X) hy hx
  have h2 := Flat.addr_lt (n := Y * X) (m := T) (i := y * X + x) h1 ht
  unfold bin
  rw [show T * X * Y = Y * X * T by ring, show t + x * T + y * (X * T) = (y * X + x) * T + t by ring]
  exact h2

theorem bin_inv {T X t y x : Nat} (ht : t < T) (hx : x < X) :
    bin T X t y x % T = t ∧ bin T X t y x / T / X = y ∧ bin T X t y x / T % X = x := by
  have e : bin T X t y x = t + (x + y * X) * T := by unfold bin; ring
  have h1 : bin T X t y x / T = x + y * X := by
    rw [e, Nat.add_mul_div_right _ _ (by omega), Nat.div_eq_of_lt ht, Nat.zero_add]
  refine ⟨?_, ?_, ?_⟩
  · rw [e, Nat.add_mul_mod_self_right, Nat.mod_eq_of_lt ht]
  · rw [h1, Nat.add_mul_div_right _ _ (by omega), Nat.div_eq_of_lt hx, Nat.zero_add]
  · rw [h1, Nat.add_mul_mod_self_right, Nat.mod_eq_of_lt hx]

theorem bin_surj {T X Y c : Nat} (hc : c < T * X * Y) : ∃ t < T, ∃ y < Y, ∃ x < X, c = bin T X t y x := by
  have hT : 0 < T := by
    rcases Nat.eq_zero_or_pos T with h | h
    · subst h; simp at hc
    · exact h
  have hX : 0 < X := by
    rcases Nat.eq_zero_or_pos X with h | h
    · subst h; simp at hc
    · exact h
  refine ⟨c % T, Nat.mod_lt _ hT, c / T / X, ?_, c / T % X, Nat.mod_lt _ hX, ?_⟩
  · rw [Nat.div_div_eq_div_mul]
    exact Nat.div_lt_of_lt_mul hc
  · have e : bin T X (c % T) (c / T / X) (c / T % X) = c % T + T * (c / T % X + X * (c / T / X)) := by unfold bin; ring
    rw [e, Nat.mod_add_div, Nat.mod_add_div]

/-! ## Sampling of the bins -/

theorem sampleBin_spec {f : Filter} {T X Y nx ny fuel : Nat} (D : Dims f T X Y nx ny) (fx : nx ≤ fuel) (fy : ny ≤ fuel)
    (hd : f.descrSize = (T * X * Y : Nat)) {src : List ℚ} (hsrc : (src.length : Int) = f.imWidth * f.imHeight) (w : ℚ)
    {t y x : Nat} (ht : t < T) (hy : y < Y) (hx : x < X) {d : List ℚ} (hl : d.length = ny * nx * (T * X * Y)) :
    ∃ d', sampleBin fuel f src w t y x d = some d' ∧ d'.length = ny * nx * (T * X * Y) ∧
      (∀ j < ny, ∀ i < nx, d'[(j * nx + i) * (T * X * Y) + bin T X t y x]? = some (w * pixel f src
        (f.boundMinX + i * f.stepX + x * f.geom.binSizeX) (f.boundMinY + j * f.stepY + y * f.geom.binSizeY))) ∧
      ∀ p < ny * nx, ∀ c < T * X * Y, c ≠ bin T X t y x → d'[p * (T * X * Y) + c]? = d[p * (T * X * Y) + c]? := by
  have hb := bin_lt ht hx hy
  generalize hDD : T * X * Y = DD at *
  generalize hcc : bin T X t y x = cc at *
  unfold sampleBin
  rw [forFrames_eq _ _ D.cx D.cy fx fy]
  obtain ⟨p, h1, h2, h3, h4, h5⟩ := iter2_inv (n := ny) (m := nx) (f := fun j i (p : Ptr) => (do
      let v ← rdI src ((f.boundMinX + i * f.stepX + x * f.geom.binSizeX) * 1 + (f.boundMinY + j * f.stepY + y * f.geom.binSizeY) * f.imWidth)
      let buf ← wrI p.buf p.at_ (w * v)
      some { buf := buf, at_ := p.at_ + f.descrSize } : Option Ptr))
    (s := { buf := d, at_ := t + x * f.geom.numBinT + y * (f.geom.numBinX * f.geom.numBinT) })
    (fun k (p : Ptr) => p.at_ = (k * DD + cc : Nat) ∧ p.buf.length = ny * nx * DD ∧
      (∀ j < ny, ∀ i < nx, j * nx + i < k → p.buf[(j * nx + i) * DD + cc]? = some (w * pixel f src
        (f.boundMinX + i * f.stepX + x * f.geom.binSizeX) (f.boundMinY + j * f.stepY + y * f.geom.binSizeY))) ∧
      ∀ q < ny * nx, ∀ c < DD, c ≠ cc → p.buf[q * DD + c]? = d[q * DD + c]?) (by
      refine ⟨?_, hl, fun _ _ _ _ h => by omega, fun _ _ _ _ _ => rfl⟩
      rw [D.T, D.X, ← hcc]
      unfold bin
      push_cast
      ring) (by
      intro j hj i hi p ⟨q1, q2, q3, q4⟩
      have hk := Flat.addr_lt (n := ny) (m := nx) hj hi
      have ha := Flat.addr_lt (n := ny * nx) (m := DD) hk hb
      have bx := centre_bounds D.cx D.valid.stepX D.valid.binSizeX hi (b := x) (by rw [D.X]; omega)
      have by' := centre_bounds D.cy D.valid.stepY D.valid.binSizeY hj (b := y) (by rw [D.Y]; omega)
      have := D.valid.minX
      have := D.valid.minY
      have := D.valid.maxX
      have := D.valid.maxY
      rw [pixel_rd hsrc (by omega) (by omega) (by omega) (by omega)]
      simp only [Option.bind_eq_bind, Option.bind_some]
      rw [wrI_eq _ _ _ _ q1, wr_of_lt (by omega), Option.bind_some]
      refine ⟨_, rfl, ?_, by simpa using q2, fun j' hj' i' hi' hlt => ?_, fun q hq c hc hne => ?_⟩
      · simp only [q1, hd]; push_cast; ring
      · by_cases e : j' * nx + i' = j * nx + i
        · obtain ⟨rfl, rfl⟩ := Flat.addr_inj hi' hi e
          simp only
          rw [List.getElem?_set_self (by omega)]
        · simp only
          rw [List.getElem?_set_ne (fun h => e (Flat.addr_inj hb hb h).1.symm)]
          exact q3 j' hj' i' hi' (by omega)
      · simp only
        rw [List.getElem?_set_ne (fun h => hne (Flat.addr_inj hb hc h).2.symm)]
        exact q4 q hq c hc hne)
  simp only [Option.bind_eq_bind] at h1
  simp only [Option.bind_eq_bind]
  refine ⟨p.buf, ?_, h3, fun j hj i hi => h4 j hj i hi (Flat.addr_lt hj hi), h5⟩
  rw [h1]; rfl

/-- The bins for which `done` holds have been sampled. -/
def Sampled (V : Nat → Nat → Nat → Nat → Nat → ℚ) (T X Y nx ny : Nat) (done : Nat → Nat → Nat → Prop) (d : List ℚ) : Prop :=
  d.length = ny * nx * (T * X * Y) ∧ ∀ t < T, ∀ y < Y, ∀ x < X, done t y x → ∀ j < ny, ∀ i < nx,
    d[(j * nx + i) * (T * X * Y) + bin T X t y x]? = some (V j i t y x)

theorem sampled_step {f : Filter} {T X Y nx ny fuel : Nat} (D : Dims f T X Y nx ny) (fx : nx ≤ fuel) (fy : ny ≤ fuel)
    (hd : f.descrSize = (T * X * Y : Nat)) {env : Env} (hconv : ∀ t y x, ((env.conv t y x).length : Int) = f.imWidth * f.imHeight)
    {w : ℚ} {t y x : Nat} (ht : t < T) (hy : y < Y) (hx : x < X) (hw : w = if f.useFlatWindow then env.wx x * env.wy y else 1)
    {done : Nat → Nat → Nat → Prop} {d : List ℚ} (hs : Sampled (raw env f) T X Y nx ny done d) {done' : Nat → Nat → Nat → Prop}
    (hd' : ∀ t' y' x', done' t' y' x' → done t' y' x' ∨ (t' = t ∧ y' = y ∧ x' = x)) :
    ∃ d', sampleBin fuel f (env.conv t y x) w t y x d = some d' ∧ Sampled (raw env f) T X Y nx ny done' d' := by
  obtain ⟨d', h1, h2, h3, h4⟩ := sampleBin_spec D fx fy hd (hconv t y x) w ht hy hx hs.1
  refine ⟨d', h1, h2, fun t' ht' y' hy' x' hx' hdn j hj i hi => ?_⟩
  by_cases e : t' = t ∧ y' = y ∧ x' = x
  · obtain ⟨rfl, rfl, rfl⟩ := e
    rw [h3 j hj i hi, raw, hw]
  · rw [h4 _ (Flat.addr_lt hj hi) _ (bin_lt ht' hx' hy') (fun h => e ?_)]
    · exact hs.2 t' ht' y' hy' x' hx' ((hd' _ _ _ hdn).resolve_right e) j hj i hi
    · have a := bin_inv (y := y') ht' hx'
      have b := bin_inv (y := y) ht hx
      rw [h] at a
      exact ⟨a.1.symm.trans b.1, a.2.1.symm.trans b.2.1, a.2.2.symm.trans b.2.2⟩

theorem gaussian_spec {f : Filter} {T X Y nx ny fuel : Nat} (D : Dims f T X Y nx ny) (fx : nx ≤ fuel) (fy : ny ≤ fuel)
    (hd : f.descrSize = (T * X * Y : Nat)) {env : Env} (hconv : ∀ t y x, ((env.conv t y x).length : Int) = f.imWidth * f.imHeight)
    (hw : f.useFlatWindow = false) {d : List ℚ} (hl : d.length = ny * nx * (T * X * Y)) :
    ∃ d', gaussianWindow fuel f env.conv d = some d' ∧ Sampled (raw env f) T X Y nx ny (fun _ _ _ => True) d' := by
  unfold gaussianWindow
  rw [D.T, D.X, D.Y]
  simp only [Int.toNat_natCast]
  obtain ⟨d', h1, h2⟩ := iter_inv (fun n d => Sampled (raw env f) T X Y nx ny (fun _ y _ => y < n) d) (n := Y) (s := d)
    (f := fun biny d => iter X (fun binx d => iter T (fun bint d => sampleBin fuel f (env.conv bint biny binx) 1 bint biny binx d) d) d)
    ⟨hl, fun _ _ _ _ _ _ h => by omega⟩ (by
    intro y hy d hs
    refine (iter_inv (fun n d => Sampled (raw env f) T X Y nx ny (fun _ y' x' => y' < y ∨ (y' = y ∧ x' < n)) d)
      (by simpa using hs) ?_).imp fun d' h => ⟨h.1, h.2.1, fun t' ht' y' hy' x' hx' hdn =>
        h.2.2 t' ht' y' hy' x' hx' (by omega)⟩
    intro x hx d hs
    refine (iter_inv (fun n d => Sampled (raw env f) T X Y nx ny (fun t' y' x' => y' < y ∨ (y' = y ∧ (x' < x ∨ x' = x ∧ t' < n))) d)
      (by simpa using hs) ?_).imp fun d' h => ⟨h.1, h.2.1, fun t' ht' y' hy' x' hx' hdn =>
        h.2.2 t' ht' y' hy' x' hx' (by omega)⟩
    intro t ht d hs
    exact sampled_step D fx fy hd hconv ht hy hx (by simp [hw]) hs (fun t' y' x' h => by omega))
  exact ⟨d', h1, h2.1, fun t' ht' y' hy' x' hx' _ => h2.2 t' ht' y' hy' x' hx' hy'⟩

theorem flat_spec {f : Filter} {T X Y nx ny fuel : Nat} (D : Dims f T X Y nx ny) (fx : nx ≤ fuel) (fy : ny ≤ fuel)
    (hd : f.descrSize = (T * X * Y : Nat)) {env : Env} (hconv : ∀ t y x, ((env.conv t y x).length : Int) = f.imWidth * f.imHeight)
    (hw : f.useFlatWindow = true) {d : List ℚ} (hl : d.length = ny * nx * (T * X * Y)) :
    ∃ d', flatWindow fuel f env.conv env.wx env.wy d = some d' ∧ Sampled (raw env f) T X Y nx ny (fun _ _ _ => True) d' := by
  unfold flatWindow
  rw [D.T, D.X, D.Y]
  simp only [Int.toNat_natCast]
  obtain ⟨d', h1, h2⟩ := iter_inv (fun n d => Sampled (raw env f) T X Y nx ny (fun t' _ _ => t' < n) d) (n := T) (s := d)
    (f := fun bint d => iter Y (fun biny d => iter X (fun binx d =>
      sampleBin fuel f (env.conv bint biny binx) (env.wx binx * env.wy biny) bint biny binx d) d) d)
    ⟨hl, fun _ _ _ _ _ _ h => by omega⟩ (by
    intro t ht d hs
    refine (iter_inv (fun n d => Sampled (raw env f) T X Y nx ny (fun t' y' _ => t' < t ∨ (t' = t ∧ y' < n)) d)
      (by simpa using hs) ?_).imp fun d' h => ⟨h.1, h.2.1, fun t' ht' y' hy' x' hx' hdn =>
        h.2.2 t' ht' y' hy' x' hx' (by omega)⟩
    intro y hy d hs
    refine (iter_inv (fun n d => Sampled (raw env f) T X Y nx ny (fun t' y' x' => t' < t ∨ (t' = t ∧ (y' < y ∨ y' = y ∧ x' < n))) d)
      (by simpa using hs) ?_).imp fun d' h => ⟨h.1, h.2.1, fun t' ht' y' hy' x' hx' hdn =>
        h.2.2 t' ht' y' hy' x' hx' (by omega)⟩
    intro x hx d hs
    exact sampled_step D fx fy hd hconv ht hy hx (by simp [hw]) hs (fun t' y' x' h => by omega))
  exact ⟨d', h1, h2.1, fun t' ht' y' hy' x' hx' _ => h2.2 t' ht' y' hy' x' hx' ht'⟩

/-! ## The last pass -/

theorem sumFrom_spec {d : List ℚ} {o n : Nat} {v : Nat → ℚ} (h : ∀ i < n, d[o + i]? = some (v i)) (g : ℚ → ℚ) :
    sumFrom d o n g = some (∑ i ∈ range n, g (v i)) := by
  unfold sumFrom
  obtain ⟨s, h1, h2⟩ := iter_inv (n := n) (f := fun (i : Nat) (acc : ℚ) => (do
      let v ← rdI d ((o : Int) + i)
      some (acc + g v) : Option ℚ)) (s := 0) (fun k (s : ℚ) => s = ∑ i ∈ range k, g (v i)) (by simp) (by
    intro i hi s hs
    rw [rdI_eq _ _ (o + i) (by push_cast; rfl), rd_getElem?, h i hi]
    exact ⟨_, rfl, by rw [sum_range_succ, hs]⟩)
  rw [h1, h2]

theorem mapFrom_spec {d : List ℚ} {o n : Nat} {v : Nat → ℚ} (h : ∀ i < n, d[o + i]? = some (v i)) (g : ℚ → ℚ) :
    ∃ d', mapFrom d o n g = some d' ∧ d'.length = d.length ∧ (∀ i < n, d'[o + i]? = some (g (v i))) ∧
      ∀ q, (q < o ∨ o + n ≤ q) → d'[q]? = d[q]? := by
  unfold mapFrom
  obtain ⟨d', h1, h2, h3, h4⟩ := iter_inv (n := n) (f := fun (i : Nat) (d : List ℚ) => (do
      let v ← rdI d ((o : Int) + i)
      wrI d ((o : Int) + i) (g v) : Option (List ℚ))) (s := d) (fun k (d' : List ℚ) => d'.length = d.length ∧
        (∀ i < k, d'[o + i]? = some (g (v i))) ∧ ∀ q, (q < o ∨ o + k ≤ q) → d'[q]? = d[q]?)
      ⟨rfl, by simp, fun _ _ => rfl⟩ (by
    intro i hi d' ⟨q1, q2, q3⟩
    have hb : o + i < d'.length := by
      have := h i hi
      rw [← q3 _ (by omega)] at this
      by_contra hc
      rw [List.getElem?_eq_none (by omega)] at this
      exact absurd this (by simp)
    rw [rdI_eq _ _ (o + i) (by push_cast; rfl), rd_getElem?, q3 _ (by omega), h i hi]
    simp only [Option.bind_eq_bind, Option.bind_some]
    rw [wrI_eq _ _ (o + i) _ (by push_cast; rfl), wr_of_lt hb]
    refine ⟨_, rfl, by simpa using q1, fun k hk => ?_, fun q hq => ?_⟩
    · by_cases e : k = i
      · subst e; rw [List.getElem?_set_self hb]
      · rw [List.getElem?_set_ne (by omega)]; exact q2 k (by omega)
    · rw [List.getElem?_set_ne (by omega)]; exact q3 q (by omega))
  exact ⟨d', h1, h2, h3, h4⟩

theorem normalize_spec (sqrt : ℚ → ℚ) (eps : ℚ) {d : List ℚ} {o n : Nat} {v : Nat → ℚ} (h : ∀ i < n, d[o + i]? = some (v i)) :
    ∃ d', normalizeHistogram sqrt eps d o n = some d' ∧ d'.length = d.length ∧ (∀ i < n, d'[o + i]? = some (unit sqrt eps n v i)) ∧
      ∀ q, (q < o ∨ o + n ≤ q) → d'[q]? = d[q]? := by
  unfold normalizeHistogram
  rw [sumFrom_spec h]
  exact mapFrom_spec h _

/-- The record stored for the frame in row `j` and column `i`, given the sampled values `v`. -/
def IsFrame (f : Filter) (n : Nat) (v : Nat → ℚ) (j i : Nat) (k : Keypoint) : Prop :=
  k.x = f.boundMinX + i * f.stepX + f.geom.binSizeX * (f.geom.numBinX - 1) / 2 ∧
  k.y = f.boundMinY + j * f.stepY + f.geom.binSizeY * (f.geom.numBinY - 1) / 2 ∧
  k.norm = (∑ c ∈ range n, v c) / ((f.geom.binSizeX * (f.geom.numBinX - 1) + 1) * (f.geom.binSizeY * (f.geom.numBinY - 1) + 1))

theorem finishFrame_spec (sqrt : ℚ → ℚ) (eps : ℚ) {f : Filter} {n : Nat} (hd : f.descrSize = n) {o : Out} {p : Nat}
    (hp : o.frameIter = p) (hp' : p < o.frames.length) (ho : o.descrIter = (p * n : Nat)) {v : Nat → ℚ}
    (hv : ∀ c < n, o.descrs[p * n + c]? = some (v c)) (j i : Nat) :
    ∃ o' k, finishFrame sqrt eps f (f.boundMinY + j * f.stepY) (f.boundMinX + i * f.stepX) o = some o' ∧ o'.frameIter = p + 1 ∧
      o'.descrIter = ((p + 1) * n : Nat) ∧ o'.frames = o.frames.set p k ∧ IsFrame f n v j i k ∧
      o'.descrs.length = o.descrs.length ∧ (∀ c < n, o'.descrs[p * n + c]? = some (finished sqrt eps n v c)) ∧
      ∀ q, (q < p * n ∨ p * n + n ≤ q) → o'.descrs[q]? = o.descrs[q]? := by
  unfold finishFrame
  rw [hp, rd_of_lt hp', ho, hd]
  simp only [Option.bind_eq_bind, Option.bind_some, Int.toNat_natCast]
  rw [sumFrom_spec hv, Option.bind_some, wr_of_lt hp', Option.bind_some]
  obtain ⟨d1, a1, a2, a3, a4⟩ := normalize_spec sqrt eps hv
  obtain ⟨d2, b1, b2, b3, b4⟩ := mapFrom_spec a3 (fun v => if 1 / 5 < v then 1 / 5 else v)
  obtain ⟨d3, c1, c2, c3, c4⟩ := normalize_spec sqrt eps b3
  rw [a1, Option.bind_some, b1, Option.bind_some, c1, Option.bind_some]
  refine ⟨_, _, rfl, rfl, ?_, rfl, ⟨?_, ?_, ?_⟩, by simp only; omega, ?_, ?_⟩
  · simp only; push_cast; ring
  · simp only; push_cast; ring
  · simp only; push_cast; ring
  · simp [frameSizeX, frameSizeY]
  · intro c hc
    simp only
    rw [c3 c hc, finished]
    have e : (fun k => if 1 / 5 < unit sqrt eps n v k then 1 / 5 else unit sqrt eps n v k) =
        fun k => min (1 / 5) (unit sqrt eps n v k) := by
      funext k
      split
      · rw [min_eq_left (by linarith)]
      · rw [min_eq_right (by linarith)]
    rw [e]
  · intro q hq
    simp only
    rw [c4 q hq, b4 q hq, a4 q hq]

theorem finish_spec (sqrt : ℚ → ℚ) (eps : ℚ) {f : Filter} {T X Y nx ny fuel : Nat} (D : Dims f T X Y nx ny) (fx : nx ≤ fuel)
    (fy : ny ≤ fuel) {n : Nat} (hd : f.descrSize = n) {fr : List Keypoint} (hfr : fr.length = ny * nx) {d : List ℚ}
    {V : Nat → Nat → Nat → ℚ} (hl : d.length = ny * nx * n)
    (hV : ∀ j < ny, ∀ i < nx, ∀ c < n, d[(j * nx + i) * n + c]? = some (V j i c)) :
    ∃ o, forFrames fuel f (finishFrame sqrt eps f) { frames := fr, frameIter := 0, descrs := d, descrIter := 0 } = some o ∧
      o.frames.length = ny * nx ∧ o.descrs.length = ny * nx * n ∧ ∀ j < ny, ∀ i < nx,
        (∃ k, o.frames[j * nx + i]? = some k ∧ IsFrame f n (V j i) j i k) ∧
        ∀ c < n, o.descrs[(j * nx + i) * n + c]? = some (finished sqrt eps n (V j i) c) := by
  rw [forFrames_eq _ _ D.cx D.cy fx fy]
  obtain ⟨o, h1, h2, h3, h4, h5, h6⟩ := iter2_inv (n := ny) (m := nx) (f := fun (j i : Nat) (o : Out) =>
      finishFrame sqrt eps f (f.boundMinY + j * f.stepY) (f.boundMinX + i * f.stepX) o)
    (s := { frames := fr, frameIter := 0, descrs := d, descrIter := 0 })
    (fun p (o : Out) => (o.frameIter = p ∧ o.descrIter = (p * n : Nat)) ∧ o.frames.length = ny * nx ∧ o.descrs.length = ny * nx * n ∧
      (∀ j < ny, ∀ i < nx, j * nx + i < p → (∃ k, o.frames[j * nx + i]? = some k ∧ IsFrame f n (V j i) j i k) ∧
        ∀ c < n, o.descrs[(j * nx + i) * n + c]? = some (finished sqrt eps n (V j i) c)) ∧
      ∀ j < ny, ∀ i < nx, p ≤ j * nx + i → ∀ c < n, o.descrs[(j * nx + i) * n + c]? = some (V j i c))
    ⟨⟨rfl, by simp⟩, hfr, hl, fun _ _ _ _ h => by omega, fun j hj i hi _ => hV j hj i hi⟩ (by
    intro j hj i hi o ⟨⟨q1, q1'⟩, q2, q3, q4, q5⟩
    have hk := Flat.addr_lt (n := ny) (m := nx) hj hi
    obtain ⟨o', k, r1, r2, r3, r4, r5, r6, r7, r8⟩ := finishFrame_spec sqrt eps hd q1 (by omega) q1' (q5 j hj i hi (by omega)) j i
    refine ⟨o', r1, ⟨r2, r3⟩, by rw [r4]; simpa using q2, by omega, fun j' hj' i' hi' hlt => ?_, fun j' hj' i' hi' hle c hc => ?_⟩
    · by_cases e : j' * nx + i' = j * nx + i
      · obtain ⟨rfl, rfl⟩ := Flat.addr_inj hi' hi e
        exact ⟨⟨k, by rw [r4, List.getElem?_set_self (by omega)], r5⟩, r7⟩
      · obtain ⟨⟨k', g1, g2⟩, g3⟩ := q4 j' hj' i' hi' (by omega)
        refine ⟨⟨k', by rw [r4, List.getElem?_set_ne (by omega)]; exact g1, g2⟩, fun c hc => ?_⟩
        rw [r8]
        · exact g3 c hc
        · have := Nat.mul_le_mul_right n (show j' * nx + i' + 1 ≤ j * nx + i by omega)
          rw [Nat.add_mul, Nat.one_mul] at this; omega
    · rw [r8]
      · exact q5 j' hj' i' hi' (by omega) c hc
      · have := Nat.mul_le_mul_right n (show j * nx + i + 1 ≤ j' * nx + i' by omega)
        rw [Nat.add_mul, Nat.one_mul] at this; omega)
  exact ⟨o, h1, h3, h4, fun j hj i hi => h5 j hj i hi (Flat.addr_lt hj hi)⟩

/-! ## The property -/

/-- What the buffers of a filter satisfy between calls. -/
structure Inv (f : Filter) : Prop where
  numFrames : ∀ nx ny, IsCount f.boundMinX f.boundMaxX f.stepX f.geom.numBinX f.geom.binSizeX nx →
    IsCount f.boundMinY f.boundMaxY f.stepY f.geom.numBinY f.geom.binSizeY ny → 1 ≤ f.stepX → 1 ≤ f.stepY → f.numFrames = nx * ny
  descrSize : f.descrSize = f.geom.numBinT * f.geom.numBinX * f.geom.numBinY
  frames : f.frames.length = f.numFrameAlloc.toNat
  descrs : f.descrs.length = (f.numBinAlloc * f.numFrameAlloc).toNat

theorem update_frames (f : Filter) : ∀ nx ny, IsCount f.boundMinX f.boundMaxX f.stepX f.geom.numBinX f.geom.binSizeX nx →
    IsCount f.boundMinY f.boundMaxY f.stepY f.geom.numBinY f.geom.binSizeY ny → 1 ≤ f.stepX → 1 ≤ f.stepY →
    (updateBuffers f).numFrames = nx * ny := by
  intro nx ny hx hy sx sy
  obtain ⟨n, h1, h2⟩ := count_spec (lo := f.boundMinX) (hi := f.boundMaxX) (num := f.geom.numBinX) (size := f.geom.binSizeX) sx
  obtain ⟨m, g1, g2⟩ := count_spec (lo := f.boundMinY) (hi := f.boundMaxY) (num := f.geom.numBinY) (size := f.geom.binSizeY) sy
  rw [count_unique hx h1, count_unique hy g1, h2, g2]
  rfl

theorem update_inv {f : Filter} (h1 : f.frames.length = f.numFrameAlloc.toNat)
    (h2 : f.descrs.length = (f.numBinAlloc * f.numFrameAlloc).toNat) : Inv (updateBuffers f) :=
  ⟨update_frames f, rfl, h1, h2⟩

/-- `vl_dsift_new` satisfies the invariant. -/
theorem new_inv (W H : Int) : Inv (new W H) := update_inv rfl rfl

theorem inv_update_eq {f : Filter} (h : Inv f) (hv : Valid f) : updateBuffers f = f := by
  obtain ⟨nx, hx, _⟩ := count_spec (lo := f.boundMinX) (hi := f.boundMaxX) (num := f.geom.numBinX) (size := f.geom.binSizeX) hv.stepX
  obtain ⟨ny, hy, _⟩ := count_spec (lo := f.boundMinY) (hi := f.boundMaxY) (num := f.geom.numBinY) (size := f.geom.binSizeY) hv.stepY
  have e1 := update_frames f nx ny hx hy hv.stepX hv.stepY
  rw [← h.numFrames nx ny hx hy hv.stepX hv.stepY] at e1
  have e2 : (updateBuffers f).descrSize = f.descrSize := h.descrSize.symm
  calc updateBuffers f = { f with numFrames := (updateBuffers f).numFrames, descrSize := (updateBuffers f).descrSize } := rfl
    _ = f := by rw [e1, e2]

/-- **C45**: for valid parameters, processing an image succeeds (no access out of the buffers or of the image) and the
number of keypoints announced before the call is the number of positions of the grid at which the descriptor fits in the
bounds, which is the number of keypoints stored; they are the positions of the grid, row by row, and the descriptors are the
normalised samples at the bin centres. -/
theorem process_correct {f : Filter} (hI : Inv f) (hv : Valid f) {env : Env} {fuel T X Y nx ny : Nat}
    (hconv : ∀ t y x, ((env.conv t y x).length : Int) = f.imWidth * f.imHeight)
    (hT : f.geom.numBinT = T) (hX : f.geom.numBinX = X) (hY : f.geom.numBinY = Y)
    (hx : IsCount f.boundMinX f.boundMaxX f.stepX f.geom.numBinX f.geom.binSizeX nx)
    (hy : IsCount f.boundMinY f.boundMaxY f.stepY f.geom.numBinY f.geom.binSizeY ny) (fx : nx ≤ fuel) (fy : ny ≤ fuel) :
    ∃ f', process env fuel f = some f' ∧ Inv f' ∧ f.numFrames = nx * ny ∧ f'.numFrames = nx * ny ∧ f'.frames.length = nx * ny ∧
      f'.descrs.length = nx * ny * (T * X * Y) ∧ f'.geom = f.geom ∧ f'.descrSize = (T * X * Y : Nat) ∧
      ∀ j < ny, ∀ i < nx,
        (∃ k, f'.frames[j * nx + i]? = some k ∧ IsFrame f (T * X * Y) (Layout T X (raw env f j i)) j i k) ∧
        ∀ c < T * X * Y, f'.descrs[(j * nx + i) * (T * X * Y) + c]? =
          some (finished env.sqrt env.eps (T * X * Y) (Layout T X (raw env f j i)) c) := by
  have hnf := hI.numFrames nx ny hx hy hv.stepX hv.stepY
  have hds : f.descrSize = (T * X * Y : Nat) := by rw [hI.descrSize, hT, hX, hY]; push_cast; rfl
  -- the buffers
  obtain ⟨g, hg, gfr, gds, gnf, gIfr, gIds, gp1, gp2, gp3, gp4, gp5, gp6, gp7, gp8, gp9, gp10, gd⟩ :
      ∃ g, allocBuffers env.mem f = g ∧ g.frames.length = ny * nx ∧ g.descrs.length = ny * nx * (T * X * Y) ∧ g.numFrames = nx * ny ∧
        g.frames.length = g.numFrameAlloc.toNat ∧ g.descrs.length = (g.numBinAlloc * g.numFrameAlloc).toNat ∧
        g.geom = f.geom ∧ g.boundMinX = f.boundMinX ∧ g.boundMinY = f.boundMinY ∧ g.boundMaxX = f.boundMaxX ∧ g.boundMaxY = f.boundMaxY ∧
        g.stepX = f.stepX ∧ g.stepY = f.stepY ∧ g.imWidth = f.imWidth ∧ g.imHeight = f.imHeight ∧ g.useFlatWindow = f.useFlatWindow ∧
        g.descrSize = (T * X * Y : Nat) := by
    refine ⟨_, rfl, ?_⟩
    unfold allocBuffers
    rw [inv_update_eq hI hv]
    have e1 : f.numFrames.toNat = ny * nx := by rw [hnf, Nat.mul_comm ny]; norm_cast
    have e2 : (f.descrSize * f.numFrames).toNat = ny * nx * (T * X * Y) := by
      rw [hnf, hds, Nat.mul_comm (ny * nx), Nat.mul_comm ny]; norm_cast
    simp only
    split
    · exact ⟨by rw [env.mem.frames_length, e1], by rw [env.mem.floats_length, e2], hnf, by rw [env.mem.frames_length],
        by rw [env.mem.floats_length], rfl, rfl, rfl, rfl, rfl, rfl, rfl, rfl, rfl, rfl, hds⟩
    · rename_i hc
      push Not at hc
      obtain ⟨c1, _, c3⟩ := hc
      exact ⟨by rw [hI.frames, ← c3, e1], by rw [hI.descrs, ← c1, ← c3, e2], hnf, hI.frames, hI.descrs,
        rfl, rfl, rfl, rfl, rfl, rfl, rfl, rfl, rfl, rfl, hds⟩
  have Dg : Dims g T X Y nx ny := by
    refine ⟨?_, by rw [gp1, hT], by rw [gp1, hX], by rw [gp1, hY], ?_, ?_⟩
    · constructor
      · rw [gp6]; exact hv.stepX
      · rw [gp7]; exact hv.stepY
      · rw [gp1]; exact hv.numBinT
      · rw [gp1]; exact hv.numBinX
      · rw [gp1]; exact hv.numBinY
      · rw [gp1]; exact hv.binSizeX
      · rw [gp1]; exact hv.binSizeY
      · rw [gp2]; exact hv.minX
      · rw [gp3]; exact hv.minY
      · rw [gp4, gp8]; exact hv.maxX
      · rw [gp5, gp9]; exact hv.maxY
    · rw [gp2, gp4, gp6, gp1]; exact hx
    · rw [gp3, gp5, gp7, gp1]; exact hy
  have hraw : raw env g = raw env f := by
    funext j i t y x
    simp only [raw, pixel, gp1, gp2, gp3, gp6, gp7, gp8, gp10]
  have hconv' : ∀ t y x, ((env.conv t y x).length : Int) = g.imWidth * g.imHeight := by rw [gp8, gp9]; exact hconv
  obtain ⟨d, hd1, hd2⟩ : ∃ d, window env fuel g = some d ∧ Sampled (raw env g) T X Y nx ny (fun _ _ _ => True) d := by
    unfold window
    cases hu : g.useFlatWindow with
    | true =>
      simp only [if_true]
      exact flat_spec Dg fx fy gd hconv' hu gds
    | false =>
      simp only [Bool.false_eq_true, if_false]
      exact gaussian_spec Dg fx fy gd hconv' hu gds
  rw [hraw] at hd2
  obtain ⟨o, ho1, ho2, ho3, ho4⟩ := finish_spec env.sqrt env.eps Dg fx fy gd gfr hd2.1 (V := fun j i => Layout T X (raw env f j i))
    (by
      intro j hj i hi c hc
      obtain ⟨t, ht, y, hy', x, hx', rfl⟩ := bin_surj hc
      rw [hd2.2 t ht y hy' x hx' trivial j hj i hi]
      obtain ⟨b1, b2, b3⟩ := bin_inv (y := y) ht hx'
      rw [Layout, b1, b2, b3])
  refine ⟨{ g with frames := o.frames, descrs := o.descrs }, ?_, ?_, hnf, gnf, by rw [Nat.mul_comm]; exact ho2,
    by rw [Nat.mul_comm nx]; exact ho3, gp1, gd, fun j hj i hi => ⟨?_, (ho4 j hj i hi).2⟩⟩
  · unfold process
    simp only [hg, Option.bind_eq_bind]
    rw [hd1, Option.bind_some, ho1, Option.bind_some]
  · refine ⟨fun mx my hmx hmy _ _ => ?_, ?_, ?_, ?_⟩
    · simp only at hmx hmy ⊢
      rw [count_unique hmx Dg.cx, count_unique hmy Dg.cy, gnf]
    · simp only; rw [gd, Dg.T, Dg.X, Dg.Y]; push_cast; rfl
    · simp only; rw [ho2, ← gfr, gIfr]
    · simp only; rw [ho3, ← gds, gIds]
  · obtain ⟨k, k1, k2⟩ := (ho4 j hj i hi).1
    refine ⟨k, k1, ?_⟩
    unfold IsFrame at k2 ⊢
    rw [gp1, gp2, gp3, gp6, gp7] at k2
    exact k2

/-- **C45**: the bin centres sampled by `process_correct` are inside the bounds, hence inside the image. -/
theorem centres_inside {f : Filter} (hv : Valid f) {nx ny : Nat}
    (hx : IsCount f.boundMinX f.boundMaxX f.stepX f.geom.numBinX f.geom.binSizeX nx)
    (hy : IsCount f.boundMinY f.boundMaxY f.stepY f.geom.numBinY f.geom.binSizeY ny) {i j x y : Nat} (hi : i < nx) (hj : j < ny)
    (hbx : (x : Int) < f.geom.numBinX) (hby : (y : Int) < f.geom.numBinY) :
    f.boundMinX ≤ f.boundMinX + i * f.stepX + x * f.geom.binSizeX ∧ f.boundMinX + i * f.stepX + x * f.geom.binSizeX ≤ f.boundMaxX ∧
    f.boundMinY ≤ f.boundMinY + j * f.stepY + y * f.geom.binSizeY ∧ f.boundMinY + j * f.stepY + y * f.geom.binSizeY ≤ f.boundMaxY := by
  have h1 := centre_bounds hx hv.stepX hv.binSizeX hi hbx
  have h2 := centre_bounds hy hv.stepY hv.binSizeY hj hby
  exact ⟨h1.1, h1.2, h2.1, h2.2⟩

/-- An image may be processed: the parameters are valid, the images have the size of the filter, and `fuel` bounds the number
of positions along each axis. -/
def CanProcess (fuel : Nat) (f : Filter) (env : Env) : Prop :=
  Valid f ∧ (∀ t y x, ((env.conv t y x).length : Int) = f.imWidth * f.imHeight) ∧
    ∃ nx ny, nx ≤ fuel ∧ ny ≤ fuel ∧ IsCount f.boundMinX f.boundMaxX f.stepX f.geom.numBinX f.geom.binSizeX nx ∧
      IsCount f.boundMinY f.boundMaxY f.stepY f.geom.numBinY f.geom.binSizeY ny

/-- The states of a filter after a sequence of calls in which images are processed only with valid parameters. -/
inductive Reach (fuel : Nat) (W H : Int) : Filter → Prop where
  | new : Reach fuel W H (new W H)
  | call {f f' : Filter} (op : Op) : Reach fuel W H f → (∀ env, op = .process env → CanProcess fuel f env) →
      op.run fuel f = some f' → Reach fuel W H f'

theorem reach_inv {fuel : Nat} {W H : Int} {f : Filter} (h : Reach fuel W H f) : Inv f := by
  induction h with
  | new => exact new_inv W H
  | call op _ hp hrun ih =>
    cases op with
    | steps sx sy => cases hrun; exact update_inv ih.frames ih.descrs
    | bounds a b c d => cases hrun; exact update_inv ih.frames ih.descrs
    | geometry g => cases hrun; exact update_inv ih.frames ih.descrs
    | flat b => cases hrun; exact ⟨ih.numFrames, ih.descrSize, ih.frames, ih.descrs⟩
    | process env =>
      obtain ⟨hv, hc, nx, ny, fx, fy, hx, hy⟩ := hp env rfl
      have e : ∀ z : Int, 1 ≤ z → z = (z.toNat : Int) := fun z hz => by omega
      obtain ⟨g, h1, h2, _⟩ := process_correct ih hv hc (e _ hv.numBinT) (e _ hv.numBinX) (e _ hv.numBinY) hx hy fx fy
      simp only [Op.run] at hrun
      rw [h1] at hrun
      cases hrun
      exact h2

/-- **C45**: after any sequence of calls, and whatever the calls did to the buffers, the number of keypoints announced is the
number of positions of the grid, and processing an image with the current (valid) parameters stores that many keypoints and
descriptors. -/
theorem announced_eq_written {fuel : Nat} {W H : Int} {f : Filter} (h : Reach fuel W H f) {env : Env} (hp : CanProcess fuel f env) :
    ∃ f' nx ny, process env fuel f = some f' ∧
      IsCount f.boundMinX f.boundMaxX f.stepX f.geom.numBinX f.geom.binSizeX nx ∧
      IsCount f.boundMinY f.boundMaxY f.stepY f.geom.numBinY f.geom.binSizeY ny ∧
      f.numFrames = nx * ny ∧ f'.numFrames = f.numFrames ∧ (f'.frames.length : Int) = f.numFrames ∧
      (f'.descrs.length : Int) = f.numFrames * f.descrSize := by
  obtain ⟨hv, hc, nx, ny, fx, fy, hx, hy⟩ := hp
  have e : ∀ z : Int, 1 ≤ z → z = (z.toNat : Int) := fun z hz => by omega
  obtain ⟨g, h1, _, h3, h4, h5, h6, _⟩ := process_correct (reach_inv h) hv hc (e _ hv.numBinT) (e _ hv.numBinX) (e _ hv.numBinY) hx hy fx fy
  refine ⟨g, nx, ny, h1, hx, hy, h3, by rw [h4, h3], by rw [h5, h3]; push_cast; rfl, ?_⟩
  rw [h6, h3, (reach_inv h).descrSize, e _ hv.numBinT, e _ hv.numBinX, e _ hv.numBinY]
  push_cast
  simp

/-- The hypotheses are met: a 30 by 25 image, steps 3 and 4, two columns and three rows of bins of size 5. -/
def sampleFilter : Filter := setSteps (setGeometry (new 30 25) { numBinT := 4, numBinX := 2, numBinY := 3, binSizeX := 5, binSizeY := 5 }) 3 4

/-- See `sampleFilter`. -/
def sampleEnv : Env :=
  { mem := { frames := fun n => List.replicate n ⟨7, 7, 7, 7⟩, floats := fun n => List.replicate n 9, frames_length := by simp,
             floats_length := by simp },
    sqrt := fun _ => 1, eps := 1, conv := fun t y x => List.replicate 750 ((t : ℚ) + y + x), wx := fun _ => 1, wy := fun _ => 1 }

example : Reach 100 30 25 sampleFilter ∧ CanProcess 100 sampleFilter sampleEnv ∧ sampleFilter.numFrames = 36 := by
  refine ⟨?_, ⟨by constructor <;> decide, fun t y x => (congrArg Nat.cast (List.length_replicate (n := 750))).trans (by decide), 9, 4, by decide, by decide, fun i => ?_, fun i => ?_⟩,
    by decide⟩
  · exact .call (.steps 3 4) (.call (.geometry _) .new (by simp) rfl) (by simp) rfl
  · have e : sampleFilter.boundMinX = 0 ∧ sampleFilter.boundMaxX = 29 ∧ sampleFilter.stepX = 3 ∧ sampleFilter.geom.numBinX = 2 ∧
      sampleFilter.geom.binSizeX = 5 := by decide
    obtain ⟨e1, e2, e3, e4, e5⟩ := e
    rw [e1, e2, e3, e4, e5]; omega
  · have e : sampleFilter.boundMinY = 0 ∧ sampleFilter.boundMaxY = 24 ∧ sampleFilter.stepY = 4 ∧ sampleFilter.geom.numBinY = 3 ∧
      sampleFilter.geom.binSizeY = 5 := by decide
    obtain ⟨e1, e2, e3, e4, e5⟩ := e
    rw [e1, e2, e3, e4, e5]; omega

end Verif.Dsift
