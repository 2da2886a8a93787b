import Verif.Lbp.Lemmas
import Mathlib.Algebra.Order.BigOperators.Group.List

/-!
# C16 (quantisation table) and C66 (LBP histograms)
-/

namespace Verif.Lbp
open Spec

/-- The table computed by the code. -/
def table (transposed : Bool) : List Nat := (initUniform transposed).getD []

/-- C16: the initialisation never writes outside the table, which has 256 entries. -/
theorem initUniform_ok (transposed : Bool) : initUniform transposed = some (table transposed) ∧
    (table transposed).length = 256 := by
  cases transposed <;> decide +kernel

/-- C16: all codes are smaller than the dimension of the histograms (58). -/
theorem table_lt (transposed : Bool) (p : Nat) (hp : p < 256) : ∃ c, (table transposed)[p]? = some c ∧ c < dimension := by
  have h : ∀ (t : Bool) (p : Fin 256), ∃ c ∈ (table t)[p.val]?, c < dimension := by
    intro t p
    have h2 : ∀ (t : Bool) (p : Fin 256), ((table t)[p.val]?.map (fun c => decide (c < dimension))) = some true := by
      decide +kernel
    have := h2 t p
    rw [Option.map_eq_some_iff] at this
    obtain ⟨c, hc, hd⟩ := this
    exact ⟨c, by simp [hc], of_decide_eq_true hd⟩
  obtain ⟨c, hc, hd⟩ := h transposed ⟨p, hp⟩
  exact ⟨c, by simpa using hc, hd⟩

/-- C16: constant patterns have code 56 and patterns with more than two transitions code 57. -/
theorem table_constant_and_other (p : Nat) (hp : p < 256) :
    (p = 0 ∨ p = 255 → (table false)[p]? = some 56) ∧ (transitions p > 2 → (table false)[p]? = some 57) := by
  have h : ∀ p : Fin 256, (p.val = 0 ∨ p.val = 255 → (table false)[p.val]? = some 56) ∧
      (transitions p.val > 2 → (table false)[p.val]? = some 57) := by decide +kernel
  exact h ⟨p, hp⟩

/-- C16: a pattern with one run of ones, starting at bit `i` and `j` bits long, has code `7 i + (j - 1)`. -/
theorem table_run (p : Nat) (hp : p < 256) (ht : transitions p = 2) (i : Nat) (hi : i < 8) (h1 : bit p i = true)
    (h0 : bit p (i + 7) = false) : (table false)[p]? = some (7 * i + (ones p - 1)) := by
  have h : ∀ p : Fin 256, transitions p.val = 2 → ∀ i : Fin 8, bit p.val i.val = true → bit p.val (i.val + 7) = false →
      (table false)[p.val]? = some (7 * i.val + (ones p.val - 1)) := by decide +kernel
  exact h ⟨p, hp⟩ ht ⟨i, hi⟩ h1 h0

/-- C16: every non-constant pattern with exactly two transitions has such a run, and distinct patterns have distinct codes. -/
theorem table_injective (p q : Nat) (hp : p < 256) (hq : q < 256) (hpt : transitions p = 2) (hqt : transitions q = 2)
    (h : (table false)[p]? = (table false)[q]?) : p = q := by
  have hh : ∀ p q : Fin 256, transitions p.val = 2 → transitions q.val = 2 →
      (table false)[p.val]? = (table false)[q.val]? → p = q := by
    have h1 : ∀ p : Fin 256, transitions p.val = 2 → ∃ c ∈ (table false)[p.val]?, ∀ q : Fin 256,
        transitions q.val = 2 → (table false)[q.val]? = some c → q = p := by
      have nd : (((List.finRange 256).filter (fun p => transitions p.val = 2)).map (fun p => (table false)[p.val]?)).Nodup := by
        decide +kernel
      intro p hpt
      obtain ⟨c, hc, -⟩ := table_lt false p.val p.isLt
      refine ⟨c, by simp [hc], ?_⟩
      intro q hqt hqc
      have hinj := List.inj_on_of_nodup_map nd
      apply hinj
      · simp [hqt]
      · simp [hpt]
      · rw [hqc, hc]
    intro p q hpt hqt he
    obtain ⟨c, hc, hu⟩ := h1 p hpt
    exact (hu q hqt (by rw [← he]; simpa using hc)).symm
  have := hh ⟨p, hp⟩ ⟨q, hq⟩ hpt hqt h
  exact Fin.mk.inj_iff.1 this

/-- C16: there are exactly 56 patterns with two transitions, so with the two special codes 58 bins are used. -/
theorem table_count : ((List.range 256).filter (fun p => transitions p = 2)).length = 56 := by decide +kernel

/-- C16: in the transposed table, a pattern seen through the transposition has the code of the original pattern. -/
theorem table_transposed (p : Nat) (hp : p < 256) : (table true)[transposePattern p]? = (table false)[p]? := by
  have h : ∀ p : Fin 256, (table true)[transposePattern p.val]? = (table false)[p.val]? := by decide +kernel
  exact h ⟨p, hp⟩

/-- The quantiser as a function. -/
def quant (transposed : Bool) (p : Nat) : Nat := (table transposed).getD p 0

theorem rd_table (transposed : Bool) (p : Nat) (hp : p < 256) :
    rd (table transposed) p = some (quant transposed p) ∧ quant transposed p < dimension := by
  obtain ⟨c, hc, hd⟩ := table_lt transposed p hp
  have : p < (table transposed).length := by rw [(initUniform_ok transposed).2]; exact hp
  rw [List.getElem?_eq_getElem this] at hc
  simp only [Option.some.injEq] at hc
  have hq : quant transposed p = c := by
    simp [quant, List.getD_eq_getElem?_getD, List.getElem?_eq_getElem this, hc]
  rw [rd_of_lt this, hc, hq]
  exact ⟨rfl, hd⟩

/-- C66: for every image and every cell size the accumulation stays inside the feature buffer and each entry of the result is
the bilinearly weighted count of the interior pixels with that quantised pattern. -/
theorem accumulate_spec (transposed : Bool) (image : List ℚ) (width height cellSize : Nat)
    (hl : image.length = width * height) :
    ∃ f, accumulate (table transposed) image width height cellSize = some f ∧
      f.length = dimension * (width / cellSize * (height / cellSize)) ∧
      ∀ k < dimension, ∀ cx < width / cellSize, ∀ cy < height / cellSize,
        f[width / cellSize * (height / cellSize) * k + width / cellSize * cy + cx]? =
          some (feature (quant transposed) (imgFn image width) width height cellSize k cx cy) := by
  set cw := width / cellSize
  set ch := height / cellSize
  let g : Nat → Nat → List (Nat × ℚ) := fun y x =>
    contribs cw ch cellSize (quant transposed (pattern (imgFn image width) x y)) y x
  have hpix : ∀ y ∈ interior height, ∀ x ∈ interior width, ∀ m,
      pixel (table transposed) image width cw ch cellSize m y x = addAll m (g y x) := by
    intro y hy x hx m
    simp only [interior, List.mem_map, List.mem_range] at hy hx
    obtain ⟨y', hy', rfl⟩ := hy
    obtain ⟨x', hx', rfl⟩ := hx
    exact pixel_eq (bitString_eq hl (by omega) (by omega) (by omega) (by omega))
      (rd_table transposed _ (pattern_lt _ _ _)).1
  have hrow : ∀ y ∈ interior height, ∀ m,
      (interior width).foldlM (fun f x => pixel (table transposed) image width cw ch cellSize f y x) m =
        addAll m ((interior width).flatMap (g y)) := by
    intro y hy m
    exact foldlM_addAll _ _ _ (fun x hx m => hpix y hy x hx m) m
  have hall : accumulate (table transposed) image width height cellSize =
      addAll (List.replicate (dimension * (cw * ch)) 0) ((interior height).flatMap (fun y => (interior width).flatMap (g y))) :=
    foldlM_addAll _ _ _ hrow _
  have hlt : ∀ c ∈ (interior height).flatMap (fun y => (interior width).flatMap (g y)),
      c.1 < (List.replicate (dimension * (cw * ch)) (0 : ℚ)).length := by
    intro c hc
    simp only [List.mem_flatMap] at hc
    obtain ⟨y, _, x, _, hc⟩ := hc
    rw [List.length_replicate]
    exact contribs_lt (rd_table transposed _ (pattern_lt _ _ _)).2 c hc
  obtain ⟨f, h1, h2, h3⟩ := addAll_spec _ _ hlt
  refine ⟨f, by rw [hall, h1], by rw [h2, List.length_replicate], ?_⟩
  intro k hk cx hcx cy hcy
  have hi : cw * ch * k + cw * cy + cx < dimension * (cw * ch) := by
    have a := idx_lt hcx hcy
    calc cw * ch * k + cw * cy + cx < cw * ch * k + cw * ch := by omega
      _ = cw * ch * (k + 1) := by ring
      _ ≤ cw * ch * dimension := Nat.mul_le_mul_left _ hk
      _ = dimension * (cw * ch) := by ring
  rw [h3, List.getElem?_replicate, if_pos hi]
  simp only [Option.map_some, zero_add, Option.some.injEq]
  rw [contrib_flatMap]
  simp only [contrib_flatMap, g, contribs_contrib k cx cy hcx hcy]
  simp only [feature, interior, List.map_map]
  refine congrArg List.sum ?_
  apply List.map_congr_left
  intro y _
  refine congrArg List.sum ?_
  apply List.map_congr_left
  intro x _
  simp [Function.comp]

/-- C66: the weights of a pixel in the two nearest cells of an unbounded grid add up to one. -/
theorem weight_partition (cellSize x : Nat) (h : 0 ≤ ⌊coord cellSize x⌋) :
    weight cellSize x ⌊coord cellSize x⌋.toNat + weight cellSize x (⌊coord cellSize x⌋.toNat + 1) = 1 := by
  rw [weight_eq, weight_eq]
  have h1 : ((⌊coord cellSize x⌋.toNat : Nat) : Int) = ⌊coord cellSize x⌋ := Int.toNat_of_nonneg h
  rw [if_pos h1, if_neg (by push_cast; omega), if_pos (by push_cast; omega)]
  ring

theorem weight_nonneg (cellSize x c : Nat) : 0 ≤ weight cellSize x c := le_max_left _ _

/-- C66: histogram entries are never negative. -/
theorem feature_nonneg (q : Nat → Nat) (I : Int → Int → ℚ) (width height cellSize k cx cy : Nat) :
    0 ≤ feature q I width height cellSize k cx cy := by
  unfold feature
  apply List.sum_nonneg
  intro a ha
  simp only [List.mem_map] at ha
  obtain ⟨y, _, rfl⟩ := ha
  apply List.sum_nonneg
  intro a ha
  simp only [List.mem_map] at ha
  obtain ⟨x, _, rfl⟩ := ha
  split
  · exact mul_nonneg (weight_nonneg _ _ _) (weight_nonneg _ _ _)
  · exact le_rfl

theorem list_sum_comm {α β : Type} (l : List α) (m : List β) (f : α → β → ℚ) :
    (l.map (fun a => (m.map (fun b => f a b)).sum)).sum = (m.map (fun b => (l.map (fun a => f a b)).sum)).sum := by
  induction l with
  | nil => simp
  | cons a l ih => simp only [List.map_cons, List.sum_cons, ih, List.sum_map_add]

theorem pattern_transpose (I : Int → Int → ℚ) (x y : Int) :
    pattern (fun u v => I v u) y x = transposePattern (pattern I x y) := by
  have key : ∀ b0 b1 b2 b3 b4 b5 b6 b7 : Bool,
      ([if b2 then 2 ^ 0 else 0, if b1 then 2 ^ 1 else 0, if b0 then 2 ^ 2 else 0, if b7 then 2 ^ 3 else 0,
        if b6 then 2 ^ 4 else 0, if b5 then 2 ^ 5 else 0, if b4 then 2 ^ 6 else 0, if b3 then 2 ^ 7 else 0] : List Nat).sum =
      transposePattern ([if b0 then 2 ^ 0 else 0, if b1 then 2 ^ 1 else 0, if b2 then 2 ^ 2 else 0, if b3 then 2 ^ 3 else 0,
        if b4 then 2 ^ 4 else 0, if b5 then 2 ^ 5 else 0, if b6 then 2 ^ 6 else 0, if b7 then 2 ^ 7 else 0] : List Nat).sum := by
    decide +kernel
  have := key (I (x + 1) (y + 0) > I x y) (I (x + 1) (y + 1) > I x y) (I (x + 0) (y + 1) > I x y)
    (I (x + -1) (y + 1) > I x y) (I (x + -1) (y + 0) > I x y) (I (x + -1) (y + -1) > I x y) (I (x + 0) (y + -1) > I x y)
    (I (x + 1) (y + -1) > I x y)
  simp only [decide_eq_true_eq] at this
  exact this

/-- C66, transposition: processing the transposed image with an extractor created with `transposed = true` gives the features of
the original image with the two spatial indexes exchanged. -/
theorem feature_transpose (I : Int → Int → ℚ) (width height cellSize k cx cy : Nat) :
    feature (quant true) (fun u v => I v u) height width cellSize k cy cx =
      feature (quant false) I width height cellSize k cx cy := by
  unfold feature
  rw [list_sum_comm]
  refine congrArg List.sum ?_
  apply List.map_congr_left
  intro y _
  refine congrArg List.sum ?_
  apply List.map_congr_left
  intro x _
  have hq : quant true (pattern (fun u v => I v u) ((y : Int) + 1) ((x : Int) + 1)) =
      quant false (pattern I ((x : Int) + 1) ((y : Int) + 1)) := by
    rw [pattern_transpose]
    have := table_transposed (pattern I ((x : Int) + 1) ((y : Int) + 1)) (pattern_lt _ _ _)
    simp only [quant, List.getD_eq_getElem?_getD, this]
  rw [hq]
  split
  · ring
  · rfl

/-- C66, normalisation: the normalised histogram of a cell has non-negative entries and Euclidean norm at most one. -/
theorem normalizeCell_norm (h : List ℝ) (hn : ∀ v ∈ h, 0 ≤ v) :
    (∀ v ∈ normalizeCell h, 0 ≤ v) ∧ ((normalizeCell h).map (fun v => v ^ 2)).sum ≤ 1 := by
  have hs : 0 ≤ h.sum := List.sum_nonneg hn
  have hpos : 0 < Real.sqrt h.sum + 1e-10 := by
    have := Real.sqrt_nonneg h.sum
    have : (0 : ℝ) < 1e-10 := by norm_num
    linarith [Real.sqrt_nonneg h.sum]
  constructor
  · intro v hv
    simp only [normalizeCell, List.mem_map] at hv
    obtain ⟨a, _, rfl⟩ := hv
    exact div_nonneg (Real.sqrt_nonneg _) hpos.le
  · have e : ((normalizeCell h).map (fun v => v ^ 2)).sum = h.sum / (Real.sqrt h.sum + 1e-10) ^ 2 := by
      simp only [normalizeCell]
      generalize Real.sqrt h.sum + 1e-10 = c at hpos
      clear hs
      induction h with
      | nil => simp
      | cons a h ih =>
        have ha : 0 ≤ a := hn a (by simp)
        have := ih (fun v hv => hn v (by simp [hv]))
        simp only [List.map_cons, List.sum_cons, this]
        rw [div_pow, Real.sq_sqrt ha, add_div]
    rw [e, div_le_one (by positivity)]
    calc h.sum = Real.sqrt h.sum ^ 2 := (Real.sq_sqrt hs).symm
      _ ≤ (Real.sqrt h.sum + 1e-10) ^ 2 := by
        apply pow_le_pow_left₀ (Real.sqrt_nonneg _)
        norm_num

/- A 3 x 3 image with one cell: the only interior pixel has a bright east neighbour, code 0; its weight is 1. -/
example : ∃ f, accumulate (table false) [0, 0, 0, 0, 0, 1, 0, 0, 0] 3 3 3 = some f ∧ f[0]? = some 1 := by
  obtain ⟨f, h1, _, h3⟩ := accumulate_spec false [0, 0, 0, 0, 0, 1, 0, 0, 0] 3 3 3 rfl
  refine ⟨f, h1, ?_⟩
  have := h3 0 (by decide) 0 (by decide) 0 (by decide)
  simp only [Nat.mul_zero, Nat.add_zero] at this
  rw [this]
  decide +kernel

example : (table false)[0b00000110]? = some 8 := by decide +kernel

end Verif.Lbp
