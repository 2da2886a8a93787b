import Verif.Hog.AccModel
import Verif.Hog.AccSpec
import Verif.Flat
import Verif.Sift.DescrLemmas

/-!
# Lemmas for the accumulation of HOG histograms
-/

namespace Verif.Hog

open Finset

/-- The buffers of a previous image have the size that goes with the numbers of cells. -/
def Fits (O : Nat) (b : Bufs) : Prop := b.hog.length = b.w * b.h * O * 2 ∧ b.norm.length = b.w * b.h

theorem zeroFill_spec (l : List ℚ) (n : Nat) (h : l.length = n) : zeroFill l n = some (List.replicate n 0) := by
  obtain ⟨l', e, h1, h2⟩ := iter_inv (f := fun i (l : List ℚ) => wr l i 0) (s := l) (n := n)
    (fun i (m : List ℚ) => m.length = n ∧ ∀ j < i, m[j]? = some 0) ⟨h, by simp⟩ (by
      rintro i hi m ⟨hm, hj⟩
      refine ⟨_, wr_of_lt (by omega) 0, by simp [hm], ?_⟩
      intro j hj'
      by_cases e : i = j
      · subst e; rw [List.getElem?_set_self (by omega)]
      · rw [List.getElem?_set_ne e]; exact hj j (by omega))
  unfold zeroFill
  rw [e]
  congr 1
  apply List.ext_getElem?
  intro j
  by_cases hj : j < n
  · rw [h2 j hj, List.getElem?_replicate, if_pos hj]
  · rw [List.getElem?_eq_none (by omega), List.getElem?_eq_none (by simp; omega)]

theorem prepare_spec (O : Nat) (old : Option Bufs) (W H c : Nat) (hold : ∀ b, old = some b → Fits O b) (hc : 0 < c) (hW : 3 < W) (hH : 3 < H) (hw : 0 < cells c W) (hh : 0 < cells c H) :
    prepare O old W H c = some { hog := List.replicate (cells c W * cells c H * O * 2) 0, norm := List.replicate (cells c W * cells c H) 0, w := cells c W, h := cells c H } := by
  unfold prepare
  unfold cells at *
  rw [if_neg (by omega)]
  simp only [assert', hW, hH, hw, hh, decide_true, if_true, Option.bind_eq_bind, Option.bind_some]
  cases old with
  | none => rfl
  | some b =>
    obtain ⟨h1, h2⟩ := hold b rfl
    simp only
    by_cases e : b.w = (W + c / 2) / c ∧ b.h = (H + c / 2) / c
    · rw [if_pos e, zeroFill_spec _ _ (by rw [h1, e.1, e.2]), zeroFill_spec _ _ (by rw [h2, e.1, e.2])]
      obtain ⟨e1, e2⟩ := e
      rw [← e1, ← e2]
      rfl
    · rw [if_neg e]; rfl

/-! ### Interpolation -/

theorem tent_floor (t : ℚ) (X : Int) : tent (t - X) = if X = ⌊t⌋ then 1 - (t - ⌊t⌋) else if X = ⌊t⌋ + 1 then t - ⌊t⌋ else 0 := by
  have h1 := Int.floor_le t
  have h2 := Int.lt_floor_add_one t
  unfold tent
  by_cases e : X = ⌊t⌋
  · subst e
    rw [if_pos rfl, abs_of_nonneg (by linarith), max_eq_right (by linarith)]
  · rw [if_neg e]
    by_cases e' : X = ⌊t⌋ + 1
    · subst e'
      rw [if_pos rfl]
      push_cast
      rw [abs_of_nonpos (by linarith), max_eq_right (by linarith)]
      ring
    · rw [if_neg e']
      apply max_eq_left
      rcases lt_or_gt_of_ne e with h | h
      · have : (X : ℚ) + 1 ≤ ⌊t⌋ := by exact_mod_cast h
        have := le_abs_self (t - X)
        linarith
      · have : (⌊t⌋ : ℚ) + 2 ≤ X := by
          have : ⌊t⌋ + 2 ≤ X := by omega
          exact_mod_cast this
        have := neg_abs_le (t - X)
        linarith

theorem pos_floor_lt {c n x : Nat} (hc : 0 < c) (hx : x < n) : ⌊pos c x⌋ < (cells c n : Int) := by
  rw [Int.floor_lt]
  unfold pos cells
  rw [Int.cast_natCast]
  have hc' : (0 : ℚ) < c := by exact_mod_cast hc
  have h1 := Nat.lt_div_mul_add (a := n + c / 2) hc
  have h2 : 2 * (c / 2) + 1 ≥ c := by omega
  rw [sub_lt_iff_lt_add, div_lt_iff₀ hc']
  have h3 : 2 * x + 1 + 1 ≤ 2 * ((n + c / 2) / c * c) + c := by omega
  have h4 : ((2 * x + 1 + 1 : Nat) : ℚ) ≤ ((2 * ((n + c / 2) / c * c) + c : Nat) : ℚ) := by exact_mod_cast h3
  push_cast at h4
  linarith

theorem le_pos_floor (c x : Nat) : -1 ≤ ⌊pos c x⌋ := by
  rw [Int.le_floor]
  unfold pos
  have : (0 : ℚ) ≤ (x + 1 / 2) / c := by positivity
  push_cast
  linarith

/-! ### Pixels as lists of increments -/

/-- The increment of `at(x,y,k)`. -/
def cellInc (w h : Nat) (x y : Int) (k : Nat) (v : ℚ) : List (Nat × ℚ) :=
  if 0 ≤ x ∧ x < w ∧ 0 ≤ y ∧ y < h then [(x.toNat + y.toNat * w + k * (w * h), v)] else []

/-- The increments of a pixel for an orientation. -/
def splatList (w h c x y : Nat) (k : Nat) (f : ℚ → ℚ → ℚ) : List (Nat × ℚ) :=
  let bx := ⌊pos c x⌋
  let bY := ⌊pos c y⌋
  let wx := pos c x - bx
  let wy := pos c y - bY
  cellInc w h bx bY k (f (1 - wx) (1 - wy)) ++ (cellInc w h (bx + 1) bY k (f wx (1 - wy)) ++
    (cellInc w h (bx + 1) (bY + 1) k (f wx wy) ++ cellInc w h bx (bY + 1) k (f (1 - wx) wy)))

theorem addr3 {w h X Y p X' Y' p' : Nat} (hX : X < w) (hX' : X' < w) (hY : Y < h) (hY' : Y' < h)
    (e : X + Y * w + p * (w * h) = X' + Y' * w + p' * (w * h)) : X = X' ∧ Y = Y' ∧ p = p' := by
  have a1 : Y * w + X < h * w := Flat.addr_lt hY hX
  have a2 : Y' * w + X' < h * w := Flat.addr_lt hY' hX'
  obtain ⟨h1, h2⟩ := Flat.addr_inj (i := p) (i' := p') (m := w * h) (j := Y * w + X) (j' := Y' * w + X') (by rw [mul_comm w h]; exact a1) (by rw [mul_comm w h]; exact a2) (by omega)
  obtain ⟨h3, h4⟩ := Flat.addr_inj hX hX' h2
  exact ⟨h4, h3, h1⟩

theorem contrib_cellInc {w h : Nat} {X Y p : Nat} (hX : X < w) (hY : Y < h) (x y : Int) (k : Nat) (v : ℚ) :
    contrib (cellInc w h x y k v) (X + Y * w + p * (w * h)) = if (X : Int) = x ∧ (Y : Int) = y ∧ p = k then v else 0 := by
  unfold cellInc
  by_cases e : 0 ≤ x ∧ x < w ∧ 0 ≤ y ∧ y < h
  · rw [if_pos e]
    obtain ⟨x, rfl⟩ := Int.eq_ofNat_of_zero_le e.1
    obtain ⟨y, rfl⟩ := Int.eq_ofNat_of_zero_le e.2.2.1
    rw [contrib_cons, contrib_nil, add_zero]
    simp only [Int.toNat_natCast, Nat.cast_inj]
    by_cases e' : X = x ∧ Y = y ∧ p = k
    · rw [if_pos e', if_pos]
      obtain ⟨rfl, rfl, rfl⟩ := e'; rfl
    · rw [if_neg e', if_neg]
      intro h1
      have := addr3 (by omega) hX (by omega) hY h1
      exact e' ⟨this.1.symm, this.2.1.symm, this.2.2.symm⟩
  · rw [if_neg e, contrib_nil, if_neg]
    rintro ⟨rfl, rfl, -⟩
    exact e ⟨by omega, by omega, by omega, by omega⟩

theorem contrib_splatList {w h : Nat} {X Y p : Nat} (hX : X < w) (hY : Y < h) (c x y k : Nat) (f : ℚ → ℚ → ℚ) (v : ℚ) (hf : ∀ a b, f a b = v * a * b) :
    contrib (splatList w h c x y k f) (X + Y * w + p * (w * h)) = if p = k then v * share c x y X Y else 0 := by
  unfold splatList share
  simp only [contrib_append, contrib_cellInc hX hY, hf]
  have h1 := tent_floor (pos c x) X
  have h2 := tent_floor (pos c y) Y
  push_cast at h1 h2
  rw [h1, h2]
  by_cases ep : p = k
  · simp only [ep, and_true, if_true]
    by_cases e1 : (X : Int) = ⌊pos c x⌋
    · by_cases e2 : (Y : Int) = ⌊pos c y⌋
      · simp [e1, e2]; ring
      · by_cases e3 : (Y : Int) = ⌊pos c y⌋ + 1
        · simp [e1, e3]; ring
        · simp [e1, e2, e3]
    · by_cases e1' : (X : Int) = ⌊pos c x⌋ + 1
      · by_cases e2 : (Y : Int) = ⌊pos c y⌋
        · simp [e1', e2]; ring
        · by_cases e3 : (Y : Int) = ⌊pos c y⌋ + 1
          · simp [e1', e3]; ring
          · simp [e1', e2, e3]
      · simp [e1, e1']
  · simp [ep]

theorem cellInc_lt {w h O : Nat} {x y : Int} {k : Nat} (hk : k < 2 * O) (v : ℚ) : ∀ a ∈ cellInc w h x y k v, a.1 < w * h * O * 2 := by
  intro a ha
  unfold cellInc at ha
  by_cases e : 0 ≤ x ∧ x < w ∧ 0 ≤ y ∧ y < h
  · rw [if_pos e] at ha
    simp only [List.mem_singleton] at ha
    subst ha
    simp only
    have a1 : y.toNat * w + x.toNat < h * w := Flat.addr_lt (by omega) (by omega)
    have a2 := Flat.addr_lt (i := k) (n := 2 * O) (m := w * h) (j := y.toNat * w + x.toNat) hk (by rw [mul_comm w h]; exact a1)
    have : w * h * O * 2 = 2 * O * (w * h) := by ring
    omega
  · rw [if_neg e] at ha; simp at ha

theorem splatList_lt {w h O c x y k : Nat} (hk : k < 2 * O) (f : ℚ → ℚ → ℚ) : ∀ a ∈ splatList w h c x y k f, a.1 < w * h * O * 2 := by
  intro a ha
  unfold splatList at ha
  simp only [List.mem_append] at ha
  rcases ha with h | h | h | h <;> exact cellInc_lt hk _ a h

/-- The effect of increments on the buffers. -/
def addBufs (b : Bufs) (l : List (Nat × ℚ)) : Option Bufs := (addAll b.hog l).map (fun hog => { b with hog := hog })

theorem addBufs_append (b : Bufs) (l m : List (Nat × ℚ)) : addBufs b (l ++ m) = (addBufs b l).bind (fun b => addBufs b m) := by
  unfold addBufs
  rw [addAll_append]
  cases addAll b.hog l <;> rfl

theorem addBufs_size {b b' : Bufs} {l : List (Nat × ℚ)} (h : addBufs b l = some b') : b'.w = b.w ∧ b'.h = b.h := by
  unfold addBufs at h
  cases e : addAll b.hog l with
  | none => rw [e] at h; simp at h
  | some m => rw [e] at h; simp at h; subst h; exact ⟨rfl, rfl⟩

theorem atAdd_eq {b : Bufs} {x y : Int} {k : Nat} {v : ℚ} (hx : 0 ≤ x) (hx' : x < b.w) (hy : 0 ≤ y) (hy' : y < b.h) :
    atAdd b x y k v = addBufs b (cellInc b.w b.h x y k v) := by
  obtain ⟨x, rfl⟩ := Int.eq_ofNat_of_zero_le hx
  obtain ⟨y, rfl⟩ := Int.eq_ofNat_of_zero_le hy
  unfold atAdd cellInc addBufs
  have e : ((x : Int) + y * b.w + k * (b.w * b.h : Nat)) = ((x + y * b.w + k * (b.w * b.h) : Nat) : Int) := by push_cast; ring
  simp only [e]
  rw [if_neg (by omega), if_pos ⟨hx, hx', hy, hy'⟩]
  simp only [Int.toNat_natCast, addAll, Option.bind_eq_bind]
  cases addAt b.hog (x + y * b.w + k * (b.w * b.h)) v <;> rfl

theorem cellInc_out {w h : Nat} {x y : Int} {k : Nat} {v : ℚ} (e : ¬ (0 ≤ x ∧ x < w ∧ 0 ≤ y ∧ y < h)) : cellInc w h x y k v = [] := by
  unfold cellInc; rw [if_neg e]

theorem addBufs_nil (b : Bufs) : addBufs b [] = some b := rfl

theorem guarded {b : Bufs} {x y : Int} {k : Nat} {v : ℚ} {P : Prop} [Decidable P] (h : P ↔ (0 ≤ x ∧ x < b.w ∧ 0 ≤ y ∧ y < b.h)) :
    condAdd P b x y k v = addBufs b (cellInc b.w b.h x y k v) := by
  unfold condAdd
  by_cases hP : P
  · rw [if_pos hP]
    obtain ⟨h1, h2, h3, h4⟩ := h.1 hP
    exact atAdd_eq h1 h2 h3 h4
  · rw [if_neg hP, cellInc_out (fun e => hP (h.2 e)), addBufs_nil]

theorem addBufs_bind {b : Bufs} {l m : List (Nat × ℚ)} {f : Bufs → Option Bufs} (h : ∀ b', b'.w = b.w → b'.h = b.h → f b' = addBufs b' m) :
    (addBufs b l).bind f = addBufs b (l ++ m) := by
  rw [addBufs_append]
  cases e : addBufs b l with
  | none => rfl
  | some b' => exact h b' (addBufs_size e).1 (addBufs_size e).2

theorem splat_eq {W H c x y : Nat} (hc : 0 < c) (hx : x < W) (hy : y < H) (k : Nat) (f : ℚ → ℚ → ℚ) (b : Bufs) (hw : b.w = cells c W) (hh : b.h = cells c H) :
    splat c x y k f b = addBufs b (splatList b.w b.h c x y k f) := by
  have x1 := pos_floor_lt hc hx
  have x2 := le_pos_floor c x
  have y1 := pos_floor_lt hc hy
  have y2 := le_pos_floor c y
  rw [← hw] at x1
  rw [← hh] at y1
  unfold splat splatList
  simp only [Sift.vlFloor_eq]
  rw [show ((x : ℚ) + 1 / 2) / c - 1 / 2 = pos c x from rfl, show ((y : ℚ) + 1 / 2) / c - 1 / 2 = pos c y from rfl]
  rw [guarded (by constructor <;> intro h <;> omega)]
  apply addBufs_bind
  intro b1 e1 e1'
  rw [guarded (by rw [e1, e1']; constructor <;> intro h <;> omega), e1, e1']
  apply addBufs_bind
  intro b2 e2 e2'
  rw [guarded (by rw [e2, e1, e2', e1']; constructor <;> intro h <;> omega), e2, e1, e2', e1']
  apply addBufs_bind
  intro b3 e3 e3'
  rw [guarded (by rw [e3, e2, e1, e3', e2', e1']; constructor <;> intro h <;> omega), e3, e2, e1, e3', e2', e1']

/-- The increments of a pixel for the orientation `bin`, if any. -/
def binList (w h c x y : Nat) (bin : Int) (ow : ℚ) (f : ℚ → ℚ → ℚ → ℚ) : List (Nat × ℚ) := if bin < 0 then [] else splatList w h c x y bin.toNat (f ow)

theorem splatBin_eq {W H c x y : Nat} (hc : 0 < c) (hx : x < W) (hy : y < H) (bin : Int) (ow : ℚ) (f : ℚ → ℚ → ℚ → ℚ) (b : Bufs) (hw : b.w = cells c W) (hh : b.h = cells c H)
    : splatBin c x y bin ow f b = addBufs b (binList b.w b.h c x y bin ow f) := by
  unfold splatBin binList
  by_cases h : bin < 0
  · rw [if_pos h, if_pos h, addBufs_nil]
  · rw [if_neg h, if_neg h]
    obtain ⟨k, rfl⟩ := Int.eq_ofNat_of_zero_le (by omega : 0 ≤ bin)
    exact splat_eq hc hx hy k _ b hw hh

theorem contrib_binList {w h : Nat} {X Y p : Nat} (hX : X < w) (hY : Y < h) (c x y : Nat) (bin : Int) (ow v : ℚ) (f : ℚ → ℚ → ℚ → ℚ) (hf : ∀ a b, f ow a b = v * a * b) :
    contrib (binList w h c x y bin ow f) (X + Y * w + p * (w * h)) = if (p : Int) = bin then v * share c x y X Y else 0 := by
  unfold binList
  by_cases hb : bin < 0
  · rw [if_pos hb, contrib_nil, if_neg (by omega)]
  · obtain ⟨k, rfl⟩ := Int.eq_ofNat_of_zero_le (by omega : 0 ≤ bin)
    rw [if_neg hb, Int.toNat_natCast, contrib_splatList hX hY c x y k (f ow) v hf]
    simp only [Nat.cast_inj]

theorem binList_lt {w h O c x y : Nat} {bin : Int} (hk : bin < 2 * O) (ow : ℚ) (f : ℚ → ℚ → ℚ → ℚ) : ∀ a ∈ binList w h c x y bin ow f, a.1 < w * h * O * 2 := by
  unfold binList
  by_cases hb : bin < 0
  · rw [if_pos hb]; simp
  · rw [if_neg hb]; exact splatList_lt (by omega) _

/-- A loop whose turns are increments. -/
theorem iter_addBufs (n w h : Nat) (f : Nat → Bufs → Option Bufs) (g : Nat → List (Nat × ℚ))
    (hf : ∀ i < n, ∀ b : Bufs, b.w = w → b.h = h → f i b = addBufs b (g i)) (b : Bufs) (hw : b.w = w) (hh : b.h = h) :
    iter n f b = addBufs b ((List.range n).flatMap g) := by
  induction n with
  | zero => rfl
  | succ n ih =>
    rw [iter, ih (fun i hi => hf i (by omega)), List.range_succ, List.flatMap_append]
    apply addBufs_bind
    intro b' e1 e2
    rw [hf n (by omega) b' (e1.trans hw) (e2.trans hh)]
    simp

theorem list_sum_range (n : Nat) (f : Nat → ℚ) : ((List.range n).map f).sum = ∑ i ∈ range n, f i := by
  induction n with
  | zero => rfl
  | succ n ih => rw [List.range_succ, Finset.sum_range_succ]; simp [ih]

theorem sum_range_Icc (n : Nat) (f : Nat → ℚ) : ∑ i ∈ range n, f (i + 1) = ∑ i ∈ Icc 1 n, f i := by
  induction n with
  | zero => rfl
  | succ n ih => rw [Finset.sum_range_succ, ih, Finset.sum_Icc_succ_top (by omega)]

theorem addr3_lt {w h O X Y p : Nat} (hX : X < w) (hY : Y < h) (hp : p < 2 * O) : X + Y * w + p * (w * h) < w * h * O * 2 := by
  have a1 : Y * w + X < h * w := Flat.addr_lt hY hX
  have a2 := Flat.addr_lt (i := p) (n := 2 * O) (m := w * h) (j := Y * w + X) hp (by rw [mul_comm w]; exact a1)
  have : w * h * O * 2 = 2 * O * (w * h) := by ring
  omega

/-- Two nested loops of increments, from empty histograms. -/
theorem fill_spec (O w h nx ny : Nat) (f : Nat → Nat → Bufs → Option Bufs) (l : Nat → Nat → List (Nat × ℚ)) (v : Nat → Nat → Nat → Nat → Nat → ℚ)
    (hl : ∀ y < ny, ∀ x < nx, (∀ b : Bufs, b.w = w → b.h = h → f y x b = addBufs b (l y x)) ∧ (∀ a ∈ l y x, a.1 < w * h * O * 2) ∧
      ∀ X < w, ∀ Y < h, ∀ p, contrib (l y x) (X + Y * w + p * (w * h)) = v y x X Y p) :
    ∃ m : List ℚ, iter ny (fun y => iter nx (f y)) { hog := List.replicate (w * h * O * 2) 0, norm := List.replicate (w * h) 0, w := w, h := h } =
        some { hog := m, norm := List.replicate (w * h) 0, w := w, h := h } ∧ m.length = w * h * O * 2 ∧
      ∀ X < w, ∀ Y < h, ∀ p < 2 * O, entry m w h X Y p = some (∑ y ∈ range ny, ∑ x ∈ range nx, v y x X Y p) := by
  have e1 := iter_addBufs ny w h (fun y => iter nx (f y)) (fun y => (List.range nx).flatMap (fun x => l y x)) (by
    intro y hy b hw hh
    exact iter_addBufs nx w h (f y) (l y) (fun x hx b hw hh => (hl y hy x hx).1 b hw hh) b hw hh)
    { hog := List.replicate (w * h * O * 2) 0, norm := List.replicate (w * h) 0, w := w, h := h } rfl rfl
  obtain ⟨m, h1, h2, h3⟩ := addAll_spec (List.replicate (w * h * O * 2) (0 : ℚ)) ((List.range ny).flatMap (fun y => (List.range nx).flatMap (fun x => l y x))) (by
    intro a ha
    rw [List.mem_flatMap] at ha
    obtain ⟨y, hy, ha⟩ := ha
    rw [List.mem_flatMap] at ha
    obtain ⟨x, hx, ha⟩ := ha
    rw [List.mem_range] at hy hx
    rw [List.length_replicate]
    exact (hl y hy x hx).2.1 a ha)
  rw [List.length_replicate] at h2
  refine ⟨m, ?_, h2, ?_⟩
  · rw [e1]
    unfold addBufs
    simp only
    rw [h1]
    rfl
  · intro X hX Y hY p hp
    unfold entry
    rw [h3, List.getElem?_replicate, if_pos (addr3_lt hX hY hp)]
    simp only [Option.map_some, zero_add, contrib_flatMap, list_sum_range]
    congr 1
    apply Finset.sum_congr rfl
    intro y hy
    apply Finset.sum_congr rfl
    intro x hx
    rw [Finset.mem_range] at hy hx
    exact (hl y hy x hx).2.2 X hX Y hY p

/-! ### The gradient -/

theorem maxGradient_spec (im : List ℚ) (W H C x y : Nat) (him : im.length = W * H * C) (hx : 1 ≤ x) (hx' : x + 1 < W) (hy : 1 ≤ y) (hy' : y + 1 < H) :
    ∃ g : ℚ × ℚ, maxGradient im W H C x y = some (g.1, g.2, norm2 g) ∧ LargestGradient im W H C x y g := by
  obtain ⟨r, e, h1, h2⟩ := iter_inv (n := C) (s := ((0, 0, 0) : ℚ × ℚ × ℚ)) (f := fun k (g : ℚ × ℚ × ℚ) => do
      let i := y * W + x + k * (W * H)
      let a ← rd im (i + 1)
      let b ← rd im (i - 1)
      let c ← rd im (i + W)
      let d ← rd im (i - W)
      let gx := a - b
      let gy := c - d
      let n := gx * gx + gy * gy
      pure (if n > g.2.2 then (gx, gy, n) else g))
    (fun k (r : ℚ × ℚ × ℚ) => r.2.2 = norm2 (r.1, r.2.1) ∧ ((k = 0 ∧ (r.1, r.2.1) = (0, 0)) ∨ ∃ j < k, (r.1, r.2.1) = grad im W H j x y ∧
      (∀ i < k, norm2 (grad im W H i x y) ≤ r.2.2) ∧ ∀ i < j, norm2 (grad im W H i x y) < r.2.2)) ⟨by simp [norm2], Or.inl ⟨rfl, rfl⟩⟩ (by
      rintro k hk ⟨rx, ry, rn⟩ ⟨hn, hr⟩
      have hk1 : k * (W * H) + W * H ≤ im.length := by
        rw [him, ← Nat.succ_mul, mul_comm (W * H) C]; exact Nat.mul_le_mul_right _ hk
      have hrow : ∀ Y X, Y < H → X < W → X + Y * W < W * H := by
        intro Y X h1 h2
        have := Flat.addr_lt h1 h2
        rw [mul_comm W H]; omega
      have hrd : ∀ Y X i, Y < H → X < W → i = X + Y * W + k * (W * H) → rd im i = some (pix im W H k X Y) := by
        intro Y X i h1 h2 h3
        subst h3
        have := hrow Y X h1 h2
        unfold pix
        rw [rd_getElem?, List.getD_eq_getElem?_getD, List.getElem?_eq_getElem (by omega), Option.getD_some]
      have hyW : y * W = (y - 1) * W + W := by
        obtain ⟨z, rfl⟩ : ∃ z, y = z + 1 := ⟨y - 1, by omega⟩
        rw [Nat.add_sub_cancel, Nat.succ_mul]
      have hyW' : (y + 1) * W = y * W + W := Nat.succ_mul _ _
      refine ⟨_, by
        simp only
        rw [hrd y (x + 1) _ (by omega) hx' (by omega), hrd y (x - 1) _ (by omega) (by omega) (by omega), hrd (y + 1) x _ hy' (by omega) (by omega),
          hrd (y - 1) x _ (by omega) (by omega) (by omega)]
        rfl, ?_⟩
      have hg : (pix im W H k (x + 1) y - pix im W H k (x - 1) y, pix im W H k x (y + 1) - pix im W H k x (y - 1)) = grad im W H k x y := rfl
      have hg2 : (pix im W H k (x + 1) y - pix im W H k (x - 1) y) * (pix im W H k (x + 1) y - pix im W H k (x - 1) y) +
          (pix im W H k x (y + 1) - pix im W H k x (y - 1)) * (pix im W H k x (y + 1) - pix im W H k x (y - 1)) = norm2 (grad im W H k x y) := by
        unfold norm2 grad; ring
      rw [hg2]
      simp only at hn hr ⊢
      by_cases hgt : norm2 (grad im W H k x y) > rn
      · rw [if_pos hgt]
        refine ⟨rfl, Or.inr ⟨k, by omega, rfl, ?_, ?_⟩⟩
        · intro i hi
          rcases Nat.lt_succ_iff_lt_or_eq.1 hi with hi | rfl
          · rcases hr with ⟨rfl, -⟩ | ⟨j, _, _, h3, _⟩
            · omega
            · exact le_of_lt (lt_of_le_of_lt (h3 i hi) hgt)
          · exact le_refl _
        · intro i hi
          rcases hr with ⟨rfl, -⟩ | ⟨j, _, _, h3, _⟩
          · omega
          · exact lt_of_le_of_lt (h3 i hi) hgt
      · rw [if_neg hgt]
        refine ⟨hn, Or.inr ?_⟩
        rcases hr with ⟨rfl, hr⟩ | ⟨j, hj, h2, h3, h4⟩
        · have h0 : rn = 0 := by rw [hn, hr]; simp [norm2]
          have h1 : norm2 (grad im W H 0 x y) = 0 := le_antisymm (by rw [h0] at hgt; exact not_lt.1 hgt) (by unfold norm2; positivity)
          refine ⟨0, by omega, ?_, ?_, by omega⟩
          · rw [hr]
            unfold norm2 at h1
            have a1 : (grad im W H 0 x y).1 = 0 := by nlinarith [sq_nonneg (grad im W H 0 x y).1, sq_nonneg (grad im W H 0 x y).2]
            have a2 : (grad im W H 0 x y).2 = 0 := by nlinarith [sq_nonneg (grad im W H 0 x y).1, sq_nonneg (grad im W H 0 x y).2]
            exact Prod.ext a1.symm a2.symm
          · intro i hi
            obtain rfl : i = 0 := by omega
            rw [h1, h0]
        · refine ⟨j, by omega, h2, ?_, h4⟩
          intro i hi
          rcases Nat.lt_succ_iff_lt_or_eq.1 hi with hi | rfl
          · exact h3 i hi
          · exact not_lt.1 hgt)
  refine ⟨(r.1, r.2.1), ?_, ?_⟩
  · rw [← h1]; exact e
  · rcases h2 with ⟨rfl, h2⟩ | ⟨j, hj, h2, h3, h4⟩
    · exact Or.inl ⟨rfl, h2⟩
    · refine Or.inr ⟨j, hj, h2, ?_, ?_⟩
      · rw [← h1]; exact h3
      · rw [← h1]; exact h4

/-! ### The orientation -/

theorem closest_spec (E : Cfg) (g : ℚ × ℚ) (hO : 1 ≤ E.O) (hox : E.ox.length = E.O) (hoy : E.oy.length = E.O) :
    ∃ b : Bins, closest E g.1 g.2 = some b ∧ ∃ k, Closest (score E.ox E.oy g) (· < E.O) k ∧ b.w0 = |score E.ox E.oy g k| ∧ b.b0 = directedBin E.O (score E.ox E.oy g) k ∧
      ((E.O = 1 ∧ b.b1 = -1) ∨ ∃ l, Closest (score E.ox E.oy g) (fun j => j < E.O ∧ j ≠ k) l ∧ b.b1 = directedBin E.O (score E.ox E.oy g) l) := by
  set s := score E.ox E.oy g with hs
  obtain ⟨b, e, h⟩ := iter_inv (n := E.O) (s := ({ w0 := -1, w1 := -1, b0 := -1, b1 := -1 } : Bins)) (f := fun k (b : Bins) => do
      let u ← rd E.ox k
      let v ← rd E.oy k
      let s := g.1 * u + g.2 * v
      let score := if s < 0 then -s else s
      let bin : Int := if s < 0 then k + E.O else k
      pure (if score > b.w0 then { w0 := score, w1 := b.w0, b0 := bin, b1 := b.b0 }
        else if score > b.w1 then { b with w1 := score, b1 := bin } else b))
    (fun n (b : Bins) => (n = 0 ∧ b.w0 = -1 ∧ b.w1 = -1 ∧ b.b0 = -1 ∧ b.b1 = -1) ∨ ∃ k, Closest s (· < n) k ∧ b.w0 = |s k| ∧ b.b0 = directedBin E.O s k ∧
      ((n = 1 ∧ b.b1 = -1 ∧ b.w1 = -1) ∨ ∃ l, Closest s (fun j => j < n ∧ j ≠ k) l ∧ b.b1 = directedBin E.O s l ∧ b.w1 = |s l|)) (Or.inl ⟨rfl, rfl, rfl, rfl, rfl⟩) (by
      rintro n hn ⟨w0, w1, b0, b1⟩ hb
      have e1 : rd E.ox n = some (E.ox.getD n 0) := by
        rw [rd_getElem?, List.getD_eq_getElem?_getD, List.getElem?_eq_getElem (by omega), Option.getD_some]
      have e2 : rd E.oy n = some (E.oy.getD n 0) := by
        rw [rd_getElem?, List.getD_eq_getElem?_getD, List.getElem?_eq_getElem (by omega), Option.getD_some]
      refine ⟨_, by simp only; rw [e1, e2]; rfl, ?_⟩
      rw [show g.1 * E.ox.getD n 0 + g.2 * E.oy.getD n 0 = s n from rfl]
      have ea : (if s n < 0 then -s n else s n) = |s n| := by
        by_cases h : s n < 0
        · rw [if_pos h, abs_of_neg h]
        · rw [if_neg h, abs_of_nonneg (not_lt.1 h)]
      have eb : (if s n < 0 then (n : Int) + E.O else n) = directedBin E.O s n := by
        unfold directedBin
        by_cases h : s n < 0
        · rw [if_pos h, if_pos h]; push_cast; rfl
        · rw [if_neg h, if_neg h]
      rw [ea, eb]
      simp only at hb ⊢
      right
      rcases hb with ⟨rfl, rfl, rfl, rfl, rfl⟩ | ⟨k, ⟨k1, k2, k3⟩, rfl, rfl, hb⟩
      · rw [if_pos (lt_of_lt_of_le (by norm_num) (abs_nonneg _))]
        refine ⟨0, ⟨by omega, ?_, by omega⟩, rfl, rfl, Or.inl ⟨rfl, rfl, rfl⟩⟩
        intro j hj
        obtain rfl : j = 0 := by omega
        exact le_refl _
      · by_cases hgt : |s n| > |s k|
        · rw [if_pos hgt]
          refine ⟨n, ⟨by omega, ?_, ?_⟩, rfl, rfl, Or.inr ⟨k, ⟨⟨by omega, by omega⟩, ?_, ?_⟩, rfl, rfl⟩⟩
          · intro j hj
            rcases Nat.lt_succ_iff_lt_or_eq.1 hj with hj | rfl
            · exact le_of_lt (lt_of_le_of_lt (k2 j hj) hgt)
            · exact le_refl _
          · intro j _ hj; exact lt_of_le_of_lt (k2 j hj) hgt
          · rintro j ⟨h1, h2⟩; exact k2 j (by omega)
          · rintro j ⟨h1, h2⟩ h3; exact k3 j (by omega) h3
        · rw [if_neg hgt]
          have hk : Closest s (· < n + 1) k := by
            refine ⟨by omega, ?_, ?_⟩
            · intro j hj
              rcases Nat.lt_succ_iff_lt_or_eq.1 hj with hj | rfl
              · exact k2 j hj
              · exact not_lt.1 hgt
            · intro j _ hj; exact k3 j (by omega) hj
          rcases hb with ⟨rfl, rfl, rfl⟩ | ⟨l, ⟨⟨l0, l1⟩, l2, l3⟩, rfl, rfl⟩
          · rw [if_pos (lt_of_lt_of_le (by norm_num) (abs_nonneg _))]
            refine ⟨k, hk, rfl, rfl, Or.inr ⟨1, ⟨⟨by omega, by omega⟩, ?_, ?_⟩, rfl, rfl⟩⟩
            · rintro j ⟨h1, h2⟩
              obtain rfl : j = 1 := by omega
              exact le_refl _
            · rintro j ⟨h1, h2⟩ h3; omega
          · by_cases hgt' : |s n| > |s l|
            · rw [if_pos hgt']
              refine ⟨k, hk, rfl, rfl, Or.inr ⟨n, ⟨⟨by omega, by omega⟩, ?_, ?_⟩, rfl, rfl⟩⟩
              · rintro j ⟨h1, h2⟩
                rcases Nat.lt_succ_iff_lt_or_eq.1 h1 with hj | rfl
                · exact le_of_lt (lt_of_le_of_lt (l2 j ⟨hj, h2⟩) hgt')
                · exact le_refl _
              · rintro j ⟨h1, h2⟩ h3
                exact lt_of_le_of_lt (l2 j ⟨h3, h2⟩) hgt'
            · rw [if_neg hgt']
              refine ⟨k, hk, rfl, rfl, Or.inr ⟨l, ⟨⟨by omega, l1⟩, ?_, ?_⟩, rfl, rfl⟩⟩
              · rintro j ⟨h1, h2⟩
                rcases Nat.lt_succ_iff_lt_or_eq.1 h1 with hj | rfl
                · exact l2 j ⟨hj, h2⟩
                · exact not_lt.1 hgt'
              · rintro j ⟨h1, h2⟩ h3
                exact l3 j ⟨by omega, h2⟩ h3)
  refine ⟨b, e, ?_⟩
  rcases h with ⟨h0, -⟩ | ⟨k, h1, h2, h3, h4⟩
  · omega
  · refine ⟨k, h1, h2, h3, ?_⟩
    rcases h4 with ⟨h4, h5, -⟩ | ⟨l, h4, h5, -⟩
    · exact Or.inl ⟨h4, h5⟩
    · exact Or.inr ⟨l, h4, h5⟩

end Verif.Hog
