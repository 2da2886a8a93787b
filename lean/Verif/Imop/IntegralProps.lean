import Verif.Imop.IntegralModel
import Mathlib.Algebra.BigOperators.Group.Finset.Basic
import Mathlib.Algebra.BigOperators.Intervals
import Mathlib.Algebra.BigOperators.Ring.Finset
import Mathlib.Data.ZMod.Defs
import Mathlib.Tactic.Ring
import Mathlib.Tactic.LinearCombination

namespace Verif.Imop

open Finset

variable {R : Type} [CommRing R]

/-! ### Specification -/

/-- Pixel `(x, y)` of an image stored by rows with the given stride. -/
def pix (a : List R) (stride x y : Nat) : R := a.getD (y * stride + x) 0

/-- The memory block is large enough for an image of `w` columns, `h` rows and the given stride. -/
def Fits (len stride w h : Nat) : Prop := ∀ x < w, ∀ y < h, y * stride + x < len

/-- Sum of the pixels with column `< x` and row `< y`. -/
def sumRect (a : List R) (stride x y : Nat) : R := ∑ j ∈ range y, ∑ i ∈ range x, pix a stride i j

/-! ### Proof -/

theorem rd_pix {a : List R} {stride w h x y : Nat} (hf : Fits a.length stride w h) (hx : x < w) (hy : y < h) :
    rd a (y * stride + x) = some (pix a stride x y) := by
  have := hf x hx y hy
  rw [rd_of_lt this, pix, List.getD_eq_getElem?_getD, List.getElem?_eq_getElem this]
  rfl

theorem addr_inj {s w x x' y y' : Nat} (hw : w ≤ s) (hx : x < w) (hx' : x' < w) (h : y * s + x = y' * s + x') :
    x = x' ∧ y = y' := by
  have hs : 0 < s := by omega
  have h1 : y = y' := by
    have e1 : (y * s + x) / s = y := by
      rw [Nat.add_comm, Nat.add_mul_div_right _ _ hs, Nat.div_eq_of_lt (by omega), Nat.zero_add]
    have e2 : (y' * s + x') / s = y' := by
      rw [Nat.add_comm, Nat.add_mul_div_right _ _ hs, Nat.div_eq_of_lt (by omega), Nat.zero_add]
    rw [← e1, h, e2]
  subst h1
  exact ⟨by omega, rfl⟩

/-- State after `x` pixels of row `y`, all the previous rows being complete. -/
structure IntInv (dst src : List R) (istride stride w : Nat) (y x : Nat) (s : IntSt R) : Prop where
  image : s.image = (y * stride + x : Nat)
  integral : s.integral = (y * istride + x : Nat)
  temp : s.temp = ∑ i ∈ range x, pix src stride i y
  len : s.mem.length = dst.length
  done : ∀ i j, i < w → (j < y ∨ (j = y ∧ i < x)) → s.mem[j * istride + i]? = some (sumRect src stride (i + 1) (j + 1))
  frame : ∀ k, (∀ i j, i < w → (j < y ∨ (j = y ∧ i < x)) → k ≠ j * istride + i) → s.mem[k]? = dst[k]?

theorem first_step {dst src : List R} {istride stride w h x : Nat} (hsrc : Fits src.length stride w h)
    (hdst : Fits dst.length istride w h) (hw : w ≤ istride) (hh : 0 < h) (hx : x < w) {s : IntSt R}
    (inv : IntInv dst src istride stride w 0 x s) :
    ∃ s', integralFirst src x s = some s' ∧ IntInv dst src istride stride w 0 (x + 1) s' := by
  have hl : 0 * istride + x < s.mem.length := by rw [inv.len]; exact hdst x hx 0 hh
  refine ⟨{ image := s.image + 1, integral := s.integral + 1, temp := s.temp + pix src stride x 0,
            mem := s.mem.set (0 * istride + x) (s.temp + pix src stride x 0) }, ?_, ?_⟩
  · unfold integralFirst
    rw [inv.image, rdI_nat, rd_pix hsrc hx hh]
    simp only [Option.bind_eq_bind, Option.bind_some]
    rw [inv.integral, wrI_nat, wr_of_lt hl]
    simp
  · refine ⟨by simp [inv.image], by simp [inv.integral], ?_, by simp [inv.len], ?_, ?_⟩
    · simp [inv.temp, sum_range_succ]
    · intro i j hi hj
      by_cases e : j = 0 ∧ i = x
      · obtain ⟨rfl, rfl⟩ := e
        simp only [List.getElem?_set_self hl, sumRect, inv.temp]
        simp [sum_range_succ]
      · have hne : j * istride + i ≠ 0 * istride + x := by
          intro h
          have := addr_inj hw hi hx h
          omega
        rw [List.getElem?_set_ne (Ne.symm hne)]
        exact inv.done i j hi (by omega)
    · intro k hk
      have hne : k ≠ 0 * istride + x := hk x 0 hx (by omega)
      simp only
      rw [List.getElem?_set_ne (Ne.symm hne)]
      exact inv.frame k (fun i j hi hj => hk i j hi (by omega))

theorem next_step {dst src : List R} {istride stride w h x y : Nat} (hsrc : Fits src.length stride w h)
    (hdst : Fits dst.length istride w h) (hw : w ≤ istride) (hh : y + 1 < h) (hx : x < w) {s : IntSt R}
    (inv : IntInv dst src istride stride w (y + 1) x s) :
    ∃ s', integralNext src istride x s = some s' ∧ IntInv dst src istride stride w (y + 1) (x + 1) s' := by
  have hl : (y + 1) * istride + x < s.mem.length := by rw [inv.len]; exact hdst x hx _ hh
  have hp : rd s.mem (y * istride + x) = some (sumRect src stride (x + 1) (y + 1)) := by
    rw [rd_getElem?]; exact inv.done x y hx (by omega)
  set val := sumRect src stride (x + 1) (y + 1) + (s.temp + pix src stride x (y + 1)) with hval
  refine ⟨{ image := s.image + 1, integral := s.integral + 1, temp := s.temp + pix src stride x (y + 1),
            mem := s.mem.set ((y + 1) * istride + x) val }, ?_, ?_⟩
  · unfold integralNext
    rw [inv.image, rdI_nat, rd_pix hsrc hx hh]
    simp only [Option.bind_eq_bind, Option.bind_some]
    rw [inv.integral, rdI_eq _ _ (y * istride + x) (by push_cast; ring), hp]
    simp only [Option.bind_some]
    rw [wrI_nat, wr_of_lt hl]
    simp [hval]
  · refine ⟨by simp [inv.image]; ring, by simp [inv.integral]; ring, ?_, by simp [inv.len], ?_, ?_⟩
    · simp [inv.temp, sum_range_succ]
    · intro i j hi hj
      by_cases e : j = y + 1 ∧ i = x
      · obtain ⟨rfl, rfl⟩ := e
        simp only [List.getElem?_set_self hl, hval, inv.temp, sumRect]
        rw [sum_range_succ _ (y + 1), sum_range_succ (fun i => pix src stride i (y + 1))]
      · have hne : j * istride + i ≠ (y + 1) * istride + x := by
          intro h
          have := addr_inj hw hi hx h
          omega
        rw [List.getElem?_set_ne (Ne.symm hne)]
        exact inv.done i j hi (by omega)
    · intro k hk
      have hne : k ≠ (y + 1) * istride + x := hk x (y + 1) hx (by omega)
      simp only
      rw [List.getElem?_set_ne (Ne.symm hne)]
      exact inv.frame k (fun i j hi hj => hk i j hi (by omega))

/-! ### C17: the integral image -/

/-- For every image, size and pair of strides (the destination rows not overlapping), `vl_imintegral` performs no access out
of bounds, stores at every pixel `(x, y)` the sum of all the pixels in the rectangle from the origin to `(x, y)` included,
and leaves the rest of the destination block as it was. -/
theorem imintegral_correct (dst src : List R) (istride stride w h : Nat) (hsrc : Fits src.length stride w h)
    (hdst : Fits dst.length istride w h) (hw : w ≤ istride) :
    ∃ m, imintegral dst istride src w h stride = some m ∧ m.length = dst.length ∧
      (∀ x < w, ∀ y < h, m[y * istride + x]? = some (sumRect src stride (x + 1) (y + 1))) ∧
      (∀ k, (∀ x < w, ∀ y < h, k ≠ y * istride + x) → m[k]? = dst[k]?) := by
  rcases Nat.eq_zero_or_pos h with rfl | hh
  · exact ⟨dst, by simp [imintegral, iter], rfl, fun x _ y hy => by omega, fun _ _ => rfl⟩
  have start : IntInv dst src istride stride w 0 0 { image := 0, integral := 0, temp := 0, mem := dst } :=
    ⟨by simp, by simp, by simp, rfl, fun i j _ hj => by omega, fun _ _ => rfl⟩
  obtain ⟨s1, e1, i1⟩ := iter_inv (IntInv dst src istride stride w 0) start
    (fun x hx s inv => first_step hsrc hdst hw hh hx inv)
  obtain ⟨s2, e2, i2⟩ := iter_inv (f := integralRow src istride w stride) (n := h - 1)
    (fun y s => IntInv dst src istride stride w y w s) i1 (by
      intro y hy s inv
      have h0 : IntInv dst src istride stride w (y + 1) 0
          { s with integral := s.integral + ((istride : Int) - w), image := s.image + ((stride : Int) - w), temp := 0 } := by
        refine ⟨?_, ?_, by simp, inv.len, ?_, ?_⟩
        · simp only [inv.image]; push_cast; ring
        · simp only [inv.integral]; push_cast; ring
        · intro i j hi hj; exact inv.done i j hi (by omega)
        · intro k hk; exact inv.frame k (fun i j hi hj => hk i j hi (by omega))
      exact iter_inv (IntInv dst src istride stride w (y + 1)) h0
        (fun x hx s inv => next_step hsrc hdst hw (by omega) hx inv))
  refine ⟨s2.mem, ?_, i2.len, ?_, ?_⟩
  · unfold imintegral
    simp only
    rw [if_pos hh, e1]
    simp only [Option.bind_eq_bind, Option.bind_some]
    rw [e2]
    rfl
  · intro x hx y hy
    exact i2.done x y hx (by omega)
  · intro k hk
    exact i2.frame k (fun i j hi hj => hk i hi j (by omega))

/-- What an integral image is used for: the sum of any rectangle of pixels is a combination of the four entries at its
corners.  (Over the integers modulo `2 ^ 32` this holds even when the entries themselves have wrapped around.) -/
theorem rect_sum (src : List R) (stride x0 x1 y0 y1 : Nat) (hx : x0 ≤ x1) (hy : y0 ≤ y1) :
    ∑ j ∈ Ico y0 y1, ∑ i ∈ Ico x0 x1, pix src stride i j
      = sumRect src stride x1 y1 - sumRect src stride x0 y1 - sumRect src stride x1 y0 + sumRect src stride x0 y0 := by
  simp only [sumRect]
  rw [Finset.sum_Ico_eq_sub _ hy]
  simp only [Finset.sum_Ico_eq_sub _ hx, Finset.sum_sub_distrib]
  ring

/-- The two together, as used by the callers: after a successful call, the sum over `[x0, x1] × [y0, y1]` (away from the
border) is read off the four destination entries. -/
theorem imintegral_rect (dst src m : List R) (istride stride w h : Nat) (hsrc : Fits src.length stride w h)
    (hdst : Fits dst.length istride w h) (hw : w ≤ istride) (hm : imintegral dst istride src w h stride = some m)
    (x0 x1 y0 y1 : Nat) (hx0 : 0 < x0) (hy0 : 0 < y0) (hx : x0 ≤ x1) (hy : y0 ≤ y1) (hx1 : x1 < w) (hy1 : y1 < h) :
    ∑ j ∈ Icc y0 y1, ∑ i ∈ Icc x0 x1, pix src stride i j
      = pix m istride x1 y1 - pix m istride (x0 - 1) y1 - pix m istride x1 (y0 - 1) + pix m istride (x0 - 1) (y0 - 1) := by
  obtain ⟨m', e, -, hv, -⟩ := imintegral_correct dst src istride stride w h hsrc hdst hw
  rw [hm] at e
  cases e
  have get : ∀ x < w, ∀ y < h, pix m istride x y = sumRect src stride (x + 1) (y + 1) := by
    intro x hx y hy
    rw [pix, List.getD_eq_getElem?_getD, hv x hx y hy]
    rfl
  rw [get x1 hx1 y1 hy1, get _ (by omega) _ hy1, get _ hx1 _ (by omega), get _ (by omega) _ (by omega)]
  have := rect_sum src stride x0 (x1 + 1) y0 (y1 + 1) (by omega) (by omega)
  rw [show x0 - 1 + 1 = x0 by omega, show y0 - 1 + 1 = y0 by omega, ← this]
  rfl

/-- A 3 × 2 image with row stride 4, in a destination block of stride 5 with trailing elements. -/
example : imintegral (R := Int) (List.replicate 9 7) 5 [1, 2, 3, 100, 4, 5, 6] 3 2 4 = some [1, 3, 6, 7, 7, 5, 12, 21, 7] := by
  decide +kernel

example : Fits ([1, 2, 3, 100, 4, 5, 6] : List Int).length 4 3 2 ∧ Fits (List.replicate 9 (7 : Int)).length 5 3 2 := by
  constructor <;> intro x hx y hy <;> simp <;> omega

/-- The `ui32` instance, with wrap around. -/
example : imintegral (R := ZMod (2 ^ 32)) [0, 0] 2 [4294967295, 2] 2 1 2 = some [4294967295, 1] := by
  decide +kernel

end Verif.Imop
