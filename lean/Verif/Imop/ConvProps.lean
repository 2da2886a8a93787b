import Verif.Imop.ConvModel
import Verif.Imop.IntegralProps
import Mathlib.Algebra.BigOperators.Group.Finset.Basic
import Mathlib.Algebra.BigOperators.Intervals
import Mathlib.Algebra.BigOperators.Ring.Finset
import Mathlib.Algebra.BigOperators.Field
import Mathlib.Tactic.Ring
import Mathlib.Tactic.Linarith
import Mathlib.Tactic.FieldSimp
import Mathlib.Algebra.Field.Rat

namespace Verif.Imop

open Finset

variable {R : Type} [CommRing R]

/-! ### Specification -/

/-- The image extended to all rows, by zero or by repeating the first and the last row. -/
def padded (zeropad : Bool) (src : List R) (stride h x : Nat) (p : Int) : R :=
  if p < 0 then (if zeropad then 0 else pix src stride x 0)
  else if p < h then pix src stride x p.toNat
  else (if zeropad then 0 else pix src stride x (h - 1))

/-- Convolution of column `x` with the filter whose samples `fb, fb + 1, …` are the entries of `filt`, at row `y`. -/
def convSpec (zeropad : Bool) (src : List R) (stride h : Nat) (filt : List R) (fb : Int) (x y : Nat) : R :=
  ∑ i ∈ range filt.length, filt.getD i 0 * padded zeropad src stride h x ((y : Int) - (fb + i))

/-- Offset of the destination sample of column `x` and (sub-sampled) row `j`: the destination is stored by rows, and with
`VL_TRANSPOSE` its columns become rows. -/
def dstAddr (transp : Bool) (stride x j : Nat) : Nat := if transp then x * stride + j else j * stride + x

/-- The destination block can hold `w` columns of `n` samples, without overlaps between (destination) rows. -/
def DstOk (transp : Bool) (len stride w n : Nat) : Prop :=
  (∀ x < w, ∀ j < n, dstAddr transp stride x j < len) ∧ (if transp then n ≤ stride else w ≤ stride)

/-! ### Proof -/

section pixel

variable {src filt : List R} {w h stride x y : Nat} {fb fe : Int} {zeropad : Bool}

/-- Sum of the first `k` products, the filter being scanned from its end. -/
def part (zeropad : Bool) (src : List R) (stride h : Nat) (filt : List R) (fe : Int) (x y k : Nat) : R :=
  ∑ t ∈ range k, padded zeropad src stride h x ((y : Int) - fe + t) * filt.getD (filt.length - 1 - t) 0

theorem rd_filt {k : Nat} {i : Int} (hk : k < filt.length) (hi : i = (filt.length : Int) - 1 - k) :
    rdI filt i = some (filt.getD (filt.length - 1 - k) 0) := by
  have h1 : filt.length - 1 - k < filt.length := by omega
  rw [rdI_eq filt i (filt.length - 1 - k) (by omega), rd_of_lt h1, List.getD_eq_getElem?_getD, List.getElem?_eq_getElem h1]
  rfl

theorem convA_of {s : ConvSt R} {c : R} {k : Nat} (e : rdI filt s.filti = some c) : convA filt stride k s
    = some { s with filti := s.filti - 1, acc := s.acc + s.v * c, srci := s.srci + stride } := by
  simp [convA, e]

theorem convB_of {s : ConvSt R} {c v : R} {k : Nat} (e' : rdI src s.srci = some v) (e : rdI filt s.filti = some c) :
    convB filt src stride k s
    = some { filti := s.filti - 1, acc := s.acc + v * c, srci := s.srci + stride, v := v } := by
  simp [convB, e, e']

theorem convC_of {s : ConvSt R} {c : R} {k : Nat} (e : rdI filt s.filti = some c) : convC filt k s
    = some { s with filti := s.filti - 1, acc := s.acc + s.v * c } := by
  simp [convC, e]

theorem convPixel_eq (hsrc : Fits src.length stride w h) (hx : x < w) (hy : y < h)
    (hlen : (filt.length : Int) = fe - fb + 1) (hfb : fb ≤ 1) (hfe : zeropad = true ∨ 0 ≤ fe) :
    convPixel src h stride filt fb fe zeropad x y = some (convSpec zeropad src stride h filt fb x y) := by
  -- invariant shared by the three loops
  let Inv : Nat → ConvSt R → Prop := fun k s =>
    s.filti = (filt.length : Int) - 1 - k ∧ s.acc = part zeropad src stride h filt fe x y k
  have pstep : ∀ k, part zeropad src stride h filt fe x y (k + 1) = part zeropad src stride h filt fe x y k
      + padded zeropad src stride h x ((y : Int) - fe + k) * filt.getD (filt.length - 1 - k) 0 := by
    intro k; simp [part, sum_range_succ]
  have hx0 : rd src x = some (pix src stride x 0) := by
    have := rd_pix hsrc hx (show 0 < h by omega)
    simpa using this
  set nA := (fe - y).toNat with hnA
  -- first loop
  obtain ⟨sA, eA, ⟨fA, aA⟩, rA⟩ : ∃ sA : ConvSt R, ((if fe - y > 0 then do
      let v ← (if zeropad then some 0 else rd src x)
      iter (steps (fe - fb) (fe - fb) (fe - y)) (convA filt stride)
        { filti := fe - fb, srci := (x : Int) - (fe - y) * stride, acc := 0, v := v }
    else some { filti := fe - fb, srci := (x : Int) - (fe - y) * stride, acc := 0, v := 0 } : Option (ConvSt R)) = some sA)
      ∧ Inv nA sA ∧ sA.srci = (x : Int) + ((y : Int) - fe + nA) * stride := by
    by_cases hpos : fe - y > 0
    · rw [if_pos hpos]
      have hv : (if zeropad = true then some 0 else rd src x) = some (if zeropad then 0 else pix src stride x 0) := by
        cases zeropad <;> simp [hx0]
      rw [hv]
      simp only [Option.bind_eq_bind, Option.bind_some]
      have hn : steps (fe - fb) (fe - fb) (fe - y) = nA := by simp [steps, hnA]
      rw [hn]
      obtain ⟨s, e, i1, i2, -⟩ := iter_inv (n := nA) (f := convA filt stride)
        (s := { filti := fe - fb, srci := (x : Int) - (fe - y) * stride, acc := 0, v := if zeropad then 0 else pix src stride x 0 })
        (fun k s => Inv k s ∧ s.srci = (x : Int) + ((y : Int) - fe + k) * stride ∧ s.v = if zeropad then 0 else pix src stride x 0)
        ⟨⟨by simp; omega, by simp [part]⟩, by simp; ring, rfl⟩
        (by
          intro k hk s ⟨⟨i1, i2⟩, i3, i4⟩
          have hk' : k < filt.length := by omega
          refine ⟨_, convA_of (rd_filt hk' i1), ⟨?_, ?_⟩, ?_, ?_⟩
          · simp [i1]; omega
          · simp only [pstep, i2, i4]
            have hneg : (y : Int) - fe + k < 0 := by omega
            rw [padded, if_pos hneg]
          · simp only [i3]; push_cast; ring
          · exact i4)
      exact ⟨s, e, i1, i2⟩
    · rw [if_neg hpos]
      have : nA = 0 := by omega
      exact ⟨_, rfl, ⟨by simp [this]; omega, by simp [this, part]⟩, by simp [this]; ring⟩
  -- second loop
  set stopB := fe - max fb ((y : Int) - h + 1) + 1 with hstopB
  have hnB : steps sA.filti (fe - fb) stopB = (stopB - nA).toNat := by simp only [steps, fA]; omega
  obtain ⟨sB, eB, ⟨fB, aB⟩, rB, vB⟩ := iter_inv (n := (stopB - nA).toNat) (f := convB filt src stride) (s := sA)
    (fun k s => Inv (nA + k) s ∧ s.srci = (x : Int) + ((y : Int) - fe + (nA + k : Nat)) * stride ∧
      (0 < k → s.v = pix src stride x ((y : Int) - fe + (nA + k : Nat) - 1).toNat))
    ⟨⟨fA, aA⟩, rA, by omega⟩
    (by
      intro k hk s ⟨⟨i1, i2⟩, i3, _⟩
      have hk' : nA + k < filt.length := by omega
      have hp0 : 0 ≤ (y : Int) - fe + (nA + k : Nat) := by omega
      have hph : (y : Int) - fe + (nA + k : Nat) < h := by omega
      obtain ⟨p, hp⟩ : ∃ p : Nat, (y : Int) - fe + (nA + k : Nat) = p := ⟨_, (Int.toNat_of_nonneg hp0).symm⟩
      have hrd : rdI src s.srci = some (pix src stride x p) := by
        rw [rdI_eq src _ (p * stride + x) (by rw [i3, hp]; push_cast; ring), rd_pix hsrc hx (by omega)]
      refine ⟨_, convB_of hrd (rd_filt hk' i1), ⟨?_, ?_⟩, ?_, ?_⟩
      · simp [i1]; omega
      · simp only [← add_assoc, pstep, i2]
        have hneg : ¬ ((p : Int) < 0) := by omega
        have hlt : (p : Int) < h := by omega
        rw [padded, hp, if_neg hneg, if_pos hlt]
        simp
      · simp only [i3]; push_cast; ring
      · intro _
        simp only
        congr 1
        omega)
  -- third loop
  set sB' : ConvSt R := if zeropad then { sB with v := 0 } else sB with hsB'
  have fB' : sB'.filti = sB.filti := by rw [hsB']; split <;> rfl
  have aB' : sB'.acc = sB.acc := by rw [hsB']; split <;> rfl
  have vB' : sB'.v = if zeropad then 0 else sB.v := by rw [hsB']; split <;> rfl
  set kB := nA + (stopB - nA).toNat with hkB
  have hkL : kB ≤ filt.length := by omega
  have hnC : steps sB'.filti (fe - fb) (fe - fb + 1) = filt.length - kB := by
    simp only [steps, fB', fB]; omega
  obtain ⟨sC, eC, ⟨fC, aC⟩, -⟩ := iter_inv (n := filt.length - kB) (f := convC filt) (s := sB')
    (fun k s => Inv (kB + k) s ∧ s.v = if zeropad then 0 else sB.v)
    ⟨⟨by rw [fB', fB]; rfl, by rw [aB', aB]; rfl⟩, vB'⟩
    (by
      intro k hk s ⟨⟨i1, i2⟩, i3⟩
      have hk' : kB + k < filt.length := by omega
      refine ⟨_, convC_of (rd_filt hk' i1), ⟨?_, ?_⟩, ?_⟩
      · simp [i1]; omega
      · simp only [← add_assoc, pstep, i2]
        congr 2
        have hneg : ¬ ((y : Int) - fe + (kB + k : Nat) < 0) := by omega
        have hlt : ¬ ((y : Int) - fe + (kB + k : Nat) < h) := by omega
        rw [i3, padded, if_neg hneg, if_neg hlt]
        rcases hfe with hz | hfe
        · simp [hz]
        · cases zeropad
          · simp only [Bool.false_eq_true, if_false]
            rw [vB (by omega)]
            congr 1
            omega
          · simp
      · exact i3)
  have hfin : part zeropad src stride h filt fe x y filt.length = convSpec zeropad src stride h filt fb x y := by
    rw [part, convSpec, ← Finset.sum_range_reflect]
    refine Finset.sum_congr rfl ?_
    intro i hi
    rw [Finset.mem_range] at hi
    rw [mul_comm]
    congr 2
    · omega
    · omega
  unfold convPixel
  simp only
  rw [eA]
  simp only [Option.bind_eq_bind, Option.bind_some]
  rw [← hstopB, hnB, eB]
  simp only [Option.bind_some]
  rw [← hsB', hnC, eC]
  simp only [Option.bind_some]
  rw [aC, show kB + (filt.length - kB) = filt.length by omega, hfin]

end pixel

theorem dstAddr_inj {transp : Bool} {len stride w n x x' j j' : Nat} (h : DstOk transp len stride w n)
    (hx : x < w) (hx' : x' < w) (hj : j < n) (hj' : j' < n) (e : dstAddr transp stride x j = dstAddr transp stride x' j') :
    x = x' ∧ j = j' := by
  have h2 := h.2
  cases transp
  · simp [dstAddr] at h2 e
    exact addr_inj h2 hx hx' e
  · simp [dstAddr] at h2 e
    exact (addr_inj h2 hj hj' e).symm

theorem numRows_eq {h step : Nat} (hh : 0 < h) (hs : 0 < step) : numRows h step = dheight h step := by
  rw [numRows, dheight, show h + step - 1 = h - 1 + step by omega, Nat.add_div_right _ hs]

theorem row_lt {h step j : Nat} (hh : 0 < h) (hj : j < dheight h step) : j * step < h := by
  have h1 : j ≤ (h - 1) / step := by unfold dheight at hj; omega
  have h2 : j * step ≤ (h - 1) / step * step := Nat.mul_le_mul_right _ h1
  have h3 := Nat.div_mul_le_self (h - 1) step
  omega

/-- State after `j` samples of column `x`. -/
structure DstInv (transp : Bool) (dst : List R) (stride w n : Nat) (val : Nat → Nat → R) (x j : Nat) (s : DstSt R) : Prop where
  ptr : s.dst = (dstAddr transp stride x j : Nat)
  len : s.mem.length = dst.length
  done : ∀ a b, a < w → b < n → (a < x ∨ (a = x ∧ b < j)) → s.mem[dstAddr transp stride a b]? = some (val a b)
  frame : ∀ k, (∀ a b, a < w → b < n → (a < x ∨ (a = x ∧ b < j)) → k ≠ dstAddr transp stride a b) → s.mem[k]? = dst[k]?

omit [CommRing R] in
theorem store_step {transp : Bool} {dst : List R} {stride w n x j : Nat} {val : Nat → Nat → R} {s : DstSt R}
    (hd : DstOk transp dst.length stride w n) (hx : x < w) (hj : j < n) (inv : DstInv transp dst stride w n val x j s) :
    ∃ s', convStore transp stride s (val x j) = some s' ∧ DstInv transp dst stride w n val x (j + 1) s' := by
  have hl : dstAddr transp stride x j < s.mem.length := by rw [inv.len]; exact hd.1 x hx j hj
  refine ⟨{ dst := if transp then s.dst + 1 else s.dst + stride, mem := s.mem.set (dstAddr transp stride x j) (val x j) }, ?_, ?_⟩
  · simp [convStore, inv.ptr, wr_of_lt hl]
  · refine ⟨?_, by simp [inv.len], ?_, ?_⟩
    · simp only [inv.ptr, dstAddr]
      cases transp <;> simp <;> ring
    · intro a b ha hb hab
      by_cases e : a = x ∧ b = j
      · obtain ⟨rfl, rfl⟩ := e
        simp only [List.getElem?_set_self hl]
      · have hne : dstAddr transp stride a b ≠ dstAddr transp stride x j := by
          intro h
          have := dstAddr_inj hd ha hx hb hj h
          omega
        simp only
        rw [List.getElem?_set_ne (Ne.symm hne)]
        exact inv.done a b ha hb (by omega)
    · intro k hk
      have hne : k ≠ dstAddr transp stride x j := hk x j hx hj (by omega)
      simp only
      rw [List.getElem?_set_ne (Ne.symm hne)]
      exact inv.frame k (fun a b ha hb hab => hk a b ha hb (by omega))

/-! ### C18: column convolution -/

/-- For every image, filter, sub-sampling step, padding and destination layout such that the filter support does not start
after 1 and, with padding by continuity, does not end before 0: no access is out of bounds, and the destination sample of
column `x` and row `j` is the convolution of the padded column `x` with the filter, at row `j * step`.  The rest of the
destination block is not changed. -/
theorem imconvcol_correct_partial (dst src filt : List R) (dstStride w h stride : Nat) (fb fe : Int) (step : Nat)
    (transp zeropad : Bool) (hh : 0 < h) (hstep : 0 < step) (hsrc : Fits src.length stride w h)
    (hlen : (filt.length : Int) = fe - fb + 1) (hfb : fb ≤ 1) (hfe : zeropad = true ∨ 0 ≤ fe)
    (hdst : DstOk transp dst.length dstStride w ((h - 1) / step + 1)) :
    ∃ m, imconvcol dst dstStride src w h stride filt fb fe step transp zeropad = some m ∧ m.length = dst.length ∧
      (∀ x < w, ∀ j < (h - 1) / step + 1,
        m[dstAddr transp dstStride x j]? = some (convSpec zeropad src stride h filt fb x (j * step))) ∧
      (∀ k, (∀ x < w, ∀ j < (h - 1) / step + 1, k ≠ dstAddr transp dstStride x j) → m[k]? = dst[k]?) := by
  change DstOk transp dst.length dstStride w (dheight h step) at hdst
  set val : Nat → Nat → R := fun x j => convSpec zeropad src stride h filt fb x (j * step) with hval
  obtain ⟨s, e, inv⟩ := iter_inv (n := w) (s := ({ dst := 0, mem := dst } : DstSt R))
    (f := convColumn src h stride filt fb fe step transp zeropad dstStride)
    (fun x s => DstInv transp dst dstStride w (dheight h step) val x 0 s)
    ⟨by simp [dstAddr], rfl, fun a b _ _ h => by omega, fun _ _ => rfl⟩
    (by
      intro x hx s inv
      obtain ⟨s', e', inv'⟩ := iter_inv (n := dheight h step) (s := s)
        (f := fun j s => do
          let acc ← convPixel src h stride filt fb fe zeropad x (j * step)
          convStore transp dstStride s acc)
        (fun j s => DstInv transp dst dstStride w (dheight h step) val x j s) inv
        (by
          intro j hj s inv
          obtain ⟨s', e', inv'⟩ := store_step hdst hx hj inv
          refine ⟨s', ?_, inv'⟩
          rw [convPixel_eq hsrc hx (row_lt hh hj) hlen hfb hfe]
          exact e')
      refine ⟨{ dst := if transp then s'.dst + ((dstStride : Int) - dheight h step)
                       else s'.dst + (1 - (dheight h step : Int) * dstStride), mem := s'.mem }, ?_, ?_⟩
      · unfold convColumn
        rw [numRows_eq hh hstep, e']
        rfl
      · refine ⟨?_, inv'.len, ?_, ?_⟩
        · simp only [inv'.ptr, dstAddr]
          cases transp <;> simp <;> ring
        · intro a b ha hb hab
          exact inv'.done a b ha hb (by omega)
        · intro k hk
          exact inv'.frame k (fun a b ha hb hab => hk a b ha hb (by omega)))
  refine ⟨s.mem, ?_, inv.len, ?_, ?_⟩
  · simp [imconvcol, e]
  · intro x hx j hj
    exact inv.done x j hx hj (by omega)
  · intro k hk
    exact inv.frame k (fun a b ha hb hab => hk a ha b hb)

/-- A 2 × 3 image, filter of support `[-1, 1]`, both paddings, sub-sampled and transposed. -/
example : imconvcol (R := Int) (List.replicate 4 0) 2 [1, 2, 3, 4, 5, 6] 2 3 2 [1, 10, 100] (-1) 1 2 true false
    = some [113, 355, 224, 466] ∧
  imconvcol (R := Int) (List.replicate 6 0) 2 [1, 2, 3, 4, 5, 6] 2 3 2 [1, 10, 100] (-1) 1 1 false true
    = some [13, 24, 135, 246, 350, 460] := by
  decide +kernel

example : Fits ([1, 2, 3, 4, 5, 6] : List Int).length 2 2 3 ∧ DstOk true (List.replicate 4 (0 : Int)).length 2 2 2
    ∧ DstOk false (List.replicate 6 (0 : Int)).length 2 2 3 := by
  refine ⟨?_, ⟨?_, by simp⟩, ⟨?_, by simp⟩⟩ <;> intro x hx y hy <;> simp [dstAddr] <;> omega

/-- The claim without the restriction on the beginning of the support is false of the code: with the (allowed, non empty)
support `[2, 3]` the first inner loop reads before the beginning of the filter. -/
theorem imconvcol_late_support_reads_out_of_bounds :
    imconvcol (R := Int) [0] 1 [5] 1 1 1 [1, 10] 2 3 1 false false = none := by decide +kernel

/-- The claim without the restriction on the end of the support is false of the code: with support `[-1, -1]` and padding by
continuity the last row must be shifted and repeated, but the code stores 0. -/
theorem imconvcol_early_support_wrong :
    imconvcol (R := Int) [0, 0] 1 [5, 7] 1 2 1 [1] (-1) (-1) 1 false false = some [7, 0] ∧
    convSpec (R := Int) false [5, 7] 1 2 [1] (-1) 0 1 = 7 := by decide +kernel

/-- The full claim: the documented result for every non empty filter support. -/
def ImconvcolClaim (R : Type) [CommRing R] : Prop :=
  ∀ (dst src filt : List R) (dstStride w h stride : Nat) (fb fe : Int) (step : Nat) (transp zeropad : Bool),
    0 < h → 0 < step → Fits src.length stride w h → fb ≤ fe → (filt.length : Int) = fe - fb + 1 →
    DstOk transp dst.length dstStride w ((h - 1) / step + 1) →
    ∃ m, imconvcol dst dstStride src w h stride filt fb fe step transp zeropad = some m ∧
      ∀ x < w, ∀ j < (h - 1) / step + 1,
        m[dstAddr transp dstStride x j]? = some (convSpec zeropad src stride h filt fb x (j * step))

/-- The full claim is false of the code; what is missing from `imconvcol_correct_partial` are exactly the supports that
start after 1 and, with padding by continuity, those that end before 0. -/
theorem imconvcol_claim_false : ¬ ImconvcolClaim Int := by
  intro h
  obtain ⟨m, e, -⟩ := h [0] [5] [1, 10] 1 1 1 1 2 3 1 false false (by omega) (by omega)
    (by intro x hx y hy; simp; omega) (by omega) (by simp)
    ⟨by intro x hx j hj; simp [dstAddr] at *; omega, by simp⟩
  rw [imconvcol_late_support_reads_out_of_bounds] at e
  simp at e

/-! ### Gaussian smoothing -/

/-- Clamp a coordinate to `0 .. n - 1`. -/
def clampTo (n : Nat) (p : Int) : Nat := if p < 0 then 0 else if p < n then p.toNat else n - 1

theorem padded_clamp (src : List R) (stride h x : Nat) (p : Int) :
    padded false src stride h x p = pix src stride x (clampTo h p) := by
  unfold padded clampTo
  split
  · rfl
  · split <;> rfl

theorem clampTo_lt {n : Nat} (h : 0 < n) (p : Int) : clampTo n p < n := by
  unfold clampTo
  split
  · exact h
  · split <;> omega

/-- `vl_imsmooth` computes, at every pixel, the separable convolution of the image extended by continuity, the filter
`filtery` acting along the columns and `filterx` along the rows. -/
theorem imsmooth_correct (smoothed image filterx filtery buffer : List R) (ss w h stride wx wy : Nat)
    (hw : 0 < w) (hh : 0 < h) (himg : Fits image.length stride w h) (hbuf : buffer.length = w * h)
    (hs : Fits smoothed.length ss w h) (hss : w ≤ ss)
    (hfx : filterx.length = 2 * wx + 1) (hfy : filtery.length = 2 * wy + 1) :
    ∃ m, imsmooth smoothed ss image w h stride filterx wx filtery wy buffer = some m ∧ m.length = smoothed.length ∧
      (∀ x < w, ∀ y < h, m[y * ss + x]? = some
        (∑ i ∈ range (2 * wx + 1), filterx.getD i 0 * ∑ k ∈ range (2 * wy + 1), filtery.getD k 0 *
          pix image stride (clampTo w ((x : Int) - ((i : Int) - wx))) (clampTo h ((y : Int) - ((k : Int) - wy))))) ∧
      (∀ k, (∀ x < w, ∀ y < h, k ≠ y * ss + x) → m[k]? = smoothed[k]?) := by
  have one : ∀ n, 0 < n → (n - 1) / 1 + 1 = n := fun n hn => by simp; omega
  obtain ⟨b, e1, l1, v1, -⟩ := imconvcol_correct_partial buffer image filtery h w h stride (-(wy : Int)) wy 1 true false hh
    (by omega) himg (by omega) (by omega) (Or.inr (by omega))
    (by
      rw [one h hh]
      refine ⟨?_, by simp⟩
      intro x hx j hj
      rw [hbuf]
      simp only [dstAddr, if_true]
      calc x * h + j < x * h + h := by omega
        _ = (x + 1) * h := by ring
        _ ≤ w * h := Nat.mul_le_mul_right _ hx)
  have hbfit : Fits b.length h h w := by
    intro x hx y hy
    rw [l1, hbuf]
    calc y * h + x < y * h + h := by omega
      _ = (y + 1) * h := by ring
      _ ≤ w * h := Nat.mul_le_mul_right _ hy
  obtain ⟨m, e2, l2, v2, f2⟩ := imconvcol_correct_partial smoothed b filterx ss h w h (-(wx : Int)) wx 1 true false hw
    (by omega) hbfit (by omega) (by omega) (Or.inr (by omega))
    (by
      rw [one w hw]
      refine ⟨?_, by simpa using hss⟩
      intro x hx j hj
      simp only [dstAddr, if_true]
      exact hs j hj x hx)
  rw [one w hw] at v2 f2
  rw [one h hh] at v1
  refine ⟨m, by simp [imsmooth, e1, e2], l2, ?_, ?_⟩
  · intro x hx y hy
    have h2 := v2 y hy x hx
    simp only [dstAddr, if_true, mul_one] at h2
    rw [h2, convSpec, hfx]
    congr 1
    refine Finset.sum_congr rfl ?_
    intro i _
    rw [padded_clamp]
    congr 1
    have h1 := v1 (clampTo w ((x : Int) - (-(wx : Int) + i))) (clampTo_lt hw _) y hy
    simp only [dstAddr, if_true, mul_one] at h1
    rw [pix, List.getD_eq_getElem?_getD, h1, convSpec, hfy, Option.getD_some]
    refine Finset.sum_congr rfl ?_
    intro k _
    rw [padded_clamp]
    congr 2
    · congr 1; ring
    · congr 1; ring
  · intro k hk
    refine f2 k ?_
    intro y hy x hx
    simpa [dstAddr] using hk x hx y hy

section gauss

variable {K : Type} [Field K]

/-- The unnormalised samples of the filter: 1 at the centre, `g |i|` elsewhere. -/
def bell (g : Nat → K) (i : Nat) : K := if i = 0 then 1 else g i

/-- Distance of two naturals. -/
def ndist (a b : Nat) : Nat := (a - b) + (b - a)

theorem bell_sum (g : Nat → K) (n : Nat) :
    ∑ j ∈ range (2 * n + 1), bell g (ndist j n) = 1 + ∑ i ∈ range n, (g (i + 1) + g (i + 1)) := by
  rw [show 2 * n + 1 = n + (n + 1) by ring, Finset.sum_range_add, Finset.sum_range_succ' _ n, ← Finset.sum_range_reflect]
  have a : ∑ j ∈ range n, bell g (ndist (n - 1 - j) n) = ∑ j ∈ range n, g (j + 1) := by
    refine Finset.sum_congr rfl ?_
    intro j hj
    rw [Finset.mem_range] at hj
    rw [show ndist (n - 1 - j) n = j + 1 by unfold ndist; omega]
    simp [bell]
  have b : ∑ k ∈ range n, bell g (ndist (n + (k + 1)) n) = ∑ j ∈ range n, g (j + 1) := by
    refine Finset.sum_congr rfl ?_
    intro j hj
    rw [show ndist (n + (j + 1)) n = j + 1 by unfold ndist; omega]
    simp [bell]
  rw [a, b, Finset.sum_add_distrib]
  simp [ndist, bell]
  ring

/-- The Gaussian filter: no access is out of bounds, the filter is symmetric with the shape of `g`, and its samples sum to
one. -/
theorem gaussFilter_correct (n : Nat) (g : Nat → K) (block : List K) (hb : block.length = 2 * n + 1)
    (hm : 1 + ∑ i ∈ range n, (g (i + 1) + g (i + 1)) ≠ 0) :
    ∃ f, gaussFilter n g block = some f ∧ f.length = 2 * n + 1 ∧
      (∀ j < 2 * n + 1, f[j]? = some (bell g (ndist j n) / (1 + ∑ i ∈ range n, (g (i + 1) + g (i + 1))))) ∧
      ∑ j ∈ range (2 * n + 1), f.getD j 0 = 1 := by
  set mass := 1 + ∑ i ∈ range n, (g (i + 1) + g (i + 1)) with hmass
  have e0 : wr block n 1 = some (block.set n 1) := wr_of_lt (by omega) _
  obtain ⟨⟨f1, m1⟩, e1, l1, hm1, v1⟩ := iter_inv (n := n) (s := (block.set n 1, (1 : K)))
    (f := fun i (s : List K × K) => do
      let g := g (i + 1)
      let f ← wr s.1 (n - (i + 1)) g
      let f ← wr f (n + (i + 1)) g
      some (f, s.2 + (g + g)))
    (fun k s => s.1.length = 2 * n + 1 ∧ s.2 = 1 + ∑ i ∈ range k, (g (i + 1) + g (i + 1)) ∧
      ∀ j, ndist j n ≤ k → s.1[j]? = some (bell g (ndist j n)))
    ⟨by simp [hb], by simp, by
      intro j hj
      have : j = n := by unfold ndist at hj; omega
      subst this
      rw [List.getElem?_set_self (by omega)]
      simp [ndist, bell]⟩
    (by
      intro k hk s ⟨i1, i2, i3⟩
      refine ⟨((s.1.set (n - (k + 1)) (g (k + 1))).set (n + (k + 1)) (g (k + 1)), s.2 + (g (k + 1) + g (k + 1))), ?_, ?_, ?_, ?_⟩
      · simp only
        rw [wr_of_lt (show n - (k + 1) < s.1.length by omega)]
        simp only [Option.bind_eq_bind, Option.bind_some]
        rw [wr_of_lt (by simp; omega)]
        simp
      · simp [i1]
      · simp only [i2, Finset.sum_range_succ]; ring
      · intro j hj
        simp only [List.getElem?_set, List.length_set]
        by_cases h1 : n + (k + 1) = j
        · rw [if_pos h1, if_pos (by omega)]
          rw [show ndist j n = k + 1 by unfold ndist; omega]
          simp [bell]
        · rw [if_neg h1]
          by_cases h2 : n - (k + 1) = j
          · rw [if_pos h2, if_pos (by omega)]
            rw [show ndist j n = k + 1 by unfold ndist; omega]
            simp [bell]
          · rw [if_neg h2]
            refine i3 j ?_
            unfold ndist at hj ⊢
            omega)
  simp only at l1 hm1 v1
  obtain ⟨f2, e2, l2, v2, -⟩ := iter_inv (n := 2 * n + 1) (s := f1)
    (f := fun i (f : List K) => do
      let v ← rd f i
      wr f i (v / m1))
    (fun k s => s.length = 2 * n + 1 ∧ (∀ j < k, s[j]? = some (bell g (ndist j n) / mass)) ∧
      (∀ j, k ≤ j → j < 2 * n + 1 → s[j]? = some (bell g (ndist j n))))
    ⟨l1, fun j hj => by omega, fun j _ hj => v1 j (by unfold ndist; omega)⟩
    (by
      intro k hk s ⟨i1, i2, i3⟩
      refine ⟨s.set k (bell g (ndist k n) / m1), ?_, by simp [i1], ?_, ?_⟩
      · rw [rd_getElem?, i3 k le_rfl hk]
        simp only [Option.bind_eq_bind, Option.bind_some]
        rw [wr_of_lt (by omega)]
      · intro j hj
        by_cases e : j = k
        · subst e
          rw [List.getElem?_set_self (by omega), hm1]
        · rw [List.getElem?_set_ne (Ne.symm e)]
          exact i2 j (by omega)
      · intro j hj hj'
        rw [List.getElem?_set_ne (by omega)]
        exact i3 j (by omega) hj')
  refine ⟨f2, ?_, l2, v2, ?_⟩
  · unfold gaussFilter
    rw [e0]
    simp only [Option.bind_eq_bind, Option.bind_some] at e1 e2 ⊢
    rw [e1]
    simp only [Option.bind_some]
    exact e2
  · have : ∀ j ∈ range (2 * n + 1), f2.getD j 0 = bell g (ndist j n) / mass := by
      intro j hj
      rw [List.getD_eq_getElem?_getD, v2 j (Finset.mem_range.1 hj)]
      rfl
    rw [Finset.sum_congr rfl this, ← Finset.sum_div, bell_sum, ← hmass, div_self hm]

/-- Smoothing with filters that sum to one (in particular the Gaussian filters) leaves constant images constant. -/
theorem imsmooth_constant (smoothed image filterx filtery buffer : List K) (ss w h stride wx wy : Nat) (c : K)
    (hw : 0 < w) (hh : 0 < h) (himg : Fits image.length stride w h) (hbuf : buffer.length = w * h)
    (hs : Fits smoothed.length ss w h) (hss : w ≤ ss)
    (hfx : filterx.length = 2 * wx + 1) (hfy : filtery.length = 2 * wy + 1)
    (hsx : ∑ j ∈ range (2 * wx + 1), filterx.getD j 0 = 1) (hsy : ∑ j ∈ range (2 * wy + 1), filtery.getD j 0 = 1)
    (hc : ∀ x < w, ∀ y < h, image[y * stride + x]? = some c) :
    ∃ m, imsmooth smoothed ss image w h stride filterx wx filtery wy buffer = some m ∧
      ∀ x < w, ∀ y < h, m[y * ss + x]? = some c := by
  obtain ⟨m, e, -, v, -⟩ := imsmooth_correct smoothed image filterx filtery buffer ss w h stride wx wy hw hh himg hbuf hs hss hfx hfy
  refine ⟨m, e, ?_⟩
  intro x hx y hy
  rw [v x hx y hy]
  have hp : ∀ p q, pix image stride (clampTo w p) (clampTo h q) = c := by
    intro p q
    rw [pix, List.getD_eq_getElem?_getD, hc _ (clampTo_lt hw p) _ (clampTo_lt hh q)]
    rfl
  simp only [hp, ← Finset.sum_mul, hsx, hsy, one_mul]

end gauss

example : gaussFilter (K := ℚ) 1 (fun _ => 1 / 2) [7, 7, 7] = some [1 / 4, 1 / 2, 1 / 4] := by decide +kernel

example : imsmooth (R := ℚ) (List.replicate 4 0) 2 [1, 2, 3, 4] 2 2 2 [1 / 4, 1 / 2, 1 / 4] 1 [0, 1, 0] 1 [9, 9, 9, 9]
    = some [5 / 4, 7 / 4, 13 / 4, 15 / 4] := by decide +kernel

end Verif.Imop
