import Verif.Imop.TriModel
import Verif.Imop.ConvProps
import Mathlib.Algebra.BigOperators.Group.Finset.Sigma
import Mathlib.Algebra.Order.Interval.Finset.Basic
import Mathlib.Data.Int.Cast.Lemmas

namespace Verif.Imop

open Finset

variable {K : Type} [Field K]

/-! ### Specification -/

/-- Convolution of column `x` of the padded image with the triangular signal `max (0, fs - |d|) / fs ^ 2`, at row `y`. -/
def triSpec (zeropad : Bool) (src : List K) (stride h fs x y : Nat) : K :=
  1 / ((fs : K) * (fs : K)) * ∑ i ∈ range (2 * fs - 1),
    ((fs - ndist i (fs - 1) : Nat) : K) * padded zeropad src stride h x ((y : Int) + ((i : Int) - (fs - 1)))

/-! ### Proof -/

/-- A double box sum is a triangular sum. -/
theorem double_box (n : Nat) (f : Nat → K) :
    ∑ a ∈ range n, ∑ b ∈ range n, f (a + b) = ∑ i ∈ range (2 * n - 1), ((n - ndist i (n - 1) : Nat) : K) * f i := by
  have h1 : ∀ a ∈ range n, ∑ b ∈ range n, f (a + b) = ∑ i ∈ range (2 * n - 1), if a ≤ i ∧ i < a + n then f i else 0 := by
    intro a ha
    rw [Finset.mem_range] at ha
    rw [← Finset.sum_filter, show Finset.filter (fun i => a ≤ i ∧ i < a + n) (range (2 * n - 1)) = Finset.Ico a (a + n) by
      ext i; simp; omega, Finset.sum_Ico_eq_sum_range]
    simp
  rw [Finset.sum_congr rfl h1, Finset.sum_comm]
  refine Finset.sum_congr rfl ?_
  intro i hi
  rw [Finset.mem_range] at hi
  rw [← Finset.sum_filter, Finset.sum_const, nsmul_eq_mul,
    show Finset.filter (fun a => a ≤ i ∧ i < a + n) (range n) = Finset.Ico (i + 1 - n) (min n (i + 1)) by
      ext a; simp; omega, Nat.card_Ico]
  congr 2
  unfold ndist
  omega

section column

variable {src : List K} {w h stride fs x : Nat} {zeropad : Bool}

/-- Entry `i` of the padded column, `i` counting from `filterSize` rows above the image. -/
def pcol (zeropad : Bool) (src : List K) (stride h fs x : Nat) (i : Nat) : K :=
  padded zeropad src stride h x ((i : Int) - fs)

/-- After the two integration loops: sums of the padded column from `i` to the last row of the image. -/
def sufs (zeropad : Bool) (src : List K) (stride h fs x : Nat) (i : Nat) : K :=
  ∑ k ∈ Ico i (h + fs), pcol zeropad src stride h fs x k

/-- After the first difference: box sums. -/
def boxs (zeropad : Bool) (src : List K) (stride h fs x : Nat) (i : Nat) : K :=
  ∑ k ∈ range fs, pcol zeropad src stride h fs x (i + k)

theorem sufs_step {i : Nat} (hi : i < h + fs) : sufs zeropad src stride h fs x i
    = sufs zeropad src stride h fs x (i + 1) + pcol zeropad src stride h fs x i := by
  rw [sufs, sufs, Finset.sum_eq_sum_Ico_succ_bot hi, add_comm]

theorem pcol_img {i : Nat} (hi : fs ≤ i) (hi' : i < h + fs) : pcol zeropad src stride h fs x i = pix src stride x (i - fs) := by
  have h1 : ¬ ((i : Int) - fs < 0) := by omega
  have h2 : (i : Int) - fs < h := by omega
  rw [pcol, padded, if_neg h1, if_pos h2]
  congr 1
  omega

theorem pcol_above {i : Nat} (hi : i < fs) : pcol zeropad src stride h fs x i = if zeropad then 0 else pix src stride x 0 := by
  have h1 : ((i : Int) - fs < 0) := by omega
  rw [pcol, padded, if_pos h1]

theorem pcol_below {i : Nat} (hi : h + fs ≤ i) :
    pcol zeropad src stride h fs x i = if zeropad then 0 else pix src stride x (h - 1) := by
  have h1 : ¬ ((i : Int) - fs < 0) := by omega
  have h2 : ¬ ((i : Int) - fs < h) := by omega
  rw [pcol, padded, if_neg h1, if_neg h2]

/-- Entries in `[lo, hi)` are given by `F`, the length is that of the block. -/
def Holds (buf : List K) (N lo hi : Nat) (F : Nat → K) : Prop :=
  buf.length = N ∧ ∀ i, lo ≤ i → i < hi → buf[i]? = some (F i)

theorem boxs_diff {i : Nat} (hi : i < h) : sufs zeropad src stride h fs x i - sufs zeropad src stride h fs x (i + fs)
    = boxs zeropad src stride h fs x i := by
  rw [sufs, sufs, boxs, ← Finset.sum_Ico_consecutive _ (show i ≤ i + fs by omega) (show i + fs ≤ h + fs by omega),
    Finset.sum_Ico_eq_sum_range]
  simp

theorem boxs_edge {i : Nat} (hi : h ≤ i) (hi' : i < h + fs) : boxs zeropad src stride h fs x i
    = sufs zeropad src stride h fs x i + (if zeropad then 0 else pix src stride x (h - 1)) * ((i - h : Nat) : K) := by
  have e : boxs zeropad src stride h fs x i = ∑ k ∈ Ico i (i + fs), pcol zeropad src stride h fs x k := by
    rw [boxs, Finset.sum_Ico_eq_sum_range]; simp
  rw [e, sufs, ← Finset.sum_Ico_consecutive _ (show i ≤ h + fs by omega) (show h + fs ≤ i + fs by omega)]
  congr 1
  rw [Finset.sum_congr rfl (g := fun _ => if zeropad then 0 else pix src stride x (h - 1))]
  · rw [Finset.sum_const, Nat.card_Ico, nsmul_eq_mul, mul_comm]
    congr 2
    omega
  · intro k hk
    rw [Finset.mem_Ico] at hk
    exact pcol_below hk.1

theorem triBuffer_eq (hsrc : Fits src.length stride w h) (hx : x < w) (hh : 0 < h) (hfs : 0 < fs) (buf : List K)
    (hbuf : buf.length = h + fs) :
    ∃ b, triBuffer src h stride fs zeropad x buf = some b ∧
      Holds b (h + fs) 0 (h + fs) (fun i => ∑ k ∈ range (i + 1), boxs zeropad src stride h fs x k) := by
  set S := sufs zeropad src stride h fs x with hS
  set B := boxs zeropad src stride h fs x with hB
  -- last row
  have e0 : rdI src ((x : Int) + stride * ((h : Int) - 1)) = some (pix src stride x (h - 1)) := by
    rw [rdI_eq src _ ((h - 1) * stride + x) (by
      obtain ⟨n, rfl⟩ : ∃ n, h = n + 1 := ⟨h - 1, by omega⟩
      push_cast
      simp
      ring), rd_pix hsrc hx (by omega)]
  have e1 : wrI buf ((h : Int) - 1 + fs) (pix src stride x (h - 1)) = some (buf.set (h - 1 + fs) (pix src stride x (h - 1))) := by
    rw [wrI_eq buf _ (h - 1 + fs) _ (by omega), wr_of_lt (by omega)]
  -- integrate backward
  obtain ⟨s1, e2, p1, l1, v1⟩ := iter_inv (n := h - 1) (f := triBack src h stride fs)
    (s := { imagei := (x : Int) + stride * ((h : Int) - 1), buf := buf.set (h - 1 + fs) (pix src stride x (h - 1)) })
    (fun k s => s.imagei = (x : Int) + stride * ((h : Int) - 1 - k) ∧ Holds s.buf (h + fs) (h - 1 - k + fs) (h + fs) S)
    ⟨by simp, by simp [hbuf], by
      intro i hi hi'
      have : i = h - 1 + fs := by omega
      subst this
      rw [List.getElem?_set_self (by omega), hS, sufs_step (by omega), pcol_img (by omega) (by omega), sufs]
      rw [show h - 1 + fs + 1 = h + fs by omega]
      simp⟩
    (by
      intro k hk s ⟨i1, i2, i3⟩
      have hk2 : h - 1 - k - 1 + fs < h + fs := by omega
      refine ⟨{ imagei := s.imagei - stride, buf := s.buf.set (h - 1 - k - 1 + fs) (S (h - 1 - k - 1 + fs)) }, ?_, ?_, ?_, ?_⟩
      · unfold triBack
        simp only
        rw [rdI_eq s.buf _ (h - 1 - k + fs) (by omega), rd_getElem?, i3 _ le_rfl (by omega)]
        simp only [Option.bind_eq_bind, Option.bind_some]
        rw [rdI_eq src _ ((h - 1 - k - 1) * stride + x) (by
          rw [i1]
          obtain ⟨n, rfl⟩ : ∃ n, h = n + 1 + 1 + k := ⟨h - k - 2, by omega⟩
          rw [show n + 1 + 1 + k - 1 - k - 1 = n by omega]
          push_cast
          ring), rd_pix hsrc hx (by omega)]
        simp only [Option.bind_some]
        rw [wrI_eq s.buf _ (h - 1 - k - 1 + fs) _ (by omega), wr_of_lt (by omega)]
        simp only [Option.bind_some]
        rw [hS, sufs_step (i := h - 1 - k - 1 + fs) (by omega), pcol_img (by omega) (by omega)]
        rw [show h - 1 - k - 1 + fs + 1 = h - 1 - k + fs by omega, show h - 1 - k - 1 + fs - fs = h - 1 - k - 1 by omega]
      · simp only [i1]; push_cast; ring
      · simp [i2]
      · intro i hi hi'
        by_cases e : i = h - 1 - k - 1 + fs
        · subst e
          simp only
          rw [List.getElem?_set_self (by omega)]
        · simp only
          rw [List.getElem?_set_ne (Ne.symm e)]
          exact i3 i (by omega) hi')
  -- padding
  obtain ⟨s2, e3, p2, l2, v2⟩ := iter_inv (n := fs) (f := triPad src fs zeropad) (s := s1)
    (fun k s => s.imagei = (x : Int) ∧ Holds s.buf (h + fs) (fs - k) (h + fs) S)
    ⟨by rw [p1]; simp only [show ((h - 1 : Nat) : Int) = (h : Int) - 1 by omega]; ring, l1, by
      intro i hi hi'; exact v1 i (by omega) hi'⟩
    (by
      intro k hk s ⟨i1, i2, i3⟩
      refine ⟨{ s with buf := s.buf.set (fs - k - 1) (S (fs - k - 1)) }, ?_, ?_, ?_, ?_⟩
      · unfold triPad
        simp only
        rw [rdI_eq s.buf _ (fs - k) (by omega), rd_getElem?, i3 _ le_rfl (by omega)]
        simp only [Option.bind_eq_bind, Option.bind_some]
        have hv : (if zeropad = true then some 0 else rdI src s.imagei) = some (pcol zeropad src stride h fs x (fs - k - 1)) := by
          rw [pcol_above (by omega), i1, rdI_nat]
          have := rd_pix hsrc hx hh
          simp only [zero_mul, zero_add] at this
          rw [this]
          cases zeropad <;> rfl
        rw [hv]
        simp only [Option.bind_some]
        rw [wrI_eq s.buf _ (fs - k - 1) _ (by omega), wr_of_lt (by omega)]
        simp only [Option.bind_some]
        rw [hS, sufs_step (i := fs - k - 1) (by omega), show fs - k - 1 + 1 = fs - k by omega]
      · exact i1
      · simp [i2]
      · intro i hi hi'
        by_cases e : i = fs - k - 1
        · subst e
          simp only
          rw [List.getElem?_set_self (by omega)]
        · simp only
          rw [List.getElem?_set_ne (Ne.symm e)]
          exact i3 i (by omega) hi')
  -- first difference
  obtain ⟨b3, e4, l3, v3, v3'⟩ := iter_inv (n := h) (f := triDiff fs) (s := s2.buf)
    (fun k b => b.length = h + fs ∧ (∀ i < k, b[i]? = some (B i)) ∧ (∀ i, k ≤ i → i < h + fs → b[i]? = some (S i)))
    ⟨l2, fun i hi => by omega, fun i _ hi => v2 i (by omega) hi⟩
    (by
      intro k hk b ⟨i1, i2, i3⟩
      refine ⟨b.set k (B k), ?_, by simp [i1], ?_, ?_⟩
      · unfold triDiff
        simp only
        rw [rdI_eq b _ k (by omega), rd_getElem?, i3 _ le_rfl (by omega)]
        simp only [Option.bind_eq_bind, Option.bind_some]
        rw [rdI_eq b _ (k + fs) (by omega), rd_getElem?, i3 _ (by omega) (by omega)]
        simp only [Option.bind_some]
        rw [wrI_eq b _ k _ (by omega), wr_of_lt (by omega), hS, boxs_diff hk]
      · intro i hi
        by_cases e : i = k
        · subst e; rw [List.getElem?_set_self (by omega)]
        · rw [List.getElem?_set_ne (Ne.symm e)]; exact i2 i (by omega)
      · intro i hi hi'
        rw [List.getElem?_set_ne (by omega)]; exact i3 i (by omega) hi')
  -- edge
  obtain ⟨b4, e5, l4, v4⟩ : ∃ b4, (if zeropad = true then some b3 else iter fs (triEdge h fs) b3) = some b4 ∧
      b4.length = h + fs ∧ ∀ i < h + fs, b4[i]? = some (B i) := by
    cases hz : zeropad
    · simp only [Bool.false_eq_true, if_false]
      obtain ⟨b, e, i1, i2, -⟩ := iter_inv (n := fs) (f := triEdge h fs) (s := b3)
        (fun k b => b.length = h + fs ∧ (∀ i < h + k, b[i]? = some (B i)) ∧ (∀ i, h + k ≤ i → i < h + fs → b[i]? = some (S i)))
        ⟨l3, v3, v3'⟩
        (by
          intro k hk b ⟨i1, i2, i3⟩
          refine ⟨b.set (h + k) (B (h + k)), ?_, by simp [i1], ?_, ?_⟩
          · unfold triEdge
            simp only
            rw [rdI_eq b _ (h + k) (by omega), rd_getElem?, i3 _ le_rfl (by omega)]
            simp only [Option.bind_eq_bind, Option.bind_some]
            rw [rdI_eq b _ (h + fs - 1) (by omega), rd_getElem?, i3 _ (by omega) (by omega)]
            simp only [Option.bind_some]
            rw [wrI_eq b _ (h + k) _ (by omega), wr_of_lt (by omega)]
            have hl : S (h + fs - 1) = pix src stride x (h - 1) := by
              rw [hS, sufs_step (by omega), pcol_img (by omega) (by omega), sufs, show h + fs - 1 + 1 = h + fs by omega,
                show h + fs - 1 - fs = h - 1 by omega]
              simp
            rw [hl, hB, hS, hz, boxs_edge (by omega) (by omega)]
            simp only [Bool.false_eq_true, if_false]
            rw [show h + k - h = k by omega, show (h : Int) - fs - (h - fs + k) = -(k : Int) by ring]
            congr 2
            push_cast
            ring
          · intro i hi
            by_cases e : i = h + k
            · subst e; rw [List.getElem?_set_self (by omega)]
            · rw [List.getElem?_set_ne (Ne.symm e)]; exact i2 i (by omega)
          · intro i hi hi'
            rw [List.getElem?_set_ne (by omega)]; exact i3 i (by omega) hi')
      exact ⟨b, e, i1, i2⟩
    · refine ⟨b3, by simp, l3, ?_⟩
      intro i hi
      by_cases hlt : i < h
      · exact v3 i hlt
      · rw [v3' i (by omega) hi, hB, hS, hz, boxs_edge (by omega) hi]
        simp
  -- forward integration
  obtain ⟨b5, e6, l5, v5, -⟩ := iter_inv (n := h + fs - 1) (f := triFwd fs) (s := b4)
    (fun k b => b.length = h + fs ∧ (∀ i < k + 1, b[i]? = some (∑ j ∈ range (i + 1), B j)) ∧
      (∀ i, k + 1 ≤ i → i < h + fs → b[i]? = some (B i)))
    ⟨l4, fun i hi => by
      have : i = 0 := by omega
      subst this
      rw [v4 0 (by omega)]
      simp, fun i _ hi => v4 i hi⟩
    (by
      intro k hk b ⟨i1, i2, i3⟩
      refine ⟨b.set (k + 1) (∑ j ∈ range (k + 1 + 1), B j), ?_, by simp [i1], ?_, ?_⟩
      · unfold triFwd
        simp only
        rw [rdI_eq b _ (k + 1) (by push_cast; ring), rd_getElem?, i3 _ le_rfl (by omega)]
        simp only [Option.bind_eq_bind, Option.bind_some]
        rw [rdI_eq b _ k (by push_cast; ring), rd_getElem?, i2 _ (by omega)]
        simp only [Option.bind_some]
        rw [wrI_eq b _ (k + 1) _ (by push_cast; ring), wr_of_lt (by omega), Finset.sum_range_succ _ (k + 1),
          add_comm (B (k + 1))]
      · intro i hi
        by_cases e : i = k + 1
        · subst e; rw [List.getElem?_set_self (by omega)]
        · rw [List.getElem?_set_ne (Ne.symm e)]; exact i2 i (by omega)
      · intro i hi hi'
        rw [List.getElem?_set_ne (by omega)]; exact i3 i (by omega) hi')
  refine ⟨b5, ?_, l5, fun i _ hi => v5 i (by omega)⟩
  unfold triBuffer
  simp only [e0, e1, Option.bind_eq_bind, Option.bind_some, e2, e3, e4, e5, e6]

theorem tri_value (y : Nat) (hfs : 0 < fs) :
    1 / ((fs : K) * (fs : K)) * (∑ k ∈ range (y + fs + 1), boxs zeropad src stride h fs x k
      - ∑ k ∈ range (y + 1), boxs zeropad src stride h fs x k) = triSpec zeropad src stride h fs x y := by
  rw [triSpec]
  congr 1
  rw [← Finset.sum_Ico_eq_sub _ (by omega : y + 1 ≤ y + fs + 1), Finset.sum_Ico_eq_sum_range,
    show y + fs + 1 - (y + 1) = fs by omega]
  rw [← double_box fs (fun i => padded zeropad src stride h x ((y : Int) + ((i : Int) - (fs - 1))))]
  refine Finset.sum_congr rfl (fun a _ => Finset.sum_congr rfl (fun b _ => ?_))
  rw [pcol]
  congr 1
  push_cast
  ring

end column

/-- State while the samples of column `x` are stored from the last to the first; `j` is the last stored one. -/
structure TriDst (transp : Bool) (dst : List K) (stride w n : Nat) (val : Nat → Nat → K) (x j : Nat) (s : DstSt K) : Prop where
  ptr : s.dst = (dstAddr transp stride x j : Nat)
  len : s.mem.length = dst.length
  done : ∀ a b, a < w → b < n → (a < x ∨ (a = x ∧ j ≤ b)) → s.mem[dstAddr transp stride a b]? = some (val a b)
  frame : ∀ k, (∀ a b, a < w → b < n → (a < x ∨ (a = x ∧ j ≤ b)) → k ≠ dstAddr transp stride a b) → s.mem[k]? = dst[k]?

theorem dstAddr_succ (transp : Bool) (stride x j : Nat) : ((dstAddr transp stride x (j + 1) : Nat) : Int)
    - (if transp then (1 : Int) else stride) = (dstAddr transp stride x j : Nat) := by
  cases transp <;> simp [dstAddr] <;> ring

/-! ### C19: triangular filter -/

/-- For every image, filter size, sub-sampling step, padding and destination layout: no access is out of bounds and the
destination sample of column `x` and row `j` is the convolution of the padded column with the triangular signal at row
`j * step`; the rest of the destination is not changed. -/
theorem imconvcoltri_correct (dest image buf : List K) (destStride w h stride fs step : Nat) (transp zeropad : Bool)
    (hh : 0 < h) (hfs : 0 < fs) (_hstep : 0 < step) (himg : Fits image.length stride w h) (hbuf : buf.length = h + fs)
    (hdst : DstOk transp dest.length destStride w ((h - 1) / step + 1)) :
    ∃ m, imconvcoltri dest destStride image w h stride fs step transp zeropad buf = some m ∧ m.length = dest.length ∧
      (∀ x < w, ∀ j < (h - 1) / step + 1,
        m[dstAddr transp destStride x j]? = some (triSpec zeropad image stride h fs x (j * step))) ∧
      (∀ k, (∀ x < w, ∀ j < (h - 1) / step + 1, k ≠ dstAddr transp destStride x j) → m[k]? = dest[k]?) := by
  change DstOk transp dest.length destStride w (dheight h step) at hdst
  set n := dheight h step with hn
  have hn0 : 0 < n := by exact Nat.succ_pos _
  set val : Nat → Nat → K := fun x j => triSpec zeropad image stride h fs x (j * step) with hval
  obtain ⟨s, e, inv, -⟩ := iter_inv (n := w) (s := (({ dst := 0, mem := dest } : DstSt K), buf))
    (f := triColumn image h stride fs step destStride transp zeropad)
    (fun x s => DstInv transp dest destStride w n val x 0 s.1 ∧ s.2.length = h + fs)
    ⟨⟨by simp [dstAddr], rfl, fun a b _ _ h => by omega, fun _ _ => rfl⟩, hbuf⟩
    (by
      intro x hx s ⟨inv, hl⟩
      obtain ⟨b, eb, lb, vb⟩ := triBuffer_eq (zeropad := zeropad) himg hx hh hfs s.2 hl
      obtain ⟨d, ed, dinv⟩ := iter_inv (n := n)
        (f := triOut b h fs step destStride transp (1 / ((fs : K) * (fs : K))))
        (s := { s.1 with dst := s.1.dst + n * (if transp then (1 : Int) else destStride) })
        (fun k d => TriDst transp dest destStride w n val x (n - k) d)
        ⟨by
          simp only [inv.ptr, dstAddr, Nat.sub_zero]
          cases transp <;> simp <;> ring, inv.len,
          fun a c ha hc hac => inv.done a c ha hc (by omega),
          fun k hk => inv.frame k (fun a c ha hc hac => hk a c ha hc (by omega))⟩
        (by
          intro k hk d dinv
          obtain ⟨j, hj⟩ : ∃ j, n - k = j + 1 := ⟨n - k - 1, by omega⟩
          have hj' : n - (k + 1) = j := by omega
          have hjn : j < n := by omega
          have hrow : j * step < h := row_lt hh hjn
          have hy : (step : Int) * (n - 1) - (k : Int) * step = ((j * step : Nat) : Int) := by
            have : (n : Int) = j + 1 + k := by omega
            rw [this]; push_cast; ring
          have hptr : d.dst - (if transp then (1 : Int) else destStride) = (dstAddr transp destStride x j : Nat) := by
            rw [dinv.ptr, hj, dstAddr_succ]
          have hmem : dstAddr transp destStride x j < d.mem.length := by rw [dinv.len]; exact hdst.1 x hx j hjn
          refine ⟨{ dst := (dstAddr transp destStride x j : Nat), mem := d.mem.set (dstAddr transp destStride x j) (val x j) }, ?_, ?_⟩
          · unfold triOut
            rw [← hn, hy, hptr]
            simp only
            rw [rdI_eq b _ (j * step + fs) (by push_cast; ring), rd_getElem?, vb _ (by omega) (by omega)]
            simp only [Option.bind_eq_bind, Option.bind_some]
            rw [rdI_eq b _ (j * step) (by ring), rd_getElem?, vb _ (by omega) (by omega)]
            simp only [Option.bind_some]
            rw [wrI_nat, tri_value _ hfs, wr_of_lt hmem]
            rfl
          · rw [hj']
            refine ⟨rfl, by simp [dinv.len], ?_, ?_⟩
            · intro a c ha hc hac
              by_cases e : a = x ∧ c = j
              · obtain ⟨rfl, rfl⟩ := e
                simp only [List.getElem?_set_self hmem]
              · have hne : dstAddr transp destStride a c ≠ dstAddr transp destStride x j := by
                  intro h
                  have := dstAddr_inj hdst ha hx hc hjn h
                  omega
                simp only
                rw [List.getElem?_set_ne (Ne.symm hne)]
                exact dinv.done a c ha hc (by omega)
            · intro q hq
              have hne : q ≠ dstAddr transp destStride x j := hq x j hx hjn (by omega)
              simp only
              rw [List.getElem?_set_ne (Ne.symm hne)]
              exact dinv.frame q (fun a c ha hc hac => hq a c ha hc (by omega)))
      refine ⟨({ d with dst := d.dst + (if transp then (destStride : Int) else 1) }, b), ?_, ?_, lb⟩
      · unfold triColumn
        rw [eb]
        simp only [Option.bind_eq_bind, Option.bind_some]
        rw [← hn, ed]
        rfl
      · refine ⟨?_, dinv.len, ?_, ?_⟩
        · simp only [dinv.ptr, Nat.sub_self, dstAddr]
          cases transp <;> simp <;> ring
        · intro a c ha hc hac
          exact dinv.done a c ha hc (by omega)
        · intro k hk
          exact dinv.frame k (fun a c ha hc hac => hk a c ha hc (by omega)))
  refine ⟨s.1.mem, ?_, inv.len, ?_, ?_⟩
  · rw [imconvcoltri, if_neg (by omega), e]
    rfl
  · intro x hx j hj
    exact inv.done x j hx hj (by omega)
  · intro k hk
    exact inv.frame k (fun a b ha hb hab => hk a ha b hb)

/-- A 1 × 4 image, `filterSize = 2`, i.e. the signal `(1, 2, 1) / 4`; padding by continuity and by zero. -/
example : imconvcoltri (K := ℚ) [0, 0, 0, 0] 1 [4, 8, 0, 12] 1 4 1 2 1 false false [9, 9, 9, 9, 9, 9] = some [5, 5, 5, 9] ∧
    imconvcoltri (K := ℚ) [0, 0] 2 [4, 8, 0, 12] 1 4 1 2 2 true true [9, 9, 9, 9, 9, 9] = some [4, 5] := by
  decide +kernel

example : Fits ([4, 8, 0, 12] : List ℚ).length 1 1 4 ∧ DstOk false ([0, 0, 0, 0] : List ℚ).length 1 1 ((4 - 1) / 1 + 1) := by
  refine ⟨?_, ?_, by simp⟩ <;> intro x hx y hy <;> simp [dstAddr] <;> omega

end Verif.Imop
