import Verif.Toolbox.SmoothSpec
import Verif.Imop.ConvProps
import Verif.Imop.TriProps
import Mathlib.Analysis.SpecialFunctions.Exp

/-!
# Image smoothing: proofs (C181, C182)
-/

namespace Verif.Toolbox

open Verif Verif.Imop Finset

variable {K : Type} [Field K]

theorem drvFilter_spec (g : Int → K) (W : Nat) (block : List K) (hb : block.length = 2 * W + 1) :
    ∃ f, drvFilter g W block = some f ∧ f.length = 2 * W + 1 ∧ ∀ j < 2 * W + 1, f[j]? = some ((Kern.gaussian g W).weight ((j : Int) - W)) := by
  obtain ⟨⟨f1, acc⟩, e1, l1, a1, v1⟩ := iter_inv (n := 2 * W + 1) (s := (block, (0 : K)))
    (f := fun j (s : List K × K) => do
      let f ← wr s.1 j (g ((j : Int) - W))
      let v ← rd f j
      some (f, s.2 + v))
    (fun k s => s.1.length = 2 * W + 1 ∧ s.2 = ∑ j ∈ range k, g ((j : Int) - W) ∧ ∀ j < k, s.1[j]? = some (g ((j : Int) - W)))
    ⟨hb, by simp, fun j hj => absurd hj (by omega)⟩ (by
      rintro k hk ⟨f, acc⟩ ⟨hl, ha, hv⟩
      dsimp only at hl ha hv ⊢
      refine ⟨(f.set k (g ((k : Int) - W)), acc + g ((k : Int) - W)), ?_, by simpa using hl, ?_, ?_⟩
      · rw [wr_of_lt (by omega)]
        have : rd (f.set k (g ((k : Int) - W))) k = some (g ((k : Int) - W)) := by
          rw [rd_of_lt (by simp; omega)]; simp
        show ((rd (f.set k (g ((k : Int) - W))) k).bind _) = _
        rw [this]
        rfl
      · rw [Finset.sum_range_succ, ← ha]
      · intro j hj
        dsimp only
        by_cases e : j = k
        · subst e; rw [List.getElem?_set_self (by omega)]
        · rw [List.getElem?_set_ne (by omega)]; exact hv j (by omega))
  obtain ⟨f2, e2, l2, -, v2⟩ := iter_inv (n := 2 * W + 1) (s := f1)
    (f := fun j f => do
      let v ← rd f j
      wr f j (v / acc))
    (fun k s => s.length = 2 * W + 1 ∧ (∀ j, k ≤ j → s[j]? = f1[j]?) ∧ ∀ j < k, s[j]? = some (g ((j : Int) - W) / acc))
    ⟨l1, fun _ _ => rfl, fun j hj => absurd hj (by omega)⟩ (by
      rintro k hk f ⟨hl, hr, hv⟩
      refine ⟨f.set k (g ((k : Int) - W) / acc), ?_, by simpa using hl, ?_, ?_⟩
      · have h1 : f[k]? = some (g ((k : Int) - W)) := by rw [hr k (le_refl _)]; exact v1 k hk
        have : rd f k = some (g ((k : Int) - W)) := by rw [rd_getElem?]; exact h1
        show (rd f k).bind _ = _
        rw [this]
        exact wr_of_lt (by omega) _
      · intro j hj
        rw [List.getElem?_set_ne (by omega)]; exact hr j (by omega)
      · intro j hj
        by_cases e : j = k
        · subst e; rw [List.getElem?_set_self (by omega)]
        · rw [List.getElem?_set_ne (by omega)]; exact hv j (by omega))
  refine ⟨f2, ?_, l2, ?_⟩
  · unfold drvFilter
    rw [e1]
    exact e2
  · intro j hj
    rw [v2 j hj]
    dsimp only at a1
    simp only [Kern.weight, a1]

/-- The block prepared for the kernel. -/
def Ready (k : Kern K) (filter : List K) : Prop :=
  match k with
  | .gaussian g W => filter.length = 2 * W + 1 ∧ ∀ j < 2 * W + 1, filter[j]? = some ((Kern.gaussian g W).weight ((j : Int) - W))
  | .triangular W => 0 < W

theorem pass_spec (k : Kern K) (filter : List K) (hk : Ready k filter) (mem : Nat → List K) (hmem : ∀ n, (mem n).length = n) (dst src : List K) (dstStride w h stride step : Nat) (zeropad : Bool)
    (hh : 0 < h) (hstep : 0 < step) (hsrc : Fits src.length stride w h) (hdst : DstOk true dst.length dstStride w ((h - 1) / step + 1)) :
    ∃ m, drvPass k filter mem dst dstStride src w h stride step zeropad = some m ∧ m.length = dst.length ∧
      ∀ x < w, ∀ j < (h - 1) / step + 1, m[x * dstStride + j]? = some (∑ a ∈ range (2 * k.radius + 1), k.weight ((a : Int) - k.radius) * padded zeropad src stride h x (((j * step : Nat) : Int) - ((a : Int) - k.radius))) := by
  cases k with
  | gaussian g W =>
    obtain ⟨hl, hv⟩ := hk
    obtain ⟨m, e, l, v, -⟩ := imconvcol_correct_partial dst src filter dstStride w h stride (-(W : Int)) W step true zeropad hh hstep hsrc (by omega) (by omega) (Or.inr (by omega)) hdst
    refine ⟨m, e, l, ?_⟩
    intro x hx j hj
    have := v x hx j hj
    simp only [dstAddr, if_true] at this
    rw [this, convSpec, hl]
    congr 1
    refine Finset.sum_congr rfl fun a ha => ?_
    rw [List.getD_eq_getElem?_getD, hv a (Finset.mem_range.mp ha), Option.getD_some]
    congr 2
    show _ = _ - ((a : Int) - W)
    ring
  | triangular W =>
    have hW : 0 < W := hk
    obtain ⟨m, e, l, v, -⟩ := imconvcoltri_correct dst src (mem (h + W)) dstStride w h stride W step true zeropad hh hW hstep hsrc (hmem _) hdst
    refine ⟨m, e, l, ?_⟩
    intro x hx j hj
    have := v x hx j hj
    simp only [dstAddr, if_true] at this
    rw [this, triSpec, show 2 * W - 1 = 2 * (W - 1) + 1 by omega, Finset.mul_sum]
    congr 1
    show _ = ∑ a ∈ range (2 * (W - 1) + 1), _
    rw [← Finset.sum_range_reflect]
    refine Finset.sum_congr rfl fun a ha => ?_
    have ha' := Finset.mem_range.mp ha
    obtain ⟨b, hb⟩ : ∃ b, b = 2 * (W - 1) + 1 - 1 - a := ⟨_, rfl⟩
    rw [← hb]
    have hn : ((W - ndist b (W - 1) : Nat) : K) = (W : K) - ((((a : Int) - ((W - 1 : Nat) : Int)).natAbs : Nat) : K) := by
      rw [← Nat.cast_sub (by omega)]
      congr 1
      unfold ndist
      omega
    rw [hn]
    show _ = ((W : K) - _) / ((W : K) * W) * padded zeropad src stride h x _
    have hp : (((j * step : Nat) : Int) + ((b : Int) - ((W : Int) - 1))) = ((j * step : Nat) : Int) - ((a : Int) - ((W - 1 : Nat) : Int)) := by omega
    rw [hp, show (Kern.triangular (K := K) W).radius = W - 1 from rfl]
    ring

theorem prepare_spec (k : Kern K) (hk : ∀ W, k = .triangular W → 0 < W) (mem : Nat → List K) (hmem : ∀ n, (mem n).length = n) : ∃ f, drvPrepare k mem = some f ∧ Ready k f := by
  cases k with
  | gaussian g W =>
    obtain ⟨f, e, l, v⟩ := drvFilter_spec g W (mem (2 * W + 1)) (hmem _)
    exact ⟨f, e, l, v⟩
  | triangular W => exact ⟨[], rfl, hk W rfl⟩

theorem padded_extend (zeropad : Bool) (A : Nat → Nat → K) (src : List K) (stride M N x : Nat) (p : Int) (hN : 0 < N) (hx : x < M) (h : ∀ y < N, pix src stride x y = A x y) :
    padded zeropad src stride N x p = extend zeropad A M N x p := by
  unfold padded extend
  by_cases h0 : p < 0
  · rw [if_pos h0, if_neg (show ¬ (0 ≤ (x : Int) ∧ (x : Int) < M ∧ 0 ≤ p ∧ p < N) by omega)]
    cases zeropad
    · simp only [Bool.false_eq_true, if_false]
      rw [h 0 hN]
      congr 1 <;> omega
    · rfl
  · rw [if_neg h0]
    by_cases h1 : p < N
    · rw [if_pos h1, if_pos (show 0 ≤ (x : Int) ∧ (x : Int) < M ∧ 0 ≤ p ∧ p < N by omega), h _ (by omega)]
      congr 1
    · rw [if_neg h1, if_neg (show ¬ (0 ≤ (x : Int) ∧ (x : Int) < M ∧ 0 ≤ p ∧ p < N) by omega)]
      cases zeropad
      · simp only [Bool.false_eq_true, if_false]
        rw [h _ (by omega)]
        congr 1 <;> omega
      · rfl

theorem extend_row (A : Nat → Nat → K) (M N r : Nat) (p q : Int) (hM : 0 < M) (h : p < 0 ∧ r = 0 ∨ (M : Int) ≤ p ∧ r = M - 1) : extend false A M N r q = extend false A M N p q := by
  unfold extend
  rw [if_neg (show ¬ (0 ≤ p ∧ p < M ∧ 0 ≤ q ∧ q < N) by omega)]
  simp only [Bool.false_eq_true, if_false]
  split_ifs with c
  · congr 1 <;> omega
  · congr 1
    omega

theorem rd_lin {M N i j : Nat} (hi : i < M) (hj : j < N) : j * M + i < M * N := by
  calc j * M + i < j * M + M := by omega
    _ = M * (j + 1) := by ring
    _ ≤ M * N := Nat.mul_le_mul_left _ hj

theorem channel_spec (k : Kern K) (filter : List K) (hk : Ready k filter) (mem : Nat → List K) (hmem : ∀ n, (mem n).length = n) (image : List K) (M N C step : Nat) (zeropad : Bool)
    (hM : 0 < M) (hN : 0 < N) (hstep : 0 < step) (himg : image.length = M * N * C) (M' N' : Nat) (hM' : M' = (M - 1) / step + 1) (hN' : N' = (N - 1) / step + 1) (c : Nat) (hc : c < C) (s : List K × List K)
    (h1 : s.1.length = M * N') (h2 : s.2.length = M' * N' * C) :
    ∃ t, drvChannel k filter mem image M N M' N' step zeropad c s = some t ∧ t.1.length = M * N' ∧ t.2.length = M' * N' * C ∧ (∀ i < M' * N' * c, t.2[i]? = s.2[i]?) ∧
      ∀ y < M', ∀ x < N', t.2[M' * N' * c + M' * x + y]? = some (smoothed k.weight k.radius (extend zeropad (chanPixel image M N c) M N) ((y * step : Nat) : Int) ((x * step : Nat) : Int)) := by
  have mc : ∀ A : Nat, A * c + A ≤ A * C := fun A => by
    calc A * c + A = A * (c + 1) := by ring
      _ ≤ A * C := Nat.mul_le_mul_left _ hc
  have hsl : M * N ≤ (image.drop (M * N * c)).length := by
    have := mc (M * N)
    rw [List.length_drop, himg]; omega
  obtain ⟨t, e1, l1, v1⟩ := pass_spec k filter hk mem hmem s.1 (image.drop (M * N * c)) N' M N M step zeropad hN hstep
    (fun x hx y hy => lt_of_lt_of_le (rd_lin hx hy) hsl)
    (by
      rw [← hN']
      refine ⟨?_, by simp⟩
      intro x hx j hj
      simp only [dstAddr, if_true]
      rw [h1]
      calc x * N' + j < x * N' + N' := by omega
        _ = (x + 1) * N' := by ring
        _ ≤ M * N' := Nat.mul_le_mul_right _ hx)
  rw [← hN'] at v1
  have hol : M' * N' ≤ (s.2.drop (M' * N' * c)).length := by
    have := mc (M' * N')
    rw [List.length_drop, h2]; omega
  obtain ⟨o, e2, l2, v2⟩ := pass_spec k filter hk mem hmem (s.2.drop (M' * N' * c)) t M' N' M N' step zeropad hM hstep
    (fun x hx y hy => by
      rw [l1, h1]
      calc y * N' + x < y * N' + N' := by omega
        _ = (y + 1) * N' := by ring
        _ ≤ M * N' := Nat.mul_le_mul_right _ hy)
    (by
      rw [← hM']
      refine ⟨?_, by simp⟩
      intro x hx j hj
      simp only [dstAddr, if_true]
      exact lt_of_lt_of_le (rd_lin hj hx) hol)
  rw [← hM'] at v2
  have htake : (s.2.take (M' * N' * c)).length = M' * N' * c := by
    have := mc (M' * N')
    rw [List.length_take, h2]; omega
  refine ⟨(t, s.2.take (M' * N' * c) ++ o), ?_, by rw [l1, h1], ?_, ?_, ?_⟩
  · unfold drvChannel
    rw [e1]
    show (drvPass k filter mem (s.2.drop (M' * N' * c)) M' t N' M N' step zeropad).bind _ = _
    rw [e2]
    rfl
  · have := mc (M' * N')
    simp only [List.length_append, htake, l2, List.length_drop, h2]; omega
  · intro i hi
    dsimp only
    rw [List.getElem?_append_left (by omega), List.getElem?_take_of_lt hi]
  · intro y hy x hx
    dsimp only
    rw [List.getElem?_append_right (by rw [htake]; omega), htake, show M' * N' * c + M' * x + y - M' * N' * c = x * M' + y by rw [Nat.mul_comm M' x]; omega, v2 x hx y hy]
    congr 1
    unfold smoothed
    refine Finset.sum_congr rfl fun a _ => ?_
    have hcol : ∀ r < M, pix t N' x r = ∑ b ∈ range (2 * k.radius + 1), k.weight ((b : Int) - k.radius) * extend zeropad (chanPixel image M N c) M N r (((x * step : Nat) : Int) - ((b : Int) - k.radius)) := by
      intro r hr
      unfold pix
      rw [List.getD_eq_getElem?_getD, v1 r hr x hx, Option.getD_some]
      refine Finset.sum_congr rfl fun b _ => ?_
      rw [padded_extend zeropad (chanPixel image M N c) (image.drop (M * N * c)) M M N r _ hN hr]
      intro q hq
      unfold pix chanPixel
      rw [List.getD_eq_getElem?_getD, List.getElem?_drop, List.getD_eq_getElem?_getD]
      congr 2
      ring
    obtain ⟨p, hp⟩ : ∃ p : Int, p = ((y * step : Nat) : Int) - ((a : Int) - k.radius) := ⟨_, rfl⟩
    rw [← hp]
    have out : padded zeropad t N' M x p = ∑ b ∈ range (2 * k.radius + 1), k.weight ((b : Int) - k.radius) * extend zeropad (chanPixel image M N c) M N p (((x * step : Nat) : Int) - ((b : Int) - k.radius)) := by
      unfold padded
      by_cases h0 : p < 0
      · rw [if_pos h0]
        cases zeropad
        · simp only [Bool.false_eq_true, if_false]
          rw [hcol 0 hM]
          refine Finset.sum_congr rfl fun b _ => ?_
          congr 1
          exact extend_row _ _ _ _ _ _ hM (Or.inl ⟨h0, rfl⟩)
        · simp only [if_true]
          symm
          refine Finset.sum_eq_zero fun b _ => ?_
          unfold extend
          rw [if_neg (by omega)]; simp
      · rw [if_neg h0]
        by_cases h1 : p < M
        · rw [if_pos h1, hcol _ (by omega)]
          rw [Int.toNat_of_nonneg (by omega)]
        · rw [if_neg h1]
          cases zeropad
          · simp only [Bool.false_eq_true, if_false]
            rw [hcol _ (by omega)]
            refine Finset.sum_congr rfl fun b _ => ?_
            congr 1
            exact extend_row _ _ _ _ _ _ hM (Or.inr ⟨by omega, rfl⟩)
          · simp only [if_true]
            symm
            refine Finset.sum_eq_zero fun b _ => ?_
            unfold extend
            rw [if_neg (by omega)]; simp
    rw [out, Finset.mul_sum]
    exact Finset.sum_congr rfl fun b _ => by ring

theorem smooth_spec (k : Kern K) (hk : ∀ W, k = .triangular W → 0 < W) (mem : Nat → List K) (hmem : ∀ n, (mem n).length = n) (image out : List K) (M N C step : Nat) (zeropad : Bool) (hM : 0 < M)
    (hN : 0 < N) (hstep : 0 < step) (himg : image.length = M * N * C) (M' N' : Nat) (hM' : M' = (M - 1) / step + 1) (hN' : N' = (N - 1) / step + 1) (hout : out.length = M' * N' * C) :
    ∃ r, drvSmooth k mem out M' N' image M N C step zeropad = some r ∧ r.length = M' * N' * C ∧
      ∀ c < C, ∀ y < M', ∀ x < N', r[M' * N' * c + M' * x + y]? = some (smoothed k.weight k.radius (extend zeropad (chanPixel image M N c) M N) ((y * step : Nat) : Int) ((x * step : Nat) : Int)) := by
  obtain ⟨f, e0, hf⟩ := prepare_spec k hk mem hmem
  obtain ⟨s, e, -, l, v⟩ := iter_inv (n := C) (s := (mem (M * N'), out)) (f := drvChannel k f mem image M N M' N' step zeropad)
    (fun n s => s.1.length = M * N' ∧ s.2.length = M' * N' * C ∧ ∀ c < n, ∀ y < M', ∀ x < N', s.2[M' * N' * c + M' * x + y]? =
      some (smoothed k.weight k.radius (extend zeropad (chanPixel image M N c) M N) ((y * step : Nat) : Int) ((x * step : Nat) : Int)))
    ⟨hmem _, hout, fun c hc => absurd hc (by omega)⟩ (by
      rintro n hn s ⟨h1, h2, h3⟩
      obtain ⟨t, e, l1, l2, fr, v⟩ := channel_spec k f hf mem hmem image M N C step zeropad hM hN hstep himg M' N' hM' hN' n hn s h1 h2
      refine ⟨t, e, l1, l2, ?_⟩
      intro c hc y hy x hx
      by_cases ec : c = n
      · subst ec; exact v y hy x hx
      · rw [fr]
        · exact h3 c (by omega) y hy x hx
        · have a1 := rd_lin hy hx
          have a2 : M' * N' * c + M' * N' ≤ M' * N' * n := by
            calc M' * N' * c + M' * N' = M' * N' * (c + 1) := by ring
              _ ≤ M' * N' * n := Nat.mul_le_mul_left _ (by omega)
          rw [Nat.mul_comm x M'] at a1
          omega)
  refine ⟨s.2, ?_, l, v⟩
  unfold drvSmooth
  rw [e0]
  show (iter C (drvChannel k f mem image M N M' N' step zeropad) (mem (M * N'), out)).bind _ = _
  rw [e]
  rfl

theorem toUnsigned_of (bits : Nat) (x : ℚ) (h1 : -1 < x) (h2 : x < 2 ^ bits) : toUnsigned bits x = some ⌊x⌋.toNat := by
  unfold toUnsigned
  rw [if_neg]
  rintro (h | h)
  · exact absurd h1 (not_lt.mpr h)
  · exact absurd h2 (not_lt.mpr h)

/-- The kernel of the documentation for a parameter `sigma`: the Gaussian up to four standard deviations, or the triangle. -/
def kernelFor (gaussian : Bool) (gs : ℚ → Int → K) (sigma : ℚ) : Kern K :=
  if gaussian then .gaussian (gs sigma) ⌈4 * sigma⌉.toNat else .triangular (max ⌊sigma⌋.toNat 1)

omit [Field K] in
theorem drvKernel_of (gaussian : Bool) (gs : ℚ → Int → K) (sigma : ℚ) (h1 : -(1 / 4) < sigma) (h2 : sigma < 2 ^ 32) : drvKernel gaussian gs sigma = some (kernelFor gaussian gs sigma) := by
  unfold drvKernel kernelFor
  cases gaussian
  · simp only [Bool.false_eq_true, if_false]
    rw [toUnsigned_of 32 sigma (by linarith) h2]
    rfl
  · simp only [if_true]
    rw [toUnsigned_of 64]
    · rw [Option.map_some, Int.floor_intCast]
    · have : (-1 : Int) < ⌈4 * sigma⌉ := by
        rw [Int.lt_ceil]; push_cast; linarith
      exact_mod_cast this
    · have : ((⌈4 * sigma⌉ : Int) : ℚ) < 4 * sigma + 1 := Int.ceil_lt_add_one _
      have : (4 : ℚ) * 2 ^ 32 + 1 < 2 ^ 64 := by norm_num
      linarith

/-- **C181.**  For every image and channel, kernel, padding, `sigma` and sub-sampling step below 2^31, pixel (y, x) of the result is the convolution of the extended channel with the kernel along the rows and the
columns, at pixel (y step, x step). -/
theorem imsmoothMex_correct (gaussian : Bool) (gs : ℚ → Int → K) (mem : Nat → List K) (hmem : ∀ n, (mem n).length = n) (image : List K) (M N C : Nat) (hM : 0 < M) (hN : 0 < N)
    (himg : image.length = M * N * C) (sigma : ℚ) (h1 : -(1 / 4) < sigma) (h2 : sigma < 2 ^ 32) (subsample : Option ℚ) (step : Nat) (hs : step = ⌊subsample.getD 1⌋.toNat) (hs1 : 1 ≤ step) (hs2 : step < 2 ^ 31)
    (zeropad : Bool) (hnot : ¬ (sigma < 1 / 100 ∧ step = 1)) :
    ∃ r, imsmoothMex gaussian gs mem image M N C sigma subsample zeropad = some (some ((M - 1) / step + 1, (N - 1) / step + 1, r)) ∧ r.length = ((M - 1) / step + 1) * ((N - 1) / step + 1) * C ∧
      ∀ c < C, ∀ y < (M - 1) / step + 1, ∀ x < (N - 1) / step + 1, r[((M - 1) / step + 1) * ((N - 1) / step + 1) * c + ((M - 1) / step + 1) * x + y]? =
        some (smoothed (kernelFor gaussian gs sigma).weight (kernelFor gaussian gs sigma).radius (extend zeropad (chanPixel image M N c) M N) ((y * step : Nat) : Int) ((x * step : Nat) : Int)) := by
  obtain ⟨v, hv⟩ : ∃ v, v = subsample.getD 1 := ⟨_, rfl⟩
  have hf : ⌊v⌋ = (step : Int) := by rw [hv]; omega
  have hlo : (step : ℚ) ≤ v := by
    have := Int.floor_le v
    rw [hf] at this
    exact_mod_cast this
  have hhi : v < (step : ℚ) + 1 := by
    have := Int.lt_floor_add_one v
    rw [hf] at this
    exact_mod_cast this
  have c0 : (0 : ℚ) ≤ step := Nat.cast_nonneg _
  have c1 : ((step : Nat) : ℚ) + 1 ≤ 2 ^ 31 := by exact_mod_cast hs2
  have e0 : toUnsigned 64 v = some step := by
    rw [toUnsigned_of 64 v (by linarith) (by
      have : (2 : ℚ) ^ 31 < 2 ^ 64 := by norm_num
      linarith), hf]
    rfl
  have et : throughInt step = step := by unfold throughInt; rw [Nat.mod_eq_of_lt (by omega), if_pos hs2]
  obtain ⟨r, e, l, val⟩ := smooth_spec (kernelFor gaussian gs sigma) (by
      intro W hW
      unfold kernelFor at hW
      cases gaussian
      · simp only [Bool.false_eq_true, if_false, Kern.triangular.injEq] at hW
        omega
      · simp at hW) mem hmem image (List.replicate (((M - 1) / step + 1) * ((N - 1) / step + 1) * C) 0) M N C step zeropad hM hN hs1 himg _ _ rfl rfl List.length_replicate
  refine ⟨r, ?_, l, val⟩
  unfold imsmoothMex
  rw [← hv, e0]
  dsimp only [Option.bind_eq_bind, Option.bind_some]
  rw [if_neg (by omega), if_neg hnot, et, if_neg (by omega), drvKernel_of gaussian gs sigma h1 h2, Option.bind_some, e]
  rfl

/-- C181.  Without smoothing and sub-sampling the image is returned as it is. -/
theorem imsmoothMex_copy (gaussian : Bool) (gs : ℚ → Int → K) (mem : Nat → List K) (image : List K) (M N C : Nat) (sigma : ℚ) (h : sigma < 1 / 100) (zeropad : Bool) :
    imsmoothMex gaussian gs mem image M N C sigma none zeropad = some (some (M, N, image)) := by
  unfold imsmoothMex
  rw [Option.getD_none, toUnsigned_of 64 1 (by norm_num) (by norm_num)]
  dsimp only [Option.bind_eq_bind, Option.bind_some]
  rw [Int.floor_one]
  rw [if_neg (by decide), if_pos ⟨h, rfl⟩]

/-! ## Unit mass -/

/-- C181.  The kernels have unit mass: a Gaussian whatever its parameter, and a triangle. -/
theorem kernelFor_mass (gaussian : Bool) (gs : ℚ → Int → ℝ) (hgs : ∀ s d, 0 < gs s d) (sigma : ℚ) :
    ∑ a ∈ range (2 * (kernelFor gaussian gs sigma).radius + 1), (kernelFor gaussian gs sigma).weight ((a : Int) - (kernelFor gaussian gs sigma).radius) = 1 := by
  unfold kernelFor
  cases gaussian
  · simp only [Bool.false_eq_true, if_false]
    obtain ⟨W, hW⟩ : ∃ W, W = max ⌊sigma⌋.toNat 1 := ⟨_, rfl⟩
    have hW1 : 1 ≤ W := by omega
    rw [← hW]
    show ∑ a ∈ range (2 * (W - 1) + 1), ((W : ℝ) - _) / ((W : ℝ) * W) = 1
    rw [← Finset.sum_div]
    have hd := double_box (K := ℝ) W (fun _ => 1)
    rw [show 2 * W - 1 = 2 * (W - 1) + 1 by omega] at hd
    simp only [Finset.sum_const, Finset.card_range, mul_one, nsmul_eq_mul] at hd
    have hne : (W : ℝ) * W ≠ 0 := by
      have : (0 : ℝ) < W := by exact_mod_cast hW1
      positivity
    rw [div_eq_one_iff_eq hne, hd]
    refine Finset.sum_congr rfl fun a ha => ?_
    have ha' := Finset.mem_range.mp ha
    rw [← Nat.cast_sub (by show ((a : Int) - ((W - 1 : Nat) : Int)).natAbs ≤ W; omega)]
    congr 1
    show W - ((a : Int) - ((W - 1 : Nat) : Int)).natAbs = _
    unfold ndist
    omega
  · simp only [if_true]
    obtain ⟨W, hW⟩ : ∃ W, W = ⌈4 * sigma⌉.toNat := ⟨_, rfl⟩
    rw [← hW]
    show ∑ a ∈ range (2 * W + 1), gs sigma ((a : Int) - W) / _ = 1
    rw [← Finset.sum_div]
    apply div_self
    exact ne_of_gt (Finset.sum_pos (fun j _ => hgs _ _) ⟨0, by simp⟩)

/-- C181.  A constant image stays constant with padding by continuity. -/
theorem smoothed_constant (w : Int → ℝ) (r : Nat) (hw : ∑ a ∈ range (2 * r + 1), w ((a : Int) - r) = 1) (A : Nat → Nat → ℝ) (v : ℝ) (M N : Nat) (hM : 0 < M) (hN : 0 < N) (hA : ∀ y < M, ∀ x < N, A y x = v)
    (y x : Int) : smoothed w r (extend false A M N) y x = v := by
  have he : ∀ p q, extend false A M N p q = v := by
    intro p q
    unfold extend
    simp only [Bool.false_eq_true, if_false]
    split_ifs with c
    · exact hA _ (by omega) _ (by omega)
    · exact hA _ (by omega) _ (by omega)
  unfold smoothed
  simp only [he]
  have : ∀ a ∈ range (2 * r + 1), ∑ b ∈ range (2 * r + 1), w ((a : Int) - r) * w ((b : Int) - r) * v = w ((a : Int) - r) * v := by
    intro a _
    rw [← Finset.sum_mul, ← Finset.mul_sum, hw, mul_one]
  rw [Finset.sum_congr rfl this, ← Finset.sum_mul, hw, one_mul]

/-- The Gaussian of the code: `exp (-0.5 z^2)` with `z = d / (sigma + eps)`. -/
noncomputable def gauss (eps : ℝ) (sigma : ℚ) (d : Int) : ℝ := Real.exp (-(1 / 2) * ((d : ℝ) / ((sigma : ℝ) + eps)) ^ 2)

/-- The hypotheses of C181 can be met: the Gaussian of the code, an image of two channels. -/
example (mem : Nat → List ℝ) (hmem : ∀ n, (mem n).length = n) (image : List ℝ) (h : image.length = 3 * 5 * 2) :
    ∃ r, imsmoothMex true (gauss 1) mem image 3 5 2 (3 / 2) (some 2) false = some (some (2, 3, r)) ∧ r.length = 12 := by
  obtain ⟨r, e, l, -⟩ := imsmoothMex_correct true (gauss 1) mem hmem image 3 5 2 (by norm_num) (by norm_num) h (3 / 2) (by norm_num) (by norm_num) (some 2) 2 (by norm_num; rfl) (by norm_num) (by norm_num) false (by norm_num)
  exact ⟨r, e, l⟩

example (eps : ℝ) (sigma : ℚ) : ∑ a ∈ range (2 * (kernelFor true (gauss eps) sigma).radius + 1), (kernelFor true (gauss eps) sigma).weight ((a : Int) - (kernelFor true (gauss eps) sigma).radius) = 1 :=
  kernelFor_mass true (gauss eps) (fun _ _ => Real.exp_pos _) sigma

/-! ## Arguments that are not checked -/

/-- The claim: for every `sigma` and sub-sampling step the driver gives a result or reports an error. -/
def ImsmoothClaim : Prop :=
  ∀ (image : List ℚ) (M N : Nat), 0 < M → 0 < N → image.length = M * N → ∀ (sigma : ℚ) (subsample : Option ℚ), imsmoothMex false (fun _ _ => 1) (fun n => List.replicate n 0) image M N 1 sigma subsample true ≠ none

/-- C182.  Refuted: a negative `sigma` with sub-sampling is converted to an unsigned integer. -/
theorem imsmooth_sigma_claim_false : ¬ ImsmoothClaim := by
  intro h
  exact h [1] 1 1 (by norm_num) (by norm_num) rfl (-1) (some 2) (by decide +kernel)

/-- C182.  Refuted for a `sigma` that is accepted: the step is passed as an `int`, so that of the step 2^32 + 1 the size of the result is that of this step and the convolution is done with step 1, beyond the end
of the temporary image. -/
theorem imsmooth_step_claim_false : ¬ ∀ (image : List ℚ) (M N : Nat), 0 < M → 0 < N → image.length = M * N → ∀ (subsample : ℚ), 1 ≤ subsample → subsample < 2 ^ 64 →
    imsmoothMex false (fun _ _ => 1) (fun n => List.replicate n 0) image M N 1 1 (some subsample) true ≠ none := by
  intro h
  exact h [1, 2, 3, 4] 2 2 (by norm_num) (by norm_num) rfl (2 ^ 32 + 1) (by norm_num) (by norm_num) (by decide +kernel)

end Verif.Toolbox
