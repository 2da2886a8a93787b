import Verif.Covdet.BankModel
import Verif.Covdet.LapProps
import Verif.Imop.ConvProps

/-!
# C193, C194, C195: the tables of the covariant detector
-/

namespace Verif.Covdet

open Finset Imop

/-! ### Specification -/

/-- The standard deviation, in samples of a patch with step `1 / (2 √2)`, that brings an image of scale `1 / √2` to the scale `2 ^ (s / 9) / √2`. -/
noncomputable def bankSigma (s : Nat) : ℝ := √((2 ^ ((s : ℝ) / 9) / √2) ^ 2 - (1 / √2) ^ 2) / (1 / (2 * √2))

/-- Samples of a Gaussian up to three standard deviations, zero beyond, divided by their sum. -/
noncomputable def cutBell (σ : ℝ) (d : Int) : ℝ :=
  if d.natAbs ≤ ⌈3 * σ⌉.toNat then Real.exp (-((d : ℝ) / σ) ^ 2 / 2) / ∑ e ∈ Icc (-(⌈3 * σ⌉.toNat : Int)) ⌈3 * σ⌉.toNat, Real.exp (-((e : ℝ) / σ) ^ 2 / 2) else 0

/-- The five-point Laplacian of the Gaussian. -/
noncomputable def lapOfGauss (σ : ℝ) (x y : Int) : ℝ :=
  cutBell σ (x + 1) * cutBell σ y + cutBell σ (x - 1) * cutBell σ y + cutBell σ x * cutBell σ (y + 1) + cutBell σ x * cutBell σ (y - 1) - 4 * (cutBell σ x * cutBell σ y)

/-! ### The Gaussian -/

theorem bankSigma_sq (s : Nat) : bankSigma s ^ 2 = 4 * (2 ^ (2 * (s : ℝ) / 9) - 1) := by
  unfold bankSigma
  have h2 : (√2 : ℝ) ^ 2 = 2 := Real.sq_sqrt (by norm_num)
  have hs : (0 : ℝ) < √2 := Real.sqrt_pos.mpr (by norm_num)
  have hp : (1 : ℝ) ≤ 2 ^ (2 * (s : ℝ) / 9) := Real.one_le_rpow (by norm_num) (by positivity)
  have hq : ((2 : ℝ) ^ ((s : ℝ) / 9)) ^ 2 = 2 ^ (2 * (s : ℝ) / 9) := by
    rw [← Real.rpow_natCast, ← Real.rpow_mul (by norm_num)]
    congr 1
    push_cast
    ring
  rw [div_pow, div_pow, div_pow, hq, h2, Real.sq_sqrt (by
    rw [one_pow]
    linarith)]
  rw [div_pow, mul_pow, h2]
  field_simp
  ring

theorem bankSigma_nonneg (s : Nat) : 0 ≤ bankSigma s := by unfold bankSigma; positivity

theorem bankSigma_le (s : Nat) (hs : s < 10) : bankSigma s ≤ 7 / 2 := by
  have h := bankSigma_sq s
  have hp : (2 : ℝ) ^ (2 * (s : ℝ) / 9) ≤ 2 ^ (2 : ℝ) := by
    apply Real.rpow_le_rpow_of_exponent_le (by norm_num)
    have : (s : ℝ) ≤ 9 := by exact_mod_cast (by omega : s ≤ 9)
    linarith
  have : (2 : ℝ) ^ (2 : ℝ) = 4 := by rw [Real.rpow_two]; norm_num
  have h0 := bankSigma_nonneg s
  nlinarith

theorem bank_radius (s : Nat) (hs : s < 10) : ⌈3 * bankSigma s⌉.toNat ≤ 11 := by
  have : ⌈3 * bankSigma s⌉ ≤ 11 := Int.ceil_le.mpr (by have := bankSigma_le s hs; push_cast; linarith)
  omega

/-- The weights of the filter. -/
theorem gauss_spec (σ : ℝ) (mem : Nat → List ℝ) (hmem : ∀ n, (mem n).length = n) :
    ∃ f, gaussFilter ⌈σ * 3⌉.toNat (fun i : Nat => Real.exp (-0.5 * ((i : ℝ) / σ) * ((i : ℝ) / σ))) (mem (2 * ⌈σ * 3⌉.toNat + 1)) = some f ∧ f.length = 2 * ⌈3 * σ⌉.toNat + 1 ∧
      ∀ j < 2 * ⌈3 * σ⌉.toNat + 1, f.getD j 0 = cutBell σ ((j : Int) - ⌈3 * σ⌉.toNat) := by
  rw [mul_comm σ 3]
  obtain ⟨r, hr⟩ : ∃ r : Nat, r = ⌈3 * σ⌉.toNat := ⟨_, rfl⟩
  obtain ⟨g, hg⟩ : ∃ g : Nat → ℝ, g = fun i : Nat => Real.exp (-0.5 * ((i : ℝ) / σ) * ((i : ℝ) / σ)) := ⟨_, rfl⟩
  have hgp : ∀ i, 0 < g i := fun i => by rw [hg]; exact Real.exp_pos _
  rw [← hr, ← hg]
  have hpos : 0 ≤ ∑ i ∈ range r, (g (i + 1) + g (i + 1)) := Finset.sum_nonneg fun i _ => by have := hgp (i + 1); linarith
  obtain ⟨f, e, l, v, -⟩ := gaussFilter_correct r g (mem (2 * r + 1)) (hmem _) (by linarith)
  refine ⟨f, e, l, ?_⟩
  intro j hj
  rw [List.getD_eq_getElem?_getD, v j hj, Option.getD_some, ← bell_sum]
  have hb : ∀ k : Nat, bell g (ndist k r) = Real.exp (-((((k : Int) - r : Int) : ℝ) / σ) ^ 2 / 2) := by
    intro k
    have h1 : bell g (ndist k r) = g (ndist k r) := by
      unfold bell
      split_ifs with h
      · rw [h, hg]; simp
      · rfl
    rw [h1, hg]
    have h2 : ((ndist k r : Nat) : ℝ) ^ 2 = (((k : Int) - r : Int) : ℝ) ^ 2 := by
      have : ((ndist k r : Nat) : Int) ^ 2 = ((k : Int) - r) ^ 2 := by
        unfold ndist
        rcases le_total k r with h | h
        · rw [show k - r = 0 by omega, Nat.zero_add, Nat.cast_sub h]; ring
        · rw [show r - k = 0 by omega, Nat.add_zero, Nat.cast_sub h]
      exact_mod_cast this
    dsimp only
    congr 1
    rw [div_pow, ← h2]
    ring
  unfold cutBell
  rw [← hr, if_pos (by omega), hb]
  congr 1
  simp only [hb]
  refine Finset.sum_bij' (fun k _ => (k : Int) - r) (fun e _ => (e + r).toNat) ?_ ?_ ?_ ?_ ?_
  · intro k hk; rw [Finset.mem_range] at hk; rw [Finset.mem_Icc]; omega
  · intro e he; rw [Finset.mem_Icc] at he; rw [Finset.mem_range]; omega
  · intro k _; omega
  · intro e he; rw [Finset.mem_Icc] at he; omega
  · intro k _; rfl

theorem cutBell_even (σ : ℝ) (d : Int) : cutBell σ (-d) = cutBell σ d := by
  unfold cutBell
  rw [Int.natAbs_neg, Int.cast_neg, neg_div (σ : ℝ) (d : ℝ), neg_sq]

theorem cutBell_sum (σ : ℝ) (n : Nat) (c : Int) (h1 : (⌈3 * σ⌉.toNat : Int) ≤ c) (h2 : c + ⌈3 * σ⌉.toNat < n) : ∑ x ∈ range n, cutBell σ ((x : Int) - c) = 1 := by
  obtain ⟨r, hr⟩ : ∃ r : Nat, r = ⌈3 * σ⌉.toNat := ⟨_, rfl⟩
  rw [← hr] at h1 h2
  have hpos : 0 < ∑ e ∈ Icc (-(r : Int)) r, Real.exp (-((e : ℝ) / σ) ^ 2 / 2) :=
    Finset.sum_pos (fun _ _ => Real.exp_pos _) ⟨0, by rw [Finset.mem_Icc]; omega⟩
  have : ∑ x ∈ range n, cutBell σ ((x : Int) - c) = ∑ e ∈ Icc (-(r : Int)) r, Real.exp (-((e : ℝ) / σ) ^ 2 / 2) / ∑ e ∈ Icc (-(r : Int)) r, Real.exp (-((e : ℝ) / σ) ^ 2 / 2) := by
    unfold cutBell
    rw [← hr, ← Finset.sum_filter]
    refine Finset.sum_bij' (fun k _ => (k : Int) - c) (fun e _ => (e + c).toNat) ?_ ?_ ?_ ?_ ?_
    · intro k hk; rw [Finset.mem_filter, Finset.mem_range] at hk; rw [Finset.mem_Icc]; omega
    · intro e he; rw [Finset.mem_Icc] at he; rw [Finset.mem_filter, Finset.mem_range]; omega
    · intro k _; omega
    · intro e he; rw [Finset.mem_Icc] at he; omega
    · intro k _; rfl
  rw [this, ← Finset.sum_div, div_self (ne_of_gt hpos)]

/-! ### Convolution of a pattern that is zero at the border -/

theorem conv_bell (σ : ℝ) (F : Nat → ℝ) (h0 : F 0 = 0) (h1 : F 32 = 0) (x : Nat) :
    ∑ i ∈ range (2 * ⌈3 * σ⌉.toNat + 1), cutBell σ ((i : Int) - ⌈3 * σ⌉.toNat) * F (clampTo 33 ((x : Int) - ((i : Int) - ⌈3 * σ⌉.toNat))) = ∑ X ∈ range 33, cutBell σ ((x : Int) - X) * F X := by
  have hcb : ∀ d : Int, ⌈3 * σ⌉.toNat < d.natAbs → cutBell σ d = 0 := fun d h => if_neg (by omega)
  obtain ⟨r, hr⟩ : ∃ r : Nat, r = ⌈3 * σ⌉.toNat := ⟨_, rfl⟩
  rw [← hr] at hcb ⊢
  have e1 : ∀ i, cutBell σ ((i : Int) - r) * F (clampTo 33 ((x : Int) - ((i : Int) - r))) = ∑ X ∈ range 33, if X = clampTo 33 ((x : Int) - ((i : Int) - r)) then cutBell σ ((i : Int) - r) * F X else 0 := by
    intro i
    rw [Finset.sum_ite_eq' (range 33) (clampTo 33 ((x : Int) - ((i : Int) - r))) (fun X => cutBell σ ((i : Int) - r) * F X), if_pos]
    rw [Finset.mem_range]
    exact clampTo_lt (by omega) _
  rw [Finset.sum_congr rfl fun i (_ : i ∈ range (2 * r + 1)) => e1 i, Finset.sum_comm]
  refine Finset.sum_congr rfl fun X hX => ?_
  rw [Finset.mem_range] at hX
  by_cases hb : X = 0 ∨ X = 32
  · have : F X = 0 := by rcases hb with rfl | rfl <;> assumption
    simp [this]
  by_cases hd : ((x : Int) - X).natAbs ≤ r
  · rw [Finset.sum_eq_single ((x : Int) - X + r).toNat]
    · have : ((((x : Int) - X + r).toNat : Nat) : Int) = (x : Int) - X + r := by omega
      rw [this, if_pos, show (x : Int) - X + r - r = (x : Int) - X by ring]
      unfold clampTo
      rw [if_neg (by omega), if_pos (by omega)]
      omega
    · intro i hi hne
      rw [if_neg]
      intro e
      unfold clampTo at e
      split_ifs at e <;> omega
    · intro h
      rw [Finset.mem_range] at h
      omega
  · rw [hcb _ (by omega), zero_mul]
    refine Finset.sum_eq_zero fun i hi => ?_
    rw [Finset.mem_range] at hi
    rw [if_neg]
    intro e
    unfold clampTo at e
    split_ifs at e <;> omega

/-- The five-point Laplacian. -/
def fivePoint (X Y : Nat) : ℝ := if X = 16 then (if Y = 16 then -4 else if Y = 15 ∨ Y = 17 then 1 else 0) else if X = 15 ∨ X = 17 then (if Y = 16 then 1 else 0) else 0

theorem fivePoint_inner (c : Int → ℝ) (y : Int) (X : Nat) :
    ∑ Y ∈ range 33, c (y - (Y : Nat)) * fivePoint X Y = if X = 16 then c (y - 15) + c (y - 17) - 4 * c (y - 16) else if X = 15 ∨ X = 17 then c (y - 16) else 0 := by
  unfold fivePoint
  split_ifs with h1 h2
  · simp [Finset.sum_range_succ]
    ring
  · simp
  · simp

theorem fivePoint_conv (c : Int → ℝ) (x y : Int) :
    ∑ X ∈ range 33, c (x - (X : Nat)) * ∑ Y ∈ range 33, c (y - (Y : Nat)) * fivePoint X Y =
      c (x - 16 + 1) * c (y - 16) + c (x - 16 - 1) * c (y - 16) + c (x - 16) * c (y - 16 + 1) + c (x - 16) * c (y - 16 - 1) - 4 * (c (x - 16) * c (y - 16)) := by
  simp only [fivePoint_inner]
  rw [show x - 16 + 1 = x - 15 by ring, show y - 16 + 1 = y - 15 by ring, show x - 16 - 1 = x - 17 by ring, show y - 16 - 1 = y - 17 by ring]
  simp [Finset.sum_range_succ]
  ring

/-! ### One Laplacian -/

/-- The pattern before the smoothing. -/
theorem pattern_spec (bank : List ℝ) (pt : Nat) (h : pt + 1089 ≤ bank.length) :
    ∃ b, (do
      let bank ← iter 1089 (fun i b => wr b (pt + i) 0) bank
      let bank ← wr bank (pt + 544) (-4)
      let bank ← wr bank (pt + 543) 1
      let bank ← wr bank (pt + 545) 1
      let bank ← wr bank (pt + 577) 1
      wr bank (pt + 511) 1) = some b ∧ b.length = bank.length ∧ (∀ q < 1089, b[pt + q]? = some (fivePoint (q % 33) (q / 33))) ∧ ∀ k, (k < pt ∨ pt + 1089 ≤ k) → b[k]? = bank[k]? := by
  obtain ⟨b, e, l, v, w⟩ := iter_inv (n := 1089) (f := fun i (b : List ℝ) => wr b (pt + i) 0) (s := bank)
    (fun i b => b.length = bank.length ∧ (∀ q < i, b[pt + q]? = some 0) ∧ ∀ k, (k < pt ∨ pt + 1089 ≤ k) → b[k]? = bank[k]?) ⟨rfl, by simp, fun _ _ => rfl⟩ (by
      intro i hi b hb
      obtain ⟨l, v, w⟩ := hb
      refine ⟨_, wr_of_lt (by omega) 0, by simpa using l, ?_, ?_⟩
      · intro q hq
        rw [List.getElem?_set]
        split_ifs with h1 h2
        · rfl
        · omega
        · exact v q (by omega)
      · intro k hk
        rw [List.getElem?_set_ne (by omega)]
        exact w k hk)
  rw [e]
  refine ⟨((((b.set (pt + 544) (-4)).set (pt + 543) 1).set (pt + 545) 1).set (pt + 577) 1).set (pt + 511) 1, ?_, ?_, ?_, ?_⟩
  · simp only [Option.bind_eq_bind, Option.bind_some]
    rw [wr_of_lt (by omega), Option.bind_some, wr_of_lt (by simp; omega), Option.bind_some, wr_of_lt (by simp; omega), Option.bind_some, wr_of_lt (by simp; omega), Option.bind_some, wr_of_lt (by simp; omega)]
  · simpa using l
  · intro q hq
    simp only [List.getElem?_set, List.length_set]
    have hv := v q hq
    unfold fivePoint
    split_ifs <;> first | rfl | omega
  · intro k hk
    rw [List.getElem?_set_ne (by omega), List.getElem?_set_ne (by omega), List.getElem?_set_ne (by omega), List.getElem?_set_ne (by omega), List.getElem?_set_ne (by omega)]
    exact w k hk

theorem sigma_eq (s : Nat) : √((2 : ℝ) ^ (-0.5 + (s : ℝ) / (10 - 1)) * 2 ^ (-0.5 + (s : ℝ) / (10 - 1)) - 1 / √2 * (1 / √2)) / (0.5 * (1 / √2)) = bankSigma s := by
  unfold bankSigma
  have h : (2 : ℝ) ^ (-0.5 + (s : ℝ) / (10 - 1)) = 2 ^ ((s : ℝ) / 9) / √2 := by
    rw [Real.rpow_add (by norm_num), Real.sqrt_eq_rpow, show (-0.5 : ℝ) = -(1 / 2) by norm_num, Real.rpow_neg (by norm_num)]
    rw [show (10 : ℝ) - 1 = 9 by norm_num]
    ring
  rw [h, pow_two, pow_two]
  congr 1
  rw [one_div, one_div, mul_inv]
  norm_num

theorem smoothPattern_spec (mem : Nat → List ℝ) (hmem : ∀ n, (mem n).length = n) (img : List ℝ) (σ : ℝ) (hl : 1089 ≤ img.length) (hv : ∀ q < 1089, img[q]? = some (fivePoint (q % 33) (q / 33))) :
    ∃ o, smoothBy mem img img 33 σ = some o ∧ o.length = img.length ∧ (∀ x : Nat, x < 33 → ∀ y : Nat, y < 33 → o[y * 33 + x]? = some (lapOfGauss σ ((x : Int) - 16) ((y : Int) - 16))) ∧ ∀ k, 1089 ≤ k → o[k]? = img[k]? := by
  unfold smoothBy
  obtain ⟨f, e, l, v⟩ := gauss_spec σ mem hmem
  dsimp only
  rw [e, Option.bind_eq_bind, Option.bind_some, mul_comm σ 3]
  have hfit : Fits img.length 33 33 33 := fun x hx y hy => by omega
  obtain ⟨o, e', l', v', w'⟩ := imsmooth_correct img img f f (mem (33 * 33)) 33 33 33 33 ⌈3 * σ⌉.toNat ⌈3 * σ⌉.toNat (by omega) (by omega) hfit (hmem _) hfit le_rfl l l
  refine ⟨o, e', l', ?_, fun k hk => w' k fun x hx y hy => by omega⟩
  intro x hx y hy
  rw [v' x hx y hy]
  congr 1
  have hp : ∀ X < 33, ∀ Y < 33, pix img 33 X Y = fivePoint X Y := by
    intro X hX Y hY
    unfold pix
    rw [List.getD_eq_getElem?_getD, hv _ (by omega), Option.getD_some, show (Y * 33 + X) % 33 = X by omega, show (Y * 33 + X) / 33 = Y by omega]
  have hin : ∀ X < 33, ∑ k ∈ range (2 * ⌈3 * σ⌉.toNat + 1), f.getD k 0 * pix img 33 X (clampTo 33 ((y : Int) - ((k : Int) - ⌈3 * σ⌉.toNat))) = ∑ Y ∈ range 33, cutBell σ ((y : Int) - Y) * fivePoint X Y := by
    intro X hX
    rw [← conv_bell σ (fivePoint X) (by simp [fivePoint]) (by simp [fivePoint]) y]
    refine Finset.sum_congr rfl fun k hk => ?_
    rw [Finset.mem_range] at hk
    rw [v k hk, hp X hX _ (clampTo_lt (by omega) _)]
  unfold lapOfGauss
  rw [← fivePoint_conv (cutBell σ) x y, ← conv_bell σ (fun X => ∑ Y ∈ range 33, cutBell σ ((y : Int) - Y) * fivePoint X Y) (by simp [fivePoint]) (by simp [fivePoint]) x]
  refine Finset.sum_congr rfl fun i hi => ?_
  rw [Finset.mem_range] at hi
  rw [v i hi, hin _ (clampTo_lt (by omega) _)]

theorem newLaplacian_spec (mem : Nat → List ℝ) (hmem : ∀ n, (mem n).length = n) (s : Nat) (bank : List ℝ) (h : s * 1089 + 1089 ≤ bank.length) :
    ∃ b, newLaplacian mem s bank = some b ∧ b.length = bank.length ∧ (∀ x : Nat, x < 33 → ∀ y : Nat, y < 33 → b[s * 1089 + (y * 33 + x)]? = some (lapOfGauss (bankSigma s) ((x : Int) - 16) ((y : Int) - 16))) ∧
      ∀ k, (k < s * 1089 ∨ s * 1089 + 1089 ≤ k) → b[k]? = bank[k]? := by
  obtain ⟨b, e, l, v, w⟩ := pattern_spec bank (s * 1089) h
  obtain ⟨o, e', l', v', w'⟩ := smoothPattern_spec mem hmem (b.drop (s * 1089)) (bankSigma s) (by rw [List.length_drop]; omega) (fun q hq => by rw [List.getElem?_drop]; exact v q hq)
  have hlt : (b.take (s * 1089)).length = s * 1089 := by rw [List.length_take]; omega
  refine ⟨b.take (s * 1089) ++ o, ?_, ?_, ?_, ?_⟩
  · unfold newLaplacian
    rw [← sigma_eq] at e'
    have := congrArg (fun t => Option.bind t fun bank => (smoothBy mem (bank.drop (s * 1089)) (bank.drop (s * 1089)) 33 (√((2 : ℝ) ^ (-0.5 + (s : ℝ) / (10 - 1)) * 2 ^ (-0.5 + (s : ℝ) / (10 - 1)) - 1 / √2 * (1 / √2)) / (0.5 * (1 / √2)))).bind fun o => some (bank.take (s * 1089) ++ o)) e
    simp only [Option.bind_eq_bind, Option.bind_some, e', Option.bind_assoc] at this
    exact this
  · rw [List.length_append, hlt, l', List.length_drop]
    omega
  · intro x hx y hy
    rw [List.getElem?_append_right (by omega), hlt, Nat.add_sub_cancel_left]
    exact v' x hx y hy
  · intro k hk
    rw [← w k hk]
    rcases hk with hk | hk
    · rw [List.getElem?_append_left (by omega), List.getElem?_take_of_lt hk]
    · rw [List.getElem?_append_right (by omega), hlt, w' _ (by omega), List.getElem?_drop]
      have : s * 1089 + (k - s * 1089) = k := by omega
      rw [this]

/-- **C193.**  Whatever the contents of the allocated blocks, the bank holds ten Laplacians of Gaussians: filter `s` is the five-point Laplacian of the normalised Gaussian whose
standard deviation takes a patch of scale `1 / √2` to the scale `2 ^ (s / 9) / √2`. -/
theorem newBank_correct (mem : Nat → List ℝ) (hmem : ∀ n, (mem n).length = n) (bank : List ℝ) (h : bank.length = 10 * (33 * 33)) :
    ∃ b, newBank mem bank = some b ∧ b.length = bank.length ∧
      ∀ s < 10, ∀ x : Nat, x < 33 → ∀ y : Nat, y < 33 → b[s * (33 * 33) + (y * 33 + x)]? = some (lapOfGauss (bankSigma s) ((x : Int) - 16) ((y : Int) - 16)) := by
  obtain ⟨b, e, l, v⟩ := iter_inv (n := 10) (f := newLaplacian mem) (s := bank)
    (fun i b => b.length = bank.length ∧ ∀ s < i, ∀ x : Nat, x < 33 → ∀ y : Nat, y < 33 → b[s * 1089 + (y * 33 + x)]? = some (lapOfGauss (bankSigma s) ((x : Int) - 16) ((y : Int) - 16))) ⟨rfl, by omega⟩ (by
      intro i hi b hb
      obtain ⟨b', e, l, v, w⟩ := newLaplacian_spec mem hmem i b (by omega)
      refine ⟨b', e, l.trans hb.1, ?_⟩
      intro s hs x hx y hy
      rcases Nat.lt_or_ge s i with h' | h'
      · rw [w _ (by omega)]
        exact hb.2 s h' x hx y hy
      · obtain rfl : s = i := (by omega)
        exact v x hx y hy)
  exact ⟨b, e, l, v⟩

/-! ### Moments of the filters -/

theorem lapOfGauss_even_x (σ : ℝ) (x y : Int) : lapOfGauss σ (-x) y = lapOfGauss σ x y := by
  unfold lapOfGauss
  rw [show -x + 1 = -(x - 1) by ring, show -x - 1 = -(x + 1) by ring, cutBell_even, cutBell_even, cutBell_even]
  ring

theorem lapOfGauss_swap (σ : ℝ) (x y : Int) : lapOfGauss σ x y = lapOfGauss σ y x := by
  unfold lapOfGauss
  ring

theorem lapOfGauss_sum (s : Nat) (hs : s < 10) : ∑ y ∈ range 33, ∑ x ∈ range 33, lapOfGauss (bankSigma s) ((x : Int) - 16) ((y : Int) - 16) = 0 := by
  have hr := bank_radius s hs
  obtain ⟨σ, hσ⟩ : ∃ σ, σ = bankSigma s := ⟨_, rfl⟩
  rw [← hσ] at hr ⊢
  have h0 : ∑ x ∈ range 33, cutBell σ ((x : Int) - 16) = 1 := cutBell_sum σ 33 16 (by omega) (by omega)
  have h1 : ∑ x ∈ range 33, cutBell σ ((x : Int) - 16 + 1) = 1 := by
    rw [← cutBell_sum σ 33 15 (by omega) (by omega)]
    exact Finset.sum_congr rfl fun x _ => by congr 1; ring
  have h2 : ∑ x ∈ range 33, cutBell σ ((x : Int) - 16 - 1) = 1 := by
    rw [← cutBell_sum σ 33 17 (by omega) (by omega)]
    exact Finset.sum_congr rfl fun x _ => by congr 1; ring
  unfold lapOfGauss
  simp only [Finset.sum_add_distrib, Finset.sum_sub_distrib, ← Finset.mul_sum, ← Finset.sum_mul, h0, h1, h2]
  norm_num

theorem lapOfGauss_moment (σ : ℝ) (y : Int) : ∑ x ∈ range 33, lapOfGauss σ ((x : Int) - 16) y * ((x : ℝ) - 16) = 0 := by
  have h := Finset.sum_range_reflect (fun x : Nat => lapOfGauss σ ((x : Int) - 16) y * ((x : ℝ) - 16)) 33
  have e : ∀ x ∈ range 33, lapOfGauss σ (((33 - 1 - x : Nat) : Int) - 16) y * (((33 - 1 - x : Nat) : ℝ) - 16) = -(lapOfGauss σ ((x : Int) - 16) y * ((x : ℝ) - 16)) := by
    intro x hx
    rw [Finset.mem_range] at hx
    rw [show ((33 - 1 - x : Nat) : Int) - 16 = -((x : Int) - 16) by omega, lapOfGauss_even_x, Nat.cast_sub (by omega)]
    push_cast
    ring
  rw [Finset.sum_congr rfl e, Finset.sum_neg_distrib] at h
  linarith

/-- A sum over a block of `n` rows. -/
theorem sum_block (f : Nat → ℝ) (m n : Nat) : ∑ q ∈ range (n * m), f q = ∑ y ∈ range n, ∑ x ∈ range m, f (y * m + x) := by
  induction n with
  | zero => simp
  | succ n ih => rw [Nat.succ_mul, Finset.sum_range_add, ih, Finset.sum_range_succ]

/-- The patch with a plane added to it. -/
def addPlane (c a b : ℝ) (patch patch' : List ℝ) : Prop := patch'.length = patch.length ∧ ∀ x < 33, ∀ y < 33, patch'.getD (y * 33 + x) 0 = patch.getD (y * 33 + x) 0 + (c + a * x + b * y)

/-- The responses of the bank do not change if a plane is added to the patch. -/
theorem response_plane (mem : Nat → List ℝ) (hmem : ∀ n, (mem n).length = n) (bank : List ℝ) (h : bank.length = 10 * (33 * 33)) {laps : List ℝ} (hl : newBank mem bank = some laps) (sigmaLap : Nat → ℝ) {c a b : ℝ} {patch patch' : List ℝ}
    (hp : addPlane c a b patch patch') (k : Nat) : lapResponse sigmaLap (33 * 33) laps patch' k = lapResponse sigmaLap (33 * 33) laps patch k := by
  obtain ⟨b', e, l, v⟩ := newBank_correct mem hmem bank h
  obtain rfl : b' = laps := Option.some.inj (e.symm.trans hl)
  unfold lapResponse
  refine congrArg (fun t => sigmaLap k ^ 2 * t) ?_
  rcases Nat.lt_or_ge k 10 with hk | hk
  · rw [sum_block _ 33 33, sum_block _ 33 33, ← sub_eq_zero, ← Finset.sum_sub_distrib]
    have e1 : ∀ y ∈ range 33, ∑ x ∈ range 33, b'.getD (k * (33 * 33) + (y * 33 + x)) 0 * patch'.getD (y * 33 + x) 0 - ∑ x ∈ range 33, b'.getD (k * (33 * 33) + (y * 33 + x)) 0 * patch.getD (y * 33 + x) 0 =
        (c + a * 16 + b * 16) * ∑ x ∈ range 33, lapOfGauss (bankSigma k) ((x : Int) - 16) ((y : Int) - 16) + ∑ x ∈ range 33, lapOfGauss (bankSigma k) ((x : Int) - 16) ((y : Int) - 16) * ((y : ℝ) - 16) * b := by
      intro y hy
      rw [Finset.mem_range] at hy
      have m := lapOfGauss_moment (bankSigma k) ((y : Int) - 16)
      have m' : ∑ x ∈ range 33, a * (lapOfGauss (bankSigma k) ((x : Int) - 16) ((y : Int) - 16) * ((x : ℝ) - 16)) = 0 := by rw [← Finset.mul_sum, m, mul_zero]
      refine Eq.trans ?_ (add_zero _)
      refine Eq.trans ?_ (congrArg (fun t => _ + t) m')
      rw [← Finset.sum_sub_distrib, Finset.mul_sum, ← Finset.sum_add_distrib, ← Finset.sum_add_distrib]
      refine Finset.sum_congr rfl fun x hx => ?_
      rw [Finset.mem_range] at hx
      rw [hp.2 x hx y hy, List.getD_eq_getElem?_getD (l := b'), v k hk x hx y hy, Option.getD_some]
      ring
    rw [Finset.sum_congr rfl e1, Finset.sum_add_distrib, ← Finset.mul_sum, lapOfGauss_sum k hk, mul_zero, zero_add, Finset.sum_comm]
    refine Finset.sum_eq_zero fun x _ => ?_
    rw [← Finset.sum_mul]
    have m := lapOfGauss_moment (bankSigma k) ((x : Int) - 16)
    rw [Finset.sum_congr rfl fun (y : Nat) _ => by rw [lapOfGauss_swap (bankSigma k) ((x : Int) - 16) ((y : Int) - 16)], m, zero_mul]
  · refine Finset.sum_congr rfl fun q _ => ?_
    rw [List.getD_eq_getElem?_getD (l := b'), List.getElem?_eq_none (by omega), Option.getD_none, zero_mul, zero_mul]

/-- **C194.**  The scales found with the bank, and their scores, do not depend on the brightness of the patch, nor on a linear gradient of it: they are the same for a patch and for the patch with a plane added. -/
theorem scales_plane (mem : Nat → List ℝ) (hmem : ∀ n, (mem n).length = n) (bank : List ℝ) (h : bank.length = 10 * (33 * 33)) {laps : List ℝ} (hl : newBank mem bank = some laps) (sigmaLap : Nat → ℝ) (scaleAt : ℝ → ℝ) (threshold : ℝ)
    {c a b : ℝ} {patch patch' junk junk' : List ℝ} (hp : addPlane c a b patch patch') (h2 : 33 * 33 ≤ patch.length) (h3 : junk.length = 10) (h3' : junk'.length = 10) {out : List (LapScale ℝ)} (h4 : out.length = 4) :
    (lapForPatch sigmaLap scaleAt threshold (33 * 33) laps patch junk out).isSome ∧
      lapForPatch sigmaLap scaleAt threshold (33 * 33) laps patch' junk' out = lapForPatch sigmaLap scaleAt threshold (33 * 33) laps patch junk out := by
  obtain ⟨b', e, l, v⟩ := newBank_correct mem hmem bank h
  obtain rfl : b' = laps := Option.some.inj (e.symm.trans hl)
  obtain ⟨T, hT, eT⟩ := lapForPatch_correct sigmaLap scaleAt threshold (n := 33 * 33) (laps := b') (patch := patch) (junk := junk) (out := out) (by omega) h2 h3 h4
  obtain ⟨T', hT', eT'⟩ := lapForPatch_correct sigmaLap scaleAt threshold (n := 33 * 33) (laps := b') (patch := patch') (junk := junk') (out := out) (by omega) (by rw [hp.1]; exact h2) h3' h4
  rw [funext (response_plane mem hmem bank h hl sigmaLap hp), ← hT] at hT'
  rw [eT, eT', hT']
  exact ⟨rfl, rfl⟩

/-! ### The mask -/

/-- **C195.**  The mask of the affine adaptation is the Gaussian window with the standard deviation 3 on the square of half-side 9: sample `(x, y)` is at the position `18 / 41 (x - 20, y - 20)`. -/
theorem newMask_correct (mask : List ℝ) (h : mask.length = 41 * 41) :
    ∃ m, newMask mask = some m ∧ m.length = 41 * 41 ∧ ∀ x : Nat, x < 41 → ∀ y : Nat, y < 41 → m[y * 41 + x]? = some (Real.exp (-(((18 / 41 * ((x : ℝ) - 20)) ^ 2 + (18 / 41 * ((y : ℝ) - 20)) ^ 2) / (2 * 3 ^ 2)))) := by
  obtain ⟨v, hv⟩ : ∃ v : Nat → Nat → ℝ, v = fun x y : Nat => Real.exp (-(((18 / 41 * ((x : ℝ) - 20)) ^ 2 + (18 / 41 * ((y : ℝ) - 20)) ^ 2) / (2 * 3 ^ 2))) := ⟨_, rfl⟩
  have hv' : ∀ x y : Nat, Real.exp (-(((18 / 41 * ((x : ℝ) - 20)) ^ 2 + (18 / 41 * ((y : ℝ) - 20)) ^ 2) / (2 * 3 ^ 2))) = v x y := fun x y => by rw [hv]
  simp only [hv']
  unfold newMask
  dsimp only
  refine iter_inv (fun b (m : List ℝ) => m.length = 41 * 41 ∧ ∀ x < 41, ∀ y < b, m[y * 41 + x]? = some (v x y)) ⟨h, by omega⟩ ?_
  intro b hb m hm
  obtain ⟨m', e, l, w, u⟩ := iter_inv (n := 41) (s := m) (f := fun a mask => wrI mask ((((a : Int) - 20) + 20) + (2 * 20 + 1) * (((b : Int) - 20) + 20)) (Real.exp (-0.5 * ((((a : Int) - 20 : Int) : ℝ) * ((2 * (3 * 3)) / (2 * (20 : Nat) + 1)) / 3 * ((((a : Int) - 20 : Int) : ℝ) * ((2 * (3 * 3)) / (2 * (20 : Nat) + 1)) / 3) + (((b : Int) - 20 : Int) : ℝ) * ((2 * (3 * 3)) / (2 * (20 : Nat) + 1)) / 3 * ((((b : Int) - 20 : Int) : ℝ) * ((2 * (3 * 3)) / (2 * (20 : Nat) + 1)) / 3)))))
    (fun a (m' : List ℝ) => m'.length = 41 * 41 ∧ (∀ x < 41, ∀ y < b, m'[y * 41 + x]? = some (v x y)) ∧ ∀ x < a, m'[b * 41 + x]? = some (v x b)) ⟨hm.1, hm.2, by omega⟩ (by
      intro a ha m' hm'
      have : (((a : Int) - 20) + 20) + (2 * 20 + 1) * (((b : Int) - 20) + 20) = ((b * 41 + a : Nat) : Int) := by push_cast; ring
      rw [wrI_eq _ _ _ _ this, wr_of_lt (by omega)]
      refine ⟨_, rfl, by simpa using hm'.1, ?_, ?_⟩
      · intro x hx y hy
        rw [List.getElem?_set_ne (by omega)]
        exact hm'.2.1 x hx y hy
      · intro x hx
        rcases Nat.lt_or_ge x a with h' | h'
        · rw [List.getElem?_set_ne (by omega)]
          exact hm'.2.2 x h'
        · obtain rfl : x = a := (by omega)
          rw [List.getElem?_set_self (by omega), ← hv']
          congr 2
          push_cast
          ring)
  refine ⟨m', e, l, ?_⟩
  intro x hx y hy
  rcases Nat.lt_or_ge y b with h' | h'
  · exact w x hx y h'
  · obtain rfl : y = b := (by omega)
    exact u x hx

/-! ### Cases -/

example : (List.replicate (10 * (33 * 33)) (7 : ℝ)).length = 10 * (33 * 33) := List.length_replicate

example : ∀ n, (List.replicate n (5 : ℝ)).length = n := fun _ => List.length_replicate

example : addPlane 3 0 0 (List.replicate (33 * 33) 1) (List.replicate (33 * 33) 4) := by
  refine ⟨by rw [List.length_replicate, List.length_replicate], fun x hx y hy => ?_⟩
  rw [List.getD_eq_getElem?_getD, List.getD_eq_getElem?_getD, List.getElem?_replicate, List.getElem?_replicate, if_pos (by omega), if_pos (by omega)]
  norm_num

/-- The first filter is the Laplacian itself, and the last one smooths with the standard deviation `√12`. -/
example : bankSigma 0 = 0 ∧ bankSigma 9 ^ 2 = 12 := by
  constructor
  · have := bankSigma_sq 0
    simpa using this
  · rw [bankSigma_sq]
    norm_num

end Verif.Covdet
