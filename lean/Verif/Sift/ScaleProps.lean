import Verif.Sift.ScaleModel
import Verif.Sift.ScaleSpec
import Verif.Sift.ResampleProps
import Verif.Toolbox.SmoothProps

/-!
# C191, C192: the Gaussian scale space of the SIFT filter
-/

namespace Verif.Sift

open Finset Imop

/-! ### Specification -/

/-- The image brought to the first octave: doubled by linear interpolation, or every `2^n`-th pixel. -/
noncomputable def resampled (w h : Nat) (im : Nat → Nat → ℝ) (oMin : Int) : Nat → Nat → ℝ :=
  if oMin < 0 then doubled w h im (-oMin).toNat else fun y x => im (2 ^ oMin.toNat * y) (2 ^ oMin.toNat * x)

/-! ### Smoothing -/

theorem lin_lt {w h x y : Nat} (hx : x < w) (hy : y < h) : y * w + x < w * h := by
  calc y * w + x < y * w + w := by omega
    _ = w * (y + 1) := by ring
    _ ≤ w * h := Nat.mul_le_mul_left _ hy

theorem twoPass (out image temp filter : List ℝ) (w h r : Nat) (hw : 0 < w) (hh : 0 < h) (himg : w * h ≤ image.length) (ht : w * h ≤ temp.length) (ho : w * h ≤ out.length)
    (hf : filter.length = 2 * r + 1) :
    ∃ t o, imconvcol temp h image w h w filter (-(r : Int)) r 1 true false = some t ∧ imconvcol out w t h w h filter (-(r : Int)) r 1 true false = some o ∧
      t.length = temp.length ∧ o.length = out.length ∧
      (∀ y < h, ∀ x < w, o[y * w + x]? = some (∑ i ∈ range (2 * r + 1), filter.getD i 0 * ∑ k ∈ range (2 * r + 1), filter.getD k 0 *
          pix image w (clampTo w ((x : Int) - ((i : Int) - r))) (clampTo h ((y : Int) - ((k : Int) - r))))) ∧
      ∀ q, w * h ≤ q → o[q]? = out[q]? := by
  have one : ∀ n, 0 < n → (n - 1) / 1 + 1 = n := fun n hn => by simp; omega
  have lt' : ∀ {x j}, x < w → j < h → x * h + j < w * h := fun hx hj => by
    rw [Nat.mul_comm w h]; exact lin_lt hj hx
  obtain ⟨b, e1, l1, v1, -⟩ := imconvcol_correct_partial temp image filter h w h w (-(r : Int)) r 1 true false hh
    (by omega) (fun x hx y hy => lt_of_lt_of_le (lin_lt hx hy) himg) (by omega) (by omega) (Or.inr (by omega))
    (by
      rw [one h hh]
      refine ⟨?_, by simp⟩
      intro x hx j hj
      simp only [dstAddr, if_true]
      exact lt_of_lt_of_le (lt' hx hj) ht)
  obtain ⟨m, e2, l2, v2, f2⟩ := imconvcol_correct_partial out b filter w h w h (-(r : Int)) r 1 true false hw
    (by omega) (fun x hx y hy => by rw [l1]; exact lt_of_lt_of_le (lt' hy hx) ht) (by omega) (by omega) (Or.inr (by omega))
    (by
      rw [one w hw]
      refine ⟨?_, by simp⟩
      intro x hx j hj
      simp only [dstAddr, if_true]
      exact lt_of_lt_of_le (lin_lt hj hx) ho)
  rw [one w hw] at v2 f2
  rw [one h hh] at v1
  refine ⟨b, m, e1, e2, l1, l2, ?_, ?_⟩
  · intro y hy x hx
    have h2 := v2 y hy x hx
    simp only [dstAddr, if_true, mul_one] at h2
    rw [h2, convSpec, hf]
    congr 1
    refine Finset.sum_congr rfl ?_
    intro i _
    rw [padded_clamp]
    congr 1
    have h1 := v1 (clampTo w ((x : Int) - (-(r : Int) + i))) (clampTo_lt hw _) y hy
    simp only [dstAddr, if_true, mul_one] at h1
    rw [pix, List.getD_eq_getElem?_getD, h1, convSpec, hf, Option.getD_some]
    refine Finset.sum_congr rfl ?_
    intro k _
    rw [padded_clamp]
    congr 2
    · congr 1; ring
    · congr 1; ring
  · intro k hk
    refine f2 k ?_
    intro y hy x hx
    simp only [dstAddr, if_true]
    have := lin_lt hx hy
    omega

theorem clampTo_nearest {n : Nat} (hn : 0 < n) (p : Int) : clampTo n p = nearest n p := by
  unfold clampTo nearest
  split_ifs <;> omega

theorem nearest_lt {n : Nat} (hn : 0 < n) (p : Int) : nearest n p < n := by
  rw [← clampTo_nearest hn]; exact clampTo_lt hn p

theorem blur_congr (σ : ℝ) (w h : Nat) (hw : 0 < w) (hh : 0 < h) (A B : Nat → Nat → ℝ) (e : ∀ y < h, ∀ x < w, A y x = B y x) (y x : Nat) : blur σ w h A y x = blur σ w h B y x := by
  unfold blur
  refine Finset.sum_congr rfl fun a _ => Finset.sum_congr rfl fun b _ => ?_
  rw [e _ (nearest_lt hh _) _ (nearest_lt hw _)]

/-- The filter kept by the object is none or that of its `sigma`. -/
def CacheOk (c : Cache) : Prop :=
  (c.sigma = 0 ∧ c.width = 0) ∨
    (0 < c.sigma ∧ c.width = reach c.sigma ∧ c.filter.length = 2 * reach c.sigma + 1 ∧ ∀ j < 2 * reach c.sigma + 1, c.filter[j]? = some (unitBell c.sigma ((j : Int) - reach c.sigma)))

theorem prepare_spec (mem : Nat → List ℝ) (hmem : ∀ n, (mem n).length = n) (c : Cache) (hc : CacheOk c) (σ : ℝ) (hσ : 0 < σ) :
    ∃ c', prepare mem c σ = some c' ∧ c'.sigma = σ ∧ CacheOk c' := by
  unfold prepare
  by_cases e : c.sigma = σ
  · rw [if_neg (not_not.mpr e)]
    exact ⟨c, rfl, e, hc⟩
  · rw [if_pos e, if_neg (ne_of_gt hσ)]
    have hW : (max ⌈4 * σ⌉ 1).toNat = reach σ := by unfold reach; omega
    obtain ⟨f, ef, lf, vf⟩ := Toolbox.drvFilter_spec (fun d : Int => Real.exp (-0.5 * ((d : ℝ) / σ * ((d : ℝ) / σ)))) (reach σ) (mem (2 * reach σ + 1)) (hmem _)
    rw [hW]
    refine ⟨⟨σ, reach σ, f⟩, ?_, rfl, Or.inr ⟨hσ, rfl, lf, ?_⟩⟩
    · show (Toolbox.drvFilter _ _ _).bind _ = _
      rw [ef]
      rfl
    · intro j hj
      have hb : ∀ d : Int, Real.exp (-0.5 * ((d : ℝ) / σ * ((d : ℝ) / σ))) = bellAt σ d := by
        intro d
        unfold bellAt
        congr 1
        have : σ ≠ 0 := ne_of_gt hσ
        field_simp
        norm_num
        ring
      show f[j]? = _
      rw [vf j hj]
      simp only [Toolbox.Kern.weight, hb]
      rfl

/-- What a step of the scale space leaves as it is. -/
structure Same (sp sp' : Space) : Prop where
  width : sp'.width = sp.width
  height : sp'.height = sp.height
  O : sp'.O = sp.O
  S : sp'.S = sp.S
  oMin : sp'.oMin = sp.oMin
  oCur : sp'.oCur = sp.oCur
  sigman : sp'.sigman = sp.sigman
  sigma0 : sp'.sigma0 = sp.sigma0
  sigmak : sp'.sigmak = sp.sigmak
  dsigma0 : sp'.dsigma0 = sp.dsigma0
  octaveWidth : sp'.octaveWidth = sp.octaveWidth
  octaveHeight : sp'.octaveHeight = sp.octaveHeight
  temp : sp'.temp.length = sp.temp.length
  octave : sp'.octave.length = sp.octave.length

theorem Same.refl (sp : Space) : Same sp sp := by constructor <;> rfl

theorem Same.trans {a b c : Space} (h : Same a b) (k : Same b c) : Same a c :=
  ⟨k.1.trans h.1, k.2.trans h.2, k.3.trans h.3, k.4.trans h.4, k.5.trans h.5, k.6.trans h.6, k.7.trans h.7, k.8.trans h.8, k.9.trans h.9, k.10.trans h.10, k.11.trans h.11, k.12.trans h.12,
    k.13.trans h.13, k.14.trans h.14⟩

/-- Level number `i` of a block has the image `A`. -/
def LevelIs (o : List ℝ) (w h i : Nat) (A : Nat → Nat → ℝ) : Prop := ∀ y < h, ∀ x < w, o[w * h * i + (y * w + x)]? = some (A y x)

theorem smoothLevel_spec (mem : Nat → List ℝ) (hmem : ∀ n, (mem n).length = n) (sp : Space) (hc : CacheOk sp.gauss) (dst src w h : Nat) (σ : ℝ) (hσ : 0 < σ) (hw : 0 < w) (hh : 0 < h)
    (ht : w * h ≤ sp.temp.length) (hs : w * h * (src + 1) ≤ sp.octave.length) (hd : w * h * (dst + 1) ≤ sp.octave.length) (A : Nat → Nat → ℝ) (hA : LevelIs sp.octave w h src A) :
    ∃ sp', smoothLevel mem sp dst src w h σ = some sp' ∧ Same sp sp' ∧ CacheOk sp'.gauss ∧ LevelIs sp'.octave w h dst (blur σ w h A) ∧
      ∀ q, q < w * h * dst → sp'.octave[q]? = sp.octave[q]? := by
  obtain ⟨c, ec, es, hc'⟩ := prepare_spec mem hmem sp.gauss hc σ hσ
  obtain ⟨h1, h2⟩ | ⟨-, hcw, hcl, hcv⟩ := id hc'
  · exact absurd (es ▸ h1) (ne_of_gt hσ)
  rw [es] at hcw hcl hcv
  have hrp : 0 < reach σ := by unfold reach; omega
  rw [Nat.mul_add, Nat.mul_one] at hs hd
  obtain ⟨t, o, e1, e2, l1, l2, v, fr⟩ := twoPass (sp.octave.drop (w * h * dst)) (sp.octave.drop (w * h * src)) sp.temp c.filter w h (reach σ) hw hh
    (by rw [List.length_drop]; omega) ht (by rw [List.length_drop]; omega) hcl
  have htake : (sp.octave.take (w * h * dst)).length = w * h * dst := by rw [List.length_take]; omega
  refine ⟨{ sp with temp := t, octave := sp.octave.take (w * h * dst) ++ o, gauss := c }, ?_, ?_, hc', ?_, ?_⟩
  · unfold smoothLevel
    rw [ec]
    dsimp only [Option.bind_eq_bind, Option.bind_some]
    rw [if_neg (by omega), hcw, e1]
    dsimp only [Option.bind_some]
    rw [e2]
    rfl
  · constructor <;> try rfl
    · exact l1
    · show (_ ++ o).length = _
      rw [List.length_append, htake, l2, List.length_drop]; omega
  · intro y hy x hx
    show (_ ++ o)[_]? = _
    rw [List.getElem?_append_right (by rw [htake]; omega), htake, Nat.add_sub_cancel_left, v y hy x hx]
    congr 1
    unfold blur
    rw [Finset.sum_comm]
    refine Finset.sum_congr rfl fun i hi => ?_
    rw [Finset.mul_sum]
    refine Finset.sum_congr rfl fun k hk => ?_
    rw [List.getD_eq_getElem?_getD, hcv i (Finset.mem_range.mp hi), List.getD_eq_getElem?_getD, hcv k (Finset.mem_range.mp hk), clampTo_nearest hw, clampTo_nearest hh]
    unfold pix
    rw [List.getD_eq_getElem?_getD, List.getElem?_drop, hA _ (nearest_lt hh _) _ (nearest_lt hw _)]
    simp only [Option.getD_some]
    ring
  · intro q hq
    show (_ ++ o)[_]? = _
    rw [List.getElem?_append_left (by omega), List.getElem?_take_of_lt hq]

/-! ### Scales -/

theorem scaleOf_eq (S i : Nat) : scaleOf S i = 1.6 * ((2 : ℝ) ^ ((1 : ℝ) / S)) ^ i := by
  unfold scaleOf
  rw [← Real.rpow_natCast, ← Real.rpow_mul (by norm_num)]
  congr 2
  ring

theorem factor_gt (S : Nat) (hS : 1 ≤ S) : 1 < (2 : ℝ) ^ ((1 : ℝ) / S) := by
  have h0 : (0 : ℝ) < S := by exact_mod_cast hS
  exact Real.one_lt_rpow (by norm_num) (by positivity)

theorem factor_inc (k : ℝ) (hk : 1 < k) (i : Nat) : 0 < 1.6 * k * √(1 - 1 / (k * k)) * k ^ i ∧ 1.6 * k * √(1 - 1 / (k * k)) * k ^ i = √((1.6 * k ^ (i + 1)) ^ 2 - (1.6 * k ^ i) ^ 2) := by
  have h0 : 0 < k := by linarith
  have hp : 0 < k ^ i := by positivity
  have hq : 0 < 1 - 1 / (k * k) := by
    have : 1 / (k * k) < 1 := by
      rw [div_lt_one (by positivity)]
      nlinarith
    linarith
  have hs : 0 < √(1 - 1 / (k * k)) := Real.sqrt_pos.mpr hq
  refine ⟨by positivity, ?_⟩
  symm
  rw [show (1.6 * k ^ (i + 1)) ^ 2 - (1.6 * k ^ i) ^ 2 = (1.6 * k * k ^ i) ^ 2 * (1 - 1 / (k * k)) by field_simp; ring]
  rw [Real.sqrt_mul (by positivity), Real.sqrt_sq (by positivity)]
  ring

/-- The scales of the object are those of `S` levels. -/
def Params (sp : Space) (S : Nat) : Prop :=
  sp.S = S ∧ sp.sigman = 0.5 ∧ sp.sigmak = 2 ^ ((1 : ℝ) / S) ∧ sp.sigma0 = 1.6 * sp.sigmak ∧ sp.dsigma0 = sp.sigma0 * √(1 - 1 / (sp.sigmak * sp.sigmak))

theorem Same.params {a b : Space} {S : Nat} (h : Same a b) (p : Params a S) : Params b S := by
  obtain ⟨p1, p2, p3, p4, p5⟩ := p
  refine ⟨h.S.trans p1, h.sigman.trans p2, h.sigmak.trans p3, ?_, ?_⟩
  · rw [h.sigma0, h.sigmak, p4]
  · rw [h.dsigma0, h.sigma0, h.sigmak, p5]

theorem Params.inc {sp : Space} {S : Nat} (p : Params sp S) (hS : 1 ≤ S) (i : Nat) :
    0 < sp.dsigma0 * sp.sigmak ^ i ∧ sp.dsigma0 * sp.sigmak ^ i = √(scaleOf S (i + 1) ^ 2 - scaleOf S i ^ 2) := by
  obtain ⟨-, -, p3, p4, p5⟩ := p
  rw [scaleOf_eq, scaleOf_eq, p5, p4, p3]
  exact factor_inc _ (factor_gt S hS) i

theorem Params.base {sp : Space} {S : Nat} (p : Params sp S) (hS : 1 ≤ S) : sp.sigma0 * sp.sigmak ^ (-1 : Int) = scaleOf S 0 := by
  obtain ⟨-, -, p3, p4, -⟩ := p
  have : sp.sigmak ≠ 0 := by rw [p3]; exact ne_of_gt (by linarith [factor_gt S hS])
  rw [p4, scaleOf_eq, zpow_neg_one, pow_zero]
  field_simp

theorem fillOctave_spec (mem : Nat → List ℝ) (hmem : ∀ n, (mem n).length = n) (sp : Space) (S : Nat) (hS : 1 ≤ S) (hp : Params sp S) (hc : CacheOk sp.gauss) (w h : Nat) (hw : 0 < w) (hh : 0 < h)
    (ht : w * h ≤ sp.temp.length) (ho : w * h * (S + 3) ≤ sp.octave.length) (A : Nat → Nat → ℝ) (hA : LevelIs sp.octave w h 0 A) :
    ∃ sp', fillOctave mem w h sp = some sp' ∧ Same sp sp' ∧ CacheOk sp'.gauss ∧ ∀ i < S + 3, LevelIs sp'.octave w h i (levelOf S w h A i) := by
  have hS' : sp.S = S := hp.1
  obtain ⟨sp', e, h1, h2, h3⟩ := iter_inv (n := S + 2) (s := sp) (f := fun i s => smoothLevel mem s (i + 1) i w h (s.dsigma0 * s.sigmak ^ i))
    (fun n s => Same sp s ∧ CacheOk s.gauss ∧ ∀ i < n + 1, LevelIs s.octave w h i (levelOf S w h A i))
    ⟨Same.refl sp, hc, by
      intro i hi
      obtain rfl : i = 0 := (by omega)
      exact hA⟩ (by
    rintro n hn s ⟨h1, h2, h3⟩
    obtain ⟨i1, i2⟩ := (h1.params hp).inc hS n
    have m1 : w * h * (n + 1) ≤ w * h * (S + 3) := Nat.mul_le_mul_left _ (by omega)
    have m2 : w * h * (n + 1 + 1) ≤ w * h * (S + 3) := Nat.mul_le_mul_left _ (by omega)
    obtain ⟨s', e, k1, k2, k3, k4⟩ := smoothLevel_spec mem hmem s h2 (n + 1) n w h _ i1 hw hh (by rw [h1.temp]; exact ht) (by rw [h1.octave]; omega) (by rw [h1.octave]; omega)
      (levelOf S w h A n) (h3 n (by omega))
    refine ⟨s', e, h1.trans k1, k2, ?_⟩
    intro i hi
    by_cases hin : i = n + 1
    · subst hin
      rw [i2] at k3
      exact k3
    · intro y hy x hx
      have m3 : w * h * (i + 1) ≤ w * h * (n + 1) := Nat.mul_le_mul_left _ (by omega)
      rw [Nat.mul_add, Nat.mul_one] at m3
      have := lin_lt hx hy
      rw [k4 _ (by omega)]
      exact h3 i (by omega) y hy x hx)
  refine ⟨sp', ?_, h1, h2, h3⟩
  unfold fillOctave
  rw [hS']
  exact e

/-! ### Sizes -/

theorem shiftLeft_sideIn (n : Nat) (o : Int) : shiftLeft n (-o) = sideIn n o := by
  unfold shiftLeft sideIn
  by_cases h : o ≤ 0
  · rw [if_pos h, if_pos (by omega), Nat.shiftLeft_eq]
  · rw [if_neg h, if_neg (by omega), Nat.shiftRight_eq_div_pow, neg_neg]

theorem sideIn_succ (n : Nat) (o : Int) : sideIn n (o + 1) = sideIn n o / 2 := by
  unfold sideIn
  by_cases h : o + 1 ≤ 0
  · rw [if_pos h, if_pos (by omega)]
    obtain ⟨k, hk⟩ : ∃ k : Nat, k = (-(o + 1)).toNat := ⟨_, rfl⟩
    rw [← hk, show (-o).toNat = k + 1 by omega, pow_succ, ← Nat.mul_assoc, Nat.mul_div_cancel _ (by omega)]
  · rw [if_neg h]
    obtain ⟨k, hk⟩ : ∃ k : Nat, k = o.toNat := ⟨_, rfl⟩
    rw [show (o + 1).toNat = k + 1 by omega]
    by_cases h0 : o ≤ 0
    · rw [if_pos h0, show k = 0 by omega, show (-o).toNat = 0 by omega]
      simp
    · rw [if_neg h0, ← hk, pow_succ, Nat.div_div_eq_div_mul]

theorem sideIn_anti (n : Nat) (o : Int) (k : Nat) : sideIn n (o + k) ≤ sideIn n o := by
  induction k with
  | zero => simp
  | succ k ih =>
    have : o + ((k + 1 : Nat) : Int) = o + k + 1 := by push_cast; ring
    rw [this, sideIn_succ]
    exact (Nat.div_le_self _ _).trans ih

theorem sideIn_le (n : Nat) {o o' : Int} (h : o ≤ o') : sideIn n o' ≤ sideIn n o := by
  have := sideIn_anti n o (o' - o).toNat
  rwa [show o + ((o' - o).toNat : Int) = o' by omega] at this

/-! ### Octaves -/

/-- What holds of an object of which all octaves have pixels, whatever was done with it. -/
structure Good (width height S : Nat) (O oMin : Int) (sp : Space) : Prop where
  w : sp.width = width
  h : sp.height = height
  oct : sp.O = O
  first : sp.oMin = oMin
  params : Params sp S
  cache : CacheOk sp.gauss
  temp : sp.temp.length = sideIn width oMin * sideIn height oMin
  octave : sp.octave.length = sideIn width oMin * sideIn height oMin * (S + 3)
  lo : oMin ≤ sp.oCur
  hi : sp.oCur ≤ oMin + O - 1
  ow : sp.octaveWidth ≤ sideIn width oMin
  oh : sp.octaveHeight ≤ sideIn height oMin

theorem new_good (mem : Nat → List ℝ) (hmem : ∀ n, (mem n).length = n) (width height S : Nat) (O oMin : Int) (hO : 1 ≤ O) : Good width height S O oMin (newSpace mem width height O S oMin) := by
  constructor <;> try rfl
  · exact ⟨rfl, rfl, rfl, rfl, rfl⟩
  · exact Or.inl ⟨rfl, rfl⟩
  · show (mem _).length = _
    rw [hmem, shiftLeft_sideIn, shiftLeft_sideIn]
  · show (mem _).length = _
    rw [hmem, shiftLeft_sideIn, shiftLeft_sideIn]
  · show oMin ≤ oMin + O - 1
    omega
  · exact Nat.zero_le _
  · exact Nat.zero_le _

theorem levelOf_congr (S w h : Nat) (hw : 0 < w) (hh : 0 < h) (A B : Nat → Nat → ℝ) (e : ∀ y < h, ∀ x < w, A y x = B y x) (i : Nat) :
    ∀ y < h, ∀ x < w, levelOf S w h A i y x = levelOf S w h B i y x := by
  induction i with
  | zero => exact e
  | succ i ih => intro y _ x _; exact blur_congr _ w h hw hh _ _ ih y x

theorem holds_self (o : List ℝ) (w h i : Nat) (ho : w * h * (i + 1) ≤ o.length) : LevelIs o w h i (fun y x => o.getD (w * h * i + (y * w + x)) 0) := by
  intro y hy x hx
  have := lin_lt hx hy
  rw [Nat.mul_add, Nat.mul_one] at ho
  rw [List.getElem?_eq_getElem (by omega)]
  exact congrArg some (List.getD_eq_getElem _ _ _).symm

theorem base_spec (temp octave im : List ℝ) (width height S : Nat) (oMin : Int) (hw : 0 < sideIn width oMin) (hh : 0 < sideIn height oMin) (hsq : -1 ≤ oMin ∨ width = height) (him : im.length = height * width)
    (ht : temp.length = sideIn width oMin * sideIn height oMin) (ho : octave.length = sideIn width oMin * sideIn height oMin * (S + 3)) :
    ∃ b : List ℝ × List ℝ, (if oMin < 0 then upsampleImage temp octave im width height (-oMin).toNat
      else if oMin > 0 then (downsample octave im width height oMin.toNat).map fun r => (temp, r.1)
      else (iter (width * height) (fun i o => do
        let v ← rd im i
        wr o i v) octave).map fun o => (temp, o)) = some b ∧ b.1.length = temp.length ∧ b.2.length = octave.length ∧
      LevelIs b.2 (sideIn width oMin) (sideIn height oMin) 0 (resampled width height (img im width) oMin) := by
  have hmore : sideIn width oMin * sideIn height oMin ≤ octave.length := by
    rw [ho]; exact Nat.le_mul_of_pos_right _ (by omega)
  unfold resampled
  by_cases hneg : oMin < 0
  · rw [if_pos hneg, if_pos hneg]
    obtain ⟨n, hn⟩ : ∃ n : Nat, n = (-oMin).toNat := ⟨_, rfl⟩
    rw [← hn]
    have ew : ∀ m, sideIn m oMin = m * 2 ^ n := fun m => by unfold sideIn; rw [if_pos (by omega), hn]
    rw [ew, ew] at *
    have c : height * 2 ^ n * (width * 2 ^ n) = width * 2 ^ n * (height * 2 ^ n) := Nat.mul_comm _ _
    obtain ⟨t, o, e, l1, l2, v⟩ := upsampleImage_correct_partial temp octave im width height n (by omega) (Nat.pos_of_mul_pos_right hw) (Nat.pos_of_mul_pos_right hh) him (by omega) (by omega)
      (by rcases hsq with h | h; exact Or.inl (by omega); exact Or.inr h)
    refine ⟨(t, o), e, l1, l2, ?_⟩
    intro y hy x hx
    have hlt := lin_lt hx hy
    have := v y hy x hx
    dsimp only
    rw [← this, Nat.mul_zero, Nat.zero_add, List.getElem?_eq_getElem (by omega)]
    exact congrArg some (List.getD_eq_getElem _ _ _).symm
  · rw [if_neg hneg, if_neg hneg]
    obtain ⟨n, hn⟩ : ∃ n : Nat, n = oMin.toNat := ⟨_, rfl⟩
    rw [← hn]
    have ew : ∀ m, sideIn m oMin = m / 2 ^ n := fun m => by
      unfold sideIn
      by_cases h0 : oMin ≤ 0
      · rw [if_pos h0, show (-oMin).toNat = 0 by omega, show n = 0 by omega]; simp
      · rw [if_neg h0, hn]
    rw [ew, ew] at *
    by_cases hp : oMin > 0
    · rw [if_pos hp]
      have hp2 : 0 < 2 ^ n := Nat.two_pow_pos n
      have hup : (height + 2 ^ n - 1) / 2 ^ n ≤ height / 2 ^ n + 1 := by
        rw [← Nat.add_div_right _ hp2]
        exact Nat.div_le_div_right (by omega)
      have hlo : height / 2 ^ n ≤ (height + 2 ^ n - 1) / 2 ^ n := Nat.div_le_div_right (by omega)
      have hdst : (height + 2 ^ n - 1) / 2 ^ n * (width / 2 ^ n) ≤ octave.length := by
        rw [ho]
        calc (height + 2 ^ n - 1) / 2 ^ n * (width / 2 ^ n) ≤ (height / 2 ^ n * 2) * (width / 2 ^ n) := Nat.mul_le_mul_right _ (by omega)
          _ = width / 2 ^ n * (height / 2 ^ n) * 2 := by ring
          _ ≤ width / 2 ^ n * (height / 2 ^ n) * (S + 3) := Nat.mul_le_mul_left _ (by omega)
      obtain ⟨o, e, l, v, -⟩ := downsample_correct octave im width height n (by omega) hdst
      refine ⟨(temp, o), by rw [e]; rfl, rfl, l, ?_⟩
      intro y hy x hx
      dsimp only
      rw [Nat.mul_zero, Nat.zero_add]
      exact v y (by omega) x hx
    · rw [if_neg hp]
      have hn0 : n = 0 := by omega
      subst hn0
      simp only [pow_zero, Nat.div_one, one_mul] at *
      have hc : height * width = width * height := Nat.mul_comm _ _
      obtain ⟨o, e, l, v⟩ := iter_inv (n := width * height) (s := octave) (f := fun i o => do
          let v ← rd im i
          wr o i v) (fun n o => o.length = octave.length ∧ ∀ i < n, o[i]? = im[i]?) ⟨rfl, by omega⟩ (by
        rintro k hk o ⟨l, v⟩
        refine ⟨o.set k (im.getD k 0), ?_, by simpa using l, ?_⟩
        · rw [rdD _ _ (by omega)]
          exact wr_of_lt (by omega) _
        · intro i hi
          by_cases hik : i = k
          · subst hik
            rw [List.getElem?_set_self (by omega), List.getElem?_eq_getElem (show i < im.length by omega)]
            exact congrArg some (List.getD_eq_getElem _ _ _)
          · rw [List.getElem?_set_ne (by omega)]
            exact v i (by omega))
      refine ⟨(temp, o), by rw [e]; rfl, rfl, l, ?_⟩
      intro y hy x hx
      have hlt := lin_lt hx hy
      dsimp only
      rw [Nat.mul_zero, Nat.zero_add, v _ hlt, List.getElem?_eq_getElem (by omega)]
      exact congrArg some (List.getD_eq_getElem _ _ _).symm

theorem first_spec (mem : Nat → List ℝ) (hmem : ∀ n, (mem n).length = n) (width height S : Nat) (O oMin : Int) (hS : 1 ≤ S) (hO : 1 ≤ O) (hw : 0 < sideIn width oMin) (hh : 0 < sideIn height oMin)
    (hsq : -1 ≤ oMin ∨ width = height) (im : List ℝ) (him : im.length = height * width) (sp : Space) (hg : Good width height S O oMin sp) :
    ∃ sp', firstOctave mem sp im = some (.ok, sp') ∧ Good width height S O oMin sp' ∧ sp'.oCur = oMin ∧ sp'.octaveWidth = sideIn width oMin ∧ sp'.octaveHeight = sideIn height oMin ∧
      ∀ i < S + 3, LevelIs sp'.octave (sideIn width oMin) (sideIn height oMin) i (octaveLevel S oMin width height (resampled width height (img im width) oMin) 0 i) := by
  obtain ⟨g1, g2, g3, g4, g5, g6, g7, g8, g9, g10, g11, g12⟩ := hg
  subst g1 g2 g4
  obtain ⟨b, eb, lb1, lb2, hb⟩ := base_spec sp.temp sp.octave im _ _ S _ hw hh hsq him g7 g8
  obtain ⟨sp1, hsp1⟩ : ∃ s : Space, s = { sp with oCur := sp.oMin, octaveWidth := sideIn sp.width sp.oMin, octaveHeight := sideIn sp.height sp.oMin, temp := b.1, octave := b.2 } := ⟨_, rfl⟩
  have hp1 : Params sp1 S := by rw [hsp1]; exact g5
  have hc1 : CacheOk sp1.gauss := by rw [hsp1]; exact g6
  have ht1 : sp1.temp.length = sideIn sp.width sp.oMin * sideIn sp.height sp.oMin := by rw [hsp1]; exact lb1.trans g7
  have ho1 : sp1.octave.length = sideIn sp.width sp.oMin * sideIn sp.height sp.oMin * (S + 3) := by rw [hsp1]; exact lb2.trans g8
  have hb1 : LevelIs sp1.octave (sideIn sp.width sp.oMin) (sideIn sp.height sp.oMin) 0 (resampled sp.width sp.height (img im sp.width) sp.oMin) := by rw [hsp1]; exact hb
  have hmore : sideIn sp.width sp.oMin * sideIn sp.height sp.oMin * (0 + 1) ≤ sp1.octave.length := by
    rw [ho1]; exact Nat.mul_le_mul_left _ (by omega)
  have esb : sp1.sigman * 2 ^ (-sp1.oMin) = 0.5 * 2 ^ (-sp.oMin) := by rw [hp1.2.1, hsp1]
  have esa := hp1.base hS
  have h2 : ∃ sp2, (if sp1.sigma0 * sp1.sigmak ^ (-1 : Int) > sp1.sigman * 2 ^ (-sp1.oMin) then
        smoothLevel mem sp1 0 0 (sideIn sp.width sp.oMin) (sideIn sp.height sp.oMin) (√(sp1.sigma0 * sp1.sigmak ^ (-1 : Int) * (sp1.sigma0 * sp1.sigmak ^ (-1 : Int)) - sp1.sigman * 2 ^ (-sp1.oMin) * (sp1.sigman * 2 ^ (-sp1.oMin))))
      else some sp1) = some sp2 ∧ Same sp1 sp2 ∧ CacheOk sp2.gauss ∧
      LevelIs sp2.octave (sideIn sp.width sp.oMin) (sideIn sp.height sp.oMin) 0 (firstBase S sp.oMin (sideIn sp.width sp.oMin) (sideIn sp.height sp.oMin) (resampled sp.width sp.height (img im sp.width) sp.oMin)) := by
    rw [esa, esb]
    unfold firstBase
    by_cases hlt : (0.5 : ℝ) * 2 ^ (-sp.oMin) < scaleOf S 0
    · rw [if_pos hlt, if_pos hlt]
      have h5 : (0 : ℝ) < 0.5 * 2 ^ (-sp.oMin) := by positivity
      have hsd : 0 < √(scaleOf S 0 ^ 2 - (0.5 * 2 ^ (-sp.oMin)) ^ 2) := Real.sqrt_pos.mpr (by nlinarith)
      rw [show scaleOf S 0 * scaleOf S 0 - 0.5 * 2 ^ (-sp.oMin) * (0.5 * 2 ^ (-sp.oMin)) = scaleOf S 0 ^ 2 - (0.5 * 2 ^ (-sp.oMin)) ^ 2 by ring]
      obtain ⟨sp2, e, k1, k2, k3, -⟩ := smoothLevel_spec mem hmem sp1 hc1 0 0 _ _ _ hsd hw hh (le_of_eq ht1.symm) hmore hmore _ hb1
      exact ⟨sp2, e, k1, k2, k3⟩
    · rw [if_neg hlt, if_neg hlt]
      exact ⟨sp1, rfl, Same.refl _, hc1, hb1⟩
  obtain ⟨sp2, e2, k1, k2, k3⟩ := h2
  obtain ⟨sp3, e3, m1, m2, m3⟩ := fillOctave_spec mem hmem sp2 S hS (k1.params hp1) k2 _ _ hw hh (by rw [k1.temp, ht1]) (by rw [k1.octave, ho1]) _ k3
  have k := k1.trans m1
  have cur : sp3.oCur = sp.oMin := by rw [k.oCur, hsp1]
  have cw : sp3.octaveWidth = sideIn sp.width sp.oMin := by rw [k.octaveWidth, hsp1]
  have ch : sp3.octaveHeight = sideIn sp.height sp.oMin := by rw [k.octaveHeight, hsp1]
  refine ⟨sp3, ?_, ⟨?_, ?_, ?_, ?_, k.params hp1, m2, by rw [k.temp, ht1], by rw [k.octave, ho1], by omega, by omega, le_of_eq cw, le_of_eq ch⟩, cur, cw, ch, m3⟩
  · unfold firstOctave
    dsimp only
    rw [if_neg (by omega), eb]
    dsimp only [Option.bind_eq_bind, Option.bind_some]
    rw [shiftLeft_sideIn, shiftLeft_sideIn]
    subst hsp1
    refine (congrArg (fun o => Option.bind o fun s => (fillOctave mem (sideIn sp.width sp.oMin) (sideIn sp.height sp.oMin) s).bind fun s => some (Err.ok, s)) e2).trans ?_
    show (fillOctave _ _ _ _).bind _ = _
    rw [e3]
    rfl
  · rw [k.width, hsp1]
  · rw [k.height, hsp1]
  · rw [k.O, hsp1]; exact g3
  · rw [k.oMin, hsp1]

theorem next_spec (mem : Nat → List ℝ) (hmem : ∀ n, (mem n).length = n) (width height S : Nat) (O oMin : Int) (hS : 1 ≤ S) (hw : 0 < sideIn width (oMin + O - 1)) (hh : 0 < sideIn height (oMin + O - 1))
    (sp : Space) (hg : Good width height S O oMin sp) (o : Int) (ho : o = sp.oCur + 1) (hlt : o ≤ oMin + O - 1) :
    ∃ sp' base, nextOctave mem sp = some (.ok, sp') ∧ Good width height S O oMin sp' ∧ sp'.oCur = o ∧ sp'.octaveWidth = sideIn width o ∧ sp'.octaveHeight = sideIn height o ∧
      (sp.octaveWidth = sideIn width sp.oCur → sp.octaveHeight = sideIn height sp.oCur → ∀ A, LevelIs sp.octave sp.octaveWidth sp.octaveHeight S A →
        ∀ y < sideIn height o, ∀ x < sideIn width o, base y x = A (2 * y) (2 * x)) ∧
      ∀ i < S + 3, LevelIs sp'.octave (sideIn width o) (sideIn height o) i (levelOf S (sideIn width o) (sideIn height o) base i) := by
  obtain ⟨g1, g2, g3, g4, g5, g6, g7, g8, g9, g10, g11, g12⟩ := hg
  have hS5 : sp.S = S := g5.1
  subst g1 g2 hS5 ho
  have ww : 0 < sideIn sp.width (sp.oCur + 1) := lt_of_lt_of_le hw (sideIn_le _ hlt)
  have hhh : 0 < sideIn sp.height (sp.oCur + 1) := lt_of_lt_of_le hh (sideIn_le _ hlt)
  have lw : sideIn sp.width (sp.oCur + 1) ≤ sideIn sp.width oMin := sideIn_le _ (by omega)
  have lh : sideIn sp.height (sp.oCur + 1) ≤ sideIn sp.height oMin := sideIn_le _ (by omega)
  have area : sp.octaveWidth * sp.octaveHeight ≤ sideIn sp.width oMin * sideIn sp.height oMin := Nat.mul_le_mul g11 g12
  have area' : sideIn sp.width (sp.oCur + 1) * sideIn sp.height (sp.oCur + 1) ≤ sideIn sp.width oMin * sideIn sp.height oMin := Nat.mul_le_mul lw lh
  have tot : sp.octaveWidth * sp.octaveHeight * (sp.S + 1) ≤ sp.octave.length := by
    rw [g8]; exact Nat.mul_le_mul area (by omega)
  have tot' : sideIn sp.width (sp.oCur + 1) * sideIn sp.height (sp.oCur + 1) * (sp.S + 3) ≤ sp.octave.length := by
    rw [g8]; exact Nat.mul_le_mul_right _ area'
  have hcomm : sp.octaveHeight * sp.octaveWidth = sp.octaveWidth * sp.octaveHeight := Nat.mul_comm _ _
  rw [Nat.mul_add, Nat.mul_one] at tot
  obtain ⟨d, ed, ld, vd, -⟩ := downsample_correct sp.octave (sp.octave.drop (sp.octaveWidth * sp.octaveHeight * sp.S)) sp.octaveWidth sp.octaveHeight 1 (by rw [List.length_drop]; omega) (by
    have h1 : (sp.octaveHeight + 2 ^ 1 - 1) / 2 ^ 1 ≤ sp.octaveHeight := by omega
    have h2 : sp.octaveWidth / 2 ^ 1 ≤ sp.octaveWidth := by omega
    have := Nat.mul_le_mul h1 h2
    omega)
  obtain ⟨sp1, hsp1⟩ : ∃ s : Space, s = { sp with oCur := (sp.oCur + 1), octaveWidth := sideIn sp.width (sp.oCur + 1), octaveHeight := sideIn sp.height (sp.oCur + 1), octave := d } := ⟨_, rfl⟩
  have hp1 : Params sp1 sp.S := by rw [hsp1]; exact g5
  have hc1 : CacheOk sp1.gauss := by rw [hsp1]; exact g6
  have lo1 : sp1.octave.length = sp.octave.length := by rw [hsp1]; exact ld
  obtain ⟨sp3, e3, k, m2, m3⟩ := fillOctave_spec mem hmem sp1 sp.S hS hp1 hc1 (sideIn sp.width (sp.oCur + 1)) (sideIn sp.height (sp.oCur + 1)) ww hhh (by rw [hsp1]; show _ ≤ sp.temp.length; omega) (by omega) _
    (holds_self sp1.octave (sideIn sp.width (sp.oCur + 1)) (sideIn sp.height (sp.oCur + 1)) 0 (by
      have : sideIn sp.width (sp.oCur + 1) * sideIn sp.height (sp.oCur + 1) * (0 + 1) ≤ sideIn sp.width (sp.oCur + 1) * sideIn sp.height (sp.oCur + 1) * (sp.S + 3) := Nat.mul_le_mul_left _ (by omega)
      omega))
  have cur : sp3.oCur = (sp.oCur + 1) := by rw [k.oCur, hsp1]
  have cw : sp3.octaveWidth = sideIn sp.width (sp.oCur + 1) := by rw [k.octaveWidth, hsp1]
  have ch : sp3.octaveHeight = sideIn sp.height (sp.oCur + 1) := by rw [k.octaveHeight, hsp1]
  refine ⟨sp3, _, ?_, ⟨?_, ?_, ?_, ?_, k.params hp1, m2, ?_, by rw [k.octave, lo1, g8], by omega, by omega, by omega, by omega⟩, cur, cw, ch, ?_, m3⟩
  · unfold nextOctave
    have hb : min (-1 + (sp.S : Int)) ((sp.S : Int) + 1) = sp.S - 1 := by omega
    rw [if_neg (by omega), hb]
    dsimp only
    rw [show ((sp.S : Int) - 1 + 1).toNat = sp.S by omega, ed]
    dsimp only [Option.bind_eq_bind, Option.bind_some]
    rw [shiftLeft_sideIn, shiftLeft_sideIn, show (sp.S : Int) - 1 - sp.S = -1 by ring, if_neg (lt_irrefl _), ← hsp1]
    dsimp only [Option.bind_some]
    rw [e3]
    rfl
  · rw [k.width, hsp1]
  · rw [k.height, hsp1]
  · rw [k.O, hsp1]; exact g3
  · rw [k.oMin, hsp1]; exact g4
  · rw [k.temp, hsp1]; exact g7
  · intro hw1 hh1 A hA y hy x hx
    have e1 : sideIn sp.width (sp.oCur + 1) = sp.octaveWidth / 2 := by rw [sideIn_succ, hw1]
    have e2 : sideIn sp.height (sp.oCur + 1) = sp.octaveHeight / 2 := by rw [sideIn_succ, hh1]
    have := vd y (by omega) x (by rw [pow_one]; omega)
    rw [pow_one, ← e1] at this
    rw [Nat.mul_zero, Nat.zero_add, List.getD_eq_getElem?_getD, hsp1]
    dsimp only
    rw [this]
    have hv := hA (2 * y) (by omega) (2 * x) (by omega)
    unfold img
    rw [Option.getD_some, List.getD_eq_getElem?_getD, List.getElem?_drop, hv]
    rfl

/-! ### Histories -/

/-- The calls of a user. -/
inductive UserCall
  | first (im : List ℝ)
  | next

/-- The object after a history of calls, whose results are ignored. -/
noncomputable def history (mem : Nat → List ℝ) (sp : Space) : List UserCall → Option Space
  | [] => some sp
  | .first im :: l => (firstOctave mem sp im).bind fun r => history mem r.2 l
  | .next :: l => (nextOctave mem sp).bind fun r => history mem r.2 l

/-- The object after `k` calls for the next octave that succeed. -/
noncomputable def nextsOk (mem : Nat → List ℝ) (sp : Space) : Nat → Option Space
  | 0 => some sp
  | k + 1 => (nextsOk mem sp k).bind fun sp => (nextOctave mem sp).bind fun r => if r.1 = .ok then some r.2 else none

theorem history_good (mem : Nat → List ℝ) (hmem : ∀ n, (mem n).length = n) (width height S : Nat) (O oMin : Int) (hS : 1 ≤ S) (hO : 1 ≤ O) (hw : 0 < sideIn width (oMin + O - 1))
    (hh : 0 < sideIn height (oMin + O - 1)) (hsq : -1 ≤ oMin ∨ width = height) (calls : List UserCall) (hcalls : ∀ im, UserCall.first im ∈ calls → im.length = height * width) :
    ∀ sp, Good width height S O oMin sp → ∃ sp', history mem sp calls = some sp' ∧ Good width height S O oMin sp' := by
  induction calls with
  | nil => intro sp hg; exact ⟨sp, rfl, hg⟩
  | cons c l ih =>
    intro sp hg
    have ihl := ih (fun im h => hcalls im (List.mem_cons_of_mem _ h))
    cases c with
    | first im =>
      obtain ⟨sp1, e, g, -⟩ := first_spec mem hmem width height S O oMin hS hO (lt_of_lt_of_le hw (sideIn_le _ (by omega))) (lt_of_lt_of_le hh (sideIn_le _ (by omega))) hsq im
        (hcalls im List.mem_cons_self) sp hg
      obtain ⟨sp2, e2, g2⟩ := ihl sp1 g
      exact ⟨sp2, by rw [history, e]; exact e2, g2⟩
    | next =>
      by_cases hend : sp.oCur = oMin + O - 1
      · obtain ⟨sp2, e2, g2⟩ := ihl sp hg
        refine ⟨sp2, ?_, g2⟩
        rw [history, nextOctave, if_pos (by rw [hg.first, hg.oct]; exact hend)]
        exact e2
      · have := hg.hi
        obtain ⟨sp1, base, e, g, -⟩ := next_spec mem hmem width height S O oMin hS hw hh sp hg _ rfl (by omega)
        obtain ⟨sp2, e2, g2⟩ := ihl sp1 g
        exact ⟨sp2, by rw [history, e]; exact e2, g2⟩

/-- **C191.**  Whatever was done before with the object, after starting an image the octaves that follow have the levels of the Gaussian scale space of this image: each is the convolution with the Gaussian of its own
scale, although the filter is kept from one smoothing to the next.  Proved for the sizes for which all octaves have pixels, and for images that are square or are doubled at most once. -/
theorem scaleSpace_correct_partial (mem : Nat → List ℝ) (hmem : ∀ n, (mem n).length = n) (width height S : Nat) (O oMin : Int) (hS : 1 ≤ S) (hO : 1 ≤ O) (hw : 0 < sideIn width (oMin + O - 1))
    (hh : 0 < sideIn height (oMin + O - 1)) (hsq : -1 ≤ oMin ∨ width = height) (calls : List UserCall) (hcalls : ∀ im, UserCall.first im ∈ calls → im.length = height * width) (im : List ℝ)
    (him : im.length = height * width) :
    ∃ sp1 sp2, history mem (newSpace mem width height O S oMin) calls = some sp1 ∧ firstOctave mem sp1 im = some (.ok, sp2) ∧
      ∀ k : Nat, (k : Int) < O → ∃ sp3, nextsOk mem sp2 k = some sp3 ∧ sp3.octaveWidth = sideIn width (oMin + k) ∧ sp3.octaveHeight = sideIn height (oMin + k) ∧
        ∀ i < S + 3, ∀ y < sideIn height (oMin + k), ∀ x < sideIn width (oMin + k),
          sp3.octave[sideIn width (oMin + k) * sideIn height (oMin + k) * i + (y * sideIn width (oMin + k) + x)]? =
            some (octaveLevel S oMin width height (resampled width height (img im width) oMin) k i y x) := by
  obtain ⟨sp1, e1, g1⟩ := history_good mem hmem width height S O oMin hS hO hw hh hsq calls hcalls _ (new_good mem hmem width height S O oMin hO)
  obtain ⟨sp2, e2, g2, c2, w2, h2, v2⟩ := first_spec mem hmem width height S O oMin hS hO (lt_of_lt_of_le hw (sideIn_le _ (by omega))) (lt_of_lt_of_le hh (sideIn_le _ (by omega))) hsq im him sp1 g1
  refine ⟨sp1, sp2, e1, e2, ?_⟩
  suffices h : ∀ k : Nat, (k : Int) < O → ∃ sp3, nextsOk mem sp2 k = some sp3 ∧ Good width height S O oMin sp3 ∧ sp3.oCur = oMin + k ∧ sp3.octaveWidth = sideIn width (oMin + k) ∧
      sp3.octaveHeight = sideIn height (oMin + k) ∧ ∀ i < S + 3, LevelIs sp3.octave (sideIn width (oMin + k)) (sideIn height (oMin + k)) i
        (octaveLevel S oMin width height (resampled width height (img im width) oMin) k i) by
    intro k hk
    obtain ⟨sp3, e, -, -, a, b, c⟩ := h k hk
    exact ⟨sp3, e, a, b, c⟩
  intro k
  induction k with
  | zero =>
    intro _
    simp only [Nat.cast_zero, add_zero]
    exact ⟨sp2, rfl, g2, c2, w2, h2, v2⟩
  | succ k ih =>
    intro hk
    push_cast at hk
    obtain ⟨sp3, e, g, c, a, b, v⟩ := ih (by omega)
    have hcur : oMin + ((k + 1 : Nat) : Int) = sp3.oCur + 1 := by rw [c]; push_cast; ring
    obtain ⟨sp4, base, e4, g4, c4, a4, b4, hb, v4⟩ := next_spec mem hmem width height S O oMin hS hw hh sp3 g (oMin + ((k + 1 : Nat) : Int)) hcur (by push_cast; omega)
    refine ⟨sp4, ?_, g4, c4, a4, b4, ?_⟩
    · rw [nextsOk, e]
      show (nextOctave mem sp3).bind _ = _
      rw [e4]
      rfl
    · intro i hi y hy x hx
      rw [v4 i hi y hy x hx]
      congr 1
      have hb' := hb (by rw [a, c]) (by rw [b, c]) (octaveLevel S oMin width height (resampled width height (img im width) oMin) k S) (by
        rw [a, b]; exact v S (by omega))
      have pw : 0 < sideIn width (oMin + ((k + 1 : Nat) : Int)) := by omega
      have ph : 0 < sideIn height (oMin + ((k + 1 : Nat) : Int)) := by omega
      have := levelOf_congr S _ _ pw ph _ _ hb' i y hy x hx
      rw [this]
      rw [octaveLevel]
      push_cast
      rfl

/-- The weights of the smoothing have sum one: a constant image stays as it is. -/
theorem unitBell_sum (σ : ℝ) : ∑ j ∈ range (2 * reach σ + 1), unitBell σ ((j : Int) - reach σ) = 1 := by
  unfold unitBell
  rw [← Finset.sum_div]
  apply div_self
  apply ne_of_gt
  exact Finset.sum_pos (fun j _ => Real.exp_pos _) ⟨0, by simp⟩

theorem blur_constant (σ : ℝ) (w h : Nat) (v : ℝ) (y x : Nat) : blur σ w h (fun _ _ => v) y x = v := by
  unfold blur
  simp only [← Finset.sum_mul, ← Finset.mul_sum]
  rw [unitBell_sum]
  simp only [mul_one]
  rw [one_mul]

/-- The claim for all sizes. -/
def SmallImagesClaim : Prop := ∀ (mem : Nat → List ℝ), (∀ n, (mem n).length = n) → ∀ (width height S : Nat) (oMin : Int), 1 ≤ width → 1 ≤ height → 1 ≤ S → -1 ≤ oMin →
  ∀ im : List ℝ, im.length = height * width → firstOctave mem (newSpace mem width height 1 S oMin) im ≠ none

/-- **C192.**  Refuted: an image of two columns and one row, of which the first octave is number one: the blocks have no pixels, and one pixel is written. -/
theorem smallImages_claim_false : ¬ SmallImagesClaim := by
  intro h
  refine h (fun n => List.replicate n 0) (by simp) 2 1 1 1 (by omega) (by omega) (by omega) (by omega) [0, 0] rfl ?_
  have hd : downsample (K := ℝ) [] [0, 0] 2 1 1 = none := by
    rfl
  unfold firstOctave
  dsimp only
  rw [if_neg (by decide)]
  rw [if_neg (show ¬ ((newSpace (fun n => List.replicate n 0) 2 1 1 1 1).oMin < 0) by decide), if_pos (show (newSpace (fun n => List.replicate n 0) 2 1 1 1 1).oMin > 0 by decide)]
  have : (newSpace (fun n => List.replicate n 0) 2 1 1 1 1).octave = [] := rfl
  rw [this]
  show ((downsample (K := ℝ) [] [0, 0] 2 1 1).map _).bind _ = none
  rw [hd]
  rfl

/-- The hypotheses can be met: an image of three columns and two rows, doubled, two octaves, after another image. -/
example : ∃ sp1 sp2, history (fun n => List.replicate n 0) (newSpace (fun n => List.replicate n 0) 3 2 2 3 (-1)) [.next, .first [1, 2, 3, 4, 5, 6], .next, .next] = some sp1 ∧
    firstOctave (fun n => List.replicate n 0) sp1 [6, 5, 4, 3, 2, 1] = some (.ok, sp2) :=
  have ⟨sp1, sp2, e1, e2, _⟩ := scaleSpace_correct_partial (fun n => List.replicate n 0) (by simp) 3 2 3 2 (-1) (by omega) (by omega) (by decide) (by decide) (Or.inl (by omega))
    [.next, .first [1, 2, 3, 4, 5, 6], .next, .next] (by simp) [6, 5, 4, 3, 2, 1] rfl
  ⟨sp1, sp2, e1, e2⟩

end Verif.Sift
