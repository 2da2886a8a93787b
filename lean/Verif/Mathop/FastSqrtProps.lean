import Verif.Mathop.FastModel
import Mathlib.Analysis.Real.Sqrt
import Mathlib.Algebra.Order.Field.Power
import Mathlib.Tactic.Positivity
import Mathlib.Tactic.Ring
import Mathlib.Tactic.Linarith
import Mathlib.Tactic.FieldSimp
import Mathlib.Tactic.NormNum

/-!
# Error of the fast inverse square root and square root

The Newton iterations are in exact arithmetic; the representation of the argument and of the initial guess are those of
IEEE 754.
-/

namespace Verif.Mathop

open Real

/-- The representations of the positive normal numbers. -/
def Normal (F : Format) (i : Int) : Prop := 2 ^ F.bits ≤ i ∧ i < (2 * F.bias + 1) * 2 ^ F.bits

/-- The format and its constant: `B` is half the bias and `c0` the mantissa of the constant. -/
structure Good (F : Format) (B c0 : Nat) : Prop where
  bits : 20 ≤ F.bits
  two : 2 ≤ B
  bias : F.bias = 2 * B + 1
  magic : F.magic = (3 * B + 1) * 2 ^ F.bits + c0
  lo : (4324 / 10000 : ℝ) ≤ (c0 : ℝ) / 2 ^ F.bits
  hi : (c0 : ℝ) / 2 ^ F.bits ≤ 4328 / 10000

theorem good32 : Good binary32 63 3627487 := ⟨by decide, by decide, rfl, by decide, by norm_num [binary32], by norm_num [binary32]⟩
theorem good64 : Good binary64 511 1948909725167834 := ⟨by decide, by decide, rfl, by decide, by norm_num [binary64], by norm_num [binary64]⟩

theorem value_of (F : Format) {a b : Int} (hb0 : 0 ≤ b) (hb : b < 2 ^ F.bits) (ha0 : 0 < a) (ha : a < 2 * F.bias + 1) :
    F.value (K := ℝ) (a * 2 ^ F.bits + b) = some (2 ^ (a - F.bias) * (1 + (b : ℝ) / 2 ^ F.bits)) := by
  have hK : (0 : Int) < 2 ^ F.bits := by positivity
  have e1 : (a * 2 ^ F.bits + b) / 2 ^ F.bits = a := by
    rw [add_comm, Int.add_mul_ediv_right _ _ hK.ne', Int.ediv_eq_zero_of_lt hb0 hb, zero_add]
  have e2 : (a * 2 ^ F.bits + b) % 2 ^ F.bits = b := by
    rw [add_comm, Int.add_mul_emod_self_right, Int.emod_eq_of_lt hb0 hb]
  simp only [Format.value, e1, e2]
  rw [if_pos ⟨ha0, ha⟩]

/-- Bounds of the three polynomials. -/
theorem poly1 {g t M : ℝ} (g1 : 4324 / 10000 ≤ g) (g2 : g ≤ 4328 / 10000) (M0 : 0 ≤ M) (M1 : M ≤ 1) (t1 : (1 + M) / 2 - 1 / 1000000 ≤ t) (t2 : t ≤ (1 + M) / 2) :
    932 / 1000 ≤ (2 + g - t) ^ 2 * (1 + M) / 4 ∧ (2 + g - t) ^ 2 * (1 + M) / 4 ≤ 10702 / 10000 := by
  have l : 2 + 4324 / 10000 - (1 + M) / 2 ≤ 2 + g - t := by linarith
  have u : 2 + g - t ≤ 2 + 4329 / 10000 - (1 + M) / 2 := by linarith
  have l' : (2 + 4324 / 10000 - (1 + M) / 2) ^ 2 ≤ (2 + g - t) ^ 2 := by apply pow_le_pow_left₀ (by linarith) l
  have u' : (2 + g - t) ^ 2 ≤ (2 + 4329 / 10000 - (1 + M) / 2) ^ 2 := by apply pow_le_pow_left₀ (by linarith) u
  constructor
  · have : (2 + 4324 / 10000 - (1 + M) / 2) ^ 2 * (1 + M) ≤ (2 + g - t) ^ 2 * (1 + M) := mul_le_mul_of_nonneg_right l' (by linarith)
    nlinarith [mul_nonneg M0 (sub_nonneg.mpr M1), mul_nonneg (mul_nonneg M0 (sub_nonneg.mpr M1)) M0]
  · have : (2 + g - t) ^ 2 * (1 + M) ≤ (2 + 4329 / 10000 - (1 + M) / 2) ^ 2 * (1 + M) := mul_le_mul_of_nonneg_right u' (by linarith)
    nlinarith [mul_nonneg (sq_nonneg (M - 622 / 1000)) (sub_nonneg.mpr M1), sq_nonneg (M - 622 / 1000)]

theorem poly2 {g t M : ℝ} (g1 : 4324 / 10000 ≤ g) (g2 : g ≤ 4328 / 10000) (M0 : 0 ≤ M) (M1 : M ≤ 1) (t1 : M / 2 - 1 / 1000000 ≤ t) (t2 : t ≤ M / 2) (ht : t ≤ g) :
    932 / 1000 ≤ (1 + g - t) ^ 2 * (1 + M) / 2 ∧ (1 + g - t) ^ 2 * (1 + M) / 2 ≤ 10702 / 10000 := by
  have hM : M ≤ 8657 / 10000 := by linarith
  have l : 1 + 4324 / 10000 - M / 2 ≤ 1 + g - t := by linarith
  have u : 1 + g - t ≤ 1 + 4329 / 10000 - M / 2 := by linarith
  have l' : (1 + 4324 / 10000 - M / 2) ^ 2 ≤ (1 + g - t) ^ 2 := by apply pow_le_pow_left₀ (by linarith) l
  have u' : (1 + g - t) ^ 2 ≤ (1 + 4329 / 10000 - M / 2) ^ 2 := by apply pow_le_pow_left₀ (by linarith) u
  constructor
  · have h1 : (1 + 4324 / 10000 - M / 2) ^ 2 * (1 + M) ≤ (1 + g - t) ^ 2 * (1 + M) := mul_le_mul_of_nonneg_right l' (by linarith)
    nlinarith [mul_nonneg M0 (sub_nonneg.mpr hM), mul_nonneg (mul_nonneg M0 (sub_nonneg.mpr hM)) M0]
  · have : (1 + g - t) ^ 2 * (1 + M) ≤ (1 + 4329 / 10000 - M / 2) ^ 2 * (1 + M) := mul_le_mul_of_nonneg_right u' (by linarith)
    nlinarith [mul_nonneg (sq_nonneg (M - 288 / 1000)) (sub_nonneg.mpr M1), sq_nonneg (M - 288 / 1000)]

theorem poly3 {g t M : ℝ} (g1 : 4324 / 10000 ≤ g) (M1 : M ≤ 1) (t2 : t ≤ M / 2) (ht : g < t) :
    932 / 1000 ≤ (2 + g - t) ^ 2 * (1 + M) / 8 ∧ (2 + g - t) ^ 2 * (1 + M) / 8 ≤ 10702 / 10000 := by
  have hM : 8648 / 10000 ≤ M := by linarith
  have l : 2 + 4324 / 10000 - M / 2 ≤ 2 + g - t := by linarith
  have u : 2 + g - t ≤ 2 := by linarith
  have l' : (2 + 4324 / 10000 - M / 2) ^ 2 ≤ (2 + g - t) ^ 2 := by apply pow_le_pow_left₀ (by linarith) l
  have u' : (2 + g - t) ^ 2 ≤ 2 ^ 2 := by apply pow_le_pow_left₀ (by linarith) u
  constructor
  · have h1 : (2 + 4324 / 10000 - M / 2) ^ 2 * (1 + M) ≤ (2 + g - t) ^ 2 * (1 + M) := mul_le_mul_of_nonneg_right l' (by linarith)
    nlinarith [mul_nonneg (sub_nonneg.mpr hM) (sub_nonneg.mpr M1), mul_nonneg (mul_nonneg (sub_nonneg.mpr hM) (sub_nonneg.mpr M1)) (sub_nonneg.mpr hM)]
  · have : (2 + g - t) ^ 2 * (1 + M) ≤ 2 ^ 2 * (1 + M) := mul_le_mul_of_nonneg_right u' (by linarith)
    linarith

theorem scale {n k : Int} {a b : ℝ} : ((2 : ℝ) ^ n * a) ^ 2 * (2 ^ k * b) = 2 ^ (2 * n + k) * (a ^ 2 * b) := by
  rw [zpow_add₀ (by norm_num), mul_comm (2 : Int) n, zpow_mul]
  norm_cast
  ring

/-- The initial guess: the argument is `x`, the guess `u`, and `u ^ 2 * x` is close to one. -/
theorem guess {F : Format} {B c0 : Nat} (hF : Good F B c0) {i : Int} (hi : Normal F i) : ∃ x u : ℝ, F.value i = some x ∧ F.value (F.magic - i / 2) = some u ∧
    0 < x ∧ 0 < u ∧ 932 / 1000 ≤ u ^ 2 * x ∧ u ^ 2 * x ≤ 10702 / 10000 := by
  obtain ⟨hi1, hi2⟩ := hi
  have hK : (0 : Int) < 2 ^ F.bits := by positivity
  have hKR : (0 : ℝ) < 2 ^ F.bits := by positivity
  have hKbig : (2 ^ 20 : ℝ) ≤ 2 ^ F.bits := pow_le_pow_right₀ (by norm_num) hF.bits
  obtain ⟨K2, hK2⟩ : ∃ K2 : Int, (2 : Int) ^ F.bits = 2 * K2 := ⟨2 ^ (F.bits - 1), by rw [← pow_succ']; congr 1; have := hF.bits; omega⟩
  have hc0 : (c0 : Int) < K2 := by
    have h := hF.hi
    rw [div_le_iff₀ hKR] at h
    have h2 : ((2 : Int) ^ F.bits : ℝ) = 2 * (K2 : ℝ) := by exact_mod_cast congrArg (fun z : Int => (z : ℝ)) hK2
    push_cast at h2
    have h4 : (0 : ℝ) < K2 := by rw [h2] at hKR; linarith
    have h3 : (c0 : ℝ) < K2 := by rw [h2] at h; linarith
    exact_mod_cast h3
  -- exponent and mantissa
  set e := i / 2 ^ F.bits with he
  set m := i % 2 ^ F.bits with hm
  have him : i = e * 2 ^ F.bits + m := by rw [he, hm, mul_comm]; exact (Int.mul_ediv_add_emod i _).symm
  have hm0 : 0 ≤ m := Int.emod_nonneg _ hK.ne'
  have hmK : m < 2 ^ F.bits := Int.emod_lt_of_pos _ hK
  have he0 : 0 < e := by
    have : 1 ≤ e := (Int.le_ediv_iff_mul_le hK).mpr (by rw [one_mul]; exact hi1)
    omega
  have he1 : e < 2 * F.bias + 1 := Int.ediv_lt_of_lt_mul hK hi2
  have hB := hF.two
  have hbias : (F.bias : Int) = 2 * B + 1 := by rw [hF.bias]; push_cast; rfl
  set M : ℝ := (m : ℝ) / 2 ^ F.bits with hM
  have hM0 : 0 ≤ M := by have : (0 : ℝ) ≤ m := by exact_mod_cast hm0
                         positivity
  have hM1 : M ≤ 1 := by
    rw [hM, div_le_one hKR]; exact_mod_cast hmK.le
  set g : ℝ := (c0 : ℝ) / 2 ^ F.bits with hg
  have hx : F.value (K := ℝ) i = some (2 ^ (e - F.bias) * (1 + M)) := by
    conv_lhs => rw [him]
    exact value_of F hm0 hmK he0 he1
  -- half of the representation
  obtain ⟨q, r, hr, hq⟩ : ∃ q r : Int, (r = 0 ∨ r = 1) ∧ e = 2 * q + r := ⟨e / 2, e % 2, by omega, by omega⟩
  obtain ⟨w, hw⟩ : ∃ w : Int, w = q * K2 := ⟨_, rfl⟩
  set h : Int := (r * 2 ^ F.bits + m) / 2 with hh
  have hhalf : i / 2 = q * 2 ^ F.bits + h := by
    rw [hh, him, hq, hK2]
    have e1 : (2 * q + r) * (2 * K2) + m = (2 * (2 * w)) + (r * (2 * K2) + m) := by rw [hw]; ring
    have e2 : q * (2 * K2) = 2 * w := by rw [hw]; ring
    rw [e1, e2]
    omega
  have hmag : (F.magic : Int) - i / 2 = (3 * B + 1 - q) * 2 ^ F.bits + (c0 - h) := by
    rw [hhalf, hF.magic]; push_cast; ring
  -- half of the representation as a real number
  set t : ℝ := (h : ℝ) / 2 ^ F.bits with ht
  have ht2 : t ≤ (r + M) / 2 := by
    rw [ht, hM, div_le_iff₀ hKR]
    have h1 : 2 * h ≤ r * 2 ^ F.bits + m := by omega
    have h2 : (2 * h : ℝ) ≤ r * 2 ^ F.bits + m := by exact_mod_cast h1
    have h3 : ((r : ℝ) + m / 2 ^ F.bits) / 2 * 2 ^ F.bits = (r * 2 ^ F.bits + m) / 2 := by field_simp
    rw [h3]; linarith
  have ht1 : (r + M) / 2 - 1 / 1000000 ≤ t := by
    rw [ht, hM, le_div_iff₀ hKR]
    have h1 : r * 2 ^ F.bits + m ≤ 2 * h + 1 := by omega
    have h2 : ((r : ℝ) * 2 ^ F.bits + m) ≤ 2 * h + 1 := by exact_mod_cast h1
    have h3 : (((r : ℝ) + m / 2 ^ F.bits) / 2 - 1 / 1000000) * 2 ^ F.bits = (r * 2 ^ F.bits + m) / 2 - 2 ^ F.bits / 1000000 := by field_simp
    rw [h3]; norm_num at hKbig; linarith
  have g1 := hF.lo
  have g2 := hF.hi
  rw [← hg] at g1 g2
  rcases hr with rfl | rfl
  · -- even exponent
    simp only [Int.cast_zero, zero_add] at ht1 ht2
    have hhm : h = m / 2 := by rw [hh]; congr 1; ring
    by_cases hc : h ≤ c0
    · have hu : F.value (K := ℝ) (F.magic - i / 2) = some (2 ^ (3 * B + 1 - q - F.bias : Int) * (1 + ((c0 - h : Int) : ℝ) / 2 ^ F.bits)) := by
        rw [hmag]; exact value_of F (by omega) (by omega) (by omega) (by omega)
      have hu' : (1 + ((c0 - h : Int) : ℝ) / 2 ^ F.bits) = 1 + g - t := by push_cast; rw [hg, ht, sub_div]; ring
      have htg : t ≤ g := by rw [ht, hg]; exact div_le_div_of_nonneg_right (by exact_mod_cast hc) hKR.le
      obtain ⟨p1, p2⟩ := poly2 g1 g2 hM0 hM1 ht1 ht2 htg
      refine ⟨_, _, hx, hu, by positivity, ?_, ?_, ?_⟩
      · rw [hu']; have : 0 < 1 + g - t := by linarith
        positivity
      · rw [hu', scale, show 2 * (3 * B + 1 - q - F.bias : Int) + (e - F.bias) = -1 by omega]
        norm_num at p1 ⊢; linarith
      · rw [hu', scale, show 2 * (3 * B + 1 - q - F.bias : Int) + (e - F.bias) = -1 by omega]
        norm_num at p2 ⊢; linarith
    · have hu : F.value (K := ℝ) (F.magic - i / 2) = some (2 ^ (3 * B - q - F.bias : Int) * (1 + ((c0 - h + 2 ^ F.bits : Int) : ℝ) / 2 ^ F.bits)) := by
        rw [hmag, show (3 * B + 1 - q) * 2 ^ F.bits + (c0 - h) = (3 * B - q) * 2 ^ F.bits + (c0 - h + 2 ^ F.bits : Int) by ring]
        exact value_of F (by omega) (by omega) (by omega) (by omega)
      have hu' : (1 + ((c0 - h + 2 ^ F.bits : Int) : ℝ) / 2 ^ F.bits) = 2 + g - t := by
        push_cast; rw [hg, ht, add_div, sub_div, div_self hKR.ne']; ring
      have htg : g < t := by rw [ht, hg]; exact div_lt_div_of_pos_right (by exact_mod_cast not_le.mp hc) hKR
      obtain ⟨p1, p2⟩ := poly3 g1 hM1 ht2 htg
      refine ⟨_, _, hx, hu, by positivity, ?_, ?_, ?_⟩
      · rw [hu']; have : 0 < 2 + g - t := by linarith
        positivity
      · rw [hu', scale, show 2 * (3 * B - q - F.bias : Int) + (e - F.bias) = -3 by omega]
        norm_num at p1 ⊢; linarith
      · rw [hu', scale, show 2 * (3 * B - q - F.bias : Int) + (e - F.bias) = -3 by omega]
        norm_num at p2 ⊢; linarith
  · -- odd exponent
    simp only [Int.cast_one] at ht1 ht2
    have hh1 : h = K2 + m / 2 := by rw [hh, hK2]; omega
    have hu : F.value (K := ℝ) (F.magic - i / 2) = some (2 ^ (3 * B - q - F.bias : Int) * (1 + ((c0 - h + 2 ^ F.bits : Int) : ℝ) / 2 ^ F.bits)) := by
      rw [hmag, show (3 * B + 1 - q) * 2 ^ F.bits + (c0 - h) = (3 * B - q) * 2 ^ F.bits + (c0 - h + 2 ^ F.bits : Int) by ring]
      exact value_of F (by omega) (by omega) (by omega) (by omega)
    have hu' : (1 + ((c0 - h + 2 ^ F.bits : Int) : ℝ) / 2 ^ F.bits) = 2 + g - t := by
      push_cast; rw [hg, ht, add_div, sub_div, div_self hKR.ne']; ring
    obtain ⟨p1, p2⟩ := poly1 g1 g2 hM0 hM1 ht1 ht2
    refine ⟨_, _, hx, hu, by positivity, ?_, ?_, ?_⟩
    · rw [hu']; have : 0 < 2 + g - t := by linarith
      positivity
    · rw [hu', scale, show 2 * (3 * B - q - F.bias : Int) + (e - F.bias) = -2 by omega]
      norm_num at p1 ⊢; linarith
    · rw [hu', scale, show 2 * (3 * B - q - F.bias : Int) + (e - F.bias) = -2 by omega]
      norm_num at p2 ⊢; linarith

/-- A Newton step: the relative error becomes quadratic. -/
theorem newton {a d : ℝ} (ha : |1 - a| ≤ d) (hd : d ≤ 1) : 0 ≤ 1 - a * (3 - a ^ 2) / 2 ∧ 1 - a * (3 - a ^ 2) / 2 ≤ d ^ 2 * (3 + d) / 2 := by
  have e : 1 - a * (3 - a ^ 2) / 2 = (1 - a) ^ 2 * (2 + a) / 2 := by ring
  have h := abs_le.mp ha
  have hd0 : 0 ≤ d := (abs_nonneg _).trans ha
  rw [e]
  constructor
  · have : 0 ≤ 2 + a := by linarith
    positivity
  · have h1 : (1 - a) ^ 2 ≤ d ^ 2 := by rw [← sq_abs (1 - a)]; exact pow_le_pow_left₀ (abs_nonneg _) ha 2
    have h2 : (1 - a) ^ 2 * (2 + a) ≤ d ^ 2 * (3 + d) := mul_le_mul h1 (by linarith) (by linarith) (by positivity)
    linarith

theorem resqrt_core {F : Format} {B c0 : Nat} (hF : Good F B c0) {i : Int} (hi : Normal F i) : ∃ x u : ℝ, F.value i = some x ∧ 0 < x ∧
    fastResqrt F i = some u ∧ u * √x ≤ 1 ∧ 1 - 5 / 1000000 ≤ u * √x := by
  obtain ⟨x, u, ex, eu, hx, hu, h1, h2⟩ := guess hF hi
  set s := √x with hs
  have hs0 : 0 < s := Real.sqrt_pos.mpr hx
  have hss : s ^ 2 = x := Real.sq_sqrt hx.le
  -- two Newton steps on a = u √x
  have ha : |1 - u * s| ≤ 346 / 10000 := by
    have e : (u * s) ^ 2 = u ^ 2 * x := by rw [mul_pow, hss]
    have hpos : 0 < u * s := by positivity
    rw [abs_le]
    constructor <;> nlinarith
  obtain ⟨n1, n2⟩ := newton ha (by norm_num)
  have st : ∀ v : ℝ, v * (3 / 2 - 1 / 2 * x * v * v) * s = v * s * (3 - (v * s) ^ 2) / 2 := by intro v; rw [mul_pow, hss]; ring
  set u1 := u * (3 / 2 - 1 / 2 * x * u * u) with hu1
  have ha1 : |1 - u1 * s| ≤ 1817 / 1000000 := by
    rw [hu1, st]; rw [abs_of_nonneg n1]; norm_num at n2 ⊢; linarith
  obtain ⟨m1, m2⟩ := newton ha1 (by norm_num)
  refine ⟨x, u1 * (3 / 2 - 1 / 2 * x * u1 * u1), ex, hx, ?_, ?_, ?_⟩
  · rw [fastResqrt, ex]
    show (F.value (F.magic - i / 2)).bind _ = _
    rw [eu]
    rfl
  · rw [st]; linarith
  · rw [st]; norm_num at m2 ⊢; linarith

/-- For every positive normal number, in single and in double precision, the result is within five millionths, relatively,
of the inverse of the square root, and not larger. -/
theorem fastResqrt_error {F : Format} (hF : F = binary32 ∨ F = binary64) {i : Int} (hi : Normal F i) : ∃ x u : ℝ, F.value i = some x ∧ 0 < x ∧
    fastResqrt F i = some u ∧ u ≤ 1 / √x ∧ (1 - 5 / 1000000) * (1 / √x) ≤ u := by
  obtain ⟨x, u, ex, hx, eu, h1, h2⟩ : ∃ x u : ℝ, F.value i = some x ∧ 0 < x ∧ fastResqrt F i = some u ∧ u * √x ≤ 1 ∧ 1 - 5 / 1000000 ≤ u * √x := by
    rcases hF with rfl | rfl
    · exact resqrt_core good32 hi
    · exact resqrt_core good64 hi
  have hs0 : 0 < √x := Real.sqrt_pos.mpr hx
  exact ⟨x, u, ex, hx, eu, by rw [le_div_iff₀ hs0]; exact h1, by rw [mul_one_div, div_le_iff₀ hs0]; exact h2⟩

/-- The square root of a nonnegative number: relative error of five millionths, or absolute error of `1e-4` below `1e-8`. -/
theorem fastSqrt_error {F : Format} (hF : F = binary32 ∨ F = binary64) {i : Int} (hi0 : 0 ≤ i) (hi1 : i < (2 * F.bias + 1) * 2 ^ F.bits) :
    ∃ x r : ℝ, F.value i = some x ∧ 0 ≤ x ∧ fastSqrt F i = some r ∧ r ≤ √x ∧
      (1 / 10 ^ 8 ≤ x → (1 - 5 / 1000000) * √x ≤ r) ∧ (x < 1 / 10 ^ 8 → √x - 1 / 10 ^ 4 ≤ r) := by
  by_cases hn : 2 ^ F.bits ≤ i
  · obtain ⟨x, u, ex, hx, eu, h1, h2⟩ : ∃ x u : ℝ, F.value i = some x ∧ 0 < x ∧ fastResqrt F i = some u ∧ u * √x ≤ 1 ∧ 1 - 5 / 1000000 ≤ u * √x := by
      rcases hF with rfl | rfl
      · exact resqrt_core good32 ⟨hn, hi1⟩
      · exact resqrt_core good64 ⟨hn, hi1⟩
    have hs0 : 0 < √x := Real.sqrt_pos.mpr hx
    have hss := Real.mul_self_sqrt hx.le
    by_cases hlt : x < 1 / 10 ^ 8
    · refine ⟨x, 0, ex, hx.le, ?_, hs0.le, fun h => absurd hlt (not_lt.mpr h), fun _ => ?_⟩
      · rw [fastSqrt, ex]; show (if _ then _ else _) = _; rw [if_pos hlt]
      · have : √x ≤ 1 / 10 ^ 4 := Real.sqrt_le_iff.mpr ⟨by positivity, by norm_num at hlt ⊢; linarith⟩
        linarith
    · refine ⟨x, x * u, ex, hx.le, ?_, ?_, fun _ => ?_, fun h => absurd h hlt⟩
      · rw [fastSqrt, ex]; show (if _ then _ else _) = _; rw [if_neg hlt, eu]; rfl
      · calc x * u = √x * (u * √x) := by nth_rewrite 1 [← hss]; ring
          _ ≤ √x * 1 := by gcongr
          _ = √x := mul_one _
      · calc (1 - 5 / 1000000) * √x = √x * (1 - 5 / 1000000) := mul_comm _ _
          _ ≤ √x * (u * √x) := by gcongr
          _ = x * u := by nth_rewrite 3 [← hss]; ring
  · -- zero and subnormal numbers
    have hK : (0 : Int) < 2 ^ F.bits := by positivity
    have he : i / 2 ^ F.bits = 0 := Int.ediv_eq_zero_of_lt hi0 (not_le.mp hn)
    have hm : i % 2 ^ F.bits = i := Int.emod_eq_of_lt hi0 (not_le.mp hn)
    have ex : F.value (K := ℝ) i = some (2 ^ (1 - F.bias : Int) * ((i : ℝ) / 2 ^ F.bits)) := by
      simp [Format.value, he, hm]
    have hi' : (i : ℝ) / 2 ^ F.bits ≤ 1 := by
      rw [div_le_one (by positivity)]; exact_mod_cast (not_le.mp hn).le
    have hi0' : (0 : ℝ) ≤ i := by exact_mod_cast hi0
    have hsm : (2 : ℝ) ^ (1 - F.bias : Int) * ((i : ℝ) / 2 ^ F.bits) < 1 / 10 ^ 8 := by
      have hb : (2 : ℝ) ^ (1 - F.bias : Int) ≤ 2 ^ (-100 : Int) := by
        apply zpow_le_zpow_right₀ (by norm_num)
        rcases hF with rfl | rfl <;> decide
      calc (2 : ℝ) ^ (1 - F.bias : Int) * ((i : ℝ) / 2 ^ F.bits) ≤ 2 ^ (-100 : Int) * 1 := mul_le_mul hb hi' (by positivity) (by positivity)
        _ < 1 / 10 ^ 8 := by norm_num
    refine ⟨_, 0, ex, by positivity, ?_, Real.sqrt_nonneg _, fun h => absurd hsm (not_lt.mpr h), fun _ => ?_⟩
    · rw [fastSqrt, ex]; show (if _ then _ else _) = _; rw [if_pos hsm]
    · have : √(2 ^ (1 - F.bias : Int) * ((i : ℝ) / 2 ^ F.bits)) ≤ 1 / 10 ^ 4 := Real.sqrt_le_iff.mpr ⟨by positivity, by norm_num at hsm ⊢; linarith⟩
      linarith

theorem normal_of_value {k : Int} {x : ℝ} (h : binary64.value k = some x) (hx : 1 / 10 ^ 8 ≤ x) : Normal binary64 k := by
  have hK : (0 : Int) < 2 ^ binary64.bits := by positivity
  simp only [Format.value] at h
  split at h
  · rename_i hc
    constructor
    · have : 1 ≤ k / 2 ^ binary64.bits := by omega
      have := (Int.le_ediv_iff_mul_le hK).mp this
      linarith
    · exact Int.lt_mul_of_ediv_lt hK hc.2
  · split at h
    · exfalso
      have hm : k % 2 ^ binary64.bits < 2 ^ binary64.bits := Int.emod_lt_of_pos _ hK
      have hm' : ((k % 2 ^ binary64.bits : Int) : ℝ) / 2 ^ binary64.bits ≤ 1 := by
        rw [div_le_one (by positivity)]; exact_mod_cast hm.le
      have hm0 : (0 : ℝ) ≤ ((k % 2 ^ binary64.bits : Int) : ℝ) := by exact_mod_cast Int.emod_nonneg _ hK.ne'
      have hb : (2 : ℝ) ^ (1 - binary64.bias : Int) ≤ 2 ^ (-100 : Int) := by
        apply zpow_le_zpow_right₀ (by norm_num)
        decide
      have : x ≤ 2 ^ (-100 : Int) * 1 := by
        rw [← Option.some.inj h]
        exact mul_le_mul hb hm' (by positivity) (by positivity)
      norm_num at this hx
      linarith
    · cases h

theorem value32_lt {j : Int} {x : ℝ} (h : binary32.value j = some x) : x ≤ 2 ^ 128 := by
  have hK : (0 : Int) < 2 ^ binary32.bits := by positivity
  have hm : j % 2 ^ binary32.bits < 2 ^ binary32.bits := Int.emod_lt_of_pos _ hK
  have hm' : ((j % 2 ^ binary32.bits : Int) : ℝ) / 2 ^ binary32.bits ≤ 1 := by
    rw [div_le_one (by positivity)]; exact_mod_cast hm.le
  have hm0 : (0 : ℝ) ≤ ((j % 2 ^ binary32.bits : Int) : ℝ) := by exact_mod_cast Int.emod_nonneg _ hK.ne'
  simp only [Format.value] at h
  split at h
  · rename_i hc
    rw [← Option.some.inj h]
    have hb : (2 : ℝ) ^ (j / 2 ^ binary32.bits - binary32.bias : Int) ≤ 2 ^ (127 : Int) := by
      apply zpow_le_zpow_right₀ (by norm_num)
      have : ((binary32.bias : Nat) : Int) = 127 := rfl
      omega
    calc _ ≤ (2 : ℝ) ^ (127 : Int) * 2 := mul_le_mul hb (by linarith) (by positivity) (by positivity)
      _ = 2 ^ 128 := by norm_num
  · split at h
    · rw [← Option.some.inj h]
      have hb : (2 : ℝ) ^ (1 - binary32.bias : Int) ≤ 1 := by
        calc (2 : ℝ) ^ (1 - binary32.bias : Int) ≤ 2 ^ (0 : Int) := zpow_le_zpow_right₀ (by norm_num) (by decide)
          _ = 1 := by norm_num
      calc _ ≤ (1 : ℝ) * 1 := mul_le_mul hb hm' (by positivity) (by positivity)
        _ ≤ 2 ^ 128 := by norm_num
    · cases h

/-- What `vl_fast_sqrt_d` computes: the square root of its argument converted to single precision. -/
theorem fastSqrtD_core {conv widen : Int → Option Int} (hw : ∀ j k, widen j = some k → binary64.value (K := ℝ) k = binary32.value j)
    {i : Int} {r : ℝ} (e : fastSqrtD conv widen i = some r) : ∃ (j : Int) (y : ℝ), conv i = some j ∧ binary32.value j = some y ∧
      ((y < 1 / 10 ^ 8 ∧ r = 0) ∨ (1 / 10 ^ 8 ≤ y ∧ r ≤ √y ∧ (1 - 5 / 1000000) * √y ≤ r)) := by
  unfold fastSqrtD at e
  cases hj : conv i with
  | none => rw [hj] at e; cases e
  | some j =>
    rw [hj] at e
    change (binary32.value j).bind _ = _ at e
    cases hy : binary32.value (K := ℝ) j with
    | none => rw [hy] at e; cases e
    | some y =>
      rw [hy, Option.bind_some] at e
      refine ⟨j, y, rfl, hy, ?_⟩
      by_cases hlt : y < 1 / 10 ^ 8
      · rw [if_pos hlt] at e
        exact Or.inl ⟨hlt, (Option.some.inj e).symm⟩
      · rw [if_neg hlt] at e
        cases hk : widen j with
        | none => rw [hk] at e; cases e
        | some k =>
          rw [hk] at e
          have hv := (hw j k hk).trans hy
          obtain ⟨x, u, ex, hx, eu, h1, h2⟩ := resqrt_core good64 (normal_of_value hv (not_lt.mp hlt))
          have hxy : x = y := Option.some.inj (ex.symm.trans hv)
          subst hxy
          change (fastResqrt binary64 k).bind _ = _ at e
          rw [eu] at e
          have hr : x * u = r := Option.some.inj e
          have hss := Real.mul_self_sqrt hx.le
          have hs0 : 0 < √x := Real.sqrt_pos.mpr hx
          refine Or.inr ⟨not_lt.mp hlt, ?_, ?_⟩
          · rw [← hr]
            calc x * u = √x * (u * √x) := by nth_rewrite 1 [← hss]; ring
              _ ≤ √x * 1 := by gcongr
              _ = √x := mul_one _
          · rw [← hr]
            calc (1 - 5 / 1000000) * √x = √x * (1 - 5 / 1000000) := mul_comm _ _
              _ ≤ √x * (u * √x) := by gcongr
              _ = x * u := by nth_rewrite 3 [← hss]; ring

/-- The claim that the double version approximates the square root of every double that is not too small. -/
def FastSqrtDClaim (conv widen : Int → Option Int) : Prop :=
  ∀ (i : Int) (x : ℝ), Normal binary64 i → binary64.value i = some x → 1 / 10 ^ 6 ≤ x → ∃ r : ℝ, fastSqrtD conv widen i = some r ∧ √x / 2 ≤ r

/-- The claim is false, whatever the conversion to single precision gives for numbers out of its range: the argument of
the function is declared `float`. -/
theorem fastSqrtD_claim_false {conv widen : Int → Option Int} (hw : ∀ j k, widen j = some k → binary64.value (K := ℝ) k = binary32.value j) :
    ¬ FastSqrtDClaim conv widen := by
  intro h
  have hv : binary64.value (K := ℝ) (1223 * 2 ^ binary64.bits + 0) = some (2 ^ 200) := by
    rw [value_of binary64 (by norm_num) (by positivity) (by norm_num) (by decide)]
    norm_num [binary64]
  obtain ⟨r, e, hr⟩ := h (1223 * 2 ^ binary64.bits + 0) (2 ^ 200) ⟨by decide, by decide⟩ hv (by norm_num)
  have hs : √((2 : ℝ) ^ 200) = 2 ^ 100 := by
    rw [show (2 : ℝ) ^ 200 = (2 ^ 100) ^ 2 by norm_num]; exact Real.sqrt_sq (by positivity)
  rw [hs] at hr
  obtain ⟨j, y, -, hy, hc⟩ := fastSqrtD_core hw e
  rcases hc with ⟨-, h0⟩ | ⟨-, h1, -⟩
  · rw [h0] at hr; norm_num at hr
  · have h2 : √y ≤ 2 ^ 64 := Real.sqrt_le_iff.mpr ⟨by positivity, (value32_lt hy).trans (by norm_num)⟩
    have := hr.trans (h1.trans h2)
    norm_num at this

/-- The numbers 2 and 1 / 4 in single precision. -/
example : Normal binary32 0x40000000 ∧ binary32.value (K := ℚ) 0x40000000 = some 2 ∧ binary32.value (K := ℚ) 0x3e800000 = some (1 / 4) := by
  refine ⟨⟨by decide, by decide⟩, ?_, ?_⟩ <;> decide +kernel

end Verif.Mathop
