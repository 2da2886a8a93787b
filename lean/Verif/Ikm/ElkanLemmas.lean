import Verif.Ikm.ElkanModel
import Verif.Ikm.TrainProps
import Verif.Isqrt.Props
import Mathlib.Analysis.Real.Sqrt
import Mathlib.Algebra.Order.BigOperators.Ring.Finset
import Mathlib.Tactic.Linarith
import Mathlib.Tactic.Ring

/-!
# Accelerated training of integer k-means: the bounds
-/

namespace Verif.Ikm

theorem sqrt64_spec {x : Int} (h0 : 0 ≤ x) (h1 : x ≤ 2147483647) : 0 ≤ sqrt64 x ∧ sqrt64 x ^ 2 ≤ x ∧ x < (sqrt64 x + 1) ^ 2 := by
  unfold sqrt64
  obtain ⟨n, rfl⟩ := Int.eq_ofNat_of_zero_le h0
  have hn : n ≤ 2147483647 := by exact_mod_cast h1
  have e : (BitVec.ofInt 64 (n : Int)).toNat = n := by
    rw [BitVec.ofInt_natCast, BitVec.toNat_ofNat, Nat.mod_eq_of_lt (by omega)]
  obtain ⟨a, b⟩ := Verif.Isqrt.sqrtUi64_floor (BitVec.ofInt 64 (n : Int))
  rw [e] at a b
  exact ⟨by positivity, by exact_mod_cast a, by exact_mod_cast b⟩

/-- The greatest squared distance of bytes for which the bounds cannot overflow. -/
def lim : Int := 532684800

theorem sqrt64_le {x : Int} (h0 : 0 ≤ x) (h1 : x ≤ lim) : sqrt64 x ≤ 23080 := by
  obtain ⟨a, b, _⟩ := sqrt64_spec h0 (by unfold lim at h1; omega)
  by_contra hc
  have h2 : 23081 ≤ sqrt64 x := by omega
  have h3 := mul_le_mul h2 h2 (by norm_num) a
  unfold lim at h1
  nlinarith

theorem toAcc_eq {z : Int} (h : -2147483648 ≤ z) (h' : z ≤ 2147483647) : toAcc z = z := by
  unfold toAcc
  rw [Int.bmod_def]
  omega

theorem i32_eq {z : Int} (h : -2147483648 ≤ z) (h' : z ≤ 2147483647) : i32 z = some z := by
  unfold i32 accMax
  rw [if_pos ⟨h, h'⟩]

/-- The scalar product of two vectors. -/
def dot (M : Nat) (u v : Nat → Int) : Int := ∑ i ∈ Finset.range M, u i * v i

theorem dot_sq (M : Nat) (u v : Nat → Int) : dot M u v ^ 2 ≤ (∑ i ∈ Finset.range M, u i ^ 2) * ∑ i ∈ Finset.range M, v i ^ 2 :=
  Finset.sum_mul_sq_le_sq_mul_sq _ _ _

theorem sq_expand (M : Nat) (x c c' : Nat → Int) :
    sq M x c' = sq M x c + sq M c' c - 2 * dot M (fun i => x i - c i) (fun i => c' i - c i) := by
  unfold sq dot
  rw [Finset.mul_sum, ← Finset.sum_add_distrib, ← Finset.sum_sub_distrib]
  exact Finset.sum_congr rfl fun i _ => by ring

theorem triangle (M : Nat) (x c c' : Nat → Int) {A d D : Int} (hA : A = sq M x c) (hd : d = sq M c' c) (hD : D = sq M x c') :
    (Real.sqrt A - Real.sqrt d) ^ 2 ≤ (D : Real) ∧ (D : Real) ≤ (Real.sqrt A + Real.sqrt d) ^ 2 := by
  have hA0 : (0 : Real) ≤ A := by rw [hA]; exact_mod_cast sq_nonneg' M x c
  have hd0 : (0 : Real) ≤ d := by rw [hd]; exact_mod_cast sq_nonneg' M c' c
  obtain ⟨t, ht⟩ : ∃ t, t = dot M (fun i => x i - c i) (fun i => c' i - c i) := ⟨_, rfl⟩
  have h1 : t ^ 2 ≤ A * d := by
    rw [ht, hA, hd]
    exact dot_sq M _ _
  have h2 : D = A + d - 2 * t := by rw [hD, hA, hd, ht]; exact sq_expand M x c c'
  have h3 : ((t : Real)) ^ 2 ≤ (Real.sqrt A * Real.sqrt d) ^ 2 := by
    rw [mul_pow, Real.sq_sqrt hA0, Real.sq_sqrt hd0]; exact_mod_cast h1
  have h4 := abs_le_of_sq_le_sq' h3 (mul_nonneg (Real.sqrt_nonneg _) (Real.sqrt_nonneg _))
  have e : (D : Real) = A + d - 2 * t := by exact_mod_cast h2
  have e1 := Real.sq_sqrt hA0
  have e2 := Real.sq_sqrt hd0
  constructor <;> nlinarith

theorem sqrt_lt_sqrt64 {x : Int} (h0 : 0 ≤ x) (h1 : x ≤ 2147483647) : Real.sqrt x ≤ (sqrt64 x : Real) + 1 := by
  obtain ⟨a, _, b⟩ := sqrt64_spec h0 h1
  have a' : (0 : Real) ≤ sqrt64 x := by exact_mod_cast a
  have b' : (x : Real) < ((sqrt64 x : Real) + 1) ^ 2 := by exact_mod_cast b
  exact Real.sqrt_le_iff.mpr ⟨by linarith, b'.le⟩

/-- The lower bound remains one. -/
theorem lowerBound_spec (M : Nat) (x c c' : Nat → Int) {l dist : Int} (hl : l ≤ sq M x c) (hd : dist = sq M c' c)
    (hA : sq M x c ≤ lim) (hB : dist ≤ lim) : ∃ l', lowerBound l dist = some l' ∧ l' ≤ sq M x c' := by
  unfold lowerBound
  have hd0 : 0 ≤ dist := by rw [hd]; exact sq_nonneg' _ _ _
  by_cases h : dist < l
  swap
  · rw [if_neg h]
    exact ⟨0, rfl, sq_nonneg' _ _ _⟩
  rw [if_pos h]
  have hl0 : 0 ≤ l := by omega
  have hll : l ≤ lim := by omega
  have s1 := sqrt64_le hl0 hll
  have s2 := sqrt64_le hd0 hB
  obtain ⟨p1, -, -⟩ := sqrt64_spec hl0 (by unfold lim at hll; omega)
  obtain ⟨p2, -, -⟩ := sqrt64_spec hd0 (by unfold lim at hB; omega)
  have hmul : (sqrt64 l + 1) * (sqrt64 dist + 1) ≤ 23081 * 23081 := mul_le_mul (by omega) (by omega) (by omega) (by norm_num)
  have hmul0 : 0 ≤ (sqrt64 l + 1) * (sqrt64 dist + 1) := mul_nonneg (by omega) (by omega)
  unfold lim at hll hB
  rw [i32_eq (by omega) (by omega)]
  simp only [Option.bind_eq_bind, Option.bind_some]
  rw [mul_assoc, toAcc_eq (by omega) (by omega)]
  refine ⟨_, rfl, ?_⟩
  obtain ⟨t1, -⟩ := triangle M x c c' rfl hd rfl
  have q1 := sqrt_lt_sqrt64 hl0 (by omega)
  have q2 := sqrt_lt_sqrt64 hd0 (by omega)
  have r1 : Real.sqrt l ≤ Real.sqrt (sq M x c) := Real.sqrt_le_sqrt (by exact_mod_cast hl)
  have r2 : Real.sqrt dist ≤ Real.sqrt l := Real.sqrt_le_sqrt (by exact_mod_cast h.le)
  have e1 : Real.sqrt l ^ 2 = l := Real.sq_sqrt (by exact_mod_cast hl0)
  have e2 : Real.sqrt dist ^ 2 = dist := Real.sq_sqrt (by exact_mod_cast hd0)
  have n2 := Real.sqrt_nonneg (dist : Real)
  have m1 : (Real.sqrt l - Real.sqrt dist) ^ 2 ≤ (Real.sqrt (sq M x c) - Real.sqrt dist) ^ 2 :=
    pow_le_pow_left₀ (by linarith) (by linarith) 2
  have m2 : Real.sqrt l * Real.sqrt dist ≤ ((sqrt64 l : Real) + 1) * ((sqrt64 dist : Real) + 1) :=
    mul_le_mul q1 q2 n2 (le_trans (Real.sqrt_nonneg _) q1)
  have : ((l + dist - 2 * ((sqrt64 l + 1) * (sqrt64 dist + 1)) : Int) : Real) ≤ ((sq M x c' : Int) : Real) := by
    push_cast
    nlinarith
  exact_mod_cast this

/-- The upper bound remains one. -/
theorem upperBound_spec (M : Nat) (x c c' : Nat → Int) {u dist : Int} (hu : sq M x c ≤ u) (hd : dist = sq M c' c)
    (hA : u ≤ lim) (hB : dist ≤ lim) : ∃ u', upperBound u dist = some u' ∧ sq M x c' ≤ u' ∧ u' ≤ 2147483647 := by
  unfold upperBound
  have hd0 : 0 ≤ dist := by rw [hd]; exact sq_nonneg' _ _ _
  have hx0 := sq_nonneg' M x c
  have hu0 : 0 ≤ u := by omega
  have s1 := sqrt64_le hu0 hA
  have s2 := sqrt64_le hd0 hB
  obtain ⟨p1, -, -⟩ := sqrt64_spec hu0 (by unfold lim at hA; omega)
  obtain ⟨p2, -, -⟩ := sqrt64_spec hd0 (by unfold lim at hB; omega)
  have hmul : (sqrt64 u + 1) * (sqrt64 dist + 1) ≤ 23081 * 23081 := mul_le_mul (by omega) (by omega) (by omega) (by norm_num)
  have hmul0 : 0 ≤ (sqrt64 u + 1) * (sqrt64 dist + 1) := mul_nonneg (by omega) (by omega)
  unfold lim at hA hB
  rw [i32_eq (by omega) (by omega)]
  simp only [Option.bind_eq_bind, Option.bind_some]
  rw [mul_assoc, toAcc_eq (by omega) (by omega)]
  refine ⟨_, rfl, ?_, by omega⟩
  obtain ⟨-, t1⟩ := triangle M x c c' rfl hd rfl
  have q1 := sqrt_lt_sqrt64 hu0 (by omega)
  have q2 := sqrt_lt_sqrt64 hd0 (by omega)
  have r1 : Real.sqrt (sq M x c) ≤ Real.sqrt u := Real.sqrt_le_sqrt (by exact_mod_cast hu)
  have e1 : Real.sqrt u ^ 2 = u := Real.sq_sqrt (by exact_mod_cast hu0)
  have e2 : Real.sqrt dist ^ 2 = dist := Real.sq_sqrt (by exact_mod_cast hd0)
  have n1 := Real.sqrt_nonneg ((sq M x c : Int) : Real)
  have n2 := Real.sqrt_nonneg (dist : Real)
  have m1 : (Real.sqrt (sq M x c) + Real.sqrt dist) ^ 2 ≤ (Real.sqrt u + Real.sqrt dist) ^ 2 :=
    pow_le_pow_left₀ (by linarith) (by linarith) 2
  have m2 : Real.sqrt u * Real.sqrt dist ≤ ((sqrt64 u : Real) + 1) * ((sqrt64 dist : Real) + 1) :=
    mul_le_mul q1 q2 n2 (le_trans (Real.sqrt_nonneg _) q1)
  have : ((sq M x c' : Int) : Real) ≤ ((u + dist + 2 * ((sqrt64 u + 1) * (sqrt64 dist + 1)) : Int) : Real) := by
    push_cast
    nlinarith
  exact_mod_cast this

theorem byte_lim {M : Nat} (hM : M ≤ 8192) {u v : Nat → Int} (hu : ∀ i < M, 0 ≤ u i ∧ u i ≤ 255) (hv : ∀ i < M, 0 ≤ v i ∧ v i ≤ 255) :
    sq M u v ≤ lim := by
  have h1 : sq M u v ≤ ∑ _i ∈ Finset.range M, (65025 : Int) := Finset.sum_le_sum fun i hi => by
    obtain ⟨a, b⟩ := hu i (by simpa using hi); obtain ⟨c, d⟩ := hv i (by simpa using hi); nlinarith
  rw [Finset.sum_const, Finset.card_range, nsmul_eq_mul] at h1
  have : (M : Int) ≤ 8192 := by exact_mod_cast hM
  unfold lim
  linarith

end Verif.Ikm
