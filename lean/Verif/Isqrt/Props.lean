import Verif.Isqrt.Model
import Mathlib.Tactic.Ring
import Mathlib.Tactic.Linarith

/-!
# C07: the fast integer square root is the exact floor of the square root
-/

namespace Verif.Isqrt

theorem loop_spec (m : Nat) (k : Nat) (x y : BitVec (2 * m)) (hk : k ≤ m)
    (hy : y.toNat < 2 ^ (m - k)) (hx : x.toNat < (2 * y.toNat + 1) * 4 ^ k) (X : Nat)
    (hX : X = x.toNat + (y.toNat * 2 ^ k) ^ 2) :
    let r := (loop (2 * m) k x y).toNat
    r ^ 2 ≤ X ∧ X < (r + 1) ^ 2 := by
  induction k generalizing x y with
  | zero =>
    simp only [loop, pow_zero, mul_one] at *
    constructor
    · omega
    · rw [hX]; nlinarith
  | succ k ih =>
    have hmk : m - k = (m - (k + 1)) + 1 := by omega
    have h2 : (2:Nat) ^ (m - k) = 2 * 2 ^ (m - (k + 1)) := by rw [hmk, pow_succ]; ring
    have hw : (2:Nat) ^ (2 * m) = 2 ^ (m - k) * 2 ^ (m - k) * (2 ^ k * 2 ^ k) := by
      rw [← pow_add, ← pow_add, ← pow_add]; congr 1; omega
    have h4 : (4:Nat) ^ k = 2 ^ k * 2 ^ k := by
      rw [show (4:Nat) = 2 * 2 by rfl, mul_pow]
    have hp : 0 < (2:Nat) ^ k := by positivity
    have hq : 0 < (2:Nat) ^ (m - (k+1)) := by positivity
    set P := (2:Nat) ^ k with hP
    set Q := (2:Nat) ^ (m - (k + 1)) with hQ
    have hQk : (2:Nat) ^ (m - k) ≤ 2 ^ (m - k) * 2 ^ (m - k) := Nat.le_mul_of_pos_left _ (by positivity)
    have hWbig : 2 ^ (m - k) * 2 ^ (m - k) ≤ 2 ^ (2 * m) := by
      rw [hw]; exact Nat.le_mul_of_pos_right _ (by positivity)
    have hy1 : (y <<< 1).toNat = 2 * y.toNat := by
      rw [BitVec.toNat_shiftLeft, Nat.shiftLeft_eq, pow_one, Nat.mod_eq_of_lt]
      · ring
      · rw [h2] at hQk hWbig; omega
    have hq1 : 1 ≤ Q := hq
    have hyQ : y.toNat + 1 ≤ Q := hy
    have hsm : 4 * y.toNat + 1 < 2 ^ (2 * m) := by
      have : 4 * y.toNat + 1 < 4 * (Q * Q) := by nlinarith
      rw [h2] at hWbig
      nlinarith
    have ht : ((2 : BitVec (2 * m)) * (y <<< 1) + 1).toNat = 4 * y.toNat + 1 := by
      have hm : 1 < 2 * m := by omega
      rw [BitVec.toNat_add, BitVec.toNat_mul, hy1]
      have e2 : (2 : BitVec (2 * m)).toNat = 2 := by
        have : (2:Nat) < 2 ^ (2 * m) := by
          calc (2:Nat) < 2 ^ 2 := by norm_num
            _ ≤ 2 ^ (2 * m) := Nat.pow_le_pow_right (by norm_num) hm
        exact Nat.mod_eq_of_lt this
      have e1 : (1 : BitVec (2 * m)).toNat = 1 := by
        have : (1:Nat) < 2 ^ (2 * m) := Nat.one_lt_two_pow (by omega)
        exact Nat.mod_eq_of_lt this
      rw [e2, e1, Nat.mod_add_mod, Nat.mod_eq_of_lt] <;> omega
    have htmp : (((2 : BitVec (2 * m)) * (y <<< 1) + 1) <<< (2 * k)).toNat = (4 * y.toNat + 1) * (P * P) := by
      rw [BitVec.toNat_shiftLeft, Nat.shiftLeft_eq, ht, Nat.mod_eq_of_lt]
      · have e : (2:Nat) ^ (2 * k) = P * P := by rw [two_mul, pow_add]
        rw [e]
      · rw [two_mul k, pow_add, hw, h2]
        have : 4 * y.toNat + 1 < 2 * Q * (2 * Q) := by nlinarith
        exact Nat.mul_lt_mul_of_pos_right this (by positivity)
    have h4' : (4:Nat) ^ (k + 1) = 4 * (P * P) := by rw [pow_succ, h4]; ring
    have h2' : (2:Nat) ^ (k + 1) = 2 * P := by rw [pow_succ]; ring
    rw [h4'] at hx
    rw [h2'] at hX
    rw [loop]
    simp only []
    split
    · rename_i hle
      have hle' := BitVec.le_def.1 hle
      rw [htmp] at hle'
      have hsub : (x - ((2 : BitVec (2 * m)) * (y <<< 1) + 1) <<< (2 * k)).toNat = x.toNat - (4 * y.toNat + 1) * (P * P) := by
        rw [BitVec.toNat_sub_of_le hle, htmp]
      have hadd : (y <<< 1 + 1).toNat = 2 * y.toNat + 1 := by
        rw [BitVec.toNat_add, hy1]
        have e1 : (1 : BitVec (2 * m)).toNat = 1 := by
          have : (1:Nat) < 2 ^ (2 * m) := Nat.one_lt_two_pow (by omega)
          exact Nat.mod_eq_of_lt this
        rw [e1, Nat.mod_eq_of_lt]
        omega
      refine ih _ _ (by omega) ?_ ?_ ?_
      · rw [hadd, h2]; omega
      · rw [hadd, hsub, h4]
        have e : (2 * (2 * y.toNat + 1) + 1) * (P * P) = (4 * y.toNat + 3) * (P * P) := by ring
        rw [e]
        have : x.toNat < (8 * y.toNat + 4) * (P * P) := by nlinarith
        have e2 : (8 * y.toNat + 4) * (P * P) = (4 * y.toNat + 3) * (P * P) + (4 * y.toNat + 1) * (P * P) := by ring
        omega
      · rw [hadd, hsub, hX]
        have e : ((2 * y.toNat + 1) * P) ^ 2 = (4 * y.toNat + 1) * (P * P) + (y.toNat * (2 * P)) ^ 2 := by ring
        rw [e]; omega
    · rename_i hle
      have hle' : ¬ (((2 : BitVec (2 * m)) * (y <<< 1) + 1) <<< (2 * k)).toNat ≤ x.toNat := fun h => hle (BitVec.le_def.2 h)
      rw [htmp] at hle'
      refine ih _ _ (by omega) ?_ ?_ ?_
      · rw [hy1, h2]; omega
      · rw [hy1, h4]
        have : 2 * (2 * y.toNat) + 1 = 4 * y.toNat + 1 := by ring
        rw [this]; omega
      · rw [hy1, hX]; ring

/-- For every even width the code returns the floor of the square root. -/
theorem fastSqrt_spec (m : Nat) (x : BitVec (2 * m)) :
    (fastSqrt (2 * m) x).toNat ^ 2 ≤ x.toNat ∧ x.toNat < ((fastSqrt (2 * m) x).toNat + 1) ^ 2 := by
  have := loop_spec m m x 0 le_rfl (by simp) (by
    have h := x.isLt
    have e : (4:Nat) ^ m = 2 ^ (2 * m) := by rw [pow_mul]; norm_num
    simp [e, h]) x.toNat (by simp)
  simpa [fastSqrt] using this

/-- C07, 8 bits. -/
theorem sqrtUi8_floor (x : BitVec 8) :
    (sqrtUi8 x).toNat ^ 2 ≤ x.toNat ∧ x.toNat < ((sqrtUi8 x).toNat + 1) ^ 2 := fastSqrt_spec 4 x

/-- C07, 16 bits. -/
theorem sqrtUi16_floor (x : BitVec 16) :
    (sqrtUi16 x).toNat ^ 2 ≤ x.toNat ∧ x.toNat < ((sqrtUi16 x).toNat + 1) ^ 2 := fastSqrt_spec 8 x

/-- C07, 32 bits. -/
theorem sqrtUi32_floor (x : BitVec 32) :
    (sqrtUi32 x).toNat ^ 2 ≤ x.toNat ∧ x.toNat < ((sqrtUi32 x).toNat + 1) ^ 2 := fastSqrt_spec 16 x

/-- C07, 64 bits. -/
theorem sqrtUi64_floor (x : BitVec 64) :
    (sqrtUi64 x).toNat ^ 2 ≤ x.toNat ∧ x.toNat < ((sqrtUi64 x).toNat + 1) ^ 2 := fastSqrt_spec 32 x

/-- C07, consequence: the largest integer whose square does not exceed the argument. -/
theorem sqrtUi64_greatest (x : BitVec 64) (y : Nat) (h : y ^ 2 ≤ x.toNat) : y ≤ (sqrtUi64 x).toNat := by
  by_contra hc
  have h2 := (sqrtUi64_floor x).2
  have : (sqrtUi64 x).toNat + 1 ≤ y := by omega
  have := Nat.pow_le_pow_left this 2
  omega

theorem peak_lt (m k x y : Nat) (hk : k ≤ m) (hx : x < 2 ^ (2 * m)) (hy : y < 2 ^ (m - k)) (hm : 0 < m) :
    peak k x y < 2 ^ (2 * m) := by
  induction k generalizing x y with
  | zero =>
    have : (2:Nat) ^ (m - 0) ≤ 2 ^ (2 * m) := Nat.pow_le_pow_right (by norm_num) (by omega)
    simp only [peak]
    exact max_lt hx (lt_of_lt_of_le hy this)
  | succ k ih =>
    have hmk : m - k = (m - (k + 1)) + 1 := by omega
    have h2 : (2:Nat) ^ (m - k) = 2 * 2 ^ (m - (k + 1)) := by rw [hmk, pow_succ]; ring
    have hb : (2:Nat) ^ (m - k) ≤ 2 ^ (2 * m) := Nat.pow_le_pow_right (by norm_num) (by omega)
    have hw : (2:Nat) ^ (2 * m) = 2 ^ (m - k) * 2 ^ (m - k) * 2 ^ (2 * k) := by
      rw [← pow_add, ← pow_add]; congr 1; omega
    have hyy : y + 1 ≤ 2 ^ (m - (k + 1)) := hy
    have htmp : (2 * (2 * y) + 1) * 2 ^ (2 * k) < 2 ^ (2 * m) := by
      rw [hw]
      refine Nat.mul_lt_mul_of_pos_right ?_ (by positivity)
      rw [h2]; nlinarith
    rw [peak]
    refine max_lt (max_lt hx (by omega)) (max_lt htmp ?_)
    split
    · exact ih _ _ (by omega) (by omega) (by omega)
    · exact ih _ _ (by omega) hx (by omega)

/-- C07, no overflow: the loop run over unbounded integers never produces a value that does not fit in 64 bits (so the wrapping
of the machine operations is never observed); `peak` is the maximum of all intermediate values. -/
theorem sqrtUi64_no_overflow (x : BitVec 64) : peak 32 x.toNat 0 < 2 ^ 64 :=
  peak_lt 32 32 x.toNat 0 le_rfl x.isLt (by norm_num) (by norm_num)

/-- C07, no overflow at 32 bits. -/
theorem sqrtUi32_no_overflow (x : BitVec 32) : peak 16 x.toNat 0 < 2 ^ 32 :=
  peak_lt 16 16 x.toNat 0 le_rfl x.isLt (by norm_num) (by norm_num)

/-- C07, no overflow at 16 bits. -/
theorem sqrtUi16_no_overflow (x : BitVec 16) : peak 8 x.toNat 0 < 2 ^ 16 :=
  peak_lt 8 8 x.toNat 0 le_rfl x.isLt (by norm_num) (by norm_num)

/-- C07, no overflow at 8 bits. -/
theorem sqrtUi8_no_overflow (x : BitVec 8) : peak 4 x.toNat 0 < 2 ^ 8 :=
  peak_lt 4 4 x.toNat 0 le_rfl x.isLt (by norm_num) (by norm_num)

example : sqrtUi64 0xFFFFFFFFFFFFFFFF#64 = 0xFFFFFFFF#64 := by decide +kernel
example : sqrtUi8 99#8 = 9#8 := by decide +kernel

end Verif.Isqrt
