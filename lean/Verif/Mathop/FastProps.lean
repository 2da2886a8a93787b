import Verif.Mathop.FastModel
import Mathlib.Algebra.Order.Floor.Ring
import Mathlib.Data.Rat.Floor
import Mathlib.Tactic.Ring
import Mathlib.Tactic.Linarith
import Mathlib.Tactic.FieldSimp
import Mathlib.Tactic.NormNum
import Mathlib.Algebra.Order.Archimedean.Basic
import Mathlib.Algebra.Order.Round
import Mathlib.Data.Int.Log

/-!
# Reduction of angles and conversion to integers
-/

namespace Verif.Mathop

variable {K : Type} [Field K] [LinearOrder K] [IsStrictOrderedRing K]

set_option linter.unusedSectionVars false

/-! ### Reduction of angles -/

theorem modDown_exact {c : K} (_ : 0 < c) (fuel : Nat) : ∀ x : K, x ≤ (fuel + 1 : Nat) * c →
    ∃ (y : K) (k : Nat), modDown (fun a => a) c fuel x = some y ∧ y ≤ c ∧ x = y + k * c ∧ (c < x → 0 < y) ∧ (x ≤ c → y = x) := by
  induction fuel with
  | zero =>
    intro x hx
    have hx' : ¬ x > c := by push_cast at hx; linarith
    exact ⟨x, 0, by rw [modDown, if_neg hx'], not_lt.mp hx', by simp, fun h => absurd h hx', fun _ => rfl⟩
  | succ n ih =>
    intro x hx
    by_cases h : x > c
    · obtain ⟨y, k, e, h1, h2, h3, h4⟩ := ih (x - c) (by push_cast at hx ⊢; linarith)
      refine ⟨y, k + 1, by rw [modDown, if_pos h]; exact e, h1, by push_cast; linarith, fun _ => ?_, fun h' => absurd h (not_lt.mpr h')⟩
      by_cases h' : x - c > c
      · exact h3 h'
      · rw [h4 (not_lt.mp h')]; linarith
    · exact ⟨x, 0, by rw [modDown, if_neg h], not_lt.mp h, by simp, fun h' => absurd h' h, fun _ => rfl⟩

theorem modUp_exact {c : K} (_ : 0 < c) (fuel : Nat) : ∀ x : K, -(fuel : Nat) * c ≤ x →
    ∃ (y : K) (k : Nat), modUp (fun a => a) c fuel x = some y ∧ 0 ≤ y ∧ y = x + k * c ∧ (x < 0 → y < c) ∧ (0 ≤ x → y = x) := by
  induction fuel with
  | zero =>
    intro x hx
    have hx' : ¬ x < 0 := by push_cast at hx; linarith
    exact ⟨x, 0, by rw [modUp, if_neg hx'], not_lt.mp hx', by simp, fun h => absurd h hx', fun _ => rfl⟩
  | succ n ih =>
    intro x hx
    by_cases h : x < 0
    · obtain ⟨y, k, e, h1, h2, h3, h4⟩ := ih (x + c) (by push_cast at hx ⊢; linarith)
      refine ⟨y, k + 1, by rw [modUp, if_pos h]; exact e, h1, by push_cast; linarith, fun _ => ?_, fun h' => absurd h (not_lt.mpr h')⟩
      by_cases h' : x + c < 0
      · exact h3 h'
      · rw [h4 (not_lt.mp h')]; linarith
    · exact ⟨x, 0, by rw [modUp, if_neg h], not_lt.mp h, by simp, fun h' => absurd h' h, fun _ => rfl⟩

/-- In exact arithmetic, for every angle the loops end and the result is the angle between 0 and `2 π` that differs by a
multiple of `2 π`; angles in this range, ends included, are not changed, larger angles are not mapped to 0 and negative
angles are not mapped to `2 π`. -/
theorem mod2pi_exact [Archimedean K] {c : K} (hc : 0 < c) (x : K) : ∃ y : K, (∃ n, ∀ fuel ≥ n, mod2pi (fun a => a) c fuel x = some y) ∧
    0 ≤ y ∧ y ≤ c ∧ (∃ k : Int, x = y + k * c) ∧ (0 ≤ x → x ≤ c → y = x) ∧ (c < x → 0 < y) ∧ (x < 0 → y < c) := by
  obtain ⟨n, hn⟩ := exists_nat_ge (|x| / c)
  have hn' : |x| ≤ n * c := by rwa [div_le_iff₀ hc] at hn
  have hx1 := le_abs_self x
  have hx2 := neg_abs_le x
  have key : ∀ fuel ≥ n, ∃ y : K, mod2pi (fun a => a) c fuel x = some y ∧ 0 ≤ y ∧ y ≤ c ∧ (∃ k : Int, x = y + k * c) ∧ (0 ≤ x → x ≤ c → y = x) ∧ (c < x → 0 < y) ∧ (x < 0 → y < c) := by
    intro fuel hf
    have hf' : (n : K) * c ≤ fuel * c := mul_le_mul_of_nonneg_right (by exact_mod_cast hf) hc.le
    obtain ⟨y, k, e, h1, h2, h3, h4⟩ := modDown_exact hc fuel x (by push_cast; linarith)
    have hy : -(fuel : Nat) * c ≤ y := by
      by_cases h : c < x
      · have := h3 h
        have : 0 ≤ (fuel : K) * c := by positivity
        linarith
      · rw [h4 (not_lt.mp h)]; linarith
    obtain ⟨z, k', e', g1, g2, g3, g4⟩ := modUp_exact hc fuel y hy
    refine ⟨z, ?_, g1, ?_, ⟨k - k', by push_cast; linarith⟩, ?_, ?_, ?_⟩
    · rw [mod2pi, e]; exact e'
    · by_cases h : y < 0
      · exact (g3 h).le
      · rw [g4 (not_lt.mp h)]; exact h1
    · intro h0 hc'
      have := h4 hc'
      rw [g4 (by rw [this]; exact h0), this]
    · intro h
      rw [g4 (h3 h).le]; exact h3 h
    · intro h
      refine g3 ?_
      rw [h4 (by linarith)]; exact h
  obtain ⟨y, e, hy⟩ := key n le_rfl
  refine ⟨y, ⟨n, fun fuel hf => ?_⟩, hy⟩
  obtain ⟨z, e', z1, z2, ⟨kz, hkz⟩, z3, z4, z5⟩ := key fuel hf
  obtain ⟨y1, y2, ⟨ky, hky⟩, y3, y4, y5⟩ := hy
  rw [e']
  congr 1
  -- the two results differ by a multiple of c, and lie in the same half open interval
  have hd : z - y = ((ky - kz : Int) : K) * c := by push_cast; linarith
  have : ky - kz = 0 := by
    have lt : z - y < c := by
      rcases lt_trichotomy 0 y with h | h | h
      · linarith
      · by_cases hx0 : x < 0
        · have := z5 hx0; linarith
        · by_cases hxc : x ≤ c
          · have := y3 (not_lt.mp hx0) hxc; have := z3 (not_lt.mp hx0) hxc; linarith
          · have := y4 (not_le.mp hxc); linarith
      · linarith
    have gt : -c < z - y := by
      rcases lt_trichotomy 0 z with h | h | h
      · linarith
      · by_cases hx0 : x < 0
        · have := y5 hx0; linarith
        · by_cases hxc : x ≤ c
          · have := y3 (not_lt.mp hx0) hxc; have := z3 (not_lt.mp hx0) hxc; linarith
          · have := z4 (not_le.mp hxc); linarith
      · linarith
    rw [hd] at lt gt
    have a1 : ((ky - kz : Int) : K) < 1 := by
      by_contra h
      have := mul_le_mul_of_nonneg_right (not_lt.mp h) hc.le
      linarith
    have a2 : (-1 : K) < ((ky - kz : Int) : K) := by
      by_contra h
      have := mul_le_mul_of_nonneg_right (not_lt.mp h) hc.le
      linarith
    have b1 : ky - kz < 1 := by exact_mod_cast a1
    have b2 : -1 < ky - kz := by exact_mod_cast a2
    omega
  rw [this] at hd
  simp at hd
  linarith

/-- With rounding: whatever the rounding, as long as it is monotone and exact for `2 π`, when the loops end the result
is neither negative nor larger than `2 π`. -/
theorem mod2pi_range {rnd : K → K} {c : K} (hm : Monotone rnd) (hr : rnd c = c) {fuel : Nat} {x y : K}
    (e : mod2pi rnd c fuel x = some y) : 0 ≤ y ∧ y ≤ c := by
  have down : ∀ n, ∀ x y : K, modDown rnd c n x = some y → y ≤ c := by
    intro n
    induction n with
    | zero => intro x y e; rw [modDown] at e; split at e <;> simp at e; rename_i h; rw [← e]; exact not_lt.mp h
    | succ n ih =>
      intro x y e
      rw [modDown] at e
      split at e
      · exact ih _ _ e
      · rename_i h; simp at e; rw [← e]; exact not_lt.mp h
  have up : ∀ n, ∀ x y : K, x ≤ c → modUp rnd c n x = some y → 0 ≤ y ∧ y ≤ c := by
    intro n
    induction n with
    | zero => intro x y hx e; rw [modUp] at e; split at e <;> simp at e; rename_i h; rw [← e]; exact ⟨not_lt.mp h, hx⟩
    | succ n ih =>
      intro x y hx e
      rw [modUp] at e
      split at e
      · rename_i h
        refine ih _ _ ?_ e
        rw [← hr]
        conv_lhs => rw [hr]
        exact hm (by linarith)
      · rename_i h; simp at e; rw [← e]; exact ⟨not_lt.mp h, hx⟩
  rw [mod2pi] at e
  cases h : modDown rnd c fuel x with
  | none => rw [h] at e; cases e
  | some m => rw [h] at e; exact up _ _ _ (down _ _ _ h) e

/-- The numbers with 24 significant bits. -/
def Float24 (y : ℚ) : Prop := ∃ (m e : Int), |m| < 2 ^ 24 ∧ y = m * 2 ^ e

/-- `y` is a number with 24 significant bits that is nearest to `x`. -/
def Nearest (x y : ℚ) : Prop := Float24 y ∧ ∀ z, Float24 z → |x - y| ≤ |x - z|

/-- `(float) (2 * VL_PI)` -/
def twoPiF : ℚ := 13176795 / 2 ^ 21

theorem zpow_le_of {e : Int} (h : e ≤ 3) : (2 : ℚ) ^ e ≤ 8 := by
  calc (2 : ℚ) ^ e ≤ 2 ^ (3 : Int) := zpow_le_zpow_right₀ (by norm_num) h
    _ = 8 := by norm_num

theorem nearest_unique {y : ℚ} (h : Nearest (2 ^ 28 - twoPiF) y) : y = 2 ^ 28 := by
  obtain ⟨⟨m, e, hm, hy⟩, hn⟩ := h
  have h1 := hn (2 ^ 28) ⟨1, 28, by norm_num, by norm_num⟩
  have hab : |(2 ^ 28 - twoPiF : ℚ) - 2 ^ 28| = twoPiF := by norm_num [twoPiF]
  rw [hab, abs_le] at h1
  have c1 : twoPiF < 7 := by norm_num [twoPiF]
  have c0 : 0 < twoPiF := by norm_num [twoPiF]
  have hlo : (2 ^ 28 - 14 : ℚ) < y := by linarith [h1.2]
  have hhi : y ≤ 2 ^ 28 := by linarith [h1.1]
  have hmq : (m : ℚ) < 2 ^ 24 := by
    have := (abs_lt.mp hm).2
    exact_mod_cast this
  have he : 4 ≤ e := by
    by_contra hc
    have h8 := zpow_le_of (show e ≤ 3 by omega)
    have hp : (0 : ℚ) < 2 ^ e := zpow_pos (by norm_num) _
    have hm0 : (0 : ℚ) < m := by
      by_contra hneg
      have : (m : ℚ) * 2 ^ e ≤ 0 := mul_nonpos_of_nonpos_of_nonneg (not_lt.mp hneg) hp.le
      rw [hy] at hlo; linarith
    have : (m : ℚ) * 2 ^ e ≤ 2 ^ 24 * 8 := mul_le_mul hmq.le h8 hp.le (by norm_num)
    rw [hy] at hlo
    linarith
  obtain ⟨n, rfl⟩ : ∃ n : Nat, e = 4 + n := ⟨(e - 4).toNat, by omega⟩
  have hz : y = ((m * 2 ^ n * 16 : Int) : ℚ) := by
    rw [hy, zpow_add₀ (by norm_num), zpow_natCast]; push_cast; ring
  rw [hz] at hlo hhi ⊢
  have l1 : (2 ^ 28 - 14 : Int) < m * 2 ^ n * 16 := by exact_mod_cast hlo
  have l2 : m * 2 ^ n * 16 ≤ (2 ^ 28 : Int) := by exact_mod_cast hhi
  have : m * 2 ^ n * 16 = (2 ^ 28 : Int) := by omega
  rw [this]; norm_num

/-- In single precision, with rounding to the nearest and any treatment of ties, the loop for large angles never ends for
`x = 2 ^ 28`, because `x - 2 π` is rounded to `x`. -/
theorem mod2pi_diverges {rnd : ℚ → ℚ} (h : ∀ x, Nearest x (rnd x)) (fuel : Nat) : mod2pi rnd twoPiF fuel (2 ^ 28) = none := by
  have hr : rnd (2 ^ 28 - twoPiF) = 2 ^ 28 := nearest_unique (h _)
  have hc : (2 ^ 28 : ℚ) > twoPiF := by norm_num [twoPiF]
  have : ∀ n, modDown rnd twoPiF n (2 ^ 28) = none := by
    intro n
    induction n with
    | zero => rw [modDown, if_pos hc]
    | succ n ih => rw [modDown, if_pos hc, hr, ih]
  rw [mod2pi, this]; rfl

theorem float24_of {m e : Int} (h : |m| ≤ 2 ^ 24) : Float24 (m * 2 ^ e) := by
  by_cases hlt : |m| < 2 ^ 24
  · exact ⟨m, e, hlt, rfl⟩
  · have habs : |m| = 2 ^ 24 := le_antisymm h (not_lt.mp hlt)
    rcases (abs_eq (by norm_num)).mp habs with rfl | rfl
    · exact ⟨1, 24 + e, by norm_num, by rw [zpow_add₀ (by norm_num)]; norm_num⟩
    · exact ⟨-1, 24 + e, by norm_num, by rw [zpow_add₀ (by norm_num)]; norm_num⟩

/-- There is a rounding to the nearest. -/
theorem exists_nearest (x : ℚ) : ∃ y, Nearest x y := by
  by_cases hx : x = 0
  · exact ⟨0, ⟨0, 0, by norm_num, by norm_num⟩, fun z _ => by rw [hx]; simp⟩
  have hpos : 0 < |x| := abs_pos.mpr hx
  set l := Int.log 2 |x| with hl
  have l1 : (2 : ℚ) ^ l ≤ |x| := by exact_mod_cast Int.zpow_log_le_self (b := 2) (by norm_num) hpos
  have l2 : |x| < (2 : ℚ) ^ (l + 1) := by exact_mod_cast Int.lt_zpow_succ_log_self (b := 2) (by norm_num) |x|
  set e := l - 23 with he
  have hp : (0 : ℚ) < 2 ^ e := zpow_pos (by norm_num) _
  have hle : (2 : ℚ) ^ l = 2 ^ 23 * 2 ^ e := by rw [he, show l = 23 + (l - 23) by ring, zpow_add₀ (by norm_num)]; norm_num
  have hle1 : (2 : ℚ) ^ (l + 1) = 2 ^ 24 * 2 ^ e := by rw [zpow_add₀ (by norm_num), hle]; norm_num; ring
  -- distances to the multiples of 2 ^ e
  have mult : ∀ k : Int, |x - round (x / 2 ^ e) * 2 ^ e| ≤ |x - k * 2 ^ e| := by
    intro k
    have h1 := round_le (x / 2 ^ e) k
    have e1 : ∀ k : Int, x - k * 2 ^ e = (x / 2 ^ e - k) * 2 ^ e := fun k => by rw [sub_mul, div_mul_cancel₀ _ hp.ne']
    rw [e1, e1, abs_mul, abs_mul]
    exact mul_le_mul_of_nonneg_right h1 (abs_nonneg _)
  refine ⟨round (x / 2 ^ e) * 2 ^ e, float24_of ?_, ?_⟩
  · -- the rounded multiple has at most 24 bits
    have hq : |x / 2 ^ e| < 2 ^ 24 := by
      rw [abs_div, abs_of_pos hp, div_lt_iff₀ hp, ← hle1]; exact l2
    have h1 := abs_sub_round (x / 2 ^ e)
    have h2 : |((round (x / 2 ^ e) : Int) : ℚ)| < 2 ^ 24 + 1 := by
      have := abs_sub_abs_le_abs_sub ((round (x / 2 ^ e) : Int) : ℚ) (x / 2 ^ e)
      rw [abs_sub_comm] at this
      linarith
    have h3 : |round (x / 2 ^ e)| < 2 ^ 24 + 1 := by exact_mod_cast h2
    omega
  · rintro z ⟨m, e', hm, rfl⟩
    by_cases hee : e ≤ e'
    · obtain ⟨n, rfl⟩ : ∃ n : Nat, e' = n + e := ⟨(e' - e).toNat, by omega⟩
      have := mult (m * 2 ^ n)
      rw [zpow_add₀ (by norm_num), zpow_natCast, ← mul_assoc]
      push_cast at this
      exact this
    · -- numbers with a smaller exponent are below 2 ^ l
      have hz : |(m : ℚ) * 2 ^ e'| ≤ 2 ^ l := by
        rw [abs_mul, abs_of_pos (zpow_pos (by norm_num : (0 : ℚ) < 2) e')]
        have hm' : |(m : ℚ)| ≤ 2 ^ 24 := by exact_mod_cast hm.le
        have hpe : (2 : ℚ) ^ e' ≤ 2 ^ (e - 1) := zpow_le_zpow_right₀ (by norm_num) (by omega)
        calc |(m : ℚ)| * 2 ^ e' ≤ 2 ^ 24 * 2 ^ (e - 1) := mul_le_mul hm' hpe (zpow_pos (by norm_num) _).le (by norm_num)
          _ = 2 ^ l := by rw [hle, zpow_sub₀ (by norm_num)]; norm_num; ring
      have htri := abs_sub_abs_le_abs_sub x ((m : ℚ) * 2 ^ e')
      refine le_trans ?_ (le_trans (show |x| - 2 ^ l ≤ _ by linarith) htri)
      rcases le_or_gt 0 x with h0 | h0
      · refine le_trans (mult (2 ^ 23)) ?_
        have e1 : (((2 ^ 23 : Int) : ℚ)) * 2 ^ e = 2 ^ l := by rw [hle]; push_cast; rfl
        rw [abs_of_nonneg h0] at l1 ⊢
        rw [e1, abs_of_nonneg (by linarith)]
      · refine le_trans (mult (-2 ^ 23)) ?_
        have e1 : (((-2 ^ 23 : Int) : ℚ)) * 2 ^ e = -2 ^ l := by rw [hle]; push_cast; ring
        rw [abs_of_neg h0] at l1 ⊢
        rw [e1, sub_neg_eq_add, abs_of_nonpos (by linarith)]
        linarith

/-- The claim that the function returns for every number, in single precision with rounding to the nearest. -/
def ModEndsClaim : Prop := ∀ rnd : ℚ → ℚ, (∀ x, Nearest x (rnd x)) → ∀ x : ℚ, Float24 x → ∃ fuel y, mod2pi rnd twoPiF fuel x = some y

theorem modEnds_claim_false : ¬ ModEndsClaim := by
  intro h
  choose rnd hrnd using exists_nearest
  obtain ⟨fuel, y, e⟩ := h rnd hrnd (2 ^ 28) ⟨1, 28, by norm_num, by norm_num⟩
  rw [mod2pi_diverges hrnd] at e
  cases e

example : mod2pi (fun a => a) (6 : ℚ) 4 20 = some 2 ∧ mod2pi (fun a => a) (6 : ℚ) 4 (-20) = some 4 ∧ mod2pi (fun a => a) (6 : ℚ) 4 12 = some 6 := by decide +kernel

/-! ### Conversions to integers -/

variable [FloorRing K]

theorem toLong_of {x : K} {n : Int} (h : (if x ≥ 0 then ⌊x⌋ else ⌈x⌉) = n) (h1 : -2 ^ 63 ≤ n) (h2 : n < 2 ^ 63) : toLong x = some n := by
  simp only [toLong, h]
  rw [if_pos ⟨h1, h2⟩]

/-- `vl_floor` is the largest integer not above `x`, for every number in the range of the integers. -/
theorem floorL_exact {x : K} (h1 : -2 ^ 63 ≤ x) (h2 : x < 2 ^ 63) : ∃ n : Int, floorL x = some n ∧ (n : K) ≤ x ∧ x < n + 1 := by
  refine ⟨⌊x⌋, ?_, Int.floor_le x, Int.lt_floor_add_one x⟩
  have lo : -2 ^ 63 ≤ ⌊x⌋ := Int.le_floor.mpr (by push_cast; linarith)
  have hi : ⌊x⌋ < 2 ^ 63 := Int.floor_lt.mpr (by push_cast; linarith)
  by_cases hx : x ≥ 0
  · rw [floorL, toLong_of (n := ⌊x⌋) (by rw [if_pos hx]) lo hi]
    simp [hx]
  · have lo' : -2 ^ 63 ≤ ⌈x⌉ := by
      have : (⌊x⌋ : Int) ≤ ⌈x⌉ := Int.floor_le_ceil x
      omega
    have hi' : ⌈x⌉ < 2 ^ 63 := by
      have : ⌈x⌉ ≤ 0 := Int.ceil_le.mpr (by push_cast; exact (not_le.mp hx).le)
      omega
    rw [floorL, toLong_of (n := ⌈x⌉) (by rw [if_neg hx]) lo' hi']
    simp only [Option.bind_eq_bind, Option.bind_some]
    by_cases he : ((⌈x⌉ : Int) : K) = x
    · rw [if_pos (by simp [he])]
      congr 1
      rw [eq_comm, Int.floor_eq_iff]
      constructor
      · exact he.le
      · rw [he]; linarith
    · rw [if_neg (by simp [he]; exact not_le.mp hx)]
      congr 1
      rw [eq_comm, Int.floor_eq_iff]
      have c1 := Int.le_ceil x
      have c2 := Int.ceil_lt_add_one x
      push_cast
      constructor
      · linarith
      · rw [sub_add_cancel]; exact lt_of_le_of_ne c1 (Ne.symm he)

/-- `vl_ceil` is the smallest integer not below `x`. -/
theorem ceilL_exact {x : K} (h1 : -2 ^ 63 ≤ x) (h2 : x ≤ 2 ^ 63 - 1) : ∃ n : Int, ceilL x = some n ∧ x ≤ n ∧ (n : K) < x + 1 := by
  refine ⟨⌈x⌉, ?_, Int.le_ceil x, Int.ceil_lt_add_one x⟩
  refine toLong_of ?_ ?_ ?_
  · split <;> simp
  · exact Int.le_ceil_iff.mpr (by push_cast; linarith)
  · have : ⌈x⌉ ≤ 2 ^ 63 - 1 := Int.ceil_le.mpr (by push_cast; linarith)
    omega

/-- `vl_round` is the nearest integer, and of two nearest integers the one that is further from zero. -/
theorem roundL_exact {x : K} (h1 : -2 ^ 63 + 1 ≤ x) (h2 : x ≤ 2 ^ 63 - 1) : ∃ n : Int, roundL x = some n ∧ |x - n| ≤ 1 / 2 ∧ (|x - n| = 1 / 2 → |x| < |(n : K)|) := by
  by_cases hx : x ≥ 0
  · obtain ⟨n, e, l1, l2⟩ := floorL_exact (x := x + 1 / 2) (by linarith) (by linarith)
    refine ⟨n, by rw [roundL, if_pos hx]; exact e, abs_le.mpr ⟨by linarith, by linarith⟩, fun h => ?_⟩
    rcases (abs_eq (by norm_num : (0 : K) ≤ 1 / 2)).mp h with h | h
    · linarith
    · rw [abs_of_nonneg hx, abs_of_nonneg (by linarith)]; linarith
  · have hx' := not_le.mp hx
    obtain ⟨n, e, l1, l2⟩ := ceilL_exact (x := x - 1 / 2) (by linarith) (by linarith)
    refine ⟨n, by rw [roundL, if_neg hx]; exact e, abs_le.mpr ⟨by linarith, by linarith⟩, fun h => ?_⟩
    rcases (abs_eq (by norm_num : (0 : K) ≤ 1 / 2)).mp h with h | h
    · rw [abs_of_neg hx', abs_of_neg (by linarith)]; linarith
    · linarith

example : floorL (-3 / 2 : ℚ) = some (-2) ∧ floorL (-2 : ℚ) = some (-2) ∧ floorL (7 / 2 : ℚ) = some 3 ∧ roundL (-5 / 2 : ℚ) = some (-3) ∧ ceilL (-5 / 2 : ℚ) = some (-2) := by decide +kernel

end Verif.Mathop
