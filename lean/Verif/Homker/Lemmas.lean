import Verif.Homker.Spec
import Verif.Rows
import Mathlib.Tactic.Ring
import Mathlib.Tactic.Linarith
import Mathlib.Tactic.Positivity
import Mathlib.Tactic.FieldSimp

/-!
# Lemmas on the homogeneous kernel map
-/

namespace Verif.Homker

open Spec

set_option linter.unusedSectionVars false

variable {K : Type} [Field K] [LinearOrder K] [IsStrictOrderedRing K]

theorem divv_of {x y : K} (h : y ≠ 0) : divv x y = some (x / y) := if_neg h

theorem logv_of (F : Fns K) {x : K} (h : 0 < x) : logv F x = some (F.log x) := if_pos h

theorem sqrtv_of (F : Fns K) {x : K} (h : 0 ≤ x) : sqrtv F x = some (F.sqrt x) := if_neg (not_lt.2 h)

theorem one_add_pos (w : K) : 0 < 1 + 4 * w * w := by nlinarith [mul_self_nonneg w]

theorem spectrum_eq {F : Fns K} (hF : IsFns F) (k : Kernel) (w : K) : spectrum F k w = some (Spec.spectrum F k w) := by
  have h1 := (one_add_pos w).ne'
  have h2 := (add_pos (hF.exp (F.pi * w)) (hF.exp (-F.pi * w))).ne'
  cases k
  · unfold spectrum Spec.spectrum
    rw [divv_of hF.pi.ne']
    simp only [Option.bind_eq_bind, Option.bind_some]
    rw [divv_of h1]
  · unfold spectrum Spec.spectrum
    dsimp only
    rw [divv_of h2]
  · unfold spectrum Spec.spectrum
    rw [logv_of F (by norm_num)]
    simp only [Option.bind_eq_bind, Option.bind_some]
    rw [divv_of hF.log4.ne']
    simp only [Option.bind_some]
    rw [divv_of h2]
    simp only [Option.bind_some]
    rw [divv_of h1]

theorem spectrum_pos {F : Fns K} (hF : IsFns F) (k : Kernel) (w : K) : 0 < Spec.spectrum F k w := by
  have h1 := one_add_pos w
  have h2 := add_pos (hF.exp (F.pi * w)) (hF.exp (-F.pi * w))
  have h3 := hF.pi
  have h4 := hF.log4
  cases k <;> unfold Spec.spectrum <;> positivity

theorem sinc_eq (F : Fns K) (x : K) : sinc F x = some (Spec.sinc F x) := by
  unfold sinc Spec.sinc
  by_cases h : x = 0
  · rw [if_pos h, if_pos h]
  · rw [if_neg h, if_neg h, divv_of h]

theorem smoothLoop_eq {F : Fns K} (hF : IsFns F) (k : Kernel) {T : K} (omega : K) {R d : K} (hR : 0 < R) (hd : d = 2 * R / 2049) :
    ∀ (fuel t : Nat) (acc : K), t + fuel = 2051 → smoothLoop F k T omega R d fuel (-R + t * d) acc =
      if fuel = 0 then none else some (acc + ∑ u ∈ Finset.range (2050 - t), Spec.sinc F (T / 2 * (-R + ((t + u : Nat) : K) * d)) * (T / (2 * F.pi)) * Spec.spectrum F k (-R + ((t + u : Nat) : K) * d + omega)) := by
  intro fuel
  induction fuel with
  | zero => intro t acc _; rfl
  | succ fuel ih =>
    intro t acc ht
    rw [smoothLoop, if_neg (Nat.succ_ne_zero fuel)]
    by_cases hle : t ≤ 2049
    · have hc : -R + (t : K) * d ≤ R := by
        have : (t : K) ≤ 2049 := by exact_mod_cast hle
        have h2 : (t : K) * d ≤ 2049 * d := mul_le_mul_of_nonneg_right this (by rw [hd]; positivity)
        rw [hd] at h2 ⊢
        linarith [show (2049 : K) * (2 * R / 2049) = 2 * R by field_simp]
      rw [if_pos hc, sinc_eq]
      simp only [Option.bind_eq_bind, Option.bind_some]
      rw [divv_of (mul_pos two_pos hF.pi).ne']
      simp only [Option.bind_some]
      rw [spectrum_eq hF]
      simp only [Option.bind_some]
      rw [show -R + (t : K) * d + d = -R + ((t + 1 : Nat) : K) * d by push_cast; ring, ih (t + 1) _ (by omega), if_neg (by omega), show 2050 - t = (2050 - (t + 1)) + 1 by omega, Finset.sum_range_succ']
      congr 1
      rw [Nat.add_zero, show ∀ a b c : K, a + (b + c) = a + c + b from fun a b c => by ring]
      congr 1
      apply Finset.sum_congr rfl
      intro u _
      rw [show t + 1 + u = t + (u + 1) by omega]
    · have hc : ¬ (-R + (t : K) * d ≤ R) := by
        have : ((2050 : Nat) : K) ≤ t := by exact_mod_cast (by omega : 2050 ≤ t)
        have h2 : ((2050 : Nat) : K) * d ≤ (t : K) * d := mul_le_mul_of_nonneg_right this (by rw [hd]; positivity)
        rw [hd] at h2 ⊢
        push_cast at h2
        have h3 : (2050 : K) * (2 * R / 2049) > 2 * R := by
          rw [gt_iff_lt, show (2050 : K) * (2 * R / 2049) = 2 * R + 2 * R / 2049 by field_simp; ring]
          linarith [show 0 < 2 * R / 2049 by positivity]
        linarith
      rw [if_neg hc, show 2050 - t = 0 by omega, Finset.sum_range_zero, add_zero]

theorem smooth_eq {F : Fns K} (hF : IsFns F) (k : Kernel) (w : Window) {T : K} (hT : 0 < T) (omega : K) : smoothSpectrum F k w T omega = some (smooth F k T omega w) := by
  unfold smoothSpectrum
  have hT' : T * (1 / 100) ≠ 0 := by positivity
  rw [divv_of hT', show (2 : K) / (T * (1 / 100)) = 200 / T by field_simp; norm_num]
  simp only [Option.bind_eq_bind, Option.bind_some, Option.pure_def]
  rw [divv_of (by norm_num)]
  simp only [Option.bind_some]
  cases w
  · exact spectrum_eq hF k omega
  · have hd : 2 * (200 / T) / (2 * 1024 + 1) = 2 * (200 / T) / 2049 := by norm_num
    have h := smoothLoop_eq hF k (T := T) omega (R := 200 / T) (by positivity) hd 2051 0 0 rfl
    rw [Nat.cast_zero, zero_mul, add_zero, if_neg (by norm_num)] at h
    dsimp only
    rw [h]
    simp only [Option.bind_some, zero_add, Nat.sub_zero]
    unfold smooth
    rw [hd, show 2 * (200 / T) / 2049 = 400 / T / 2049 by ring]

theorem smooth_nonneg {F : Fns K} (hF : IsFns F) (k : Kernel) (w : Window) (T omega : K) : 0 ≤ smooth F k T omega w := by
  cases w
  · exact (spectrum_pos hF k omega).le
  · exact le_max_right _ _

theorem defaultPeriod_eq {F : Fns K} (k : Kernel) (w : Window) (order : Nat) : defaultPeriod F k w order = some (Spec.defaultPeriod F order k w) := by
  have h : (0 : K) ≤ order := Nat.cast_nonneg order
  unfold defaultPeriod Spec.defaultPeriod
  cases w <;> cases k <;> dsimp only
  · rw [logv_of F (by positivity)]; rfl
  · rw [sqrtv_of F (by positivity), add_zero]; rfl
  · rw [sqrtv_of F (by positivity), add_zero]; rfl
  · rw [logv_of F (by positivity)]; rfl
  · rw [sqrtv_of F (by positivity)]; rfl
  · rw [sqrtv_of F (by positivity)]; rfl

theorem one_le_defaultPeriod {F : Fns K} (k : Kernel) (w : Window) (order : Nat) : 1 ≤ Spec.defaultPeriod F order k w := by
  unfold Spec.defaultPeriod
  cases w <;> cases k <;> exact le_max_right _ _

/-- The invariant of the sampling of the spectrum -/
structure SInv (S : Nat → K) (order kappa fq M : Nat) (s : Sampling K) (g : Nat → K) (freq : Nat → Nat) : Prop where
  block : Arr s.block M g
  le : s.i ≤ order + 1
  kap : ∀ i < s.i, g (kappa + i) = S (freq i)
  frq : ∀ i < s.i, g (fq + i) = (freq i : K)
  zero : s.i = 0 → s.j = 0
  zero' : 0 < s.i → freq 0 = 0
  incr : ∀ i, i + 1 < s.i → freq i < freq (i + 1)
  bound : ∀ i < s.i, 0 < i → freq i < 3 * i
  skip : ∀ i, i + 1 < s.i → ∀ j, freq i < j → j < freq (i + 1) → S j ≤ 0
  pos : ∀ i < s.i, 0 < S (freq i) ∨ 3 * i ≤ freq i + 1
  lt : ∀ i, i + 1 = s.i → freq i < s.j ∧ ∀ j, freq i < j → j < s.j → S j ≤ 0
  jle : 0 < s.i → s.i ≤ order → s.j < 3 * s.i
  jle' : s.j ≤ 3 * order + 1

theorem sampleLoop_eq {F : Fns K} (k : Kernel) (w : Window) {T L : K} {order kappa fq M : Nat} (hM : fq + (1 + order) ≤ M) (hk : kappa + (1 + order) = fq) {S : Nat → K}
    (hS : ∀ j : Nat, smoothSpectrum F k w T (j * L) = some (S j)) :
    ∀ (fuel : Nat) (s : Sampling K) (g : Nat → K) (freq : Nat → Nat), SInv S order kappa fq M s g freq → fuel + s.j = 3 * order + 2 →
      ∃ b g' freq', sampleLoop F k w T L order kappa fq fuel s = some b ∧ Arr b M g' ∧ IsSampling S order freq' ∧ (∀ i ≤ order, g' (kappa + i) = S (freq' i)) ∧ ∀ i ≤ order, g' (fq + i) = (freq' i : K) := by
  intro fuel
  induction fuel with
  | zero =>
    intro s g freq h hf
    have := h.jle'
    omega
  | succ fuel ih =>
    intro s g freq h hf
    rw [sampleLoop]
    by_cases hi : s.i ≤ order
    · rw [if_pos hi]
      obtain ⟨b1, e1, h1⟩ := h.block.wr (show fq + s.i < M by omega) (s.j : K)
      rw [e1]
      simp only [Option.bind_eq_bind, Option.bind_some]
      rw [hS s.j]
      simp only [Option.bind_some]
      obtain ⟨b2, e2, h2⟩ := h1.wr (show kappa + s.i < M by omega) (S s.j)
      rw [e2]
      simp only [Option.bind_some]
      rw [h2.rd (show kappa + s.i < M by omega)]
      simp only [Option.bind_some]
      have hg : ∀ i ≤ order, i ≠ s.i → upd1 (upd1 g (fq + s.i) (s.j : K)) (kappa + s.i) (S s.j) (kappa + i) = g (kappa + i) ∧ upd1 (upd1 g (fq + s.i) (s.j : K)) (kappa + s.i) (S s.j) (fq + i) = g (fq + i) := fun i hio hne => by
        unfold upd1
        exact ⟨by rw [if_neg (by omega), if_neg (by omega)], by rw [if_neg (by omega), if_neg (by omega)]⟩
      have hg1 : upd1 (upd1 g (fq + s.i) (s.j : K)) (kappa + s.i) (S s.j) (kappa + s.i) = S s.j := by unfold upd1; rw [if_pos rfl]
      have hg2 : upd1 (upd1 g (fq + s.i) (s.j : K)) (kappa + s.i) (S s.j) (fq + s.i) = (s.j : K) := by unfold upd1; rw [if_neg (by omega), if_pos rfl]
      rw [hg1]
      by_cases hc : S s.j > 0 ∨ s.j + 1 ≥ 3 * s.i
      · rw [if_pos hc]
        have hf1 : ∀ i, i ≠ s.i → upd1 freq s.i s.j i = freq i := fun i hne => by unfold upd1; rw [if_neg hne]
        have hf2 : upd1 freq s.i s.j s.i = s.j := by unfold upd1; rw [if_pos rfl]
        refine ih _ _ (upd1 freq s.i s.j) { block := h2, le := ?_, kap := ?_, frq := ?_, zero := ?_, zero' := ?_, incr := ?_, bound := ?_, skip := ?_, pos := ?_, lt := ?_, jle := ?_, jle' := ?_ } (by dsimp only; omega)
        · dsimp only; omega
        · intro i hi'
          dsimp only at hi'
          by_cases hii : i = s.i
          · rw [hii, hg1, hf2]
          · rw [(hg i (by omega) hii).1, hf1 i hii]
            exact h.kap i (by omega)
        · intro i hi'
          dsimp only at hi'
          by_cases hii : i = s.i
          · rw [hii, hg2, hf2]
          · rw [(hg i (by omega) hii).2, hf1 i hii]
            exact h.frq i (by omega)
        · intro h0
          dsimp only at h0
          omega
        · intro _
          by_cases h0 : s.i = 0
          · have := h.zero h0
            rw [← h0, hf2, this]
            omega
          · rw [hf1 0 (by omega)]
            exact h.zero' (by omega)
        · intro i hi'
          dsimp only at hi'
          rw [hf1 i (by omega)]
          by_cases hii : i + 1 = s.i
          · rw [hii, hf2]
            exact (h.lt i hii).1
          · rw [hf1 _ hii]
            exact h.incr i (by omega)
        · intro i hi' h0
          dsimp only at hi'
          by_cases hii : i = s.i
          · rw [hii, hf2]
            exact h.jle (by omega) hi
          · rw [hf1 i hii]
            exact h.bound i (by omega) h0
        · intro i hi' j hj hj'
          dsimp only at hi'
          rw [hf1 i (by omega)] at hj
          by_cases hii : i + 1 = s.i
          · rw [hii, hf2] at hj'
            exact (h.lt i hii).2 j hj hj'
          · rw [hf1 _ hii] at hj'
            exact h.skip i (by omega) j hj hj'
        · intro i hi'
          dsimp only at hi'
          by_cases hii : i = s.i
          · rw [hii, hf2]
            exact hc
          · rw [hf1 i hii]
            exact h.pos i (by omega)
        · intro i hi'
          dsimp only at hi'
          obtain rfl : i = s.i := by omega
          rw [hf2]
          exact ⟨Nat.lt_succ_self _, fun j hj hj' => by dsimp only at hj'; omega⟩
        · intro _ _
          dsimp only
          by_cases h0 : s.i = 0
          · have := h.zero h0
            omega
          · have := h.jle (by omega) hi
            omega
        · dsimp only
          by_cases h0 : s.i = 0
          · have := h.zero h0
            omega
          · have := h.jle (by omega) hi
            omega
      · rw [if_neg hc]
        push Not at hc
        refine ih _ _ freq { block := h2, le := ?_, kap := ?_, frq := ?_, zero := ?_, zero' := h.zero', incr := h.incr, bound := h.bound, skip := h.skip, pos := h.pos, lt := ?_, jle := ?_, jle' := ?_ } (by dsimp only; omega)
        · dsimp only; omega
        · intro i hi'
          dsimp only at hi'
          rw [(hg i (by omega) (by omega)).1]
          exact h.kap i hi'
        · intro i hi'
          dsimp only at hi'
          rw [(hg i (by omega) (by omega)).2]
          exact h.frq i hi'
        · intro h0
          dsimp only at h0
          omega
        · intro i hi'
          have := h.lt i hi'
          refine ⟨by dsimp only; omega, fun j hj hj' => ?_⟩
          dsimp only at hj'
          by_cases hjj : j = s.j
          · rw [hjj]; exact hc.1
          · exact this.2 j hj (by omega)
        · intro h0 _
          dsimp only at h0 ⊢
          omega
        · dsimp only
          omega
    · rw [if_neg hi]
      have hi' : s.i = order + 1 := by have := h.le; omega
      exact ⟨s.block, g, freq, rfl, h.block, ⟨h.zero' (by omega), fun i hio => h.incr i (by omega), fun i hio => h.bound i (by omega), fun i hio => h.skip i (by omega), fun i hio => h.pos i (by omega)⟩,
        fun i hio => h.kap i (by omega), fun i hio => h.frq i (by omega)⟩

theorem fillOne_eq {F : Fns K} (hF : IsFns F) {gamma L : K} (hL : 0 < L) {S : Nat → K} (hS : ∀ j, 0 ≤ S j) {freq : Nat → Nat} {order kappa fq M c : Nat} (hM : fq + (1 + order) ≤ M) (hk : kappa + (1 + order) = fq)
    (hc : c + (2 * order + 1) ≤ kappa) {b : List K} {g : Nat → K} (hb : Arr b M g) (hg1 : ∀ i ≤ order, g (kappa + i) = S (freq i)) (hg2 : ∀ i ≤ order, g (fq + i) = (freq i : K)) (e : Int) {m : K} (hm : 0 < m) :
    ∃ b', fillOne F gamma L order kappa fq e m (b, c) = some (b', c + (2 * order + 1)) ∧
      Arr b' M (fun a => if c ≤ a ∧ a < c + (2 * order + 1) then psi F gamma L S freq (m * 2 ^ e) (a - c) else g a) := by
  have hx : 0 < m * 2 ^ e := mul_pos hm (zpow_pos two_pos e)
  have hp := hF.pow (m * 2 ^ e) gamma hx
  unfold fillOne
  dsimp only
  rw [logv_of F hx]
  simp only [Option.bind_eq_bind, Option.bind_some, Option.pure_def]
  rw [hb.rd (show kappa < M by omega)]
  simp only [Option.bind_some]
  have hk0 := hg1 0 (Nat.zero_le _)
  rw [Nat.add_zero] at hk0
  rw [hk0, sqrtv_of F (mul_nonneg (mul_pos hL hp).le (hS _))]
  simp only [Option.bind_some]
  obtain ⟨b1, e1, h1⟩ := hb.wr (show c < M by omega) (F.sqrt (L * F.pow (m * 2 ^ e) gamma * S (freq 0)))
  rw [e1]
  simp only [Option.bind_some]
  obtain ⟨t, et, ht2, ht⟩ := iter_inv (fun j (t : List K × Nat) => t.2 = c + 1 + 2 * j ∧ Arr t.1 M (fun a => if c ≤ a ∧ a < c + 1 + 2 * j then psi F gamma L S freq (m * 2 ^ e) (a - c) else g a)) (n := order) (s := (b1, c + 1))
    (f := fun j s => (Verif.rd s.1 (kappa + (j + 1))).bind fun kj => (sqrtv F (2 * (L * F.pow (m * 2 ^ e) gamma) * kj)).bind fun v => (Verif.rd s.1 (fq + (j + 1))).bind fun fj =>
      (Verif.wr s.1 s.2 (v * F.cos (fj * (L * F.log (m * 2 ^ e))))).bind fun b => (Verif.wr b (s.2 + 1) (v * F.sin (fj * (L * F.log (m * 2 ^ e))))).bind fun b => some (b, s.2 + 2))
    ⟨rfl, h1.congr fun a ha => by
      unfold upd1
      by_cases h : a = c
      · rw [if_pos h, if_pos (by omega), h, Nat.sub_self]
        rfl
      · rw [if_neg h, if_neg (by omega)]⟩
    (by
      rintro j hj ⟨b, v⟩ ⟨hv, ht⟩
      dsimp only at hv ht ⊢
      subst hv
      rw [ht.rd (show kappa + (j + 1) < M by omega), if_neg (by omega), hg1 (j + 1) (by omega)]
      simp only [Option.bind_some]
      rw [sqrtv_of F (mul_nonneg (mul_pos two_pos (mul_pos hL hp)).le (hS _)), ht.rd (show fq + (j + 1) < M by omega), if_neg (by omega), hg2 (j + 1) (by omega)]
      simp only [Option.bind_some]
      obtain ⟨b2, e2, h2⟩ := ht.wr (show c + 1 + 2 * j < M by omega) (F.sqrt (2 * (L * F.pow (m * 2 ^ e) gamma) * S (freq (j + 1))) * F.cos ((freq (j + 1) : K) * (L * F.log (m * 2 ^ e))))
      rw [e2]
      simp only [Option.bind_some]
      obtain ⟨b3, e3, h3⟩ := h2.wr (show c + 1 + 2 * j + 1 < M by omega) (F.sqrt (2 * (L * F.pow (m * 2 ^ e) gamma) * S (freq (j + 1))) * F.sin ((freq (j + 1) : K) * (L * F.log (m * 2 ^ e))))
      rw [e3]
      refine ⟨_, rfl, by dsimp only; omega, h3.congr fun a ha => ?_⟩
      unfold upd1
      beta_reduce
      by_cases h4 : a = c + 1 + 2 * j + 1
      · rw [if_pos h4, if_pos (by omega), h4, show c + 1 + 2 * j + 1 - c = (2 * j + 1) + 1 by omega, psi, if_neg (by omega), show (2 * j + 1) / 2 = j by omega]
      · rw [if_neg h4]
        by_cases h5 : a = c + 1 + 2 * j
        · rw [if_pos h5, if_pos (by omega), h5, show c + 1 + 2 * j - c = 2 * j + 1 by omega, psi, if_pos (by omega), show (2 * j) / 2 = j by omega]
        · rw [if_neg h5]
          by_cases h6 : c ≤ a ∧ a < c + 1 + 2 * j
          · rw [if_pos h6, if_pos (by omega)]
          · rw [if_neg h6, if_neg (by omega)])
  rw [et]
  refine ⟨t.1, ?_, ht.congr fun a _ => ?_⟩
  · rw [show c + (2 * order + 1) = c + 1 + 2 * order by omega, ← ht2]
  · rw [show c + (2 * order + 1) = c + 1 + 2 * order by omega]

/-- The point of the grid number `i` -/
def grid (num : Nat) (i : Nat) : K := (1 + ((i % num : Nat) : K) / num) * 2 ^ (((i / num : Nat) : Int) - 20)

theorem grid_eq {num : Nat} (hn : 0 < num) (e : Nat) {i : Nat} (hi : i < num) : grid num (e * num + i) = (1 + (i : K) / num) * 2 ^ ((e : Int) - 20) := by
  unfold grid
  rw [Nat.add_comm (e * num), Nat.add_mul_mod_self_right, Nat.mod_eq_of_lt hi, Nat.add_mul_div_right _ _ hn, Nat.div_eq_of_lt hi, Nat.zero_add]

/-- The next point of the grid -/
theorem grid_next {num : Nat} (hn : 0 < num) (e : Nat) {i : Nat} (hi : i < num) : grid num (e * num + i + 1) = (1 + ((i : K) + 1) / num) * 2 ^ ((e : Int) - 20) := by
  have hn' : (num : K) ≠ 0 := by positivity
  by_cases h : i + 1 < num
  · rw [Nat.add_assoc, grid_eq hn e h]
    push_cast
    rfl
  · obtain rfl : num = i + 1 := by omega
    rw [show e * (i + 1) + i + 1 = (e + 1) * (i + 1) + 0 by ring, grid_eq hn (e + 1) hn, Nat.cast_zero, zero_div, add_zero, one_mul]
    push_cast
    rw [div_self (by exact_mod_cast hn'), show ((e : Int) + 1 - 20) = (e - 20) + 1 by ring, zpow_add_one₀ (two_ne_zero)]
    ring

theorem fill_eq {F : Fns K} (hF : IsFns F) {gamma L : K} (hL : 0 < L) {S : Nat → K} (hS : ∀ j, 0 ≤ S j) {freq : Nat → Nat} {order kappa fq M : Nat} (hM : fq + (1 + order) ≤ M) (hk : kappa + (1 + order) = fq) {num : Nat} (hn : 0 < num)
    (hkap : kappa = (2 * order + 1) * (num * 29)) {b : List K} {g : Nat → K} (hb : Arr b M g) (hg1 : ∀ i ≤ order, g (kappa + i) = S (freq i)) (hg2 : ∀ i ≤ order, g (fq + i) = (freq i : K)) :
    ∃ s g', iter 29 (fun e (s : List K × Nat) => (iter num (fun _ (t : K × List K × Nat) => (fillOne F gamma L order kappa fq (e - 20) t.1 t.2).bind fun s => some (t.1 + 1 / (num : K), s)) (1, s)).bind fun t => some t.2) (b, 0) = some s ∧
      Arr s.1 M g' ∧ ∀ i < 29 * num, ∀ j < 2 * order + 1, g' (i * (2 * order + 1) + j) = psi F gamma L S freq (grid num i) j := by
  let Q : Nat → List K × Nat → Prop := fun i t => t.2 = i * (2 * order + 1) ∧ ∃ g', Arr t.1 M g' ∧ (∀ i' < i, ∀ j < 2 * order + 1, g' (i' * (2 * order + 1) + j) = psi F gamma L S freq (grid num i') j) ∧ ∀ a, kappa ≤ a → g' a = g a
  obtain ⟨s, es, _, g', h1, h2, _⟩ := iter_inv (fun e t => Q (e * num) t) (n := 29) (s := (b, 0))
    (f := fun e (s : List K × Nat) => (iter num (fun _ (t : K × List K × Nat) => (fillOne F gamma L order kappa fq (e - 20) t.1 t.2).bind fun s => some (t.1 + 1 / (num : K), s)) (1, s)).bind fun t => some t.2)
    ⟨by simp, g, hb, fun i hi => by omega, fun _ _ => rfl⟩
    (by
      intro e he s hs
      obtain ⟨t, et, hm, ht⟩ := iter_inv (fun i (t : K × List K × Nat) => t.1 = 1 + (i : K) / num ∧ Q (e * num + i) t.2) (n := num) (s := (1, s))
        (f := fun _ (t : K × List K × Nat) => (fillOne F gamma L order kappa fq (e - 20) t.1 t.2).bind fun s => some (t.1 + 1 / (num : K), s))
        ⟨by simp, hs⟩
        (by
          rintro i hi ⟨m, b, c⟩ ⟨hm, hc, g', hb', hpsi, hrest⟩
          dsimp only at hm hc hb' ⊢
          have hlt : e * num + i + 1 ≤ 29 * num := by
            have : (e + 1) * num ≤ 29 * num := Nat.mul_le_mul_right num (by omega)
            rw [Nat.add_mul, Nat.one_mul] at this
            omega
          have hcl : c + (2 * order + 1) ≤ kappa := by
            rw [hc, hkap, show num * 29 = 29 * num by omega, Nat.mul_comm (2 * order + 1)]
            calc _ = (e * num + i + 1) * (2 * order + 1) := by ring
              _ ≤ _ := Nat.mul_le_mul_right _ hlt
          obtain ⟨b', eb, hb''⟩ := fillOne_eq hF (gamma := gamma) hL hS (freq := freq) hM hk hcl hb' (fun i hi => by rw [hrest _ (by omega)]; exact hg1 i hi) (fun i hi => by rw [hrest _ (by omega)]; exact hg2 i hi) (e - 20)
            (m := m) (by rw [hm]; positivity)
          rw [eb]
          refine ⟨_, rfl, ?_, ?_, _, hb'', ?_, ?_⟩
          · dsimp only
            rw [hm]
            push_cast
            ring
          · dsimp only
            rw [hc]
            ring
          · intro i' hi' j hj
            by_cases hii : i' = e * num + i
            · rw [if_pos (by rw [hii, hc]; omega), hii, hc, Nat.add_sub_cancel_left, grid_eq hn e hi, hm]
            · have hi2 : i' < e * num + i := by omega
              have : (i' + 1) * (2 * order + 1) ≤ c := by
                rw [hc]
                exact Nat.mul_le_mul_right _ hi2
              rw [Nat.add_mul, Nat.one_mul] at this
              rw [if_neg (by omega)]
              exact hpsi i' hi2 j hj
          · intro a ha
            rw [if_neg (by omega)]
            exact hrest a ha)
      rw [et]
      refine ⟨_, rfl, ?_⟩
      rw [Nat.add_mul, Nat.one_mul]
      exact ht)
  exact ⟨s, g', es, h1, h2⟩

end Verif.Homker
