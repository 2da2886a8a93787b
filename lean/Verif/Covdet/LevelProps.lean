import Verif.Covdet.LevelModel
import Mathlib.Tactic.Linarith
import Mathlib.Tactic.FieldSimp
import Mathlib.Tactic.Positivity

/-!
# Properties of the octaves of an image and of the level from which a patch is extracted
-/

namespace Verif.Covdet

/-! ### Specification -/

/-- The scale space has at least an octave, and an octave at least a level. -/
structure Levels.Valid (g : Levels) : Prop where
  oct : g.firstOctave ≤ g.lastOctave
  res : 1 ≤ g.resolution
  sub : g.firstSub ≤ g.lastSub
  pos : 0 < g.base

/-- The pair is a level of the scale space. -/
def Levels.Has (g : Levels) (o s : Int) : Prop := g.firstOctave ≤ o ∧ o ≤ g.lastOctave ∧ g.firstSub ≤ s ∧ s ≤ g.lastSub

/-- The smoothing of the level `(o, s)`. -/
noncomputable def levelScale (g : Levels) (o s : Int) : ℝ := g.base * (2 : ℝ) ^ ((o : ℝ) + (s : ℝ) / (g.resolution : ℝ))

/-- In the frame of the patch, whose singular values are `d1` and `d2`, the level is smoothed by at most `sigma` in all directions. -/
def Below (g : Levels) (sigma d1 d2 : ℝ) (o s : Int) : Prop := levelScale g o s / d1 ≤ sigma ∧ levelScale g o s / d2 ≤ sigma

/-! ### Lemmas -/

theorem le_iff {g : Levels} (hg : g.Valid) {factor sigma : ℝ} (hf : 0 < factor) (hs : 0 < sigma) (o s : Int) :
    factor * g.sigma o s ≤ sigma ↔ (o : ℝ) + (s : ℝ) / (g.resolution : ℝ) ≤ Real.logb 2 (sigma / (factor * g.base)) := by
  have hb := hg.pos
  rw [Real.le_logb_iff_rpow_le (by norm_num) (by positivity), le_div_iff₀ (by positivity), Levels.sigma]
  constructor <;> intro h <;> nlinarith [h]

theorem below_iff {g : Levels} (hg : g.Valid) {sigma d1 d2 : ℝ} (h1 : 0 < d1) (h2 : 0 < d2) (o s : Int) : Below g sigma d1 d2 o s ↔ 1 / min d1 d2 * g.sigma o s ≤ sigma := by
  have hs : 0 ≤ g.sigma o s := by
    have := hg.pos
    unfold Levels.sigma
    positivity
  unfold Below
  change g.sigma o s / d1 ≤ sigma ∧ g.sigma o s / d2 ≤ sigma ↔ _
  rw [one_div_mul_eq_div]
  rcases le_total d1 d2 with h | h
  · rw [min_eq_left h]
    exact ⟨fun h => h.1, fun h' => ⟨h', (div_le_div_of_nonneg_left hs h1 h).trans h'⟩⟩
  · rw [min_eq_right h]
    exact ⟨fun h => h.2, fun h' => ⟨(div_le_div_of_nonneg_left hs h2 h).trans h', h'⟩⟩

/-- The subdivision that is tested in an octave is one whose scale is low enough if there is one. -/
theorem sub_low {g : Levels} (hg : g.Valid) (hsub : -1 ≤ g.firstSub) {ratio : ℝ} {o s' : Int} (h1 : g.firstSub ≤ s') (hle : (o : ℝ) + (s' : ℝ) / (g.resolution : ℝ) ≤ Real.logb 2 ratio) :
    (o : ℝ) + (g.sub ratio o : ℝ) / (g.resolution : ℝ) ≤ Real.logb 2 ratio := by
  have hr : (1 : ℝ) ≤ (g.resolution : ℝ) := by exact_mod_cast hg.res
  obtain ⟨L, hL⟩ : ∃ L, L = Real.logb 2 ratio := ⟨_, rfl⟩
  have hfirst : (o : ℝ) + (g.firstSub : ℝ) / (g.resolution : ℝ) ≤ L := by
    rw [hL]
    refine le_trans ?_ hle
    have : (g.firstSub : ℝ) ≤ (s' : ℝ) := by exact_mod_cast h1
    gcongr
  unfold Levels.sub
  simp only
  rw [← hL]
  obtain ⟨f, hf⟩ : ∃ f, f = ⌊L - (o : ℝ)⌋ := ⟨_, rfl⟩
  rw [← hf]
  have hmin : ((min (max f g.firstSub) g.lastSub : Int) : ℝ) ≤ ((max f g.firstSub : Int) : ℝ) := by exact_mod_cast min_le_left _ _
  have hstep : (o : ℝ) + ((min (max f g.firstSub) g.lastSub : Int) : ℝ) / (g.resolution : ℝ) ≤ (o : ℝ) + ((max f g.firstSub : Int) : ℝ) / (g.resolution : ℝ) := by gcongr
  refine hstep.trans ?_
  rcases le_total f g.firstSub with h | h
  · rw [max_eq_right h]
    exact hfirst
  · rw [max_eq_left h]
    rcases eq_or_lt_of_le h with h' | h'
    · rw [← h']
      exact hfirst
    · have f0 : (0 : ℝ) ≤ (f : ℝ) := by
        have : (0 : Int) ≤ f := by omega
        exact_mod_cast this
      have fl : (f : ℝ) ≤ L - (o : ℝ) := by rw [hf]; exact Int.floor_le _
      have : (f : ℝ) / (g.resolution : ℝ) ≤ (f : ℝ) := div_le_self f0 hr
      linarith

theorem sub_range {g : Levels} (hg : g.Valid) (ratio : ℝ) (o : Int) : g.firstSub ≤ g.sub ratio o ∧ g.sub ratio o ≤ g.lastSub := by
  have := hg.sub
  unfold Levels.sub
  simp only
  omega

/-- The scan stops just before the first octave that fails the test. -/
theorem scan_spec (g : Levels) (factor sigma : ℝ) (n : Nat) (o : Int) : ∃ k : Nat, k ≤ n ∧ (∀ i : Nat, i < k → factor * g.sigma (o + i) (g.sub (sigma / (factor * g.base)) (o + i)) ≤ sigma) ∧
    ((k = n ∧ g.scan factor sigma n o = o + n) ∨ (k < n ∧ g.scan factor sigma n o = o + k - 1 ∧ sigma < factor * g.sigma (o + k) (g.sub (sigma / (factor * g.base)) (o + k)))) := by
  induction n generalizing o with
  | zero => exact ⟨0, le_refl _, fun i hi => absurd hi (by omega), Or.inl ⟨rfl, by simp [Levels.scan]⟩⟩
  | succ n ih =>
    by_cases hc : factor * g.sigma o (g.sub (sigma / (factor * g.base)) o) > sigma
    · refine ⟨0, by omega, fun i hi => absurd hi (by omega), Or.inr ⟨by omega, ?_, by simpa using hc⟩⟩
      rw [Levels.scan, if_pos hc]
      simp
    · obtain ⟨k, hk, hp, hend⟩ := ih (o + 1)
      refine ⟨k + 1, by omega, fun i hi => ?_, ?_⟩
      · rcases Nat.eq_zero_or_pos i with rfl | hi0
        · simpa using not_lt.mp hc
        · obtain ⟨i, rfl⟩ := Nat.exists_eq_add_of_le hi0
          have := hp i (by omega)
          rw [show o + ((1 + i : Nat) : Int) = o + 1 + i by push_cast; ring]
          exact this
      · rw [Levels.scan, if_neg hc]
        rcases hend with ⟨rfl, e⟩ | ⟨h, e, e'⟩
        · exact Or.inl ⟨rfl, by rw [e]; push_cast; ring⟩
        · refine Or.inr ⟨by omega, by rw [e]; push_cast; ring, ?_⟩
          rw [show o + ((k + 1 : Nat) : Int) = o + 1 + k by push_cast; ring]
          exact e'

/-- The octave chosen is in the scale space; it passes the test unless it is the first one, and the next octave fails it. -/
theorem choose_octave {g : Levels} (hg : g.Valid) (sigma d1 d2 : ℝ) {c : Chosen} (hc : c = chooseLevel g sigma d1 d2) {factor : ℝ} (hf : factor = 1 / min d1 d2) :
    g.firstOctave ≤ c.o ∧ c.o ≤ g.lastOctave ∧ (c.o ≠ g.firstOctave → factor * g.sigma c.o c.s ≤ sigma) ∧
    (c.o < g.lastOctave → sigma < factor * g.sigma (c.o + 1) (g.sub (sigma / (factor * g.base)) (c.o + 1))) ∧ c.s = g.sub (sigma / (factor * g.base)) c.o := by
  have ho := hg.oct
  have hco : c.o = min (g.scan factor sigma (g.lastOctave - g.firstOctave).toNat (g.firstOctave + 1)) g.lastOctave := by rw [hc, hf]; rfl
  have hcs : c.s = g.sub (sigma / (factor * g.base)) c.o := by rw [hc, hf]; rfl
  obtain ⟨k, hk, hp, hend⟩ := scan_spec g factor sigma (g.lastOctave - g.firstOctave).toNat (g.firstOctave + 1)
  rcases hend with ⟨rfl, e⟩ | ⟨h, e, e'⟩
  · have : c.o = g.lastOctave := by rw [hco, e]; omega
    refine ⟨by omega, by omega, fun hne => ?_, fun hlt => by omega, hcs⟩
    rw [hcs]
    have := hp ((g.lastOctave - g.firstOctave).toNat - 1) (by omega)
    rw [show g.firstOctave + 1 + (((g.lastOctave - g.firstOctave).toNat - 1 : Nat) : Int) = c.o by omega] at this
    exact this
  · have hok : c.o = g.firstOctave + k := by rw [hco, e]; omega
    refine ⟨by omega, by omega, fun hne => ?_, fun hlt => ?_, hcs⟩
    · rw [hcs]
      have := hp (k - 1) (by omega)
      rw [show g.firstOctave + 1 + ((k - 1 : Nat) : Int) = c.o by omega] at this
      exact this
    · rw [show c.o + 1 = g.firstOctave + 1 + (k : Int) by omega]
      exact e'

/-! ### Properties -/

/-- Whatever the frame and the smoothing that is asked for, the level chosen is a level of the scale space, and the smoothing
reported is the one of that level in the frame of the patch. -/
theorem chooseLevel_has {g : Levels} (hg : g.Valid) (sigma d1 d2 : ℝ) : g.Has (chooseLevel g sigma d1 d2).o (chooseLevel g sigma d1 d2).s ∧
    (chooseLevel g sigma d1 d2).sigma1 = levelScale g (chooseLevel g sigma d1 d2).o (chooseLevel g sigma d1 d2).s / d1 ∧
    (chooseLevel g sigma d1 d2).sigma2 = levelScale g (chooseLevel g sigma d1 d2).o (chooseLevel g sigma d1 d2).s / d2 := by
  obtain ⟨h1, h2, _, _, h5⟩ := choose_octave hg sigma d1 d2 rfl rfl
  obtain ⟨s1, s2⟩ := sub_range hg (sigma / (1 / min d1 d2 * g.base)) (chooseLevel g sigma d1 d2).o
  rw [← h5] at s1 s2
  exact ⟨⟨h1, h2, s1, s2⟩, rfl, rfl⟩

/-- If the smoothing of some level is at most the one asked for, so is the smoothing of the level chosen, and no level of a higher octave has
that property: the octave chosen is the largest possible. -/
theorem chooseLevel_below {g : Levels} (hg : g.Valid) (hsub : -1 ≤ g.firstSub) {sigma d1 d2 : ℝ} (hs : 0 < sigma) (h1 : 0 < d1) (h2 : 0 < d2) {o s : Int} (hh : g.Has o s) (hb : Below g sigma d1 d2 o s) :
    Below g sigma d1 d2 (chooseLevel g sigma d1 d2).o (chooseLevel g sigma d1 d2).s ∧ o ≤ (chooseLevel g sigma d1 d2).o := by
  have hf : 0 < 1 / min d1 d2 := one_div_pos.mpr (lt_min h1 h2)
  have hr : (0 : ℝ) < (g.resolution : ℝ) := by exact_mod_cast hg.res
  obtain ⟨o1, o2, c1, c2, c3⟩ := choose_octave hg sigma d1 d2 rfl rfl
  rw [below_iff hg h1 h2] at hb ⊢
  have hb' := (le_iff hg hf hs o s).mp hb
  constructor
  · by_cases hfo : (chooseLevel g sigma d1 d2).o = g.firstOctave
    · rw [c3, le_iff hg hf hs, hfo]
      refine sub_low hg hsub (s' := s) hh.2.2.1 (le_trans ?_ hb')
      have : (g.firstOctave : ℝ) ≤ (o : ℝ) := by exact_mod_cast hh.1
      linarith
    · exact c1 hfo
  · by_contra hlt
    rw [not_le] at hlt
    have c2' := c2 (by have := hh.2.1; omega)
    refine absurd ?_ (not_le.mpr c2')
    rw [le_iff hg hf hs]
    refine sub_low hg hsub (s' := s) hh.2.2.1 (le_trans ?_ hb')
    have : (((chooseLevel g sigma d1 d2).o + 1 : Int) : ℝ) ≤ (o : ℝ) := by exact_mod_cast hlt
    linarith

/-- With one level per octave step the level chosen is the best one: of all the levels that are not smoothed too much, it is the one
that is smoothed most. -/
theorem chooseLevel_best {g : Levels} (hg : g.Valid) (hres : g.resolution = 1) (hsub : -1 ≤ g.firstSub) {sigma d1 d2 : ℝ} (hs : 0 < sigma) (h1 : 0 < d1) (h2 : 0 < d2) {o s : Int} (hh : g.Has o s) (hb : Below g sigma d1 d2 o s) :
    levelScale g o s ≤ levelScale g (chooseLevel g sigma d1 d2).o (chooseLevel g sigma d1 d2).s := by
  have hf : 0 < 1 / min d1 d2 := one_div_pos.mpr (lt_min h1 h2)
  obtain ⟨-, hoc⟩ := chooseLevel_below hg hsub hs h1 h2 hh hb
  obtain ⟨-, -, -, -, c3⟩ := choose_octave hg sigma d1 d2 rfl rfl
  rw [below_iff hg h1 h2, le_iff hg hf hs] at hb
  obtain ⟨L, hL⟩ : ∃ L, L = Real.logb 2 (sigma / (1 / min d1 d2 * g.base)) := ⟨_, rfl⟩
  rw [← hL] at hb
  have key : o + s ≤ (chooseLevel g sigma d1 d2).o + (chooseLevel g sigma d1 d2).s := by
    rw [c3]
    unfold Levels.sub
    simp only
    rw [← hL, Int.floor_sub_intCast]
    have hfl : o + s ≤ ⌊L⌋ := by
      rw [Int.le_floor]
      rw [hres] at hb
      push_cast at hb ⊢
      simpa using hb
    have := hh.2.2.2
    omega
  unfold levelScale
  rw [hres]
  have : (o : ℝ) + (s : ℝ) / ((1 : Nat) : ℝ) ≤ ((chooseLevel g sigma d1 d2).o : ℝ) + ((chooseLevel g sigma d1 d2).s : ℝ) / ((1 : Nat) : ℝ) := by
    simp only [Nat.cast_one, div_one]
    exact_mod_cast key
  exact mul_le_mul_of_nonneg_left (Real.rpow_le_rpow_of_exponent_le (by norm_num) this) hg.pos.le

/-- In general the level chosen is not smoothed less than half of what is asked for, unless it is in the last octave. -/
theorem chooseLevel_half {g : Levels} (hg : g.Valid) (hsub : -1 ≤ g.firstSub) {sigma d1 d2 : ℝ} (hs : 0 < sigma) (h1 : 0 < d1) (h2 : 0 < d2) (hl : (chooseLevel g sigma d1 d2).o < g.lastOctave) :
    sigma < 2 * max (chooseLevel g sigma d1 d2).sigma1 (chooseLevel g sigma d1 d2).sigma2 := by
  have hf : 0 < 1 / min d1 d2 := one_div_pos.mpr (lt_min h1 h2)
  have hr : (0 : ℝ) < (g.resolution : ℝ) := by exact_mod_cast hg.res
  obtain ⟨-, -, -, c2, c3⟩ := choose_octave hg sigma d1 d2 rfl rfl
  have c2' := c2 hl
  obtain ⟨s1, s2⟩ := sub_range hg (sigma / (1 / min d1 d2 * g.base)) (chooseLevel g sigma d1 d2).o
  rw [← c3] at s1 s2
  -- the first level of the next octave is too high
  have hn : Real.logb 2 (sigma / (1 / min d1 d2 * g.base)) < (((chooseLevel g sigma d1 d2).o + 1 : Int) : ℝ) + (g.firstSub : ℝ) / (g.resolution : ℝ) := by
    by_contra hle
    rw [not_lt] at hle
    exact absurd ((le_iff hg hf hs _ _).mpr (sub_low hg hsub (s' := g.firstSub) le_rfl hle)) (not_le.mpr c2')
  have hn' : ¬ (1 / min d1 d2 * g.sigma ((chooseLevel g sigma d1 d2).o + 1) (chooseLevel g sigma d1 d2).s ≤ sigma) := by
    rw [le_iff hg hf hs, not_le]
    refine hn.trans_le ?_
    have : (g.firstSub : ℝ) ≤ ((chooseLevel g sigma d1 d2).s : ℝ) := by exact_mod_cast s1
    gcongr
  rw [not_le] at hn'
  refine hn'.trans_le ?_
  have hdouble : g.sigma ((chooseLevel g sigma d1 d2).o + 1) (chooseLevel g sigma d1 d2).s = 2 * g.sigma (chooseLevel g sigma d1 d2).o (chooseLevel g sigma d1 d2).s := by
    unfold Levels.sigma
    push_cast
    rw [show ((chooseLevel g sigma d1 d2).o : ℝ) + 1 + ((chooseLevel g sigma d1 d2).s : ℝ) / (g.resolution : ℝ) = ((chooseLevel g sigma d1 d2).o : ℝ) + ((chooseLevel g sigma d1 d2).s : ℝ) / (g.resolution : ℝ) + 1 by ring,
      Real.rpow_add (by norm_num), Real.rpow_one]
    ring
  have hmax : 1 / min d1 d2 * g.sigma (chooseLevel g sigma d1 d2).o (chooseLevel g sigma d1 d2).s ≤ max (chooseLevel g sigma d1 d2).sigma1 (chooseLevel g sigma d1 d2).sigma2 := by
    rw [one_div_mul_eq_div]
    rcases le_total d1 d2 with h | h
    · rw [min_eq_left h]; exact le_max_left _ _
    · rw [min_eq_right h]; exact le_max_right _ _
  rw [hdouble]
  linarith

/-! ### A case of the theorems, and what the code does not do -/

/-- A scale space with one octave and three levels. -/
noncomputable def demoLevels : Levels := ⟨0, 0, 3, 0, 2, 1⟩

theorem demoLevels_valid : demoLevels.Valid := ⟨le_refl _, by decide, by decide, by norm_num [demoLevels]⟩

theorem demo_below (s : Int) (q : ℝ) (hq : ((s : ℝ) / 3) = q) (h : (2 : ℝ) ^ q ≤ 3 / 2) : Below demoLevels (3 / 2) 1 1 0 s := by
  unfold Below levelScale demoLevels
  simp only [Int.cast_zero, zero_add, Nat.cast_ofNat, one_mul, div_one, hq]
  exact ⟨h, h⟩

theorem two_third : (2 : ℝ) ^ ((1 : ℝ) / 3) ≤ 3 / 2 := by
  have h : ((2 : ℝ) ^ ((1 : ℝ) / 3)) ^ 3 = 2 := by
    rw [← Real.rpow_natCast, ← Real.rpow_mul (by norm_num)]
    norm_num
  by_contra hc
  rw [not_le] at hc
  have : (3 / 2 : ℝ) ^ 3 < ((2 : ℝ) ^ ((1 : ℝ) / 3)) ^ 3 := pow_lt_pow_left₀ hc (by norm_num) (by norm_num)
  rw [h] at this
  norm_num at this

example : Below demoLevels (3 / 2) 1 1 (chooseLevel demoLevels (3 / 2) 1 1).o (chooseLevel demoLevels (3 / 2) 1 1).s :=
  (chooseLevel_below demoLevels_valid (by decide) (by norm_num) (by norm_num) (by norm_num) (o := 0) (s := 0) ⟨le_refl _, le_refl _, le_refl _, by decide⟩
    (demo_below 0 0 (by norm_num) (by rw [Real.rpow_zero]; norm_num))).1

/-- The level chosen is the one with the largest smoothing that does not exceed the one asked for. -/
def BestLevelClaim : Prop := ∀ (g : Levels) (sigma d1 d2 : ℝ), g.Valid → -1 ≤ g.firstSub → 0 < sigma → 0 < d1 → 0 < d2 → ∀ o s, g.Has o s → Below g sigma d1 d2 o s →
  levelScale g o s ≤ levelScale g (chooseLevel g sigma d1 d2).o (chooseLevel g sigma d1 d2).s

/-- With three levels per octave, the first one is chosen although the second one is below the smoothing asked for. -/
theorem bestLevel_claim_false : ¬ BestLevelClaim := by
  intro hc
  have h := hc demoLevels (3 / 2) 1 1 demoLevels_valid (by decide) (by norm_num) (by norm_num) (by norm_num) 0 1 ⟨le_refl _, le_refl _, by decide, by decide⟩ (demo_below 1 (1 / 3) (by norm_num) two_third)
  have ho : (chooseLevel demoLevels (3 / 2) 1 1).o = 0 := rfl
  have hs : (chooseLevel demoLevels (3 / 2) 1 1).s = 0 := by
    have hfl : ⌊Real.logb 2 (3 / 2 / (1 / min 1 1 * 1)) - ((0 : Int) : ℝ)⌋ = 0 := by
      rw [Int.floor_eq_zero_iff]
      norm_num
      refine ⟨Real.logb_nonneg (by norm_num) (by norm_num), ?_⟩
      rw [Real.logb_lt_iff_lt_rpow (by norm_num) (by norm_num)]
      norm_num
    have : (chooseLevel demoLevels (3 / 2) 1 1).s = min (max ⌊Real.logb 2 (3 / 2 / (1 / min 1 1 * 1)) - ((0 : Int) : ℝ)⌋ 0) 2 := rfl
    rw [this, hfl]
    rfl
  rw [ho, hs] at h
  unfold levelScale demoLevels at h
  simp only [Int.cast_zero, zero_add, Int.cast_one, Nat.cast_ofNat, one_mul, zero_div, Real.rpow_zero] at h
  have : (1 : ℝ) < (2 : ℝ) ^ ((1 : ℝ) / 3) := Real.one_lt_rpow (by norm_num) (by norm_num)
  linarith

/-! ### The octaves of an image -/

/-- The octave `o` of the image has, in both directions, at least sixteen samples in a grid of step `2 ^ o`. -/
def LargeEnough (width height : Nat) (o : Int) : Prop := 15 * (2 : ℚ) ^ o ≤ (width : ℚ) - 1 ∧ 15 * (2 : ℚ) ^ o ≤ (height : ℚ) - 1

theorem log_iff {width height : Nat} (c1 : (decide (1 ≤ width) && decide (1 ≤ height)) = true) (c2 : decide (min ((width : ℚ) - 1) ((height : ℚ) - 1) / ((16 : ℚ) - 1) ≠ 0) = true) (o : Int) :
    o ≤ Int.log 2 (min ((width : ℚ) - 1) ((height : ℚ) - 1) / ((16 : ℚ) - 1)) ↔ LargeEnough width height o := by
  have hm : (0 : ℚ) < min ((width : ℚ) - 1) ((height : ℚ) - 1) / ((16 : ℚ) - 1) := by
    simp only [Bool.and_eq_true, decide_eq_true_eq] at c1 c2
    have a1 : (1 : ℚ) ≤ width := by exact_mod_cast c1.1
    have a2 : (1 : ℚ) ≤ height := by exact_mod_cast c1.2
    have a3 : (0 : ℚ) ≤ min ((width : ℚ) - 1) ((height : ℚ) - 1) := le_min (by linarith) (by linarith)
    exact lt_of_le_of_ne (div_nonneg a3 (by norm_num)) (Ne.symm c2)
  rw [← Int.zpow_le_iff_le_log (by norm_num) hm]
  unfold LargeEnough
  rw [le_div_iff₀ (by norm_num), le_min_iff]
  push_cast
  norm_num
  rw [mul_comm]

/-- If the number of octaves is not limited, the octaves are those from the first one on that are large enough. -/
theorem imageLevels_octaves {method : Method} {firstOctave : Int} {resolution : Nat} {baseScale : ℝ} {width height : Nat} {g : Levels} (h : imageLevels method firstOctave 0 resolution baseScale width height = some g) (o : Int) :
    (g.firstOctave ≤ o ∧ o ≤ g.lastOctave) ↔ firstOctave ≤ o ∧ LargeEnough width height o := by
  unfold imageLevels at h
  simp only [Option.bind_eq_bind, assert', gt_iff_lt, lt_self_iff_false, if_false] at h
  split_ifs at h with c1 c2 c3 <;> simp only [Option.bind_none, Option.bind_some, reduceCtorEq, Option.some.injEq] at h
  rw [← h]
  simp only
  exact and_congr_right fun _ => log_iff c1 c2 o

/-- The levels of every scale space that is allocated are valid, and none of its octaves has a negative first level but the first. -/
theorem imageLevels_valid {method : Method} {firstOctave : Int} {numOctaves resolution : Nat} {baseScale : ℝ} (hb : 0 < baseScale) {width height : Nat} {g : Levels} (h : imageLevels method firstOctave numOctaves resolution baseScale width height = some g) :
    g.Valid ∧ -1 ≤ g.firstSub := by
  unfold imageLevels at h
  simp only [Option.bind_eq_bind, assert'] at h
  split_ifs at h with c1 c2 c3 c4 c5 <;> simp only [Option.bind_none, Option.bind_some, reduceCtorEq, Option.some.injEq] at h
  all_goals
    simp only [Bool.and_eq_true, decide_eq_true_eq] at *
    rw [← h]
    refine ⟨⟨by simp only; tauto, by simp only; tauto, by simp only; tauto, by simp only; positivity⟩, ?_⟩
    cases method <;> simp

/-- The levels that a response needs: its own for the two methods that search in the plane; one more on each side for those that compare
with the scales below and above; and a difference of Gaussians takes two levels. -/
def NeededLevel (method : Method) (resolution : Nat) (s : Int) : Prop :=
  match method with
  | .dog => ∃ t e : Int, 0 ≤ t ∧ t < resolution ∧ -1 ≤ e ∧ e ≤ 1 ∧ (s = t + e ∨ s = t + e + 1)
  | .hessian => ∃ t e : Int, 0 ≤ t ∧ t < resolution ∧ -1 ≤ e ∧ e ≤ 1 ∧ s = t + e
  | _ => 0 ≤ s ∧ s < resolution

/-- The levels of an octave are exactly those that the response needs, and the scale of level zero of octave zero is as it should be. -/
theorem imageLevels_levels {method : Method} {firstOctave : Int} {numOctaves resolution : Nat} {baseScale : ℝ} {width height : Nat} {g : Levels} (h : imageLevels method firstOctave numOctaves resolution baseScale width height = some g) :
    (∀ s : Int, (g.firstSub ≤ s ∧ s ≤ g.lastSub) ↔ NeededLevel method resolution s) ∧ g.resolution = resolution ∧ g.base = baseScale * (2 : ℝ) ^ (1 / (resolution : ℝ)) := by
  unfold imageLevels at h
  simp only [Option.bind_eq_bind, assert'] at h
  split_ifs at h with c1 c2 c3 c4 c5 <;> simp only [Option.bind_none, Option.bind_some, reduceCtorEq, Option.some.injEq] at h
  all_goals
    simp only [Bool.and_eq_true, decide_eq_true_eq] at *
    rw [← h]
    refine ⟨fun s => ?_, rfl, rfl⟩
    have hr : 1 ≤ resolution := by tauto
    cases method <;> simp only [NeededLevel]
    · constructor
      · rintro ⟨h1, h2⟩
        by_cases hs : s ≤ 0
        · exact ⟨0, s, by omega, by omega, by omega, by omega, Or.inl (by omega)⟩
        · by_cases hs2 : s = resolution + 1
          · exact ⟨(resolution : Int) - 1, 1, by omega, by omega, by omega, by omega, Or.inr (by omega)⟩
          · exact ⟨s - 1, 1, by omega, by omega, by omega, by omega, Or.inl (by omega)⟩
      · rintro ⟨t, e, h1, h2, h3, h4, h5⟩
        omega
    · constructor
      · rintro ⟨h1, h2⟩
        by_cases hs : s ≤ 0
        · exact ⟨0, s, by omega, by omega, by omega, by omega, by omega⟩
        · exact ⟨s - 1, 1, by omega, by omega, by omega, by omega, by omega⟩
      · rintro ⟨t, e, h1, h2, h3, h4, h5⟩
        omega
    all_goals omega

/-- Every image of at least one pixel is accepted, as the documentation says. -/
def AnyImageClaim : Prop := ∀ (method : Method) (firstOctave : Int) (numOctaves resolution : Nat) (baseScale : ℝ) (width height : Nat), firstOctave ≤ 0 → 1 ≤ resolution → 0 < baseScale → 1 ≤ width → 1 ≤ height →
  (imageLevels method firstOctave numOctaves resolution baseScale width height).isSome

/-- An image with fifteen rows and the first octave zero is refused by an assertion. -/
theorem anyImage_claim_false : ¬ AnyImageClaim := by
  intro hc
  have h := hc .dog 0 0 3 1 15 15 (by decide) (by decide) (by norm_num) (by decide) (by decide)
  rw [Option.isSome_iff_exists] at h
  obtain ⟨g, hg⟩ := h
  obtain ⟨hv, _⟩ := imageLevels_valid (by norm_num) hg
  have := (imageLevels_octaves hg g.firstOctave).mp ⟨le_refl _, hv.oct⟩
  have h0 : (2 : ℚ) ^ (0 : Int) ≤ (2 : ℚ) ^ g.firstOctave := zpow_le_zpow_right₀ (by norm_num) this.1
  have := this.2.1
  rw [zpow_zero] at h0
  norm_num at this
  linarith

/-- The number of octaves is at most the one that is set. -/
def NumOctavesClaim : Prop := ∀ (method : Method) (firstOctave : Int) (numOctaves resolution : Nat) (baseScale : ℝ) (width height : Nat) (g : Levels), 0 < numOctaves →
  imageLevels method firstOctave numOctaves resolution baseScale width height = some g → g.lastOctave - g.firstOctave + 1 ≤ numOctaves

theorem demo_log : Int.log 2 (33 / 5 : ℚ) = 2 := by decide +kernel

theorem demo_levels : ∃ g, imageLevels .dog (-1) 1 3 1 100 100 = some g ∧ g.firstOctave = -1 ∧ g.lastOctave = 1 := by
  unfold imageLevels
  refine ⟨⟨-1, 1, 3, -1, 4, 1 * (2 : ℝ) ^ (1 / ((3 : Nat) : ℝ))⟩, ?_, rfl, rfl⟩
  norm_num [assert', demo_log]

/-- With the first octave minus one and a single octave asked for, three octaves are computed. -/
theorem numOctaves_claim_false : ¬ NumOctavesClaim := by
  intro hc
  obtain ⟨g, e, h1, h2⟩ := demo_levels
  have := hc _ _ _ _ _ _ _ g (by decide) e
  rw [h1, h2] at this
  exact absurd this (by decide)

/-- The number of octaves is right if the first octave is zero. -/
theorem numOctaves_zero {method : Method} {numOctaves resolution : Nat} {baseScale : ℝ} {width height : Nat} {g : Levels} (hn : 0 < numOctaves) (h : imageLevels method 0 numOctaves resolution baseScale width height = some g) :
    g.lastOctave - g.firstOctave + 1 ≤ numOctaves ∧ ∀ o : Int, (g.firstOctave ≤ o ∧ o ≤ g.lastOctave) ↔ 0 ≤ o ∧ o < numOctaves ∧ LargeEnough width height o := by
  unfold imageLevels at h
  simp only [Option.bind_eq_bind, assert', gt_iff_lt, hn, if_true] at h
  split_ifs at h with c1 c2 c3 <;> simp only [Option.bind_none, Option.bind_some, reduceCtorEq, Option.some.injEq] at h
  rw [← h]
  simp only
  refine ⟨by omega, fun o => and_congr_right fun _ => ?_⟩
  rw [le_min_iff, log_iff c1 c2 o]
  exact and_congr_left fun _ => by omega

end Verif.Covdet
