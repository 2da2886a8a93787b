import Verif.Scalespace.Lemmas

/-!
# Scale space: geometry, levels and construction
-/

namespace Verif.Scalespace

/-! ## C47: equality of geometries -/

/-- The claim: the test is true exactly for equal geometries. -/
def IsEqualClaim : Prop := ∀ a b : Geometry, isEqual a b = true ↔ a = b

/-- **C47** fails: a geometry with several subdivisions is not equal to itself. -/
theorem isEqual_not_reflexive : ∃ g : Geometry, isValid g = true ∧ isEqual g g = false :=
  ⟨⟨64, 64, 0, 2, 3, 0, 2, 2, 1 / 2⟩, by decide +kernel, by decide +kernel⟩

/-- **C47** fails: the test accepts two geometries with different numbers of subdivisions (the buffers of one are too small
for the other). -/
theorem isEqual_accepts_different : ∃ a b : Geometry, isValid a = true ∧ isValid b = true ∧ isEqual a b = true ∧
    numSublevels a ≠ numSublevels b :=
  ⟨⟨64, 64, 0, 2, 3, 2, 5, 2, 1 / 2⟩, ⟨64, 64, 0, 2, 3, 0, 2, 2, 1 / 2⟩, by decide +kernel, by decide +kernel, by decide +kernel,
    by decide +kernel⟩

theorem isEqual_claim_false : ¬ IsEqualClaim := fun h => by
  obtain ⟨g, _, hg⟩ := isEqual_not_reflexive
  rw [(h g g).2 rfl] at hg
  exact absurd hg (by decide)

/-- **C47**, what remains true: the test accepts exactly the geometries that agree on all the other fields and whose first
subdivision is the last one of the other. -/
theorem isEqual_partial (a b : Geometry) : isEqual a b = true ↔ a.octaveFirstSubdivision = b.octaveLastSubdivision ∧
    { b with octaveFirstSubdivision := a.octaveFirstSubdivision, octaveLastSubdivision := a.octaveLastSubdivision } = a := by
  cases a; cases b
  simp only [isEqual, Bool.and_eq_true, beq_iff_eq, decide_eq_true_eq, Geometry.mk.injEq, true_and]
  constructor
  · rintro ⟨⟨⟨⟨⟨⟨⟨rfl, rfl⟩, rfl⟩, rfl⟩, rfl⟩, rfl⟩, rfl⟩, rfl⟩
    simp
  · rintro ⟨rfl, rfl, rfl, rfl, rfl, rfl, rfl, rfl⟩
    simp

/-! ## C48: levels do not overlap -/

theorem getLevel_eq {g : Geometry} {o s : Int} {l : Loc} (h : getLevel g o s = some l) :
    (g.firstOctave ≤ o ∧ o ≤ g.lastOctave ∧ g.octaveFirstSubdivision ≤ s ∧ s ≤ g.octaveLastSubdivision) ∧
    l = { oct := (o - g.firstOctave).toNat, off := octaveWidth g o * octaveHeight g o * (s - g.octaveFirstSubdivision).toNat } := by
  unfold getLevel assert' at h
  simp only [decide_eq_true_eq, Option.bind_eq_bind] at h
  split at h
  · split at h
    · split at h
      · split at h
        · simp only [Option.bind_some, Option.some.injEq] at h
          exact ⟨⟨by assumption, by assumption, by assumption, by assumption⟩, h.symm⟩
        · simp at h
      · simp at h
    · simp at h
  · simp at h

theorem getLevel_of {g : Geometry} {o s : Int} (h1 : g.firstOctave ≤ o) (h2 : o ≤ g.lastOctave) (h3 : g.octaveFirstSubdivision ≤ s)
    (h4 : s ≤ g.octaveLastSubdivision) : getLevel g o s =
      some { oct := (o - g.firstOctave).toNat, off := octaveWidth g o * octaveHeight g o * (s - g.octaveFirstSubdivision).toNat } := by
  unfold getLevel
  rw [assert_true (by simpa using h1), assert_true (by simpa using h2), assert_true (by simpa using h3), assert_true (by simpa using h4)]
  rfl

/-- **C48**: the levels of a scale space are inside the block of their octave, and two different levels are in different blocks
or in disjoint parts of one block. -/
theorem levels_disjoint {g : Geometry} {malloc : Nat → Nat → List ℚ} (hm : ∀ k n, (malloc k n).length = n) {octs : List (List ℚ)}
    (ho : newOctaves g malloc = some octs) {o s : Int} {l : Loc} (hl : getLevel g o s = some l) :
    (∃ b, octs[l.oct]? = some b ∧ l.off + octaveWidth g o * octaveHeight g o ≤ b.length) ∧
    ∀ o' s' l', getLevel g o' s' = some l' → (o, s) ≠ (o', s') →
      l.oct ≠ l'.oct ∨ l.off + octaveWidth g o * octaveHeight g o ≤ l'.off ∨ l'.off + octaveWidth g o' * octaveHeight g o' ≤ l.off := by
  obtain ⟨⟨h1, h2, h3, h4⟩, rfl⟩ := getLevel_eq hl
  constructor
  · unfold newOctaves assert' at ho
    split at ho
    · simp only [Option.bind_eq_bind, Option.bind_some, Option.some.injEq] at ho
      subst ho
      refine ⟨_, by rw [List.getElem?_map, List.getElem?_range (by simp only; omega)]; rfl, ?_⟩
      rw [hm]
      have e : g.firstOctave + ((o - g.firstOctave).toNat : Int) = o := by omega
      rw [e]
      have : (s - g.octaveFirstSubdivision).toNat + 1 ≤ numSublevels g := by unfold numSublevels; omega
      have := Nat.mul_le_mul_left (octaveWidth g o * octaveHeight g o) this
      rw [Nat.mul_add, Nat.mul_one] at this
      exact this
    · simp at ho
  · intro o' s' l' hl' hne
    obtain ⟨⟨h1', h2', h3', h4'⟩, rfl⟩ := getLevel_eq hl'
    by_cases e : o = o'
    · subst e
      have hs : s ≠ s' := fun h => hne (by rw [h])
      right
      simp only
      rcases Nat.lt_or_ge (s - g.octaveFirstSubdivision).toNat (s' - g.octaveFirstSubdivision).toNat with h | h
      · left
        have := Nat.mul_le_mul_left (octaveWidth g o * octaveHeight g o) (show (s - g.octaveFirstSubdivision).toNat + 1 ≤ _ from h)
        rw [Nat.mul_add, Nat.mul_one] at this
        exact this
      · right
        have := Nat.mul_le_mul_left (octaveWidth g o * octaveHeight g o)
          (show (s' - g.octaveFirstSubdivision).toNat + 1 ≤ (s - g.octaveFirstSubdivision).toNat by omega)
        rw [Nat.mul_add, Nat.mul_one] at this
        exact this
    · left
      simp only
      omega

/-! ## C48: construction of the levels -/

/-- Number of pixels of a level. -/
def area (g : Geometry) (o : Int) : Nat := octaveWidth g o * octaveHeight g o

/-- The contents of level `s` of octave `o`. -/
def level (g : Geometry) (octs : List (List ℚ)) (o s : Int) : List ℚ :=
  ((octs.getD (o - g.firstOctave).toNat []).drop (area g o * (s - g.octaveFirstSubdivision).toNat)).take (area g o)

/-- `b` keeps one pixel of `2^d` in each direction of the `w` by `h` image `a`; incomplete cells are dropped. -/
def IsDown (a b : List ℚ) (w h d : Nat) : Prop :=
  b.length = w / 2 ^ d * (h / 2 ^ d) ∧ ∀ j < h / 2 ^ d, ∀ i < w / 2 ^ d, b[j * (w / 2 ^ d) + i]? = a[j * 2 ^ d * w + i * 2 ^ d]?

/-- `b` is the image `a`, `w` by `h`, doubled by linear interpolation; the last row and column are repeated. -/
def IsUp (a b : List ℚ) (w h : Nat) : Prop :=
  b.length = 2 * w * (2 * h) ∧ ∀ y < h, ∀ x < w,
    Quad (a.getD (y * w + x) 0) (a.getD (min (y + 1) (h - 1) * w + x) 0) (a.getD (y * w + min (x + 1) (w - 1)) 0)
      (a.getD (min (y + 1) (h - 1) * w + min (x + 1) (w - 1)) 0) b (2 * y * (2 * w) + 2 * x) (2 * w)

/-- `b` is the `w` by `h` image `a` doubled `n` times. -/
def IsUps (w h : Nat) : Nat → List ℚ → List ℚ → Prop
  | 0, a, b => b = a
  | n + 1, a, b => ∃ c, IsUps w h n a c ∧ IsUp c b (w * 2 ^ n) (h * 2 ^ n)

/-- `b` is the image brought to the resolution of the first octave. -/
def IsStart (g : Geometry) (image b : List ℚ) : Prop :=
  if 0 ≤ g.firstOctave then IsDown image b g.width g.height g.firstOctave.toNat
  else IsUps g.width g.height (-g.firstOctave).toNat image b

/-- The levels of octave `o` are smoothed one from the other. -/
def Filled (g : Geometry) (sm : Smooth) (octs : List (List ℚ)) (o : Int) : Prop :=
  ∀ s, g.octaveFirstSubdivision < s → s ≤ g.octaveLastSubdivision → level g octs o s = sm.fill o s (level g octs o (s - 1))

/-- The octaves hold the scale space of the image: the first level comes from the image, the first level of each following octave from
a level of the octave before, all the others from the level before. -/
structure IsPyramid (g : Geometry) (sm : Smooth) (image : List ℚ) (octs : List (List ℚ)) : Prop where
  size : ∀ o s, g.firstOctave ≤ o → o ≤ g.lastOctave → g.octaveFirstSubdivision ≤ s → s ≤ g.octaveLastSubdivision →
    (level g octs o s).length = octaveWidth g o * octaveHeight g o
  first : ∃ b, IsStart g image b ∧ level g octs g.firstOctave g.octaveFirstSubdivision = sm.image b
  next : ∀ o, g.firstOctave < o → o ≤ g.lastOctave → ∃ b,
    IsDown (level g octs (o - 1) (min (g.octaveFirstSubdivision + g.octaveResolution) g.octaveLastSubdivision)) b (octaveWidth g (o - 1)) (octaveHeight g (o - 1)) 1 ∧
    level g octs o g.octaveFirstSubdivision = sm.prev o b
  fill : ∀ o, g.firstOctave ≤ o → o ≤ g.lastOctave → Filled g sm octs o

/-- Sizes of the blocks. -/
structure Shape (g : Geometry) (octs : List (List ℚ)) : Prop where
  len : octs.length = (g.lastOctave - g.firstOctave + 1).toNat
  block : ∀ o, g.firstOctave ≤ o → o ≤ g.lastOctave →
    (octs.getD (o - g.firstOctave).toNat []).length = area g o * numSublevels g

theorem shape_new {g : Geometry} {malloc : Nat → Nat → List ℚ} (hm : ∀ k n, (malloc k n).length = n) {octs : List (List ℚ)}
    (ho : newOctaves g malloc = some octs) : Shape g octs ∧ isValid g = true := by
  unfold newOctaves assert' at ho
  split at ho
  · rename_i hv
    simp only [Option.bind_eq_bind, Option.bind_some, Option.some.injEq] at ho
    subst ho
    refine ⟨⟨by simp, fun o h1 h2 => ?_⟩, hv⟩
    rw [List.getD_eq_getElem _ _ (by simp; omega)]
    simp only [List.getElem_map, List.getElem_range]
    rw [hm, show g.firstOctave + ((o - g.firstOctave).toNat : Int) = o by omega]
    rfl
  · simp at ho

theorem half_width (g : Geometry) (o : Int) : octaveWidth g o = octaveWidth g (o - 1) / 2 := by
  unfold octaveWidth shiftLeft
  by_cases h : 0 ≤ -o
  · rw [if_pos h, if_pos (by omega), show (-(o - 1)).toNat = (-o).toNat + 1 by omega, Nat.pow_succ, ← Nat.mul_assoc,
      Nat.mul_div_cancel _ (by omega)]
  · rw [if_neg h]
    by_cases h1 : o = 1
    · subst h1; simp
    · rw [if_neg (by omega), Nat.div_div_eq_div_mul, show (- -o).toNat = (- -(o - 1)).toNat + 1 by omega, Nat.pow_succ]

theorem half_height (g : Geometry) (o : Int) : octaveHeight g o = octaveHeight g (o - 1) / 2 := by
  have := half_width { g with width := g.height } o
  exact this

theorem level_get {g : Geometry} {octs : List (List ℚ)} {o s : Int} {q : Nat} (hq : q < area g o) :
    (level g octs o s)[q]? = (octs.getD (o - g.firstOctave).toNat [])[area g o * (s - g.octaveFirstSubdivision).toNat + q]? := by
  unfold level
  rw [List.getElem?_take_of_lt hq, List.getElem?_drop]

theorem level_length {g : Geometry} {octs : List (List ℚ)} (hS : Shape g octs) {o s : Int} (h1 : g.firstOctave ≤ o) (h2 : o ≤ g.lastOctave)
    (h3 : g.octaveFirstSubdivision ≤ s) (h4 : s ≤ g.octaveLastSubdivision) : (level g octs o s).length = area g o := by
  unfold level
  rw [List.length_take, List.length_drop, hS.block o h1 h2]
  have : (s - g.octaveFirstSubdivision).toNat + 1 ≤ numSublevels g := by unfold numSublevels; omega
  have := Nat.mul_le_mul_left (area g o) this
  rw [Nat.mul_add, Nat.mul_one] at this
  omega

/-- Levels of another octave are not changed by replacing a block. -/
theorem level_set_ne {g : Geometry} {octs : List (List ℚ)} {o o' s : Int} {b : List ℚ} (h1 : g.firstOctave ≤ o) (h1' : g.firstOctave ≤ o')
    (hne : o' ≠ o) : level g (octs.set (o - g.firstOctave).toNat b) o' s = level g octs o' s := by
  unfold level
  rw [List.getD_eq_getElem?_getD, List.getElem?_set_ne (by omega), ← List.getD_eq_getElem?_getD]

theorem getD_set_self {octs : List (List ℚ)} {k : Nat} {b : List ℚ} (hk : k < octs.length) : (octs.set k b).getD k [] = b := by
  rw [List.getD_eq_getElem _ _ (by simpa using hk), List.getElem_set_self]

theorem shape_set {g : Geometry} {octs : List (List ℚ)} (hS : Shape g octs) {o : Int} {b : List ℚ} (h1 : g.firstOctave ≤ o)
    (h2 : o ≤ g.lastOctave) (hb : b.length = area g o * numSublevels g) : Shape g (octs.set (o - g.firstOctave).toNat b) := by
  refine ⟨by simpa using hS.len, fun o' h1' h2' => ?_⟩
  by_cases e : o' = o
  · subst e
    rw [getD_set_self (by rw [hS.len]; omega), hb]
  · rw [List.getD_eq_getElem?_getD, List.getElem?_set_ne (by omega), ← List.getD_eq_getElem?_getD]
    exact hS.block o' h1' h2'

theorem rd_block {g : Geometry} {octs : List (List ℚ)} (hS : Shape g octs) {o : Int} (h1 : g.firstOctave ≤ o) (h2 : o ≤ g.lastOctave) :
    rd octs (o - g.firstOctave).toNat = some (octs.getD (o - g.firstOctave).toNat []) := by
  have : (o - g.firstOctave).toNat < octs.length := by rw [hS.len]; omega
  rw [rd_of_lt this, List.getD_eq_getElem _ _ this]

theorem wr_block {g : Geometry} {octs : List (List ℚ)} (hS : Shape g octs) {o : Int} (h1 : g.firstOctave ≤ o) (h2 : o ≤ g.lastOctave)
    (b : List ℚ) : wr octs (o - g.firstOctave).toNat b = some (octs.set (o - g.firstOctave).toNat b) :=
  wr_of_lt (by rw [hS.len]; omega) b

theorem smooth_spec {g : Geometry} {octs : List (List ℚ)} (hS : Shape g octs) {o s s' : Int} (h1 : g.firstOctave ≤ o) (h2 : o ≤ g.lastOctave)
    (h3 : g.octaveFirstSubdivision ≤ s) (h4 : s ≤ g.octaveLastSubdivision) (h3' : g.octaveFirstSubdivision ≤ s')
    (h4' : s' ≤ g.octaveLastSubdivision) {sm : List ℚ → List ℚ} (hsm : ∀ l, (sm l).length = l.length) :
    ∃ octs', smoothAt octs (o - g.firstOctave).toNat (octaveWidth g o * octaveHeight g o * (s' - g.octaveFirstSubdivision).toNat)
        (octaveWidth g o * octaveHeight g o * (s - g.octaveFirstSubdivision).toNat) (octaveWidth g o * octaveHeight g o) sm = some octs' ∧
      Shape g octs' ∧ level g octs' o s = sm (level g octs o s') ∧
      ∀ o'' s'', g.firstOctave ≤ o'' → g.octaveFirstSubdivision ≤ s'' → (o'', s'') ≠ (o, s) → level g octs' o'' s'' = level g octs o'' s'' := by
  have hB := hS.block o h1 h2
  have b1 : (s - g.octaveFirstSubdivision).toNat + 1 ≤ numSublevels g := by unfold numSublevels; omega
  have b2 : (s' - g.octaveFirstSubdivision).toNat + 1 ≤ numSublevels g := by unfold numSublevels; omega
  have c1 := Nat.mul_le_mul_left (area g o) b1
  have c2 := Nat.mul_le_mul_left (area g o) b2
  rw [Nat.mul_add, Nat.mul_one] at c1 c2
  have hlev : level g octs o s' = ((octs.getD (o - g.firstOctave).toNat []).drop (area g o * (s' - g.octaveFirstSubdivision).toNat)).take (area g o) := rfl
  have hll := level_length hS h1 h2 h3' h4'
  unfold smoothAt
  rw [rd_block hS h1 h2]
  simp only [Option.bind_eq_bind, Option.bind_some]
  change ∃ octs', ((assert' (decide (area g o * (s' - g.octaveFirstSubdivision).toNat + area g o ≤ _))).bind fun _ =>
    (assert' (decide (area g o * (s - g.octaveFirstSubdivision).toNat + area g o ≤ _))).bind fun _ => wr octs _
      (List.take (area g o * (s - g.octaveFirstSubdivision).toNat) _ ++ sm _ ++ List.drop (area g o * (s - g.octaveFirstSubdivision).toNat + area g o) _)) = _ ∧ _
  rw [assert_true (by simp only [decide_eq_true_eq]; omega), Option.bind_some, assert_true (by simp only [decide_eq_true_eq]; omega),
    Option.bind_some]
  rw [show List.take (octaveWidth g o * octaveHeight g o) (List.drop (octaveWidth g o * octaveHeight g o * (s' - g.octaveFirstSubdivision).toNat)
    (octs.getD (o - g.firstOctave).toNat [])) = level g octs o s' from rfl]
  rw [wr_block hS h1 h2]
  generalize hblk : octs.getD (o - g.firstOctave).toNat [] = B at *
  have hlenB : (List.take (area g o * (s - g.octaveFirstSubdivision).toNat) B ++ sm (level g octs o s') ++
      List.drop (area g o * (s - g.octaveFirstSubdivision).toNat + area g o) B).length = area g o * numSublevels g := by
    simp only [List.length_append, List.length_take, List.length_drop, hsm, hll]
    omega
  refine ⟨_, rfl, shape_set hS h1 h2 hlenB, ?_, fun o'' s'' h1'' h3'' hne => ?_⟩
  · unfold level
    rw [getD_set_self (by rw [hS.len]; omega)]
    rw [List.append_assoc, List.drop_append_of_le_length (by simp; omega), List.drop_of_length_le (by simp), List.nil_append]
    rw [List.take_append_of_le_length (by rw [hsm]; exact hll.ge), List.take_of_length_le (by rw [hsm]; exact hll.le)]
  · by_cases e : o'' = o
    · subst e
      have hs : s'' ≠ s := fun h => hne (by rw [h])
      have hV : (sm (level g octs o'' s')).length = area g o'' := by rw [hsm, hll]
      generalize sm (level g octs o'' s') = V at *
      unfold level
      rw [getD_set_self (by rw [hS.len]; omega), hblk]
      apply List.ext_getElem?
      intro q
      rcases Nat.lt_or_ge q (area g o'') with hq | hq
      · rw [List.getElem?_take_of_lt hq, List.getElem?_take_of_lt hq, List.getElem?_drop, List.getElem?_drop]
        rcases Nat.lt_or_ge (s'' - g.octaveFirstSubdivision).toNat (s - g.octaveFirstSubdivision).toNat with hlt | hge
        · have := Nat.mul_le_mul_left (area g o'') (show (s'' - g.octaveFirstSubdivision).toNat + 1 ≤ _ from hlt)
          rw [Nat.mul_add, Nat.mul_one] at this
          rw [List.append_assoc, List.getElem?_append_left (by simp; omega), List.getElem?_take_of_lt (by omega)]
        · have := Nat.mul_le_mul_left (area g o'') (show (s - g.octaveFirstSubdivision).toNat + 1 ≤ (s'' - g.octaveFirstSubdivision).toNat by omega)
          rw [Nat.mul_add, Nat.mul_one] at this
          rw [List.getElem?_append_right (by simp [hV]; omega), List.getElem?_drop]
          congr 1
          simp only [List.length_append, List.length_take, hV]
          omega
      · rw [List.getElem?_eq_none (by simp; omega), List.getElem?_eq_none (by simp; omega)]
    · exact level_set_ne h1 h1'' e

/-- Filling an octave. -/
theorem fill_spec {g : Geometry} {sm : Smooth} {octs : List (List ℚ)} (hS : Shape g octs) {o : Int} (h1 : g.firstOctave ≤ o) (h2 : o ≤ g.lastOctave)
    (hsub : g.octaveFirstSubdivision ≤ g.octaveLastSubdivision) :
    ∃ octs', fillOctave g sm o octs = some octs' ∧ Shape g octs' ∧ Filled g sm octs' o ∧
      level g octs' o g.octaveFirstSubdivision = level g octs o g.octaveFirstSubdivision ∧
      ∀ o' s', g.firstOctave ≤ o' → g.octaveFirstSubdivision ≤ s' → o' ≠ o → level g octs' o' s' = level g octs o' s' := by
  unfold fillOctave
  obtain ⟨octs', e1, e2, e3, e4, e5⟩ := iter_inv (n := (g.octaveLastSubdivision - g.octaveFirstSubdivision).toNat) (f := fun i octs => (do
      let s := g.octaveFirstSubdivision + 1 + i
      let level ← getLevel g o s
      let previous ← getLevel g o (s - 1)
      smoothAt octs level.oct previous.off level.off (octaveWidth g o * octaveHeight g o) (sm.fill o s) : Option (List (List ℚ)))) (s := octs)
    (fun n (os : List (List ℚ)) => Shape g os ∧
      (∀ s, g.octaveFirstSubdivision < s → s ≤ g.octaveFirstSubdivision + n → level g os o s = sm.fill o s (level g os o (s - 1))) ∧
      level g os o g.octaveFirstSubdivision = level g octs o g.octaveFirstSubdivision ∧
      ∀ o' s', g.firstOctave ≤ o' → g.octaveFirstSubdivision ≤ s' → o' ≠ o → level g os o' s' = level g octs o' s')
    ⟨hS, fun s h h' => by simp at h'; omega, rfl, fun _ _ _ _ _ => rfl⟩ (by
    intro i hi os ⟨q1, q2, q3, q4⟩
    simp only [Option.bind_eq_bind]
    rw [getLevel_of h1 h2 (by omega) (by omega), Option.bind_some, getLevel_of h1 h2 (by omega) (by omega), Option.bind_some]
    obtain ⟨os', r1, r2, r3, r4⟩ := smooth_spec q1 (s := g.octaveFirstSubdivision + 1 + i) (s' := g.octaveFirstSubdivision + 1 + i - 1)
      h1 h2 (by omega) (by omega) (by omega) (by omega) (sm.fill_length o (g.octaveFirstSubdivision + 1 + i))
    refine ⟨os', r1, r2, fun s hs hs' => ?_, ?_, fun o' s' ho' hs' hne => ?_⟩
    · by_cases e : s = g.octaveFirstSubdivision + 1 + i
      · subst e
        rw [r3, r4 o _ h1 (by omega) (fun h => by have := congrArg Prod.snd h; simp only at this; omega)]
      · push_cast at hs'
        rw [r4 o s h1 (by omega) (fun h => e (congrArg Prod.snd h)),
          r4 o (s - 1) h1 (by omega) (fun h => by have := congrArg Prod.snd h; simp only at this; omega)]
        exact q2 s hs (by omega)
    · rw [r4 o _ h1 (by omega) (fun h => by have := congrArg Prod.snd h; simp only at this; omega)]
      exact q3
    · rw [r4 o' s' ho' hs' (fun h => hne (congrArg Prod.fst h))]
      exact q4 o' s' ho' hs' hne)
  exact ⟨octs', e1, e2, fun s hs hs' => e3 s hs (by omega), e4, e5⟩

theorem area_down {g : Geometry} {o : Int} : area g o = octaveWidth g (o - 1) / 2 * (octaveHeight g (o - 1) / 2) := by
  rw [area, half_width, half_height]

/-- Turn the result of a copy into a statement about the first level. -/
theorem isDown_of {g : Geometry} {octs : List (List ℚ)} (hS : Shape g octs) {o : Int} (h1 : g.firstOctave ≤ o) (h2 : o ≤ g.lastOctave)
    (hsub : g.octaveFirstSubdivision ≤ g.octaveLastSubdivision) {dst a : List ℚ} {w h d : Nat}
    (hw : octaveWidth g o = w / 2 ^ d) (hh : octaveHeight g o = h / 2 ^ d)
    (hl : dst.length = area g o * numSublevels g)
    (hd : ∀ j < rows h d, ∀ i < w / 2 ^ d, dst[0 + (j * (w / 2 ^ d) + i)]? = a[j * 2 ^ d * w + i * 2 ^ d]?) :
    IsDown a (level g (octs.set (o - g.firstOctave).toNat dst) o g.octaveFirstSubdivision) w h d := by
  have hS' := shape_set hS h1 h2 hl
  refine ⟨?_, fun j hj i hi => ?_⟩
  · rw [level_length hS' h1 h2 (le_refl _) hsub, area, hw, hh]
  · have : j * (w / 2 ^ d) + i < area g o := by
      rw [area, hw, hh, Nat.mul_comm (w / 2 ^ d) (h / 2 ^ d)]; exact Flat.addr_lt hj hi
    rw [level_get this, getD_set_self (by rw [hS.len]; omega), Int.sub_self]
    simp only [Int.toNat_zero, Nat.mul_zero]
    exact hd j (Nat.lt_of_lt_of_le hj (floor_le_rows h d)) i hi

/-- A copy down does not leave the block of the octave. -/
def RowsFit (g : Geometry) (o : Int) (h d : Nat) : Prop := rows h d * octaveWidth g o ≤ area g o * numSublevels g

theorem startPrev_spec {fuel : Nat} {g : Geometry} {sm : Smooth} {octs : List (List ℚ)} (hS : Shape g octs) {o : Int} (h1 : g.firstOctave < o)
    (h2 : o ≤ g.lastOctave) (hsub : g.octaveFirstSubdivision ≤ g.octaveLastSubdivision)
    (fw : octaveWidth g (o - 1) ≤ fuel) (fh : octaveHeight g (o - 1) ≤ fuel) (hfit : RowsFit g o (octaveHeight g (o - 1)) 1) :
    ∃ octs' b, startFromPrevious fuel g sm o octs = some octs' ∧ Shape g octs' ∧
      IsDown (level g octs (o - 1) (prevLevelIndex g)) b (octaveWidth g (o - 1)) (octaveHeight g (o - 1)) 1 ∧
      level g octs' o g.octaveFirstSubdivision = sm.prev o b ∧
      ∀ o' s', g.firstOctave ≤ o' → g.octaveFirstSubdivision ≤ s' → o' ≠ o → level g octs' o' s' = level g octs o' s' := by
  have p1 : g.octaveFirstSubdivision ≤ prevLevelIndex g := by unfold prevLevelIndex; omega
  have p2 : prevLevelIndex g ≤ g.octaveLastSubdivision := by unfold prevLevelIndex; omega
  unfold startFromPrevious
  rw [assert_true (by simpa using h1), assert_true (by simpa using h2)]
  simp only [Option.bind_eq_bind, Option.bind_some]
  rw [getLevel_of (by omega) (by omega) p1 p2, Option.bind_some, getLevel_of (by omega) h2 (le_refl _) hsub, Option.bind_some]
  simp only [Int.sub_self, Int.toNat_zero, Nat.mul_zero]
  rw [rd_block hS (by omega) (by omega), Option.bind_some, rd_block hS (by omega) h2, Option.bind_some]
  have hsrc : octaveWidth g (o - 1) * octaveHeight g (o - 1) * (prevLevelIndex g - g.octaveFirstSubdivision).toNat +
      octaveWidth g (o - 1) * octaveHeight g (o - 1) ≤ (octs.getD (o - 1 - g.firstOctave).toNat []).length := by
    rw [hS.block (o - 1) (by omega) (by omega)]
    have : (prevLevelIndex g - g.octaveFirstSubdivision).toNat + 1 ≤ numSublevels g := by unfold numSublevels; omega
    have := Nat.mul_le_mul_left (area g (o - 1)) this
    rw [Nat.mul_add, Nat.mul_one] at this
    exact this
  have hdst : 0 + rows (octaveHeight g (o - 1)) 1 * (octaveWidth g (o - 1) / 2 ^ 1) ≤ (octs.getD (o - g.firstOctave).toNat []).length := by
    rw [hS.block o (by omega) h2, Nat.pow_one, ← half_width, Nat.zero_add]
    exact hfit
  obtain ⟨dst', d1, d2, d3⟩ := downsample_spec (fuel := fuel) hsrc hdst fw fh
  rw [d1, Option.bind_some, wr_block hS (by omega) h2, Option.bind_some]
  rw [hS.block o (by omega) h2] at d2
  have hS' := shape_set hS (by omega) h2 d2
  obtain ⟨os, r1, r2, r3, r4⟩ := smooth_spec hS' (s := g.octaveFirstSubdivision) (s' := g.octaveFirstSubdivision) (sm := sm.prev o) (by omega) h2 (le_refl _) hsub (le_refl _) hsub
    (sm.prev_length o)
  simp only [Int.sub_self, Int.toNat_zero, Nat.mul_zero] at r1
  refine ⟨os, _, r1, r2, ?_, r3, fun o' s' ho' hs' hne => ?_⟩
  · refine isDown_of hS (by omega) h2 hsub (by rw [Nat.pow_one, ← half_width]) (by rw [Nat.pow_one, ← half_height]) d2 fun j hj i hi => ?_
    rw [d3 j hj i hi, level_get]
    · rfl
    · exact down_addr hj hi
  · rw [r4 o' s' ho' hs' (fun h => hne (congrArg Prod.fst h))]
    exact level_set_ne (by omega) ho' hne

/-- The chain of copies up, from octave 0 to octave `-n`. -/
theorem ups_spec {g : Geometry} {image : List ℚ} (hsub : g.octaveFirstSubdivision ≤ g.octaveLastSubdivision) (hlast : 0 ≤ g.lastOctave)
    {octs : List (List ℚ)} (hS : Shape g octs) (h0 : g.firstOctave ≤ 0) (himg : level g octs 0 g.octaveFirstSubdivision = image)
    {n : Nat} (hn : g.firstOctave ≤ -n) :
    ∃ octs', iter n (fun i octs => (do
        let op : Int := -1 - i
        let succLevel ← getLevel g (op + 1) g.octaveFirstSubdivision
        let level ← getLevel g op g.octaveFirstSubdivision
        let src ← rd octs succLevel.oct
        let dst ← rd octs level.oct
        let dst ← copyAndUpsample src succLevel.off (octaveWidth g (op + 1)) (octaveHeight g (op + 1)) dst level.off
        wr octs level.oct dst : Option (List (List ℚ)))) octs = some octs' ∧ Shape g octs' ∧
      IsUps g.width g.height n image (level g octs' (-n) g.octaveFirstSubdivision) := by
  refine (iter_inv (n := n) (s := octs) (fun k (os : List (List ℚ)) => Shape g os ∧
    IsUps g.width g.height k image (level g os (-k) g.octaveFirstSubdivision)) ⟨hS, by simpa [IsUps] using himg⟩ ?_)
  intro i hi os ⟨q1, q2⟩
  have hop : (-1 - (i : Int)) + 1 = -i := by omega
  simp only [Option.bind_eq_bind]
  rw [hop, getLevel_of (by omega) (by omega) (le_refl _) hsub, Option.bind_some, getLevel_of (by omega) (by omega) (le_refl _) hsub,
    Option.bind_some]
  simp only [Int.sub_self, Int.toNat_zero, Nat.mul_zero]
  rw [rd_block q1 (by omega) (by omega), Option.bind_some, rd_block q1 (by omega) (by omega), Option.bind_some]
  have eo : (-1 - (i : Int)) = -((i + 1 : Nat) : Int) := by push_cast; omega
  have dw : octaveWidth g (-(i : Int)) = g.width * 2 ^ i := by
    unfold octaveWidth shiftLeft; rw [if_pos (by omega)]; simp
  have dh : octaveHeight g (-(i : Int)) = g.height * 2 ^ i := by
    unfold octaveHeight shiftLeft; rw [if_pos (by omega)]; simp
  have dw' : octaveWidth g (-1 - (i : Int)) = 2 * octaveWidth g (-(i : Int)) := by
    rw [dw, eo]; unfold octaveWidth shiftLeft; rw [if_pos (by omega), Int.neg_neg, Int.toNat_natCast, Nat.pow_succ]; ring
  have dh' : octaveHeight g (-1 - (i : Int)) = 2 * octaveHeight g (-(i : Int)) := by
    rw [dh, eo]; unfold octaveHeight shiftLeft; rw [if_pos (by omega), Int.neg_neg, Int.toNat_natCast, Nat.pow_succ]; ring
  have hns : 1 ≤ numSublevels g := by unfold numSublevels; omega
  have hsrc : 0 + octaveWidth g (-(i : Int)) * octaveHeight g (-(i : Int)) ≤ (os.getD (-(i : Int) - g.firstOctave).toNat []).length := by
    rw [q1.block _ (by omega) (by omega), Nat.zero_add]
    exact Nat.le_mul_of_pos_right _ hns
  have hdst : 0 + 2 * octaveWidth g (-(i : Int)) * (2 * octaveHeight g (-(i : Int))) ≤ (os.getD (-1 - (i : Int) - g.firstOctave).toNat []).length := by
    rw [q1.block _ (by omega) (by omega), Nat.zero_add, area, dw', dh']
    exact Nat.le_mul_of_pos_right _ hns
  obtain ⟨dst, d1, d2, d3⟩ := upsample_spec hsrc hdst
  rw [d1, Option.bind_some, wr_block q1 (by omega) (by omega)]
  rw [q1.block _ (by omega) (by omega)] at d2
  have hS' := shape_set q1 (o := -1 - (i : Int)) (by omega) (by omega) d2
  refine ⟨_, rfl, hS', level g os (-i) g.octaveFirstSubdivision, q2, ?_⟩
  rw [← dw, ← dh, ← eo]
  refine ⟨?_, fun y hy x hx => ?_⟩
  · rw [level_length hS' (by omega) (by omega) (le_refl _) hsub, area, dw', dh']
  · have hb := up_addr hx hy
    have e4 : y * (4 * octaveWidth g (-(i : Int))) = 2 * y * (2 * octaveWidth g (-(i : Int))) := by ring
    rw [e4] at hb
    have ga : ∀ q < octaveWidth g (-(i : Int)) * octaveHeight g (-(i : Int)), (level g os (-i) g.octaveFirstSubdivision).getD q 0 =
        (os.getD (-(i : Int) - g.firstOctave).toNat []).getD (0 + q) 0 := by
      intro q hq
      rw [List.getD_eq_getElem?_getD, List.getD_eq_getElem?_getD, level_get hq, Int.sub_self]
      simp
    have gb : ∀ q < 2 * octaveWidth g (-(i : Int)) * (2 * octaveHeight g (-(i : Int))),
        (level g (os.set (-1 - (i : Int) - g.firstOctave).toNat dst) (-1 - i) g.octaveFirstSubdivision)[q]? = dst[0 + q]? := by
      intro q hq
      rw [level_get (by rw [area, dw', dh']; exact hq), getD_set_self (by rw [q1.len]; omega), Int.sub_self]
      simp
    have ad : ∀ y' < octaveHeight g (-(i : Int)), ∀ x' < octaveWidth g (-(i : Int)),
        y' * octaveWidth g (-(i : Int)) + x' < octaveWidth g (-(i : Int)) * octaveHeight g (-(i : Int)) := by
      intro y' hy' x' hx'
      rw [Nat.mul_comm (octaveWidth g _)]; exact Flat.addr_lt hy' hx'
    obtain ⟨k1, k2, k3, k4⟩ := d3 y hy x hx
    rw [ga _ (ad _ hy _ hx), ga _ (ad _ (by omega) _ hx), ga _ (ad _ hy _ (by omega)), ga _ (ad _ (by omega) _ (by omega))]
    refine ⟨?_, ?_, ?_, ?_⟩
    · rw [gb _ (by omega)]; exact k1
    · rw [gb _ (by omega)]; exact k2
    · rw [gb _ (by omega), ← Nat.add_assoc]; exact k3
    · rw [gb _ (by omega), show ∀ a b : Nat, 0 + (a + b + 1) = 0 + a + b + 1 by omega]; exact k4

theorem startImage_spec {fuel : Nat} {g : Geometry} {sm : Smooth} {image : List ℚ} {octs : List (List ℚ)} (hS : Shape g octs)
    (hv : g.firstOctave ≤ g.lastOctave) (hsub : g.octaveFirstSubdivision ≤ g.octaveLastSubdivision) (hlast : 0 ≤ g.lastOctave)
    (himg : image.length = g.width * g.height) (fw : g.width ≤ fuel) (fh : g.height ≤ fuel)
    (hfit : RowsFit g (max 0 g.firstOctave) g.height (max 0 g.firstOctave).toNat) :
    ∃ octs' b, startFromImage fuel g sm image g.firstOctave octs = some octs' ∧ Shape g octs' ∧ IsStart g image b ∧
      level g octs' g.firstOctave g.octaveFirstSubdivision = sm.image b := by
  have hm1 : g.firstOctave ≤ max 0 g.firstOctave := by omega
  have hm2 : max 0 g.firstOctave ≤ g.lastOctave := by omega
  have ew : octaveWidth g (max 0 g.firstOctave) = g.width / 2 ^ (max 0 g.firstOctave).toNat := by
    unfold octaveWidth shiftLeft
    split
    · rw [show max 0 g.firstOctave = 0 by omega]; simp
    · rw [Int.neg_neg]
  have eh : octaveHeight g (max 0 g.firstOctave) = g.height / 2 ^ (max 0 g.firstOctave).toNat := by
    unfold octaveHeight shiftLeft
    split
    · rw [show max 0 g.firstOctave = 0 by omega]; simp
    · rw [Int.neg_neg]
  unfold startFromImage
  rw [assert_true (by simp), assert_true (by simpa using hv)]
  simp only [Option.bind_eq_bind, Option.bind_some]
  rw [getLevel_of hm1 hm2 (le_refl _) hsub, Option.bind_some]
  simp only [Int.sub_self, Int.toNat_zero, Nat.mul_zero]
  rw [rd_block hS hm1 hm2, Option.bind_some]
  obtain ⟨dst, d1, d2, d3⟩ := downsample_spec (fuel := fuel) (src := image) (so := 0) (w := g.width) (h := g.height)
    (d := (max 0 g.firstOctave).toNat) (off := 0) (dst := octs.getD (max 0 g.firstOctave - g.firstOctave).toNat []) (by omega) (by
      rw [hS.block _ hm1 hm2, ← ew, Nat.zero_add]; exact hfit) fw fh
  rw [d1, Option.bind_some, wr_block hS hm1 hm2, Option.bind_some]
  rw [hS.block _ hm1 hm2] at d2
  have hS' := shape_set hS hm1 hm2 d2
  have hdown := isDown_of hS hm1 hm2 hsub (a := image) ew eh d2 (fun j hj i hi => by
    rw [d3 j hj i hi, Nat.zero_add])
  obtain ⟨os, u1, u2, u3⟩ : ∃ os, iter (-g.firstOctave).toNat (fun i octs => (do
        let op : Int := -1 - i
        let succLevel ← getLevel g (op + 1) g.octaveFirstSubdivision
        let level ← getLevel g op g.octaveFirstSubdivision
        let src ← rd octs succLevel.oct
        let dst ← rd octs level.oct
        let dst ← copyAndUpsample src succLevel.off (octaveWidth g (op + 1)) (octaveHeight g (op + 1)) dst level.off
        wr octs level.oct dst : Option (List (List ℚ)))) (octs.set (max 0 g.firstOctave - g.firstOctave).toNat dst) = some os ∧ Shape g os ∧
      IsStart g image (level g os g.firstOctave g.octaveFirstSubdivision) := by
    by_cases h : 0 ≤ g.firstOctave
    · rw [show (-g.firstOctave).toNat = 0 by omega]
      refine ⟨_, rfl, hS', ?_⟩
      unfold IsStart
      rw [if_pos h]
      rw [show max 0 g.firstOctave = g.firstOctave by omega] at hdown ⊢
      exact hdown
    · rw [show max 0 g.firstOctave = 0 by omega] at hdown ⊢ hS'
      have hl0 : level g (octs.set (0 - g.firstOctave).toNat dst) 0 g.octaveFirstSubdivision = image := by
        obtain ⟨l1, l2⟩ := hdown
        simp only [Int.toNat_zero, Nat.pow_zero, Nat.div_one, Nat.mul_one] at l1 l2
        apply List.ext_getElem?
        intro q
        rcases Nat.lt_or_ge q (g.width * g.height) with hq | hq
        · have hw : 0 < g.width := by
            rcases Nat.eq_zero_or_pos g.width with e | e
            · rw [e] at hq; simp at hq
            · exact e
          have hj : q / g.width < g.height := Nat.div_lt_of_lt_mul hq
          have := l2 (q / g.width) hj (q % g.width) (Nat.mod_lt _ hw)
          rwa [Nat.div_add_mod'] at this
        · rw [List.getElem?_eq_none (by omega), List.getElem?_eq_none (by omega)]
      obtain ⟨os, u1, u2, u3⟩ := ups_spec (image := image) hsub hlast hS' (by omega) hl0 (n := (-g.firstOctave).toNat) (by omega)
      refine ⟨os, u1, u2, ?_⟩
      unfold IsStart
      rw [if_neg h]
      rwa [show -((-g.firstOctave).toNat : Int) = g.firstOctave by omega] at u3
  simp only [Option.bind_eq_bind] at u1
  rw [u1, Option.bind_some, getLevel_of (le_refl _) hv (le_refl _) hsub, Option.bind_some]
  obtain ⟨os', r1, r2, r3, _⟩ := smooth_spec u2 (s := g.octaveFirstSubdivision) (s' := g.octaveFirstSubdivision) (sm := sm.image) (le_refl _) hv (le_refl _) hsub (le_refl _) hsub
    sm.image_length
  simp only [Int.sub_self, Int.toNat_zero, Nat.mul_zero] at r1 ⊢
  exact ⟨os', _, r1, r2, u3, r3⟩

/-- The rows of the image can be halved down to the last octave without writing behind the levels. -/
def HeightOk (g : Geometry) : Prop :=
  (2 ≤ numSublevels g ∧ 2 ^ g.lastOctave.toNat ≤ g.height) ∨ 2 ^ g.lastOctave.toNat ∣ g.height

theorem rows_dvd {h d : Nat} (hd : 2 ^ d ∣ h) : rows h d = h / 2 ^ d := by
  obtain ⟨k, rfl⟩ := hd
  have hp : 0 < 2 ^ d := Nat.pow_pos (by omega)
  unfold rows
  rw [Nat.mul_add_div hp, Nat.mul_div_cancel_left _ hp, Nat.div_eq_of_lt (by omega), Nat.add_zero]

theorem rows_succ (h d : Nat) : rows h d ≤ h / 2 ^ d + 1 := by
  have hp : 0 < 2 ^ d := Nat.pow_pos (by omega)
  unfold rows
  rw [← Nat.add_div_right h hp]
  exact Nat.div_le_div_right (by omega)

/-- Height of an octave at or below the resolution of the image. -/
theorem height_pos_octave (g : Geometry) {o : Int} (ho : 0 ≤ o) : octaveHeight g o = g.height / 2 ^ o.toNat := by
  unfold octaveHeight shiftLeft
  split
  · rw [show o = 0 by omega]; simp
  · rw [Int.neg_neg]

theorem height_neg_octave (g : Geometry) {o : Int} (ho : o ≤ 0) : octaveHeight g o = g.height * 2 ^ (-o).toNat := by
  unfold octaveHeight shiftLeft
  rw [if_pos (by omega)]

theorem fit_of {g : Geometry} (hsub : g.octaveFirstSubdivision ≤ g.octaveLastSubdivision) {o : Int} {h d : Nat} (hh : octaveHeight g o = h / 2 ^ d)
    (hc : (2 ≤ numSublevels g ∧ 1 ≤ octaveHeight g o) ∨ 2 ^ d ∣ h) : RowsFit g o h d := by
  unfold RowsFit area
  have hns : 1 ≤ numSublevels g := by unfold numSublevels; omega
  rw [Nat.mul_comm (rows h d), Nat.mul_assoc]
  apply Nat.mul_le_mul_left
  rcases hc with ⟨h2, h1⟩ | h1
  · calc rows h d ≤ octaveHeight g o + 1 := by rw [hh]; exact rows_succ h d
      _ ≤ octaveHeight g o * 2 := by omega
      _ ≤ _ := Nat.mul_le_mul_left _ h2
  · rw [rows_dvd h1, hh]
    exact Nat.le_mul_of_pos_right _ hns

theorem heightOk_pos {g : Geometry} {o : Int} (h : 2 ^ g.lastOctave.toNat ≤ g.height) (h2 : o ≤ g.lastOctave) : 1 ≤ octaveHeight g o := by
  have h1 : 1 ≤ g.height := Nat.le_trans (Nat.pow_pos (by omega)) h
  by_cases ho : 0 ≤ o
  · rw [height_pos_octave g ho]
    exact Nat.div_pos (Nat.le_trans (Nat.pow_le_pow_right (by omega) (by omega)) h) (Nat.pow_pos (by omega))
  · rw [height_neg_octave g (by omega)]
    exact Nat.mul_pos h1 (Nat.pow_pos (by omega))

theorem fit_prev {g : Geometry} (hsub : g.octaveFirstSubdivision ≤ g.octaveLastSubdivision) (hk : HeightOk g) {o : Int} (h2 : o ≤ g.lastOctave) :
    RowsFit g o (octaveHeight g (o - 1)) 1 := by
  refine fit_of hsub (by rw [Nat.pow_one]; exact half_height g o) ?_
  rcases hk with ⟨a, b⟩ | b
  · exact .inl ⟨a, heightOk_pos b h2⟩
  · right
    rw [Nat.pow_one]
    by_cases ho : 0 ≤ o - 1
    · rw [height_pos_octave g ho]
      have : 2 ^ (o - 1).toNat * 2 ∣ g.height := by
        rw [← Nat.pow_succ]
        exact Nat.dvd_trans (Nat.pow_dvd_pow 2 (by omega)) b
      obtain ⟨k, hk⟩ := this
      rw [hk, Nat.mul_assoc, Nat.mul_div_cancel_left _ (Nat.pow_pos (by omega))]
      exact Nat.dvd_mul_right _ _
    · rw [height_neg_octave g (by omega), show (-(o - 1)).toNat = (-o).toNat + 1 by omega, Nat.pow_succ, ← Nat.mul_assoc]
      exact Nat.dvd_mul_left _ _

theorem fit_image {g : Geometry} (hsub : g.octaveFirstSubdivision ≤ g.octaveLastSubdivision) (hk : HeightOk g) (hlast : 0 ≤ g.lastOctave)
    (hv : g.firstOctave ≤ g.lastOctave) : RowsFit g (max 0 g.firstOctave) g.height (max 0 g.firstOctave).toNat := by
  refine fit_of hsub (height_pos_octave g (by omega)) ?_
  rcases hk with ⟨a, b⟩ | b
  · exact .inl ⟨a, heightOk_pos b (by omega)⟩
  · exact .inr (Nat.dvd_trans (Nat.pow_dvd_pow 2 (by omega)) b)

theorem valid_iff {g : Geometry} (h : isValid g = true) : g.firstOctave ≤ g.lastOctave ∧ g.octaveFirstSubdivision ≤ g.octaveLastSubdivision := by
  simp only [isValid, Bool.and_eq_true, decide_eq_true_eq] at h
  exact ⟨h.1.1.1.1, h.1.1.2⟩

/-- The octaves below `o` hold what they should. -/
structure Upto (g : Geometry) (sm : Smooth) (image : List ℚ) (octs : List (List ℚ)) (m : Int) : Prop where
  shape : Shape g octs
  first : ∃ b, IsStart g image b ∧ level g octs g.firstOctave g.octaveFirstSubdivision = sm.image b
  next : ∀ o, g.firstOctave < o → o ≤ m → ∃ b,
    IsDown (level g octs (o - 1) (prevLevelIndex g)) b (octaveWidth g (o - 1)) (octaveHeight g (o - 1)) 1 ∧
    level g octs o g.octaveFirstSubdivision = sm.prev o b
  fill : ∀ o, g.firstOctave ≤ o → o ≤ m → Filled g sm octs o

/-- **C48**: on every image of the announced size, and for every geometry that is valid, reaches octave 0 and whose rows can be halved,
the construction of the scale space accesses no memory out of the levels and yields the pyramid. -/
theorem putImage_correct_partial {fuel : Nat} {g : Geometry} {sm : Smooth} {image : List ℚ} {malloc : Nat → Nat → List ℚ}
    (hm : ∀ k n, (malloc k n).length = n) {octs : List (List ℚ)} (ho : newOctaves g malloc = some octs)
    (hlast : 0 ≤ g.lastOctave) (hk : HeightOk g) (himg : image.length = g.width * g.height)
    (fw : ∀ o, g.firstOctave ≤ o → octaveWidth g o ≤ fuel) (fh : ∀ o, g.firstOctave ≤ o → octaveHeight g o ≤ fuel)
    (fw0 : g.width ≤ fuel) (fh0 : g.height ≤ fuel) :
    ∃ octs', putImage fuel g sm image octs = some octs' ∧ IsPyramid g sm image octs' := by
  obtain ⟨hS, hvalid⟩ := shape_new hm ho
  obtain ⟨hv, hsub⟩ := valid_iff hvalid
  obtain ⟨o1, b, a1, a2, a3, a4⟩ := startImage_spec (fuel := fuel) (sm := sm) hS hv hsub hlast himg fw0 fh0 (fit_image hsub hk hlast hv)
  obtain ⟨o2, b1, b2, b3, b4, b5⟩ := fill_spec (sm := sm) a2 (le_refl g.firstOctave) hv hsub
  unfold putImage
  rw [a1]
  simp only [Option.bind_eq_bind, Option.bind_some]
  rw [b1, Option.bind_some]
  obtain ⟨o3, c1, c2⟩ := iter_inv (n := (g.lastOctave - g.firstOctave).toNat) (f := fun i octs => (do
      let o := g.firstOctave + 1 + i
      let octs ← startFromPrevious fuel g sm o octs
      fillOctave g sm o octs : Option (List (List ℚ)))) (s := o2) (fun n os => Upto g sm image os (g.firstOctave + n))
    ⟨b2, ⟨b, a3, by rw [b4, a4]⟩, fun o h1 h2 => by omega, fun o h1 h2 => by
      obtain rfl : o = g.firstOctave := by omega
      exact b3⟩ (by
    intro i hi os hU
    have h1 : g.firstOctave < g.firstOctave + 1 + i := by omega
    have h2 : g.firstOctave + 1 + i ≤ g.lastOctave := by omega
    obtain ⟨p1, bb, q1, q2, q3, q4, q5⟩ := startPrev_spec (fuel := fuel) (sm := sm) hU.shape h1 h2 hsub (fw _ (by omega)) (fh _ (by omega))
      (fit_prev hsub hk h2)
    obtain ⟨p2, r1, r2, r3, r4, r5⟩ := fill_spec (sm := sm) q2 (show g.firstOctave ≤ g.firstOctave + 1 + i by omega) h2 hsub
    have hpi : g.octaveFirstSubdivision ≤ prevLevelIndex g := by unfold prevLevelIndex; omega
    have keep : ∀ o' s', g.firstOctave ≤ o' → g.octaveFirstSubdivision ≤ s' → o' ≠ g.firstOctave + 1 + i →
        level g p2 o' s' = level g os o' s' := fun o' s' x1 x2 x3 => by rw [r5 o' s' x1 x2 x3, q5 o' s' x1 x2 x3]
    simp only [Option.bind_eq_bind]
    rw [q1, Option.bind_some]
    refine ⟨p2, r1, r2, ?_, fun o x1 x2 => ?_, fun o x1 x2 => ?_⟩
    · obtain ⟨b, y1, y2⟩ := hU.first
      exact ⟨b, y1, by rw [keep _ _ (le_refl _) (le_refl _) (by omega), y2]⟩
    · by_cases e : o = g.firstOctave + 1 + i
      · subst e
        refine ⟨bb, ?_, by rw [r4, q4]⟩
        rw [keep _ _ (by omega) hpi (by omega)]
        exact q3
      · obtain ⟨b, y1, y2⟩ := hU.next o x1 (by push_cast at x2; omega)
        exact ⟨b, by rw [keep _ _ (by omega) hpi (by push_cast at x2; omega)]; exact y1, by rw [keep _ _ (by omega) (le_refl _) e, y2]⟩
    · by_cases e : o = g.firstOctave + 1 + i
      · subst e; exact r3
      · intro s hs hs'
        rw [keep _ _ x1 (by omega) e, keep _ _ x1 (by omega) e]
        exact hU.fill o x1 (by push_cast at x2; omega) s hs hs')
  simp only [Option.bind_eq_bind] at c1
  refine ⟨o3, c1, ⟨fun o s h1 h2 h3 h4 => level_length c2.shape h1 h2 h3 h4, c2.first, fun o h1 h2 => c2.next o h1 (by omega),
    fun o h1 h2 => c2.fill o h1 (by omega)⟩⟩

/-- **C48**: the default geometry of every image with at least one pixel: the scale space is built, for every image of that size. -/
theorem putImage_default {fuel : Nat} {baseScale : ℚ} (hb : 0 ≤ baseScale) {w h : Nat} (hw : 1 ≤ w) (hh : 1 ≤ h) {sm : Smooth} {image : List ℚ}
    (himg : image.length = w * h) {malloc : Nat → Nat → List ℚ} (hm : ∀ k n, (malloc k n).length = n) (fw : w ≤ fuel) (fh : h ≤ fuel) :
    ∃ g octs octs', defaultGeometry baseScale w h = some g ∧ newOctaves g malloc = some octs ∧ putImage fuel g sm image octs = some octs' ∧
      IsPyramid g sm image octs' := by
  let g : Geometry := ⟨w, h, 0, max ((Nat.log2 (min w h) : Int) - 3) 0, 3, 0, 2, baseScale, 1 / 2⟩
  have hg : defaultGeometry baseScale w h = some g := by
    unfold defaultGeometry
    rw [assert_true (by simpa using hw), assert_true (by simpa using hh)]
    rfl
  have hv : isValid g = true := by
    simp only [isValid, Bool.and_eq_true, decide_eq_true_eq]
    refine ⟨⟨⟨⟨?_, show 1 ≤ 3 by decide⟩, show (0 : Int) ≤ 2 by decide⟩, hb⟩, show (0 : ℚ) ≤ 1 / 2 by decide +kernel⟩
    exact le_max_right _ _
  have hno : ∃ octs, newOctaves g malloc = some octs := by
    unfold newOctaves
    rw [assert_true hv]
    exact ⟨_, rfl⟩
  obtain ⟨octs, ho⟩ := hno
  have hl : 0 ≤ g.lastOctave := le_max_right _ _
  have hdim : ∀ o : Int, 0 ≤ o → octaveWidth g o ≤ w ∧ octaveHeight g o ≤ h := by
    intro o h0
    constructor
    · have := height_pos_octave { g with height := w } h0
      change octaveWidth g o = w / _ at this
      rw [this]; exact Nat.div_le_self _ _
    · rw [height_pos_octave g h0]; exact Nat.div_le_self _ _
  have hlog : 2 ^ g.lastOctave.toNat ≤ g.height := by
    have h1 : 2 ^ (min w h).log2 ≤ min w h := Nat.log2_self_le (by omega)
    have h2 : g.lastOctave.toNat ≤ (min w h).log2 := by
      change (max ((Nat.log2 (min w h) : Int) - 3) 0).toNat ≤ _
      omega
    exact Nat.le_trans (Nat.pow_le_pow_right (by omega) h2) (Nat.le_trans h1 (Nat.min_le_right _ _))
  obtain ⟨octs', e1, e2⟩ := putImage_correct_partial (fuel := fuel) (sm := sm) (image := image) hm ho hl (.inl ⟨by change 2 ≤ 3; omega, hlog⟩) himg
    (fun o h0 => Nat.le_trans (hdim o h0).1 fw) (fun o h0 => Nat.le_trans (hdim o h0).2 fh) fw fh
  exact ⟨g, octs, octs', hg, ho, e1, e2⟩

/-! ## C48: geometries for which the construction fails -/

/-- No smoothing. -/
def noSmooth : Smooth := ⟨fun _ _ l => l, fun l => l, fun _ l => l, fun _ _ _ => rfl, fun _ => rfl, fun _ _ => rfl⟩

/-- The claim without the conditions on the geometry. -/
def PutImageClaim : Prop := ∀ (g : Geometry) (sm : Smooth) (image : List ℚ) (malloc : Nat → Nat → List ℚ), isValid g = true →
  image.length = g.width * g.height → (∀ k n, (malloc k n).length = n) → ∃ fuel octs octs', newOctaves g malloc = some octs ∧
    putImage fuel g sm image octs = some octs'

/-- **C48** fails: halving an image with an odd number of rows writes one row behind a level; in an octave of a single level that is behind
the end of the block. -/
theorem putImage_overflow : let g : Geometry := ⟨2, 3, 0, 1, 1, 0, 0, 2, 1 / 2⟩
    isValid g = true ∧ (do let octs ← newOctaves g (fun _ n => List.replicate n 0); putImage 4 g noSmooth [1, 2, 3, 4, 5, 6] octs) = none := by
  refine ⟨by decide +kernel, by decide +kernel⟩

/-- **C48** fails: a valid geometry all of whose octaves are larger than the image cannot be filled. -/
theorem putImage_upsampled_only : let g : Geometry := ⟨2, 2, -2, -1, 3, 0, 2, 2, 1 / 2⟩
    isValid g = true ∧ ∀ fuel sm image octs, putImage fuel g sm image octs = none := by
  refine ⟨by decide +kernel, fun fuel sm image octs => ?_⟩
  have : getLevel ⟨2, 2, -2, -1, 3, 0, 2, 2, 1 / 2⟩ (max 0 (-2)) 0 = none := by decide +kernel
  unfold putImage startFromImage
  simp only [this]
  rfl

theorem putImage_claim_false : ¬ PutImageClaim := fun h => by
  obtain ⟨fuel, octs, octs', _, e⟩ := h ⟨2, 2, -2, -1, 3, 0, 2, 2, 1 / 2⟩ noSmooth [1, 2, 3, 4] (fun _ n => List.replicate n 0)
    putImage_upsampled_only.1 (by decide) (fun _ _ => List.length_replicate)
  rw [putImage_upsampled_only.2] at e
  exact absurd e (by simp)

/-! ## Examples -/

/-- The hypotheses of `putImage_correct_partial` on a 5 by 6 image with an upsampled octave and one octave below. -/
def exG : Geometry := ⟨5, 6, -1, 1, 3, 0, 2, 2, 1 / 2⟩

example : isValid exG = true ∧ 0 ≤ exG.lastOctave ∧ HeightOk exG ∧
    (newOctaves exG (fun _ n => List.replicate n 7)).isSome = true := by
  refine ⟨by decide +kernel, by decide +kernel, .inl ⟨by decide +kernel, by decide +kernel⟩, by decide +kernel⟩

end Verif.Scalespace
