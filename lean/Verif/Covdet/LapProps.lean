import Verif.Covdet.LapModel
import Verif.Covdet.FeatLemmas
import Verif.Rows
import Mathlib.Data.Rat.Floor
import Mathlib.Tactic.FieldSimp
import Mathlib.Tactic.LinearCombination

/-!
# Properties of the Laplacian scales of the features of the covariant detector
-/

namespace Verif.Covdet

set_option linter.unusedSectionVars false

open Finset

variable {K : Type} [Field K] [LinearOrder K] [IsStrictOrderedRing K]

/-! ### Specification -/

/-- The response of the Laplacian of level `k`, with the normalisation of the scale. -/
def lapResponse (sigmaLap : Nat → K) (n : Nat) (laps patch : List K) (k : Nat) : K := sigmaLap k ^ 2 * ∑ q ∈ range n, laps.getD (k * n + q) 0 * patch.getD q 0

/-- Level `k` is a strict extremum of the responses that is not below the threshold in modulus. -/
def IsLapExtremum (f : Nat → K) (threshold : K) (k : Nat) : Prop := ((f k > f (k - 1) ∧ f k > f (k + 1)) ∨ (f k < f (k - 1) ∧ f k < f (k + 1))) ∧ |f k| ≥ threshold

instance (f : Nat → K) (t : K) (k : Nat) : Decidable (IsLapExtremum f t k) := by unfold IsLapExtremum; infer_instance

/-- The distance from level `k` of the top of the parabola through three responses. -/
def lapShift (f : Nat → K) (k : Nat) : K := (f (k + 1) - f (k - 1)) / (2 * (2 * f k - f (k + 1) - f (k - 1)))

/-- The scale of an extremum, and its score. -/
def lapOf (scaleAt : K → K) (f : Nat → K) (k : Nat) : LapScale K := ⟨scaleAt (k + lapShift f k), f k + (f (k + 1) - f (k - 1)) / 2 * lapShift f k⟩

/-- All the extrema in the order of the levels. -/
def allLap (scaleAt : K → K) (threshold : K) (f : Nat → K) : List (LapScale K) := ((List.range' 1 8).filter fun k => decide (IsLapExtremum f threshold k)).map (lapOf scaleAt f)

/-! ### The responses -/

theorem lapScore_spec {laps patch : List K} {n pt : Nat} (h1 : pt + n ≤ laps.length) (h2 : n ≤ patch.length) : lapScore laps patch n pt = some (∑ q ∈ range n, laps.getD (pt + q) 0 * patch.getD q 0, pt + n) := by
  obtain ⟨s, e, h⟩ := iter_inv (n := n) (f := fun q (s : K × Nat) => do
    let l ← rd laps s.2
    let p ← rd patch q
    some (s.1 + l * p, s.2 + 1)) (s := ((0 : K), pt)) (fun k s => s = (∑ q ∈ range k, laps.getD (pt + q) 0 * patch.getD q 0, pt + k)) (by simp) (by
      rintro q hq s rfl
      refine ⟨_, ?_, rfl⟩
      simp only [rd_getElem?]
      rw [List.getElem?_eq_getElem (by omega), List.getElem?_eq_getElem (by omega)]
      simp only [Option.bind_eq_bind, Option.bind_some]
      rw [Finset.sum_range_succ, List.getD_eq_getElem?_getD, List.getElem?_eq_getElem (by omega), List.getD_eq_getElem?_getD, List.getElem?_eq_getElem (by omega)]
      rfl)
  rw [h] at e
  exact e

/-- The scores are the responses of the bank. -/
theorem lapScores_spec (sigmaLap : Nat → K) {L n : Nat} {laps patch junk : List K} (h1 : L * n ≤ laps.length) (h2 : n ≤ patch.length) (h3 : junk.length = L) :
    ∃ scores, lapScores sigmaLap L n laps patch junk = some scores ∧ Arr scores L (lapResponse sigmaLap n laps patch) := by
  obtain ⟨s, e, l, g, p⟩ := iter_inv (n := L) (f := fun k (s : List K × Nat) => do
    let (score, pt) ← lapScore laps patch n s.2
    let scores ← wr s.1 k (score * sigmaLap k * sigmaLap k)
    some (scores, pt)) (s := (junk, 0)) (fun k s => s.1.length = L ∧ (∀ i < k, s.1[i]? = some (lapResponse sigmaLap n laps patch i)) ∧ s.2 = k * n) ⟨h3, fun i hi => absurd hi (by omega), by simp⟩ (by
      rintro k hk ⟨sc, pt⟩ ⟨l, g, p⟩
      simp only at l g p
      subst p
      have hb : k * n + n ≤ laps.length := by
        have := Nat.mul_le_mul_right n (show k + 1 ≤ L from hk)
        rw [Nat.add_mul, one_mul] at this
        omega
      refine ⟨(sc.set k (lapResponse sigmaLap n laps patch k), (k + 1) * n), ?_, by simpa using l, fun i hi => ?_, rfl⟩
      · simp only
        rw [lapScore_spec hb h2]
        simp only [Option.bind_eq_bind, Option.bind_some]
        rw [wr_of_lt (by rw [l]; exact hk)]
        simp only [Option.bind_some]
        rw [Nat.add_mul, one_mul]
        congr 3
        unfold lapResponse
        ring
      · rw [List.getElem?_set]
        by_cases hik : k = i
        · subst hik; rw [if_pos rfl, if_pos (by omega)]
        · rw [if_neg hik]; exact g i (by omega))
  refine ⟨s.1, ?_, l, g⟩
  unfold lapScores
  exact congrArg (fun o => Option.bind o fun s : List K × Nat => some s.1) e

/-! ### The extrema -/

theorem shift_eq {f : Nat → K} {k : Nat} {a b c : K} (ha : a = f (k - 1)) (hb : b = f k) (hc : c = f (k + 1)) : - (1 / 2) * (c - a) / (c + a - 2 * b) = lapShift f k := by
  unfold lapShift
  rw [← ha, ← hb, ← hc]
  rw [show (2 : K) * (2 * b - c - a) = (-2) * (c + a - 2 * b) by ring, show - (1 / 2) * (c - a) = (c - a) / (-2) by ring, div_div]

/-- The interpolated position is within half a level of the extremum, so that the scale found is in the range of the bank. -/
theorem lapShift_bound {f : Nat → K} {t : K} {k : Nat} (h : IsLapExtremum f t k) : |lapShift f k| < 1 / 2 := by
  unfold lapShift
  obtain ⟨h, -⟩ := h
  generalize f (k - 1) = a at *
  generalize f k = b at *
  generalize f (k + 1) = c at *
  rcases h with ⟨h1, h2⟩ | ⟨h1, h2⟩
  · have hd : 0 < 2 * (2 * b - c - a) := by linarith
    rw [abs_div, abs_of_pos hd, div_lt_iff₀ hd, abs_lt]
    constructor <;> linarith
  · have hd : 2 * (2 * b - c - a) < 0 := by linarith
    rw [abs_div, abs_of_neg hd, div_lt_iff₀ (by linarith), abs_lt]
    constructor <;> linarith

theorem lapScales_spec (scaleAt : K → K) (threshold : K) {maxNum L : Nat} {scores : List K} {f : Nat → K} (h : Arr scores L f) {out : List (LapScale K)} (ho : maxNum ≤ out.length) (hL : 2 ≤ L) :
    ∃ T, T = (((List.range' 1 (L - 2)).filter fun k => decide (IsLapExtremum f threshold k)).map (lapOf scaleAt f)).take maxNum ∧ lapScales scaleAt threshold maxNum L scores out = some (T ++ out.drop T.length, T.length) := by
  obtain ⟨s, e, hs⟩ := iter_inv (n := L - 2) (f := fun i s => lapStep scaleAt threshold maxNum scores (i + 1) s) (s := (out, 0))
    (fun i s => ∃ T, T = (((List.range' 1 i).filter fun k => decide (IsLapExtremum f threshold k)).map (lapOf scaleAt f)).take maxNum ∧ s = (T ++ out.drop T.length, T.length)) ⟨[], by simp, by simp⟩ (by
      rintro i hi s ⟨T, hT, rfl⟩
      have hr : List.range' 1 (i + 1) = List.range' 1 i ++ [i + 1] := by rw [List.range'_concat]; simp [Nat.add_comm]
      unfold lapStep
      rw [h.rd (by omega), h.rd (by omega), h.rd (by omega)]
      simp only [Option.bind_eq_bind, Option.bind_some]
      rw [shift_eq (f := f) (k := i + 1) rfl rfl rfl, hr, List.filter_append, List.map_append]
      by_cases hp : IsLapExtremum f threshold (i + 1)
      · have hp' := hp
        unfold IsLapExtremum at hp'
        rw [if_pos hp', List.filter_cons_of_pos (by simpa using hp), List.filter_nil, List.map_singleton]
        by_cases hm : T.length < maxNum
        · rw [if_pos hm, wr_of_lt (by simp; omega)]
          have hfull : (((List.range' 1 i).filter fun k => decide (IsLapExtremum f threshold k)).map (lapOf scaleAt f)) = T := by
            rw [hT, List.take_of_length_le]
            rw [hT, List.length_take] at hm
            omega
          rw [hfull]
          refine ⟨_, rfl, T ++ [lapOf scaleAt f (i + 1)], (List.take_of_length_le (by simp; omega)).symm, ?_⟩
          rw [List.set_append_right _ _ (le_refl _), Nat.sub_self]
          have hd : out.drop T.length = out[T.length]'(by omega) :: out.drop (T.length + 1) := List.drop_eq_getElem_cons (by omega)
          rw [hd, List.set_cons_zero]
          simp only [List.append_assoc, List.cons_append, List.nil_append, List.length_append, List.length_singleton]
          congr 4
          ring
        · rw [if_neg hm]
          refine ⟨_, rfl, T, ?_, rfl⟩
          have hlen : maxNum ≤ (((List.range' 1 i).filter fun k => decide (IsLapExtremum f threshold k)).map (lapOf scaleAt f)).length := by
            rw [hT, List.length_take] at hm
            omega
          rw [List.take_append_of_le_length hlen]
          exact hT
      · rw [if_neg (by unfold IsLapExtremum at hp; exact hp), List.filter_cons_of_neg (by simpa using hp), List.filter_nil, List.map_nil, List.append_nil]
        exact ⟨_, rfl, T, hT, rfl⟩)
  obtain ⟨T, hT, hs⟩ := hs
  exact ⟨T, hT, e.trans (congrArg some hs)⟩

/-- For every patch and every bank of ten Laplacians, the function has no undefined behaviour; the scales are those of the first four
extrema, in the order of the levels, of the responses to the bank.  What is behind them in the array does not change. -/
theorem lapForPatch_correct (sigmaLap : Nat → K) (scaleAt : K → K) (threshold : K) {n : Nat} {laps patch junk : List K} {out : List (LapScale K)} (h1 : 10 * n ≤ laps.length) (h2 : n ≤ patch.length) (h3 : junk.length = 10) (h4 : out.length = 4) :
    ∃ T, T = (allLap scaleAt threshold (lapResponse sigmaLap n laps patch)).take 4 ∧ lapForPatch sigmaLap scaleAt threshold n laps patch junk out = some (T ++ out.drop T.length, T.length) := by
  obtain ⟨scores, e, h⟩ := lapScores_spec sigmaLap (L := 10) h1 h2 h3
  obtain ⟨T, hT, e'⟩ := lapScales_spec scaleAt threshold (maxNum := 4) h (out := out) h4.ge (by norm_num)
  refine ⟨T, hT, ?_⟩
  unfold lapForPatch
  rw [e]
  exact e'

/-! ### The features -/

/-- The feature `g` is `f` with the scale `s`: the axes of the frame are multiplied by the scale. -/
def IsScaled (f g : Feature K) (s : LapScale K) : Prop := g.frame = ⟨f.frame.x, f.frame.y, s.scale * f.frame.a11, s.scale * f.frame.a12, s.scale * f.frame.a21, s.scale * f.frame.a22⟩ ∧ g.laplacianScaleScore = s.score ∧
  g.peakScore = f.peakScore ∧ g.edgeScore = f.edgeScore ∧ g.orientationScore = f.orientationScore

theorem rescale_scaled (f : Feature K) (s : LapScale K) : IsScaled f (rescale f s) s := by
  refine ⟨?_, rfl, rfl, rfl, rfl⟩
  simp only [rescale, mul_comm]

/-- A feature is replaced by the one with its first scale. -/
def firstScaled (ss : List (LapScale K)) (f : Feature K) : Feature K := match ss with
  | [] => { f with peakScore := 0 }
  | s :: _ => rescale f s

/-- What is appended for a feature. -/
def restScaled (ss : List (LapScale K)) (f : Feature K) : List (Feature K) := ss.tail.map (rescale f)

theorem lapFeature_spec {scales : Frame K → Option (List (LapScale K))} {f : Feature K} {ss : List (LapScale K)} (hs : scales f.frame = some ss) {features : List (Feature K)} {counts : List Nat} {i : Nat} (hi : features[i]? = some f) {c : Nat} (hc : counts[ss.length]? = some c) :
    lapFeature scales i (features, counts) = some (features.set i (firstScaled ss f) ++ restScaled ss f, counts.set ss.length (c + 1)) := by
  have hlt : i < features.length := (List.getElem?_eq_some_iff.mp hi).1
  have hlc : ss.length < counts.length := (List.getElem?_eq_some_iff.mp hc).1
  unfold lapFeature
  simp only [rd_getElem?, hi, hs, hc, Option.bind_eq_bind, Option.bind_some, wr_of_lt hlc, wr_of_lt hlt]
  cases ss with
  | nil => simp [iter, firstScaled, restScaled]
  | cons o ss =>
    obtain ⟨r, e, h⟩ := iter_inv (n := (o :: ss).length) (f := fun j (features : List (Feature K)) => ((o :: ss)[j]?).bind fun sc =>
      if j = 0 then (features[i]?).bind fun f => wr features i (rescale f sc)
      else ((features ++ [f])[(features ++ [f]).length - 1]?).bind fun f' => wr (features ++ [f]) ((features ++ [f]).length - 1) (rescale f' sc)) (s := features)
      (fun k r => r = if k = 0 then features else features.set i (rescale f o) ++ (ss.take (k - 1)).map (rescale f)) rfl (by
        rintro j hj r rfl
        simp only [List.length_cons] at hj
        rcases Nat.eq_zero_or_pos j with rfl | hj0
        · refine ⟨features.set i (rescale f o), ?_, by simp⟩
          simp only [List.getElem?_cons_zero, Option.bind_some, if_true, hi]
          exact wr_of_lt hlt _
        · obtain ⟨k, rfl⟩ : ∃ k, j = k + 1 := ⟨j - 1, by omega⟩
          have hk : k < ss.length := by omega
          refine ⟨features.set i (rescale f o) ++ (ss.take (k + 1)).map (rescale f), ?_, by simp⟩
          simp only [List.getElem?_cons_succ, List.getElem?_eq_getElem hk, Option.bind_some]
          rw [if_neg (by omega), if_neg (by omega), List.length_append, List.length_singleton, Nat.add_sub_cancel, Nat.add_sub_cancel, List.getElem?_append_right (le_refl _), Nat.sub_self]
          simp only [List.getElem?_cons_zero, Option.bind_some]
          rw [wr_of_lt (by simp), List.set_append_right _ _ (by simp)]
          simp
          rw [List.take_add_one, List.getElem?_map, List.getElem?_eq_getElem hk]
          rfl)
    rw [if_neg (by simp)] at h
    simp only [List.length_cons, Nat.add_eq_zero_iff, one_ne_zero, and_false, if_false]
    have e' := congrArg (fun r => Option.bind r fun features => some (features, counts.set (ss.length + 1) (c + 1))) (e.trans (congrArg some h))
    refine e'.trans ?_
    simp [firstScaled, restScaled]

/-- For every list of features, with at most four scales per frame: the features that have no scale, or whose peak score is zero, are
removed; the others are replaced by the one with their first scale, and the copies with the other scales follow, in order.  The numbers of features with
zero to four scales are counted. -/
theorem extractLaplacian_correct {scales : Frame K → Option (List (LapScale K))} {features : List (Feature K)} {ss : Feature K → List (LapScale K)} (hs : ∀ f ∈ features, scales f.frame = some (ss f)) (h4 : ∀ f ∈ features, (ss f).length ≤ 4) :
    ∃ keep counts, keep = (features.filter fun f => decide (f.peakScore ≠ 0 ∧ ss f ≠ [])) ∧
      extractLaplacian scales features = some ((keep.flatMap fun f => ((ss f).take 1).map (rescale f)) ++ keep.flatMap (fun f => ((ss f).drop 1).map (rescale f)), counts) ∧
      counts.length = 5 ∧ ∀ c < 5, counts[c]? = some (features.countP fun f => (ss f).length = c) := by
  obtain ⟨s, e, l5, hc, h⟩ := iter_inv (n := features.length) (f := lapFeature scales) (s := (features, List.replicate 5 0))
    (fun k s => s.2.length = 5 ∧ (∀ c < 5, s.2[c]? = some ((features.take k).countP fun f => (ss f).length = c)) ∧
      s.1 = ((features.take k).map fun f => firstScaled (ss f) f) ++ features.drop k ++ (features.take k).flatMap fun f => restScaled (ss f) f) ⟨by simp, fun c hc => by rw [List.getElem?_replicate, if_pos hc]; simp, by simp⟩ (by
      rintro i hi ⟨r, counts⟩ ⟨l5, hc, rfl⟩
      simp only at l5 hc
      obtain ⟨f, hf⟩ : ∃ f, features[i]? = some f := ⟨_, List.getElem?_eq_getElem hi⟩
      have hmem := List.mem_of_getElem? hf
      have hd : features.drop i = f :: features.drop (i + 1) := by
        rw [List.drop_eq_getElem_cons hi]
        rw [List.getElem?_eq_getElem hi] at hf
        rw [Option.some.inj hf]
      have hg : (((features.take i).map fun f => firstScaled (ss f) f) ++ features.drop i ++ (features.take i).flatMap fun f => restScaled (ss f) f)[i]? = some f := by
        rw [hd, List.append_assoc, List.getElem?_append_right (by simp)]
        simp [Nat.min_eq_left hi.le]
      have ht : features.take (i + 1) = features.take i ++ [f] := by rw [List.take_add_one, hf]; rfl
      refine ⟨_, lapFeature_spec (hs f hmem) hg (hc _ (by have := h4 f hmem; omega)), by simpa using l5, fun c hc' => ?_, ?_⟩
      · simp only
        rw [List.getElem?_set, ht, List.countP_append]
        by_cases hcc : (ss f).length = c
        · rw [if_pos hcc, if_pos (by omega)]
          simp [hcc]
        · rw [if_neg hcc, hc c hc']
          simp [hcc]
      · simp only
        rw [hd, ht]
        simp [List.set_append_right, Nat.min_eq_left hi.le])
  rw [List.take_length, List.drop_length, List.append_nil] at h
  obtain ⟨l', ec, lc, pc⟩ := compact_spec (nonNull (K := K)) (n := s.1.length) (l := s.1) (le_refl _)
  rw [List.take_length] at ec pc
  rw [List.take_length] at hc
  refine ⟨_, s.2, rfl, ?_, l5, hc⟩
  unfold extractLaplacian
  obtain ⟨s1, s2⟩ := s
  simp only at *
  rw [e]
  simp only [Option.bind_eq_bind, Option.bind_some]
  rw [ec]
  simp only [Option.bind_some]
  rw [← List.prefix_iff_eq_take.mp pc, h, List.filterMap_append]
  congr 3
  · clear e ec lc pc h hc l5 hs h4
    induction features with
    | nil => rfl
    | cons f l ih =>
      rw [List.map_cons, List.filter_cons]
      cases hsf : ss f with
      | nil =>
        rw [List.filterMap_cons_none (by simp [firstScaled, nonNull]), if_neg (by simp)]
        exact ih
      | cons o os =>
        by_cases hp : f.peakScore = 0
        · rw [List.filterMap_cons_none (by simp [firstScaled, nonNull, rescale, hp]), if_neg (by simp [hp])]
          exact ih
        · rw [List.filterMap_cons_some (b := rescale f o) (by simp [firstScaled, nonNull, rescale, hp]), if_pos (by simp [hp]), ih, List.flatMap_cons, hsf]
          rfl
  · clear e ec lc pc h hc l5 hs h4
    induction features with
    | nil => rfl
    | cons f l ih =>
      rw [List.flatMap_cons, List.filterMap_append, ih, List.filter_cons]
      cases hsf : ss f with
      | nil => simp [restScaled]
      | cons o os =>
        by_cases hp : f.peakScore = 0
        · have : (restScaled (o :: os) f).filterMap nonNull = [] := by
            simp [restScaled, List.filterMap_eq_nil_iff, nonNull, rescale, hp]
          rw [this]
          simp [hp]
        · have : (restScaled (o :: os) f).filterMap nonNull = restScaled (o :: os) f := by
            unfold restScaled
            rw [List.filterMap_map]
            rw [show (nonNull ∘ rescale f : LapScale K → Option (Feature K)) = fun s => some (rescale f s) by funext s; simp [nonNull, rescale, hp]]
            simp
          rw [this]
          simp [hp, hsf, restScaled]

/-! ### Cases, and what the code does not do -/

/-- Ten responses with two peaks and a valley. -/
def demoLap : List ℚ := [0, 2, 1, -3, 0, 1, 5, 4, 2, 1]

example : Arr demoLap 10 (fun i => demoLap.getD i 0) := Arr.of_len' rfl 0

example : (lapScales (fun s => s) (1 / 2 : ℚ) 4 10 demoLap (List.replicate 4 ⟨0, 0⟩)).map (·.2) = some 3 := by decide +kernel

/-- The score is the value at its top of the parabola through the three responses. -/
def LapScoreClaim : Prop := ∀ (threshold : ℚ) (f : Nat → ℚ) (k : Nat), IsLapExtremum f threshold k →
  ∀ (p q r : ℚ), (p - q + r = f (k - 1)) → r = f k → p + q + r = f (k + 1) → (lapOf (fun s => s) f k).score = p * lapShift f k ^ 2 + q * lapShift f k + r

/-- The correction of the response is twice the one of the parabola. -/
theorem lapScore_double {f : Nat → K} {k : Nat} {t : K} (h : IsLapExtremum f t k) {p q r : K} (h1 : p - q + r = f (k - 1)) (h2 : r = f k) (h3 : p + q + r = f (k + 1)) :
    p * lapShift f k ^ 2 + q * lapShift f k + r = f k + (f (k + 1) - f (k - 1)) / 4 * lapShift f k := by
  have hp : p ≠ 0 := by
    rintro rfl
    obtain ⟨h, -⟩ := h
    rw [← h1, ← h2, ← h3] at h
    rcases h with ⟨a, b⟩ | ⟨a, b⟩ <;> linarith
  unfold lapShift
  rw [← h1, ← h2, ← h3]
  rw [show 2 * (2 * r - (p + q + r) - (p - q + r)) = -4 * p by ring, show p + q + r - (p - q + r) = 2 * q by ring]
  field_simp
  ring

theorem lapScore_claim_false : ¬ LapScoreClaim := by
  intro hc
  have := hc (1 / 2) (fun i => demoLap.getD i 0) 1 (by decide +kernel) (-3 / 2) (1 / 2) 2 (by decide +kernel) (by decide +kernel) (by decide +kernel)
  exact absurd this (by decide +kernel)

/-- A feature that has a scale is kept. -/
def LapKeepClaim : Prop := ∀ (scales : Frame ℚ → Option (List (LapScale ℚ))) (f : Feature ℚ) (ss : List (LapScale ℚ)), scales f.frame = some ss → 0 < ss.length → ss.length ≤ 4 → ∀ r, extractLaplacian scales [f] = some r → r.1 ≠ []

/-- A feature with a scale is removed if its peak score is zero, as after `vl_covdet_append_feature` of a frame without score. -/
theorem lapKeep_claim_false : ¬ LapKeepClaim := by
  intro hc
  refine hc (fun _ => some [⟨2, 1⟩]) ⟨⟨0, 0, 1, 0, 0, 1⟩, 0, 0, 0, 0⟩ [⟨2, 1⟩] rfl (by decide) (by decide) ([], [0, 1, 0, 0, 0]) (by decide +kernel) rfl

example : extractLaplacian (fun f => some (if f.x = 0 then [⟨2, 1⟩, ⟨3, 5⟩] else [])) [⟨⟨0, 0, 1, 0, 0, 1⟩, 1, 0, 0, 0⟩, ⟨⟨1, 0, 1, 0, 0, 1⟩, 1, 0, 0, 0⟩] =
    some ([⟨⟨0, 0, 2, 0, 0, 2⟩, 1, 0, 0, 1⟩, ⟨⟨0, 0, 3, 0, 0, 3⟩, 1, 0, 0, (5 : ℚ)⟩], [1, 0, 1, 0, 0]) := by decide +kernel

end Verif.Covdet
