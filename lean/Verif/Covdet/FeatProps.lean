import Verif.Covdet.FeatLemmas
import Mathlib.Data.Rat.Floor
import Mathlib.Tactic.FieldSimp

set_option linter.unusedSectionVars false

/-!
# The list of features of the covariant detector
-/

namespace Verif.Covdet

/-- One call in the model -/
def Op.run {α : Type} (sz : Nat) (s : Feats α) : Op α → Option (Feats α × Bool)
  | .append ok junk f => Covdet.append sz ok junk s f
  | .clear => some (Covdet.clear s, false)

/-- A sequence of calls in the model, with the errors reported -/
def runOps {α : Type} (sz : Nat) : Feats α → List (Op α) → Option (Feats α × List Bool)
  | s, [] => some (s, [])
  | s, o :: os => do
    let r ← o.run sz s
    let t ← runOps sz r.1 os
    pure (t.1, r.2 :: t.2)

theorem runOps_rep {α : Type} {sz : Nat} (hsz : 0 < sz) : ∀ (os : List (Op α)) (s : Feats α) (xs : List α), Rep sz s xs →
    ∃ s' es, runOps sz s os = some (s', es) ∧ es.length = os.length ∧ (∀ c ∈ os.zip es, Op.ErrorOk c) ∧ Rep sz s' ((os.zip es).foldl (fun xs c => c.1.expected xs c.2) xs) := by
  intro os
  induction os with
  | nil => intro s xs h; exact ⟨s, [], rfl, rfl, by simp, h⟩
  | cons o os ih =>
    intro s xs h
    obtain ⟨s1, e, h1, h2, h3⟩ : ∃ s1 e, o.run sz s = some (s1, e) ∧ Op.ErrorOk (o, e) ∧ Rep sz s1 (o.expected xs e) := by
      cases o with
      | append ok junk f =>
        obtain ⟨s1, e, a, b, c⟩ := append_rep hsz h ok junk f
        exact ⟨s1, e, a, b, c⟩
      | clear => exact ⟨clear s, false, rfl, rfl, h.clear⟩
    obtain ⟨s', es, h4, h5, h6, h7⟩ := ih s1 _ h3
    refine ⟨s', e :: es, ?_, by simp [h5], ?_, by simpa using h7⟩
    · show (o.run sz s).bind _ = _
      rw [h1, Option.bind_some]
      show (runOps sz s1 os).bind _ = _
      rw [h4]
      rfl
    · intro c hc
      rw [List.zip_cons_cons, List.mem_cons] at hc
      rcases hc with rfl | hc
      · exact h2
      · exact h6 c hc

/-- Whatever the sequence of calls, the failures of the memory manager and the content of new memory, no access is out of a block, an error is reported only if the memory manager failed, and the user finds exactly the features whose addition was reported as successful since the last detection started, in the order of addition. -/
theorem features_history {α : Type} {sz : Nat} (hsz : 0 < sz) (os : List (Op α)) :
    ∃ s es, runOps sz Feats.new os = some (s, es) ∧ es.length = os.length ∧ (∀ c ∈ os.zip es, Op.ErrorOk c) ∧
      s.num = (expected (os.zip es)).length ∧ read s = some (expected (os.zip es)) := by
  obtain ⟨s, es, h1, h2, h3, h4⟩ := runOps_rep hsz os _ _ (Rep.new sz)
  exact ⟨s, es, h1, h2, h3, h4.num, h4.read⟩

/-- A sequence with a success, a failure, and a new detection -/
example : runOps 40 (Feats.new : Feats Nat) [.append false (fun _ => 7) 1, .clear] = some (⟨none, 0, 0⟩, [true, false]) := rfl

example : expected [(Op.append true (fun _ => 7) 1, false), (.append false (fun _ => 7) 2, true), (.append true (fun _ => 7) 3, false)] = [1, 3] := rfl

/-- What a user would expect: after `vl_covdet_reset` (which `vl_covdet_set_first_octave`, `vl_covdet_set_num_octaves` and `vl_covdet_set_base_scale` call) the detector has no features and features can be added to it again. -/
def ResetClaim : Prop := ∀ (sz : Nat) (os : List (Op Nat)) (s : Feats Nat) (es : List Bool), 0 < sz → runOps sz Feats.new os = some (s, es) →
  read (reset s) = some [] ∧ ∀ junk f, ∃ s' e, append sz true junk (reset s) f = some (s', e)

theorem reset_claim_false : ¬ ResetClaim := by
  intro h
  obtain ⟨s, e, h1, h2, h3⟩ := append_rep (sz := 40) (by norm_num) (Rep.new (α := Nat) 40) true (fun _ => 0) 5
  have he : e = false := by
    cases e with
    | false => rfl
    | true => exact absurd (h2 rfl) (by simp)
  subst he
  have hr : runOps 40 Feats.new [.append true (fun _ => 0) 5] = some (s, [false]) := by
    simp only [runOps, Op.run, h1, Option.bind_eq_bind, Option.bind_some, Option.pure_def]
  obtain ⟨h4, _⟩ := h 40 _ s _ (by norm_num) hr
  have hn : s.num = 1 := h3.num
  unfold read reset at h4
  rw [if_neg (by rw [hn]; norm_num)] at h4
  cases h4

/-- Adding one after `vl_covdet_reset` writes through a null pointer, as long as the previous block had room. -/
theorem append_after_reset {α : Type} {sz : Nat} {s : Feats α} (hroom : (s.num + 1) * sz ≤ s.bufferSize) (ok : Bool) (junk : Nat → α) (f : α) :
    append sz ok junk (reset s) f = none := by
  unfold append reset
  dsimp only
  rw [if_neg (not_lt.mpr hroom)]
  rfl

example : Rep 40 (⟨some [1, 2], 1, 80⟩ : Feats Nat) [1] ∧ (1 + 1) * 40 ≤ 80 := ⟨⟨rfl, Or.inr ⟨_, rfl, rfl, [2], rfl⟩⟩, le_refl _⟩

variable {K : Type} [Field K] [LinearOrder K] [IsStrictOrderedRing K]

/-- The features that the suppression keeps: those with a score that no effective feature beats, where feature `i` is effective if no effective feature before it beats it. -/
structure Survivors (tol : K) (xs : List (Feature K)) (A : Nat → Prop) (keep : List Nat) : Prop where
  effective : ∀ i (hi : i < xs.length), A i ↔ ∀ j (hj : j < i), A j → ¬ Beats tol (xs[j]'(by omega)) xs[i]
  increasing : keep.Pairwise (· < ·)
  kept : ∀ k, k ∈ keep ↔ ∃ hk : k < xs.length, xs[k].peakScore ≠ 0 ∧ ∀ i (hi : i < xs.length), A i → ¬ Beats tol xs[i] xs[k]

theorem filterMap_nonNull {g : Nat → Feature K} {l : List (Feature K)} {p : Nat → Bool} (hp : ∀ k, p k = true → nonNull (g k) = l[k]?) (hq : ∀ k, p k = false → nonNull (g k) = none) :
    ∀ L : List Nat, (L.map g).filterMap nonNull = (L.filter p).filterMap (fun k => l[k]?) := by
  intro L
  induction L with
  | nil => rfl
  | cons k L ih =>
    rw [List.map_cons, List.filterMap_cons, ih, List.filter_cons]
    cases hk : p k with
    | false => rw [hq k hk]; simp
    | true =>
      rw [hp k hk]
      simp [List.filterMap_cons]

open Classical in
/-- The suppression of the features close to a stronger one: exactly the surviving features remain, in the same order and unchanged, and the number of suppressed features is the number of those that had a score and do not survive. -/
theorem nonExtrema_exact (tol : K) (ht : tol ≠ 0) {n : Nat} {l : List (Feature K)} (hn : n ≤ l.length) (count : Nat) :
    ∃ A keep l', Survivors tol (l.take n) A keep ∧ nonExtrema tol n l count = some (l', keep.length, (l.take n).countP (fun f => decide (f.peakScore ≠ 0)) - keep.length) ∧
      l'.length = l.length ∧ l'.take keep.length = keep.filterMap (fun k => (l.take n)[k]?) ∧ keep.length ≤ (l.take n).countP (fun f => decide (f.peakScore ≠ 0)) := by
  by_cases hnil : l = []
  · subst hnil
    obtain rfl : n = 0 := by simpa using hn
    refine ⟨fun i => ∀ j : Fin i, False, [], [], ⟨by simp, List.Pairwise.nil, by simp⟩, ?_, rfl, by simp, by simp⟩
    unfold nonExtrema
    rw [if_pos ht]
    rfl
  obtain ⟨a, ha⟩ := List.exists_mem_of_ne_nil _ hnil
  have hArr := Arr.of_len l a
  obtain ⟨g, hg⟩ : ∃ g : Nat → Feature K, g = fun i => l.getD i a := ⟨_, rfl⟩
  rw [← hg] at hArr
  have hgl : ∀ k, ∀ (hk : k < (l.take n).length), (l.take n)[k] = g k := by
    intro k hk
    have hk' : k < l.length := by rw [List.length_take] at hk; omega
    rw [List.getElem_take, hg]
    simp [hk']
  have hlen : (l.take n).length = n := by rw [List.length_take]; omega
  obtain ⟨l1, c, h1, h2, h3⟩ := suppress_arr tol hn hArr
  obtain ⟨B, hB⟩ : ∃ B : Nat → Nat → Prop, B = fun i k => Beats tol (g i) (g k) := ⟨_, rfl⟩
  obtain ⟨d, hd⟩ : ∃ d : Nat → Prop, d = fun k => ∃ i < n, act B i ∧ B i k := ⟨_, rfl⟩
  have hl1 : l1.length = l.length := h2.len
  obtain ⟨l2, h4, h5, h6⟩ := compact_spec (nonNull (K := K)) (n := n) (l := l1) (by omega)
  obtain ⟨keep, hk⟩ : ∃ keep : List Nat, keep = (List.range n).filter (fun k => decide ((g k).peakScore ≠ 0 ∧ ¬ d k) && decide (k < n)) := ⟨_, rfl⟩
  have htake : l1.take n = (List.range n).map (fun k => if d k then kill (g k) else g k) := by
    refine List.ext_getElem? fun k => ?_
    rw [List.getElem?_take]
    by_cases hkn : k < n
    · rw [if_pos hkn, h2.get k (by omega), List.getElem?_map, List.getElem?_range hkn]
      simp [hkn, hd, hB]
    · rw [if_neg hkn, List.getElem?_eq_none (by simp; omega)]
  have hfm : (l1.take n).filterMap nonNull = keep.filterMap (fun k => (l.take n)[k]?) := by
    rw [htake, hk]
    have : ∀ L : List Nat, (∀ k ∈ L, k < n) → (L.map (fun k => if d k then kill (g k) else g k)).filterMap nonNull = (L.filter (fun k => decide ((g k).peakScore ≠ 0 ∧ ¬ d k) && decide (k < n))).filterMap (fun k => (l.take n)[k]?) := by
      intro L hL
      induction L with
      | nil => rfl
      | cons k L ih =>
        have hkn := hL k List.mem_cons_self
        have ih := ih (fun j hj => hL j (List.mem_cons_of_mem _ hj))
        rw [List.map_cons, List.filterMap_cons, ih, List.filter_cons]
        have hget : (l.take n)[k]? = some (g k) := by rw [List.getElem?_eq_getElem (by omega), hgl]
        by_cases hdk : d k
        · simp [hdk, nonNull, kill]
        · by_cases h0 : (g k).peakScore = 0
          · simp [hdk, h0, nonNull]
          · simp [hdk, h0, hkn, nonNull, hget]
    exact this _ (fun k hk => List.mem_range.mp hk)
  have hklen : ((l1.take n).filterMap nonNull).length = keep.length := by
    rw [hfm]
    have : ∀ L : List Nat, (∀ k ∈ L, k < n) → (L.filterMap (fun k => (l.take n)[k]?)).length = L.length := by
      intro L hL
      induction L with
      | nil => rfl
      | cons k L ih =>
        have hkn := hL k List.mem_cons_self
        have hget : (l.take n)[k]? = some (g k) := by rw [List.getElem?_eq_getElem (by omega), hgl]
        rw [List.filterMap_cons, hget]
        simp [ih (fun j hj => hL j (List.mem_cons_of_mem _ hj))]
    refine this _ (fun k hkk => ?_)
    rw [hk] at hkk
    exact List.mem_range.mp (List.mem_filter.mp hkk).1
  have hcp : ∀ L : List (Feature K), (L.filterMap nonNull).length = L.countP (fun f => decide (f.peakScore ≠ 0)) := by
    intro L
    induction L with
    | nil => rfl
    | cons f L ih =>
      rw [List.filterMap_cons, List.countP_cons]
      by_cases h0 : f.peakScore = 0 <;> simp [nonNull, h0, ih]
  have hdrop : l1.drop n = l.drop n := by
    refine List.ext_getElem? fun k => ?_
    rw [List.getElem?_drop, List.getElem?_drop]
    by_cases hkl : n + k < l.length
    · rw [h2.get _ hkl, hArr.get _ hkl]
      simp
    · rw [List.getElem?_eq_none (by omega), List.getElem?_eq_none (by omega)]
  have hcount : c + keep.length = (l.take n).countP (fun f => decide (f.peakScore ≠ 0)) := by
    have e1 : l1.countP (fun f => decide (f.peakScore ≠ 0)) = (l1.take n).countP (fun f => decide (f.peakScore ≠ 0)) + (l.drop n).countP (fun f => decide (f.peakScore ≠ 0)) := by
      rw [← hdrop, ← List.countP_append, List.take_append_drop]
    have e2 : l.countP (fun f => decide (f.peakScore ≠ 0)) = (l.take n).countP (fun f => decide (f.peakScore ≠ 0)) + (l.drop n).countP (fun f => decide (f.peakScore ≠ 0)) := by
      rw [← List.countP_append, List.take_append_drop]
    have e3 := hcp (l1.take n)
    rw [hklen] at e3
    omega
  refine ⟨act B, keep, l2, ⟨fun i hi => ?_, ?_, fun k => ?_⟩, ?_, by omega, ?_, by omega⟩
  · rw [act_iff, hB]
    constructor
    · intro h j hj hA
      rw [hgl, hgl]
      exact h j hj hA
    · intro h j hj hA
      have := h j hj hA
      rw [hgl, hgl] at this
      exact this
  · rw [hk]
    exact List.pairwise_lt_range.filter _
  · rw [hk, List.mem_filter, List.mem_range]
    constructor
    · rintro ⟨h7, h8⟩
      have h8 : ((g k).peakScore ≠ 0 ∧ ¬ d k) ∧ k < n := by simpa using h8
      refine ⟨by omega, by rw [hgl]; exact h8.1.1, fun i hi hA hb => h8.1.2 ?_⟩
      rw [hd]
      rw [hgl, hgl] at hb
      exact ⟨i, by omega, hA, by rw [hB]; exact hb⟩
    · rintro ⟨h7, h8, h9⟩
      rw [hgl] at h8
      refine ⟨by omega, ?_⟩
      have : ¬ d k := by
        rw [hd]
        rintro ⟨i, hi, hA, hb⟩
        have := h9 i (by omega) hA
        rw [hgl, hgl] at this
        rw [hB] at hb
        exact this hb
      have h10 : k < n := by omega
      simp [this, h8, h10]
  · unfold nonExtrema
    rw [if_pos ht, h1, Option.bind_eq_bind, Option.bind_some, h4, Option.bind_some, hklen]
    have : c = (l.take n).countP (fun f => decide (f.peakScore ≠ 0)) - keep.length := by omega
    rw [← this]
    rfl
  · rw [← hfm, ← hklen]
    exact (List.prefix_iff_eq_take.mp h6).symm

/-- A threshold of zero keeps all the features. -/
theorem nonExtrema_off (n : Nat) (l : List (Feature K)) (count : Nat) : nonExtrema 0 n l count = some (l, n, count) := by
  unfold nonExtrema
  rw [if_neg (by simp)]

/-- No surviving feature beats another one. -/
theorem Survivors.unbeaten {tol : K} {xs : List (Feature K)} {A : Nat → Prop} {keep : List Nat} (h : Survivors tol xs A keep) {i k : Nat} (hi : i ∈ keep) (hk : k ∈ keep) :
    ∃ (hi : i < xs.length) (hk : k < xs.length), ¬ Beats tol xs[i] xs[k] := by
  obtain ⟨hi1, _, hi3⟩ := (h.kept i).mp hi
  obtain ⟨hk1, _, hk3⟩ := (h.kept k).mp hk
  exact ⟨hi1, hk1, hk3 i hi1 ((h.effective i hi1).mpr fun j hj hA => hi3 j (by omega) hA)⟩

/-- A feature with a score that no other beats survives; in particular the strongest one. -/
theorem Survivors.of_unbeaten {tol : K} {xs : List (Feature K)} {A : Nat → Prop} {keep : List Nat} (h : Survivors tol xs A keep) {k : Nat} (hk : k < xs.length) (h0 : xs[k].peakScore ≠ 0) (hb : ∀ i (hi : i < xs.length), ¬ Beats tol xs[i] xs[k]) :
    k ∈ keep := (h.kept k).mpr ⟨hk, h0, fun i hi _ => hb i hi⟩

/-- A feature with a score that does not survive is beaten by another one. -/
theorem Survivors.beaten {tol : K} {xs : List (Feature K)} {A : Nat → Prop} {keep : List Nat} (h : Survivors tol xs A keep) {k : Nat} (hk : k < xs.length) (h0 : xs[k].peakScore ≠ 0) (hkeep : k ∉ keep) :
    ∃ (i : Nat) (hi : i < xs.length), Beats tol xs[i] xs[k] := by
  by_contra hc
  exact hkeep (h.of_unbeaten hk h0 fun i hi hb => hc ⟨i, hi, hb⟩)

/-- A disc of the example -/
def exDisc (x score : ℚ) : Feature ℚ := ⟨⟨x, 0, 1, 0, 0, 1⟩, score, 0, 0, 0⟩

/-- What the name suggests: a feature is suppressed only if the result contains a close and stronger one. -/
def SuppressionClaim : Prop := ∀ (tol : ℚ) (l : List (Feature ℚ)) (l' : List (Feature ℚ)) (m c : Nat), 0 < tol → (∀ f ∈ l, f.peakScore ≠ 0) → nonExtrema tol l.length l 0 = some (l', m, c) →
  ∀ f ∈ l, f ∉ l'.take m → ∃ g ∈ l'.take m, Beats tol g f

/-- Three features in a row: the middle one removes the last one before the first one removes it. -/
theorem suppression_claim_false : ¬ SuppressionClaim := by
  intro h
  have hr : nonExtrema (1 / 2 : ℚ) 3 [exDisc (2 / 5) 2, exDisc 0 3, exDisc (4 / 5) 1] 0 = some ([exDisc 0 3, { exDisc 0 3 with peakScore := 3 }, { exDisc (4 / 5) 1 with peakScore := 0 }], 1, 2) := by
    decide +kernel
  obtain ⟨g, hg, hb⟩ := h (1 / 2) [exDisc (2 / 5) 2, exDisc 0 3, exDisc (4 / 5) 1] _ _ _ (by norm_num) (by decide +kernel) hr (exDisc (4 / 5) 1) (by simp) (by decide +kernel)
  simp only [List.take_succ_cons, List.take_zero, List.mem_singleton] at hg
  subst hg
  have := hb.2.2.1
  norm_num [exDisc, abs_lt] at this

/-- The order of the features matters: with the strongest first, the last one survives. -/
example : nonExtrema (1 / 2 : ℚ) 3 [exDisc 0 3, exDisc (2 / 5) 2, exDisc (4 / 5) 1] 0 = some ([exDisc 0 3, exDisc (4 / 5) 1, exDisc (4 / 5) 1], 2, 1) := by decide +kernel

/-- The test of `_vl_covdet_check_frame_inside`: the four corners suffice. -/
theorem checkInside_iff (width height : Nat) {m : K} (hm : 0 ≤ m) (f : Frame K) : checkInside width height m f = true ↔ SquareInside width height m f := by
  unfold checkInside
  simp only [Box.add, Bool.and_eq_true, decide_eq_true_eq, min_top_left, max_bot_left, le_min_iff, max_le_iff, WithTop.coe_le_coe, WithBot.coe_le_coe]
  constructor
  · rintro ⟨⟨⟨⟨⟨⟨a1, a2⟩, a3⟩, a4⟩, ⟨⟨b1, b2⟩, b3⟩, b4⟩, ⟨⟨c1, c2⟩, c3⟩, c4⟩, ⟨⟨d1, d2⟩, d3⟩, d4⟩ u v hu hv
    obtain ⟨hu1, hu2⟩ := abs_le.mp hu
    obtain ⟨hv1, hv2⟩ := abs_le.mp hv
    have key : ∀ a b t : K, (0 ≤ a * m + b * (-m) + t) → (0 ≤ a * m + b * m + t) → (0 ≤ a * (-m) + b * m + t) → (0 ≤ a * (-m) + b * (-m) + t) → 0 ≤ t + (a * u + b * v) := by
      intro a b t h1 h2 h3 h4
      rcases le_total 0 a with ha | ha <;> rcases le_total 0 b with hb | hb
      · nlinarith [mul_le_mul_of_nonneg_left hu1 ha, mul_le_mul_of_nonneg_left hv1 hb]
      · nlinarith [mul_le_mul_of_nonneg_left hu1 ha, mul_le_mul_of_nonpos_left hv2 hb]
      · nlinarith [mul_le_mul_of_nonpos_left hu2 ha, mul_le_mul_of_nonneg_left hv1 hb]
      · nlinarith [mul_le_mul_of_nonpos_left hu2 ha, mul_le_mul_of_nonpos_left hv2 hb]
    unfold Frame.image
    refine ⟨key _ _ _ a1 a2 a3 a4, ?_, key _ _ _ c1 c2 c3 c4, ?_⟩
    · have := key (- f.a11) (- f.a12) ((width : K) - 1 - f.x) (by linarith) (by linarith) (by linarith) (by linarith)
      dsimp only
      linarith
    · have := key (- f.a21) (- f.a22) ((height : K) - 1 - f.y) (by linarith) (by linarith) (by linarith) (by linarith)
      dsimp only
      linarith
  · intro h
    have e : ∀ s : K, s = m ∨ s = -m → |s| ≤ m := by
      rintro s (rfl | rfl)
      · rw [abs_of_nonneg hm]
      · rw [abs_neg, abs_of_nonneg hm]
    have h1 := h m (-m) (e _ (Or.inl rfl)) (e _ (Or.inr rfl))
    have h2 := h m m (e _ (Or.inl rfl)) (e _ (Or.inl rfl))
    have h3 := h (-m) m (e _ (Or.inr rfl)) (e _ (Or.inl rfl))
    have h4 := h (-m) (-m) (e _ (Or.inr rfl)) (e _ (Or.inr rfl))
    unfold Frame.image at h1 h2 h3 h4
    dsimp only at h1 h2 h3 h4
    refine ⟨⟨⟨⟨⟨⟨?_, ?_⟩, ?_⟩, ?_⟩, ⟨⟨?_, ?_⟩, ?_⟩, ?_⟩, ⟨⟨?_, ?_⟩, ?_⟩, ?_⟩, ⟨⟨?_, ?_⟩, ?_⟩, ?_⟩ <;> linarith [h1.1, h1.2.1, h1.2.2.1, h1.2.2.2, h2.1, h2.2.1, h2.2.2.1, h2.2.2.2, h3.1, h3.2.1, h3.2.2.1, h3.2.2.2, h4.1, h4.2.1, h4.2.2.1, h4.2.2.2]

open Classical in
/-- `vl_covdet_drop_features_outside` keeps, in the same order and unchanged, exactly the features whose square of half side `m` lies in the image. -/
theorem dropOutside_exact (width height : Nat) {m : K} (hm : 0 ≤ m) {n : Nat} {l : List (Feature K)} (hn : n ≤ l.length) :
    ∃ l', dropOutside width height m n l = some (l', ((l.take n).filter (fun f => decide (SquareInside width height m f.frame))).length) ∧ l'.length = l.length ∧
      (l.take n).filter (fun f => decide (SquareInside width height m f.frame)) <+: l' := by
  obtain ⟨l', h1, h2, h3⟩ := compact_spec (fun f : Feature K => if checkInside width height m f.frame then some f else none) hn
  have : ∀ L : List (Feature K), L.filterMap (fun f : Feature K => if checkInside width height m f.frame then some f else none) = L.filter (fun f => decide (SquareInside width height m f.frame)) := by
    intro L
    induction L with
    | nil => rfl
    | cons f L ih =>
      rw [List.filterMap_cons, List.filter_cons, ih]
      by_cases h : SquareInside width height m f.frame
      · simp [(checkInside_iff width height hm f.frame).mpr h, h]
      · simp [(checkInside_iff width height hm f.frame), h]
  rw [this] at h1 h3
  exact ⟨l', h1, h2, h3⟩

/-- A disc in the image and one too close to the border -/
example : dropOutside 10 10 (2 : ℚ) 2 [exDisc 1 1, ⟨⟨5, 5, 1, 0, 0, 1⟩, 1, 0, 0, 0⟩] = some ([⟨⟨5, 5, 1, 0, 0, 1⟩, 1, 0, 0, 0⟩, ⟨⟨5, 5, 1, 0, 0, 1⟩, 1, 0, 0, 0⟩], 1) := by decide +kernel

end Verif.Covdet
