import Verif.Kmeans.LloydProps
import Mathlib.Algebra.Order.BigOperators.Ring.Finset
import Mathlib.Tactic.Linarith

/-!
# Elkan's algorithm: lemmas
-/

set_option linter.unusedSectionVars false

namespace Verif.Kmeans

variable {K ρ : Type} [Field K] [LinearOrder K] [IsStrictOrderedRing K]
variable {m : Metric} {dim nC N : Nat} {data : List K}

/-! ## Geometry -/

theorem vdist_nonneg (m : Metric) (dim : Nat) (a b : Nat → K) : 0 ≤ vdist m dim a b := by
  cases m
  · exact Finset.sum_nonneg fun _ _ => abs_nonneg _
  · exact Finset.sum_nonneg fun _ _ => sq_nonneg _

theorem vdist_symm (m : Metric) (dim : Nat) (a b : Nat → K) : vdist m dim a b = vdist m dim b a := by
  cases m
  · exact Finset.sum_congr rfl fun _ _ => abs_sub_comm _ _
  · exact Finset.sum_congr rfl fun _ _ => by ring

theorem prune (v a b : Nat → K) (h : factor m * vdist m dim v a ≤ vdist m dim a b) : vdist m dim v a ≤ vdist m dim v b := by
  cases m
  · simp only [factor, vdist] at *
    have : ∑ j ∈ Finset.range dim, |a j - b j| ≤ ∑ j ∈ Finset.range dim, |v j - a j| + ∑ j ∈ Finset.range dim, |v j - b j| := by
      rw [← Finset.sum_add_distrib]
      refine Finset.sum_le_sum fun j _ => ?_
      rw [abs_sub_comm (v j) (a j)]
      exact abs_sub_le _ _ _
    linarith
  · simp only [factor, vdist] at *
    have : ∑ j ∈ Finset.range dim, (a j - b j) ^ 2 ≤
        ∑ j ∈ Finset.range dim, (2 * (v j - a j) ^ 2 + 2 * (v j - b j) ^ 2) := by
      refine Finset.sum_le_sum fun j _ => ?_
      nlinarith [sq_nonneg ((v j - a j) + (v j - b j))]
    rw [Finset.sum_add_distrib, ← Finset.mul_sum, ← Finset.mul_sum] at this
    linarith

theorem triangle1 (v a b : Nat → K) : vdist .l1 dim v b ≤ vdist .l1 dim v a + vdist .l1 dim a b := by
  simp only [vdist]
  rw [← Finset.sum_add_distrib]
  exact Finset.sum_le_sum fun j _ => abs_sub_le _ _ _

theorem expand2 (v a b : Nat → K) : vdist .l2 dim v b =
    vdist .l2 dim v a + vdist .l2 dim a b + 2 * ∑ j ∈ Finset.range dim, (v j - a j) * (a j - b j) := by
  simp only [vdist]
  rw [Finset.mul_sum, ← Finset.sum_add_distrib, ← Finset.sum_add_distrib]
  exact Finset.sum_congr rfl fun j _ => by ring

theorem cross2 (v a b : Nat → K) : (∑ j ∈ Finset.range dim, (v j - a j) * (a j - b j)) ^ 2 ≤
    vdist .l2 dim v a * vdist .l2 dim a b :=
  Finset.sum_mul_sq_le_sq_mul_sq (Finset.range dim) (fun j => v j - a j) fun j => a j - b j

/-- `sqrt` is the square root of non-negative numbers. -/
def IsSqrt (sqrt : K → K) : Prop := ∀ a, 0 ≤ a → 0 ≤ sqrt a ∧ sqrt a * sqrt a = a

theorem IsSqrt.mono {sqrt : K → K} (h : IsSqrt sqrt) {a b : K} (ha : 0 ≤ a) (hab : a ≤ b) : sqrt a ≤ sqrt b := by
  obtain ⟨h1, h2⟩ := h a ha
  obtain ⟨h3, h4⟩ := h b (le_trans ha hab)
  by_contra hc
  push Not at hc
  nlinarith

theorem IsSqrt.mul {sqrt : K → K} (h : IsSqrt sqrt) {a b : K} (ha : 0 ≤ a) (hb : 0 ≤ b) : sqrt (a * b) = sqrt a * sqrt b := by
  obtain ⟨h1, h2⟩ := h a ha
  obtain ⟨h3, h4⟩ := h b hb
  obtain ⟨h5, h6⟩ := h (a * b) (mul_nonneg ha hb)
  have e : sqrt (a * b) * sqrt (a * b) = (sqrt a * sqrt b) * (sqrt a * sqrt b) := by
    rw [h6]; nth_rewrite 1 [← h2]; nth_rewrite 1 [← h4]; ring
  have h7 := mul_nonneg h1 h3
  rcases mul_self_eq_mul_self_iff.mp e with h | h
  · exact h
  · linarith

theorem IsSqrt.abs_le {sqrt : K → K} (h : IsSqrt sqrt) {c a : K} (hc : c ^ 2 ≤ a) : |c| ≤ sqrt a := by
  obtain ⟨h1, h2⟩ := h a (le_trans (sq_nonneg _) hc)
  rw [_root_.abs_le]
  constructor <;> by_contra hn <;> push Not at hn <;> nlinarith

/-- The upper bound after a motion of the centre from `a` to `b`. -/
theorem grow {sqrt : K → K} (hs : m = .l2 → IsSqrt sqrt) (v a b : Nat → K) {ub : K} (h : vdist m dim v a ≤ ub) :
    vdist m dim v b ≤ (match m with
      | .l1 => ub + vdist m dim b a
      | .l2 => ub + vdist m dim b a + 2 * sqrt (ub * vdist m dim b a)) := by
  cases m
  · have := triangle1 (dim := dim) v a b
    rw [vdist_symm .l1 dim b a]
    simp only
    linarith
  · simp only
    rw [vdist_symm .l2 dim b a, expand2 v a b]
    have h1 := (hs rfl).abs_le (cross2 (dim := dim) v a b)
    have h2 := (hs rfl).mono (mul_nonneg (vdist_nonneg .l2 dim v a) (vdist_nonneg .l2 dim a b))
      (mul_le_mul_of_nonneg_right h (vdist_nonneg .l2 dim a b))
    have h3 := le_abs_self (∑ j ∈ Finset.range dim, (v j - a j) * (a j - b j))
    linarith

/-- The lower bound after a motion of the centre from `a` to `b`. -/
theorem shrink {sqrt : K → K} (hs : m = .l2 → IsSqrt sqrt) (v a b : Nat → K) {lb : K} (h : lb ≤ vdist m dim v a)
    (h' : vdist m dim b a ≤ lb) :
    (match m with
      | .l1 => lb - vdist m dim b a
      | .l2 => lb + vdist m dim b a - 2 * sqrt (lb * vdist m dim b a)) ≤ vdist m dim v b ∧
    0 ≤ (match m with
      | .l1 => lb - vdist m dim b a
      | .l2 => lb + vdist m dim b a - 2 * sqrt (lb * vdist m dim b a)) := by
  cases m
  · have := triangle1 (dim := dim) v b a
    simp only
    constructor <;> linarith
  · simp only
    have hM := vdist_nonneg .l2 dim b a
    have hP := vdist_nonneg .l2 dim v a
    have h1 := (hs rfl).abs_le (cross2 (dim := dim) v a b)
    have h3 := neg_le_abs (∑ j ∈ Finset.range dim, (v j - a j) * (a j - b j))
    rw [vdist_symm .l2 dim a b] at h1
    rw [expand2 v a b, vdist_symm .l2 dim a b]
    rw [(hs rfl).mul hP hM] at h1
    rw [(hs rfl).mul (le_trans hM h') hM]
    obtain ⟨p1, p2⟩ := hs rfl _ hP
    obtain ⟨q1, q2⟩ := hs rfl _ hM
    obtain ⟨l1, l2⟩ := hs rfl _ (le_trans hM h')
    have m1 := (hs rfl).mono (le_trans hM h') h
    have m2 := (hs rfl).mono hM h'
    generalize sqrt (vdist .l2 dim v a) = p at *
    generalize sqrt (vdist .l2 dim b a) = q at *
    generalize sqrt lb = l at *
    constructor
    · nlinarith
    · nlinarith [sq_nonneg (l - q)]

/-! ## The bounds of a point -/

/-- The record of a point with distances `P` to the centres is consistent. -/
structure PtOk (nC : Nat) (P : Nat → K) (p : Pt K) : Prop where
  asgn : p.asgn < nC
  ub : P p.asgn ≤ p.ub
  strict : p.strict = true → p.ub = P p.asgn
  lb : ∃ L : Nat → K, Arr p.lb nC L ∧ ∀ c < nC, 0 ≤ L c ∧ L c ≤ P c

theorem PtOk.setLb {P : Nat → K} {p : Pt K} (h : PtOk nC P p) (hP : ∀ c, 0 ≤ P c) {c : Nat} (hc : c < nC) :
    ∃ lb', wr p.lb c (P c) = some lb' ∧ PtOk nC P { p with lb := lb' } := by
  obtain ⟨L, h1, h2⟩ := h.lb
  obtain ⟨lb', e1, e2⟩ := h1.wr hc (P c)
  refine ⟨lb', e1, h.asgn, h.ub, h.strict, _, e2, fun c' hc' => ?_⟩
  unfold upd1
  by_cases e : c' = c
  · rw [if_pos e, e]; exact ⟨hP c, le_refl _⟩
  · rw [if_neg e]; exact h2 c' hc'

/-- What the loops know about the distances: `P` from the point, `D` between the centres. -/
structure Geo (m : Metric) (nC : Nat) (P : Nat → K) (D : Nat → Nat → K) : Prop where
  nonneg : ∀ c, 0 ≤ P c
  prune : ∀ a < nC, ∀ b < nC, factor m * P a ≤ D a b → P a ≤ P b

theorem factor_nonneg (m : Metric) : (0 : K) ≤ factor m := by
  cases m <;> simp only [factor] <;> norm_num

theorem Geo.prune' {P : Nat → K} {D : Nat → Nat → K} (h : Geo m nC P D) {a b : Nat} (ha : a < nC) (hb : b < nC) {ub : K}
    (hu : P a ≤ ub) (hd : factor m * ub ≤ D a b) : P a ≤ P b :=
  h.prune a ha b hb (le_trans (mul_le_mul_of_nonneg_left hu (factor_nonneg m)) hd)

variable {centers cdist v : List K} {P : Nat → K} {D : Nat → Nat → K}

theorem initPoint_spec (hg : Geo m nC P D) (hC : 0 < nC)
    (hP : ∀ c < nC, ∃ w, AllPairs.slice centers ((c * dim : Nat) : Int) dim = some w ∧ m.dist v w = P c)
    (hD : ∀ a < nC, ∀ b < nC, cdist[b + a * nC]? = some (D a b)) :
    ∃ p, initPoint m dim nC centers cdist v = some p ∧ PtOk nC P p ∧ ∀ c < nC, P p.asgn ≤ P c := by
  obtain ⟨w0, e1, e2⟩ := hP 0 hC
  obtain ⟨lb, l1, l2⟩ := (Arr.replicate nC (0 : K)).wr hC (P 0)
  have e1' : AllPairs.slice centers 0 dim = some w0 := by simpa using e1
  unfold initPoint
  simp only [Option.bind_eq_bind, e1', Option.bind_some, e2, l1]
  have hp0 : PtOk nC P { asgn := 0, ub := P 0, strict := true, lb := lb } :=
    ⟨hC, le_refl _, fun _ => rfl, _, l2, fun c hc => by
      unfold upd1
      by_cases e : c = 0
      · rw [if_pos e, e]; exact ⟨hg.nonneg 0, le_refl _⟩
      · rw [if_neg e]; exact ⟨le_refl _, hg.nonneg c⟩⟩
  obtain ⟨p, h1, h2, h3, h4⟩ := iter_inv (n := nC - 1) (f := initStep m dim nC centers cdist v)
    (s := { asgn := 0, ub := P 0, strict := true, lb := lb })
    (fun i (p : Pt K) => PtOk nC P p ∧ p.strict = true ∧ ∀ c ≤ i, P p.asgn ≤ P c)
    ⟨hp0, rfl, fun c hc => by rw [show c = 0 by omega]⟩ (by
    intro i hi p ⟨g1, g2, g3⟩
    unfold initStep
    rw [rd_getElem?, hD _ g1.asgn (i + 1) (by omega)]
    simp only [Option.bind_eq_bind, Option.bind_some]
    by_cases hf : factor m * p.ub ≤ D p.asgn (i + 1)
    · rw [if_pos hf]
      refine ⟨p, rfl, g1, g2, fun c hc => ?_⟩
      by_cases e : c = i + 1
      · subst e; exact hg.prune' g1.asgn (by omega) g1.ub hf
      · exact g3 c (by omega)
    · rw [if_neg hf]
      obtain ⟨w, w1, w2⟩ := hP (i + 1) (by omega)
      obtain ⟨lb', s1, s2⟩ := g1.setLb hg.nonneg (c := i + 1) (by omega)
      simp only [w1, w2, s1, Option.bind_some]
      have hub := g1.strict g2
      by_cases hlt : P (i + 1) < p.ub
      · rw [if_pos hlt]
        refine ⟨_, rfl, ⟨by show i + 1 < nC; omega, le_refl _, fun _ => rfl, s2.lb⟩, g2, fun c hc => ?_⟩
        by_cases e : c = i + 1
        · subst e; exact le_refl _
        · exact le_trans (le_of_lt (hub ▸ hlt)) (g3 c (by omega))
      · rw [if_neg hlt]
        refine ⟨_, rfl, s2, g2, fun c hc => ?_⟩
        by_cases e : c = i + 1
        · subst e; show P p.asgn ≤ _; rw [← hub]; exact not_lt.mp hlt
        · exact g3 c (by omega))
  exact ⟨p, h1, h2, fun c hc => h4 c (by omega)⟩

theorem compareCenter_spec (hg : Geo m nC P D)
    (hP : ∀ c < nC, ∃ w, AllPairs.slice centers ((c * dim : Nat) : Int) dim = some w ∧ m.dist v w = P c) {c : Nat} (hc : c < nC)
    {s : Pt K × Bool} (h1 : PtOk nC P s.1) (h2 : s.1.strict = true) :
    ∃ s', compareCenter m dim centers v c s = some s' ∧ PtOk nC P s'.1 ∧ P s'.1.asgn ≤ P s.1.asgn ∧ P s'.1.asgn ≤ P c ∧
      (s'.2 = false → s.2 = false ∧ s'.1.asgn = s.1.asgn) := by
  unfold compareCenter
  obtain ⟨w, w1, w2⟩ := hP c hc
  obtain ⟨lb', s1, s2⟩ := h1.setLb hg.nonneg hc
  simp only [Option.bind_eq_bind, w1, w2, s1, Option.bind_some]
  have hub := h1.strict h2
  by_cases hlt : P c < s.1.ub
  · rw [if_pos hlt]
    exact ⟨_, rfl, ⟨hc, le_refl _, fun _ => rfl, s2.lb⟩, le_of_lt (hub ▸ hlt), le_refl _, by simp⟩
  · rw [if_neg hlt]
    exact ⟨_, rfl, s2, le_refl _, by show P s.1.asgn ≤ _; rw [← hub]; exact not_lt.mp hlt, fun h => ⟨h, rfl⟩⟩

theorem reassignStep_spec (hg : Geo m nC P D)
    (hP : ∀ c < nC, ∃ w, AllPairs.slice centers ((c * dim : Nat) : Int) dim = some w ∧ m.dist v w = P c)
    (hD : ∀ a < nC, ∀ b < nC, cdist[b + a * nC]? = some (D a b)) {c : Nat} (hc : c < nC)
    {s : Pt K × Bool} (h1 : PtOk nC P s.1) :
    ∃ s', reassignStep m dim nC centers cdist v c s = some s' ∧ PtOk nC P s'.1 ∧ P s'.1.asgn ≤ P s.1.asgn ∧ P s'.1.asgn ≤ P c ∧
      (s'.2 = false → s.2 = false ∧ s'.1.asgn = s.1.asgn) := by
  unfold reassignStep
  simp only
  by_cases e : s.1.asgn = c
  · rw [if_pos e]; exact ⟨s, rfl, h1, le_refl _, by rw [e], fun h => ⟨h, rfl⟩⟩
  rw [if_neg e, rd_getElem?, hD _ h1.asgn c hc]
  simp only [Option.bind_eq_bind, Option.bind_some]
  by_cases hf : factor m * s.1.ub ≤ D s.1.asgn c
  · rw [if_pos hf]; exact ⟨s, rfl, h1, le_refl _, hg.prune' h1.asgn hc h1.ub hf, fun h => ⟨h, rfl⟩⟩
  rw [if_neg hf]
  obtain ⟨L, L1, L2⟩ := h1.lb
  rw [L1.rd hc]
  simp only [Option.bind_some]
  by_cases hl : s.1.ub ≤ L c
  · rw [if_pos hl]
    exact ⟨s, rfl, h1, le_refl _, le_trans h1.ub (le_trans hl (L2 c hc).2), fun h => ⟨h, rfl⟩⟩
  rw [if_neg hl]
  by_cases hst : s.1.strict = true
  · rw [if_pos hst]; exact compareCenter_spec hg hP hc h1 hst
  rw [if_neg hst]
  obtain ⟨w, w1, w2⟩ := hP _ h1.asgn
  obtain ⟨lb', s1, s2⟩ := h1.setLb hg.nonneg h1.asgn
  simp only [w1, w2, s1, Option.bind_some]
  have h1' : PtOk nC P { s.1 with ub := P s.1.asgn, strict := true, lb := lb' } := ⟨h1.asgn, le_refl _, fun _ => rfl, s2.lb⟩
  by_cases hf' : factor m * P s.1.asgn ≤ D s.1.asgn c
  · rw [if_pos hf']; exact ⟨_, rfl, h1', le_refl _, hg.prune _ h1.asgn c hc hf', fun h => ⟨h, rfl⟩⟩
  rw [if_neg hf']
  obtain ⟨L', L1', L2'⟩ := s2.lb
  rw [Arr.rd L1' hc]
  simp only [Option.bind_some]
  by_cases hl' : P s.1.asgn ≤ L' c
  · rw [if_pos hl']
    exact ⟨_, rfl, h1', le_refl _, le_trans hl' (L2' c hc).2, fun h => ⟨h, rfl⟩⟩
  rw [if_neg hl']
  exact compareCenter_spec (s := (_, _)) hg hP hc h1' rfl

/-- `next` holds, for each centre, a lower bound of the distances to the other ones (nothing if there are none). -/
def NextOk (nC : Nat) (D : Nat → Nat → K) (next : List (Option K)) : Prop :=
  ∃ F : Nat → Option K, Arr next nC F ∧ ∀ a < nC, ∀ b < nC, b ≠ a → ∃ x, F a = some x ∧ x ≤ D a b

theorem reassign_spec (hg : Geo m nC P D)
    (hP : ∀ c < nC, ∃ w, AllPairs.slice centers ((c * dim : Nat) : Int) dim = some w ∧ m.dist v w = P c)
    (hD : ∀ a < nC, ∀ b < nC, cdist[b + a * nC]? = some (D a b)) {next : List (Option K)} (hn : NextOk nC D next)
    {p : Pt K} (h1 : PtOk nC P p) :
    ∃ r, reassign m dim nC centers cdist next v p = some r ∧ PtOk nC P r.1 ∧ (∀ c < nC, P r.1.asgn ≤ P c) ∧
      (r.2 = false → r.1.asgn = p.asgn) := by
  obtain ⟨F, F1, F2⟩ := hn
  unfold reassign
  rw [F1.rd h1.asgn]
  simp only [Option.bind_eq_bind, Option.bind_some]
  have key : ∃ r, iter nC (reassignStep m dim nC centers cdist v) (p, false) = some r ∧ PtOk nC P r.1 ∧
      (∀ c < nC, P r.1.asgn ≤ P c) ∧ (r.2 = false → r.1.asgn = p.asgn) := by
    exact iter_inv (n := nC) (f := reassignStep m dim nC centers cdist v) (s := (p, false))
      (fun i (s : Pt K × Bool) => PtOk nC P s.1 ∧ (∀ c < i, P s.1.asgn ≤ P c) ∧ (s.2 = false → s.1.asgn = p.asgn))
      ⟨h1, by simp, fun _ => rfl⟩ (by
      intro i hi s ⟨g1, g2, g3⟩
      obtain ⟨s', q1, q2, q3, q4, q5⟩ := reassignStep_spec hg hP hD hi g1
      refine ⟨s', q1, q2, fun c hc => ?_, fun h => ?_⟩
      · by_cases e : c = i
        · subst e; exact q4
        · exact le_trans q3 (g2 c (by omega))
      · obtain ⟨t1, t2⟩ := q5 h
        rw [t2, g3 t1])
  cases hF : F p.asgn with
  | none =>
    simp only [if_true]
    refine ⟨_, rfl, h1, fun c hc => ?_, fun _ => rfl⟩
    by_cases e : c = p.asgn
    · rw [e]
    · obtain ⟨x, x1, _⟩ := F2 _ h1.asgn c hc e
      rw [hF] at x1; simp at x1
  | some nx =>
    simp only [decide_eq_true_eq]
    by_cases hle : factor m * p.ub ≤ nx
    · rw [if_pos hle]
      refine ⟨_, rfl, h1, fun c hc => ?_, fun _ => rfl⟩
      by_cases e : c = p.asgn
      · rw [e]
      · obtain ⟨x, x1, x2⟩ := F2 _ h1.asgn c hc e
        rw [hF] at x1
        cases x1
        exact hg.prune' h1.asgn hc h1.ub (le_trans hle x2)
    · rw [if_neg hle]; exact key

theorem nextDistances_spec (hD : ∀ a < nC, ∀ b < nC, cdist[b + a * nC]? = some (D a b)) {next : List (Option K)}
    (hl : next.length = nC) : ∃ next', nextDistances nC cdist next = some next' ∧ NextOk nC D next' := by
  have := iter_inv (n := nC) (f := fun c next => do
    let v ← iter nC (fun j (v : Option K) =>
      if j = c then some v else do
        let d ← rd cdist (j + c * nC)
        some (minInf v d)) none
    wr next c v) (s := next)
    (fun i (next : List (Option K)) => ∃ F : Nat → Option K, Arr next nC F ∧ ∀ a < i, ∀ b < nC, b ≠ a → ∃ x, F a = some x ∧ x ≤ D a b)
    ⟨_, Arr.of_len' hl none, by simp⟩ (by
    intro i hi next ⟨F, F1, F2⟩
    obtain ⟨x, x1, x2⟩ := iter_inv (n := nC) (f := fun j (v : Option K) =>
      if j = i then some v else do
        let d ← rd cdist (j + i * nC)
        some (minInf v d)) (s := none) (fun k (v : Option K) => ∀ b < k, b ≠ i → ∃ x, v = some x ∧ x ≤ D i b) (by simp) (by
      intro j hj v hv
      by_cases e : j = i
      · rw [if_pos e]; exact ⟨v, rfl, fun b hb hne => hv b (by omega) hne⟩
      · rw [if_neg e, rd_getElem?, hD i hi j hj]
        simp only [Option.bind_eq_bind, Option.bind_some]
        refine ⟨_, rfl, fun b hb hne => ?_⟩
        unfold minInf
        by_cases e' : b = j
        · subst e'
          cases v with
          | none => exact ⟨_, rfl, le_refl _⟩
          | some a =>
            refine ⟨_, rfl, ?_⟩
            by_cases h : a < D i b
            · rw [if_pos h]; exact le_of_lt h
            · rw [if_neg h]
        · obtain ⟨y, y1, y2⟩ := hv b (by omega) hne
          subst y1
          refine ⟨_, rfl, ?_⟩
          by_cases h : y < D i j
          · rw [if_pos h]; exact y2
          · rw [if_neg h]; exact le_trans (not_lt.mp h) y2)
    obtain ⟨next', w1, w2⟩ := F1.wr hi x
    simp only [Option.bind_eq_bind] at x1
    simp only [Option.bind_eq_bind, x1, Option.bind_some]
    refine ⟨next', w1, _, w2, fun a ha b hb hne => ?_⟩
    unfold upd1
    by_cases e : a = i
    · subst e; rw [if_pos rfl]; exact x2 b hb hne
    · rw [if_neg e]; exact F2 a (by omega) b hb hne)
  exact this

/-- The bounds stay bounds when the centres move. -/
theorem moveBounds_spec {sqrt : K → K} (hs : m = .l2 → IsSqrt sqrt) {v : Nat → K} {C C' : Nat → Nat → K} {c2n : List K}
    (hc : Arr c2n nC fun c => vdist m dim (C' c) (C c)) {p : Pt K} (h : PtOk nC (fun c => vdist m dim v (C c)) p) :
    ∃ p', moveBounds sqrt m nC c2n p = some p' ∧ p'.asgn = p.asgn ∧ PtOk nC (fun c => vdist m dim v (C' c)) p' := by
  obtain ⟨L, L1, L2⟩ := h.lb
  obtain ⟨lb', e1, L', e2, e3⟩ := iter_inv (n := nC) (f := fun c lb => do
    let a ← rd lb c
    let b ← rd c2n c
    if a < b then wr lb c 0
    else match m with
      | .l1 => wr lb c (a - b)
      | .l2 => wr lb c (a + b - 2 * sqrt (a * b))) (s := p.lb)
    (fun i (lb : List K) => ∃ L' : Nat → K, Arr lb nC L' ∧ (∀ c < nC, i ≤ c → L' c = L c) ∧
      ∀ c < i, 0 ≤ L' c ∧ L' c ≤ vdist m dim v (C' c)) ⟨L, L1, by simp, by simp⟩ (by
    intro i hi lb ⟨L', q1, q2, q3⟩
    simp only [Option.bind_eq_bind, q1.rd hi, hc.rd hi, Option.bind_some]
    rw [q2 i hi (le_refl _)]
    have fin : ∀ x, 0 ≤ x → x ≤ vdist m dim v (C' i) → ∃ s', wr lb i x = some s' ∧ ∃ L', Arr s' nC L' ∧
        (∀ c < nC, i + 1 ≤ c → L' c = L c) ∧ ∀ c < i + 1, 0 ≤ L' c ∧ L' c ≤ vdist m dim v (C' c) := by
      intro x hx hx'
      obtain ⟨lb', w1, w2⟩ := q1.wr hi x
      refine ⟨lb', w1, _, w2, fun c hc hci => ?_, fun c hci => ?_⟩
      · unfold upd1; rw [if_neg (by omega)]; exact q2 c hc (by omega)
      · unfold upd1
        by_cases e : c = i
        · subst e; rw [if_pos rfl]; exact ⟨hx, hx'⟩
        · rw [if_neg e]; exact q3 c (by omega)
    by_cases hlt : L i < vdist m dim (C' i) (C i)
    · rw [if_pos hlt]; exact fin 0 (le_refl _) (vdist_nonneg _ _ _ _)
    · rw [if_neg hlt]
      have := shrink hs v (C i) (C' i) (L2 i hi).2 (not_lt.mp hlt)
      cases m
      · exact fin _ this.2 this.1
      · exact fin _ this.2 this.1)
  unfold moveBounds
  simp only [Option.bind_eq_bind] at e1
  have hgrow := grow hs v (C p.asgn) (C' p.asgn) h.ub
  cases m <;> simp only at e1 hgrow <;> simp only [Option.bind_eq_bind, hc.rd h.asgn, Option.bind_some, e1]
  · exact ⟨_, rfl, rfl, h.asgn, hgrow, by simp, L', e2, fun c hc => e3.2 c hc⟩
  · exact ⟨_, rfl, rfl, h.asgn, hgrow, by simp, L', e2, fun c hc => e3.2 c hc⟩

end Verif.Kmeans
