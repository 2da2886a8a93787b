import Verif.KdTree.QueryModel
import Verif.KdTree.BoundProps
import Verif.AllPairs.Props
import Mathlib.Algebra.BigOperators.Intervals
import Mathlib.Algebra.Order.BigOperators.Group.Finset

/-! # Distance from a point to a box, for C24 -/

namespace Verif.KdTree

variable {K : Type} [Field K] [LinearOrder K]

/-- Distance from `x` to the interval from `lo` to `hi`; `none` is infinite. -/
def axisDist (x : K) (lo hi : Option K) : K :=
  if ∃ l ∈ lo, x < l then lo.getD 0 - x else if ∃ h ∈ hi, h < x then x - hi.getD 0 else 0

/-- Squared distance from `q` to the box. -/
def boxDist (dim : Nat) (q : List K) (lo hi : Nat → Option K) : K :=
  ∑ d ∈ Finset.range dim, axisDist (q.getD d 0) (lo d) (hi d) * axisDist (q.getD d 0) (lo d) (hi d)

/-- A number is in the interval. -/
def InInterval (x : K) (lo hi : Option K) : Prop := (∀ l ∈ lo, l ≤ x) ∧ (∀ h ∈ hi, x ≤ h)

/-- A data point is in the box. -/
def InBox (dim : Nat) (data : List K) (p : Nat) (lo hi : Nat → Option K) : Prop :=
  ∀ d < dim, InInterval (coord dim data p d) (lo d) (hi d)

section
variable [IsStrictOrderedRing K]

theorem axisDist_le (x y : K) (lo hi : Option K) (h : InInterval y lo hi) :
    axisDist x lo hi * axisDist x lo hi ≤ (x - y) * (x - y) := by
  unfold axisDist
  split
  · rename_i hl
    obtain ⟨l, hl1, hl2⟩ := hl
    have := h.1 l hl1
    cases hl1
    simp only [Option.getD_some]
    nlinarith
  · split
    · rename_i hl
      obtain ⟨l, hl1, hl2⟩ := hl
      have := h.2 l hl1
      cases hl1
      simp only [Option.getD_some]
      nlinarith
    · rw [mul_zero]; exact mul_self_nonneg _

theorem boxDist_le (dim : Nat) (q data : List K) (p : Nat) (lo hi : Nat → Option K) (h : InBox dim data p lo hi) :
    boxDist dim q lo hi ≤ ∑ d ∈ Finset.range dim, (q.getD d 0 - coord dim data p d) * (q.getD d 0 - coord dim data p d) :=
  Finset.sum_le_sum (fun d hd => axisDist_le _ _ _ _ (h d (Finset.mem_range.1 hd)))

end

omit [LinearOrder K] in
theorem sum_update {dim i : Nat} (hi : i < dim) (f g : Nat → K) (h : ∀ d, d ≠ i → f d = g d) :
    ∑ d ∈ Finset.range dim, f d = ∑ d ∈ Finset.range dim, g d + f i - g i := by
  rw [← Finset.add_sum_erase (Finset.range dim) f (Finset.mem_range.2 hi),
    ← Finset.add_sum_erase (Finset.range dim) g (Finset.mem_range.2 hi)]
  have : ∑ d ∈ (Finset.range dim).erase i, f d = ∑ d ∈ (Finset.range dim).erase i, g d :=
    Finset.sum_congr rfl (fun d hd => h d (Finset.ne_of_mem_erase hd))
  rw [this]
  ring

theorem boxDist_update_lo {dim i : Nat} (hi' : i < dim) (q : List K) (lo hi : Nat → Option K) (v : Option K) :
    boxDist dim q (Function.update lo i v) hi = boxDist dim q lo hi +
      axisDist (q.getD i 0) v (hi i) * axisDist (q.getD i 0) v (hi i) -
      axisDist (q.getD i 0) (lo i) (hi i) * axisDist (q.getD i 0) (lo i) (hi i) := by
  unfold boxDist
  rw [sum_update hi' (fun d => axisDist (q.getD d 0) (Function.update lo i v d) (hi d) * axisDist (q.getD d 0) (Function.update lo i v d) (hi d))
    (fun d => axisDist (q.getD d 0) (lo d) (hi d) * axisDist (q.getD d 0) (lo d) (hi d))
    (fun d hd => by simp only [Function.update_of_ne hd])]
  simp only [Function.update_self]

theorem boxDist_update_hi {dim i : Nat} (hi' : i < dim) (q : List K) (lo hi : Nat → Option K) (v : Option K) :
    boxDist dim q lo (Function.update hi i v) = boxDist dim q lo hi +
      axisDist (q.getD i 0) (lo i) v * axisDist (q.getD i 0) (lo i) v -
      axisDist (q.getD i 0) (lo i) (hi i) * axisDist (q.getD i 0) (lo i) (hi i) := by
  unfold boxDist
  rw [sum_update hi' (fun d => axisDist (q.getD d 0) (lo d) (Function.update hi i v d) * axisDist (q.getD d 0) (lo d) (Function.update hi i v d))
    (fun d => axisDist (q.getD d 0) (lo d) (hi d) * axisDist (q.getD d 0) (lo d) (hi d))
    (fun d hd => by simp only [Function.update_of_ne hd])]
  simp only [Function.update_self]

theorem boxDist_unbounded (dim : Nat) (q : List K) : boxDist dim q (fun _ => none) (fun _ => none) = 0 := by
  unfold boxDist axisDist
  simp

variable [IsStrictOrderedRing K]

omit [Field K] [IsStrictOrderedRing K] in
theorem ex_some {x a : K} : (∃ l ∈ some a, x < l) ↔ x < a := by simp

omit [Field K] [IsStrictOrderedRing K] in
theorem ex_some' {x a : K} : (∃ l ∈ some a, l < x) ↔ a < x := by simp

omit [Field K] [LinearOrder K] [IsStrictOrderedRing K] in
theorem ex_none {P : K → Prop} : ¬ (∃ l ∈ (none : Option K), P l) := by simp

/-- The lower child is next and the upper one is saved. -/
theorem axis_le {x t : K} {lo hi : Option K} (h : InInterval t lo hi) (hx : x ≤ t) :
    axisDist x lo (some t) * axisDist x lo (some t) = axisDist x lo hi * axisDist x lo hi ∧
    ∀ D, saveDist D x lo t hi = D + axisDist x (some t) hi * axisDist x (some t) hi - axisDist x lo hi * axisDist x lo hi := by
  have e1 : axisDist x (some t) hi = t - x := by
    unfold axisDist
    by_cases c : x < t
    · rw [if_pos (ex_some.2 c), Option.getD_some]
    · have : x = t := le_antisymm hx (not_lt.1 c)
      rw [if_neg (fun h => c (ex_some.1 h)), if_neg]
      · rw [this, sub_self]
      · rintro ⟨u, hu, hu2⟩
        have := h.2 u hu
        linarith
  have nhi : ¬ ∃ u ∈ hi, u < x := by
    rintro ⟨u, hu, hu2⟩
    have := h.2 u hu
    linarith
  have e2 : axisDist x lo (some t) = axisDist x lo hi := by
    unfold axisDist
    split
    · rfl
    · rw [if_neg (fun h => absurd (ex_some'.1 h) (not_lt.2 hx))]
  refine ⟨by rw [e2], fun D => ?_⟩
  rw [e1]
  unfold saveDist
  simp only
  rw [if_pos hx]
  cases lo with
  | none =>
    have e3 : axisDist x none hi = 0 := by
      unfold axisDist
      rw [if_neg ex_none, if_neg nhi]
    simp only [e3]
    ring
  | some l =>
    simp only
    by_cases c : x < l
    · have e3 : axisDist x (some l) hi = l - x := by
        unfold axisDist
        rw [if_pos (ex_some.2 c), Option.getD_some]
      rw [e3, if_pos (le_of_lt c)]
      ring
    · have e3 : axisDist x (some l) hi = 0 := by
        unfold axisDist
        rw [if_neg (fun h => c (ex_some.1 h)), if_neg nhi]
      rw [e3]
      split
      · rename_i c2
        have : x = l := le_antisymm c2 (not_lt.1 c)
        rw [this]
        ring
      · ring

/-- The upper child is next and the lower one is saved. -/
theorem axis_gt {x t : K} {lo hi : Option K} (h : InInterval t lo hi) (hx : t < x) :
    axisDist x (some t) hi * axisDist x (some t) hi = axisDist x lo hi * axisDist x lo hi ∧
    ∀ D, saveDist D x lo t hi = D + axisDist x lo (some t) * axisDist x lo (some t) - axisDist x lo hi * axisDist x lo hi := by
  have nlo : ¬ ∃ u ∈ lo, x < u := by
    rintro ⟨u, hu, hu2⟩
    have := h.1 u hu
    linarith
  have e1 : axisDist x lo (some t) = x - t := by
    unfold axisDist
    rw [if_neg nlo, if_pos (ex_some'.2 hx), Option.getD_some]
  have e2 : axisDist x (some t) hi = axisDist x lo hi := by
    unfold axisDist
    rw [if_neg nlo, if_neg (fun h => absurd (ex_some.1 h) (not_lt_of_gt hx))]
  refine ⟨by rw [e2], fun D => ?_⟩
  rw [e1]
  unfold saveDist
  simp only
  rw [if_neg (not_le.2 hx)]
  cases hi with
  | none =>
    have e3 : axisDist x lo none = 0 := by
      unfold axisDist
      rw [if_neg nlo, if_neg ex_none]
    simp only [e3]
    ring
  | some u =>
    simp only
    by_cases c : u < x
    · have e3 : axisDist x lo (some u) = x - u := by
        unfold axisDist
        rw [if_neg nlo, if_pos (ex_some'.2 c), Option.getD_some]
      rw [e3, if_pos c]
    · have e3 : axisDist x lo (some u) = 0 := by
        unfold axisDist
        rw [if_neg nlo, if_neg (fun h => c (ex_some'.1 h))]
      rw [e3, if_neg c]
      ring

omit [LinearOrder K] [IsStrictOrderedRing K] in
/-- The squared Euclidean distance computed by the library is the sum of the squared differences of the coordinates. -/
theorem distL2_eq (x y : List K) (h : x.length = y.length) :
    distL2 x y = ∑ d ∈ Finset.range x.length, (x.getD d 0 - y.getD d 0) * (x.getD d 0 - y.getD d 0) := by
  unfold distL2
  have key : ∀ (x y : List K) (acc : K), x.length = y.length →
      (x.zip y).foldl (fun acc p => acc + (p.1 - p.2) * (p.1 - p.2)) acc =
        acc + ∑ d ∈ Finset.range x.length, (x.getD d 0 - y.getD d 0) * (x.getD d 0 - y.getD d 0) := by
    intro x
    induction x with
    | nil => intro y acc _; simp
    | cons a x ih =>
      intro y acc hl
      cases y with
      | nil => simp at hl
      | cons b y =>
        rw [List.zip_cons_cons, List.foldl_cons, ih y _ (by simpa using hl), List.length_cons, Finset.sum_range_succ']
        simp only [List.getD_cons_succ, List.getD_cons_zero]
        ring
  rw [key x y 0 h, zero_add]

end Verif.KdTree
