import Verif.Toolbox.LocalmaxModel
import Mathlib.Algebra.BigOperators.Group.List.Basic
import Mathlib.Data.List.Range
import Mathlib.Tactic.Ring
import Mathlib.Tactic.Linarith

/-!
# `vl_localmax`: properties (C156, C157)
-/

namespace Verif.Toolbox

variable {α : Type} [LinearOrder α]

/-! ## Specification -/

/-- The element at position `q` of an array is not on the boundary of the dimensions `ds`, which are the first ones; its subscripts are the
successive remainders. -/
def Inner : List Nat → Nat → Prop
  | [], _ => True
  | d :: ds, q => 1 ≤ q % d ∧ q % d + 2 ≤ d ∧ Inner ds (q / d)

/-- The subscripts of two elements differ by at most one along the dimensions `ds`, and not at all along the others. -/
def Near : List Nat → Nat → Nat → Prop
  | [], q, q' => q = q'
  | d :: ds, q, q' => q % d ≤ q' % d + 1 ∧ q' % d ≤ q % d + 1 ∧ Near ds (q / d) (q' / d)

/-- A local maximiser: an element in the interior that reaches the threshold and is larger than all its neighbours. -/
def LocalMax (F : List α) (thr : WithBot α) (ds : List Nat) (q : Nat) : Prop :=
  ∃ h : q < F.length, Inner ds q ∧ thr ≤ (F[q] : WithBot α) ∧ ∀ q' (h' : q' < F.length), q' ≠ q → Near ds q q' → F[q'] < F[q]

/-- The result: the positions of the local maximisers, counted from one, in increasing order. -/
def IsLocalmax (F : List α) (thr : WithBot α) (ds : List Nat) (L : List Nat) : Prop :=
  L.Pairwise (· < ·) ∧ ∀ x, x ∈ L ↔ ∃ q, x = q + 1 ∧ LocalMax F thr ds q

/-- The dimensions that are searched: the first `P`, or all of them, a matrix with one row or column being a vector. -/
def searched (dims : List Nat) : Option Nat → List Nat
  | some p => dims.take p
  | none => if dims.length = 2 ∧ 1 ∈ dims then [dims.prod] else dims

/-! ## Positions and subscripts -/

/-- The position of an element from its subscripts; `r` is the position along the other dimensions. -/
def hor : List Nat → List Nat → Nat → Nat
  | d :: ds, m :: ms, r => m + d * hor ds ms r
  | _, _, r => r

/-- The difference of positions from differences of subscripts. -/
def horI : List Nat → List Int → Int
  | d :: ds, m :: ms => m + d * horI ds ms
  | _, _ => 0

/-- Differences of at most one. -/
def Steps : List Nat → List Int → Prop
  | [], [] => True
  | _ :: ds, m :: ms => (m = -1 ∨ m = 0 ∨ m = 1) ∧ Steps ds ms
  | _, _ => False

theorem offsetsFrom_take (ds : List Nat) : ∀ (o p : Nat), (offsetsFrom o ds).take p = offsetsFrom o (ds.take p) := by
  induction ds with
  | nil => intro o p; simp [offsetsFrom]
  | cons d ds ih =>
    intro o p
    cases p with
    | zero => simp [offsetsFrom]
    | succ p => simp [offsetsFrom, ih]

theorem offsetsFrom_length (ds : List Nat) : ∀ o, (offsetsFrom o ds).length = ds.length := by
  induction ds with
  | nil => intro o; rfl
  | cons d ds ih => intro o; simp [offsetsFrom, ih]

theorem near_iff : ∀ (ds : List Nat) (q q' : Nat), Inner ds q → (Near ds q q' ↔ ∃ ms, Steps ds ms ∧ (q' : Int) = q + horI ds ms)
  | [], q, q', _ => by
    constructor
    · intro h; exact ⟨[], trivial, by simp only [Near] at h; subst h; simp [horI]⟩
    · rintro ⟨ms, h1, h2⟩
      cases ms with
      | nil => simp only [Near]; simp only [horI] at h2; omega
      | cons m ms => exact absurd h1 (by simp [Steps])
  | d :: ds, q, q', h => by
    obtain ⟨h1, h2, h3⟩ := h
    have ih := near_iff ds (q / d) (q' / d) h3
    have hq := Nat.mod_add_div q d
    have hq' := Nat.mod_add_div q' d
    constructor
    · rintro ⟨n1, n2, n3⟩
      obtain ⟨ms, s1, s2⟩ := ih.mp n3
      refine ⟨(((q' % d : Nat) : Int) - ((q % d : Nat) : Int)) :: ms, ⟨by omega, s1⟩, ?_⟩
      simp only [horI]
      have e : horI ds ms = ((q' / d : Nat) : Int) - (q / d : Nat) := by omega
      rw [e]
      have e1 : (q : Int) = ((q % d : Nat) : Int) + (d : Int) * ((q / d : Nat) : Int) := by exact_mod_cast hq.symm
      have e2 : (q' : Int) = ((q' % d : Nat) : Int) + (d : Int) * ((q' / d : Nat) : Int) := by exact_mod_cast hq'.symm
      generalize ((q % d : Nat) : Int) = a at *
      generalize ((q' % d : Nat) : Int) = b at *
      rw [e1, e2]; ring
    · rintro ⟨ms, s1, s2⟩
      cases ms with
      | nil => exact absurd s1 (by simp [Steps])
      | cons m ms =>
        obtain ⟨hm, s1⟩ := s1
        simp only [horI] at s2
        have e1 : (q : Int) = ((q % d : Nat) : Int) + (d : Int) * ((q / d : Nat) : Int) := by exact_mod_cast hq.symm
        have e3 : (q' : Int) = (((q % d : Nat) : Int) + m) + (d : Int) * (((q / d : Nat) : Int) + horI ds ms) := by
          rw [s2, e1]; push_cast; ring_nf
          try omega
        have hd : (0 : Int) < d := by omega
        have em : ((q' % d : Nat) : Int) = ((q % d : Nat) : Int) + m := by
          rw [Int.natCast_mod, e3, Int.add_mul_emod_self_left, Int.emod_eq_of_lt (by omega) (by omega)]
        have ed : ((q' / d : Nat) : Int) = ((q / d : Nat) : Int) + horI ds ms := by
          rw [Int.natCast_div, e3, Int.add_mul_ediv_left _ _ (by omega), Int.ediv_eq_zero_of_lt (by omega) (by omega), zero_add]
        exact ⟨by omega, by omega, ih.mpr ⟨ms, s1, ed⟩⟩

theorem inner_range : ∀ (ds : List Nat) (q : Nat) (ms : List Int) (R : Nat), Inner ds q → Steps ds ms → q < ds.prod * R →
    0 ≤ (q : Int) + horI ds ms ∧ (q : Int) + horI ds ms < ((ds.prod * R : Nat) : Int)
  | [], q, ms, R, _, hs, hq => by
    cases ms with
    | nil => simp only [horI]; omega
    | cons m ms => exact absurd hs (by simp [Steps])
  | d :: ds, q, ms, R, h, hs, hq => by
    cases ms with
    | nil => exact absurd hs (by simp [Steps])
    | cons m ms =>
      obtain ⟨h1, h2, h3⟩ := h
      obtain ⟨hm, hs⟩ := hs
      rw [List.prod_cons, Nat.mul_assoc] at hq
      obtain ⟨i1, i2⟩ := inner_range ds (q / d) ms R h3 hs (Nat.div_lt_of_lt_mul hq)
      have hq := Nat.mod_add_div q d
      have e1 : (q : Int) = ((q % d : Nat) : Int) + (d : Int) * ((q / d : Nat) : Int) := by exact_mod_cast hq.symm
      obtain ⟨T, hT⟩ : ∃ T : Int, T = ((q / d : Nat) : Int) + horI ds ms := ⟨_, rfl⟩
      have e3 : (q : Int) + horI (d :: ds) (m :: ms) = (((q % d : Nat) : Int) + m) + (d : Int) * T := by
        simp only [horI]
        generalize ((q % d : Nat) : Int) = a at *
        rw [e1, hT]; ring
      rw [e3, List.prod_cons, Nat.mul_assoc, Nat.cast_mul]
      rw [← hT] at i1 i2
      generalize ((ds.prod * R : Nat) : Int) = W at *
      have hd : (0 : Int) < d := by omega
      constructor
      · have := mul_nonneg hd.le i1
        omega
      · have : (d : Int) * (T + 1) ≤ d * W := mul_le_mul_of_nonneg_left (by omega) hd.le
        have e4 : (d : Int) * (T + 1) = d * T + d := by ring
        omega

/-! ## The enumeration of the neighbours -/

/-- The number of a list of steps. -/
def rank : List Int → Nat
  | [] => 0
  | m :: ms => (m + 1).toNat + 3 * rank ms

theorem steps_length : ∀ (ds : List Nat) (ms : List Int), Steps ds ms → ms.length = ds.length
  | [], [], _ => rfl
  | _ :: ds, _ :: ms, h => by simp [steps_length ds ms h.2]
  | [], _ :: _, h => absurd h (by simp [Steps])
  | _ :: _, [], h => absurd h (by simp [Steps])

theorem rank_lt : ∀ (ds : List Nat) (ms : List Int), Steps ds ms → rank ms < 3 ^ ds.length
  | [], [], _ => by simp [rank]
  | _ :: ds, m :: ms, h => by
    have := rank_lt ds ms h.2
    have hm := h.1
    rw [List.length_cons, pow_succ]
    simp only [rank]
    omega
  | [], _ :: _, h => absurd h (by simp [Steps])
  | _ :: _, [], h => absurd h (by simp [Steps])

theorem rank_inj : ∀ (ds : List Nat) (ms ms' : List Int), Steps ds ms → Steps ds ms' → rank ms = rank ms' → ms = ms'
  | [], [], [], _, _, _ => rfl
  | _ :: ds, m :: ms, m' :: ms', h, h', e => by
    have hm := h.1
    have hm' := h'.1
    simp only [rank] at e
    have e1 : m = m' := by omega
    have e2 : rank ms = rank ms' := by omega
    rw [e1, rank_inj ds ms ms' h.2 h'.2 e2]
  | [], _ :: _, _, h, _, _ => absurd h (by simp [Steps])
  | _ :: _, [], _, h, _, _ => absurd h (by simp [Steps])
  | [], [], _ :: _, _, h, _ => absurd h (by simp [Steps])
  | _ :: _, _ :: _, [], _, h, _ => absurd h (by simp [Steps])

theorem horI_mid : ∀ (ds : List Nat) (ms : List Int), Steps ds ms → 2 * rank ms + 1 = 3 ^ ds.length → horI ds ms = 0
  | [], [], _, _ => rfl
  | d :: ds, m :: ms, h, e => by
    have hm := h.1
    simp only [rank] at e
    rw [List.length_cons, pow_succ] at e
    have e1 : m = 0 := by omega
    subst e1
    have e2 : 2 * rank ms + 1 = 3 ^ ds.length := by simp at e; omega
    simp [horI, horI_mid ds ms h.2 e2]
  | [], _ :: _, h, _ => absurd h (by simp [Steps])
  | _ :: _, [], h, _ => absurd h (by simp [Steps])

theorem horI_zero : ∀ (ds : List Nat) (ms : List Int), (∀ d ∈ ds, 3 ≤ d) → Steps ds ms → horI ds ms = 0 → 2 * rank ms + 1 = 3 ^ ds.length
  | [], [], _, _, _ => by simp [rank]
  | d :: ds, m :: ms, hd, h, e => by
    have hm := h.1
    have hd0 := hd d (by simp)
    simp only [horI] at e
    have e1 : m = 0 := by
      have h2 : (d : Int) ∣ m := ⟨-horI ds ms, by linarith⟩
      by_contra hne
      rcases hm with rfl | rfl | rfl
      · have := Int.le_of_dvd (by norm_num) ((Int.dvd_neg).mpr h2); omega
      · exact hne rfl
      · have := Int.le_of_dvd (by norm_num) h2; omega
    subst e1
    have e2 : horI ds ms = 0 := by
      rw [zero_add] at e
      rcases mul_eq_zero.mp e with h2 | h2
      · omega
      · exact h2
    have := horI_zero ds ms (fun x hx => hd x (by simp [hx])) h.2 e2
    rw [List.length_cons, pow_succ]
    simp only [rank]
    simp
    omega
  | [], _ :: _, _, h, _ => absurd h (by simp [Steps])
  | _ :: _, [], _, h, _ => absurd h (by simp [Steps])

theorem nbStep_spec : ∀ (ds : List Nat) (ms : List Int) (k : Nat) (o : Int), Steps ds ms →
    (nbStep (offsetsFrom k ds) ms o = none ∧ rank ms + 1 = 3 ^ ds.length) ∨
    ∃ ms', nbStep (offsetsFrom k ds) ms o = some (o + k * (horI ds ms' - horI ds ms), ms') ∧ Steps ds ms' ∧ rank ms' = rank ms + 1
  | [], [], k, o, _ => Or.inl ⟨by simp [nbStep, offsetsFrom], by simp [rank]⟩
  | d :: ds, m :: ms, k, o, h => by
    have hm := h.1
    simp only [offsetsFrom, nbStep]
    by_cases h1 : m + 1 > 1
    · have e1 : m = 1 := by omega
      subst e1
      rw [if_pos h1]
      rcases nbStep_spec ds ms (k * d) (o + k - 3 * k) h.2 with ⟨e, r⟩ | ⟨ms', e, hs, r⟩
      · left
        refine ⟨by rw [e]; rfl, ?_⟩
        rw [List.length_cons, pow_succ]
        simp only [rank]
        omega
      · right
        refine ⟨-1 :: ms', ?_, ⟨Or.inl rfl, hs⟩, ?_⟩
        · rw [e]
          simp only [Option.map_some, horI]
          congr 2
          push_cast; ring
        · simp only [rank]; omega
    · right
      rw [if_neg h1]
      refine ⟨(m + 1) :: ms, ?_, ⟨by omega, h.2⟩, by simp only [rank]; omega⟩
      congr 2
      simp only [horI]; ring
  | [], _ :: _, _, _, h => absurd h (by simp [Steps])
  | _ :: _, [], _, _, h => absurd h (by simp [Steps])

theorem take_set_succ {β : Type} (l : List β) (i : Nat) (x : β) (h : i < l.length) : (l.set i x).take (i + 1) = l.take i ++ [x] := by
  rw [List.take_add_one, List.take_set_of_le (le_refl _), List.getElem?_set_self h]; rfl

theorem nbLoop_spec (ds : List Nat) : ∀ (fuel : Nat) (ms : List Int) (i : Nat) (nbs : List Int), Steps ds ms →
    3 ^ ds.length ≤ fuel + rank ms → nbs.length = 3 ^ ds.length - 1 →
    i ≤ rank ms → (3 ^ ds.length < 2 * rank ms + 1 → i + 1 ≤ rank ms) →
    ((∀ d ∈ ds, 3 ≤ d) → i = rank ms ∨ (3 ^ ds.length < 2 * rank ms + 1 ∧ i + 1 = rank ms)) →
    (∀ x ∈ nbs.take i, x ≠ 0 ∧ ∃ ms', Steps ds ms' ∧ x = horI ds ms') →
    (∀ ms', Steps ds ms' → rank ms' < rank ms → horI ds ms' ≠ 0 → horI ds ms' ∈ nbs.take i) →
    ∃ nbs' i', nbLoop (offsetsFrom 1 ds) fuel (horI ds ms) ms i nbs = some (nbs', i') ∧
      ((∀ d ∈ ds, 3 ≤ d) → ∀ x, x ∈ nbs' ↔ x ≠ 0 ∧ ∃ ms', Steps ds ms' ∧ x = horI ds ms') := by
  intro fuel
  induction fuel with
  | zero => intro ms i nbs hs hf; have := rank_lt ds ms hs; omega
  | succ fuel ih =>
    intro ms i nbs hs hf hl hi hi2 hi3 hx hms
    have hr := rank_lt ds ms hs
    unfold nbLoop
    obtain ⟨nbs1, i1, e1, h1, h2, h3, h4, h5, h6⟩ : ∃ nbs1 i1, nbPut (horI ds ms) i nbs = some (nbs1, i1) ∧ nbs1.length = 3 ^ ds.length - 1 ∧ i1 ≤ rank ms + 1 ∧
        (3 ^ ds.length < 2 * (rank ms + 1) + 1 → i1 + 1 ≤ rank ms + 1) ∧
        ((∀ d ∈ ds, 3 ≤ d) → i1 = rank ms + 1 ∨ (3 ^ ds.length < 2 * (rank ms + 1) + 1 ∧ i1 + 1 = rank ms + 1)) ∧
        (∀ x ∈ nbs1.take i1, x ≠ 0 ∧ ∃ ms', Steps ds ms' ∧ x = horI ds ms') ∧
        (∀ ms', Steps ds ms' → rank ms' < rank ms + 1 → horI ds ms' ≠ 0 → horI ds ms' ∈ nbs1.take i1) := by
      have odd : ∃ t, 3 ^ ds.length = 2 * t + 1 := by
        induction ds.length with
        | zero => exact ⟨0, rfl⟩
        | succ n ih => obtain ⟨t, ht⟩ := ih; exact ⟨3 * t + 1, by rw [pow_succ, ht]; ring⟩
      obtain ⟨t, ht⟩ := odd
      by_cases h0 : horI ds ms ≠ 0
      · have hne : 2 * rank ms + 1 ≠ 3 ^ ds.length := fun h => h0 (horI_mid ds ms hs h)
        have hlt : i < nbs.length := by omega
        refine ⟨nbs.set i (horI ds ms), i + 1, by unfold nbPut; rw [if_pos h0, wr_of_lt hlt]; rfl, by simpa using hl, by omega, by omega, ?_, ?_, ?_⟩
        · intro hd
          rcases hi3 hd with h | h <;> omega
        · intro x hx'
          rw [take_set_succ _ _ _ hlt, List.mem_append, List.mem_singleton] at hx'
          rcases hx' with h | rfl
          · exact hx x h
          · exact ⟨h0, ms, hs, rfl⟩
        · intro ms' hs' hr' h0'
          rw [take_set_succ _ _ _ hlt, List.mem_append, List.mem_singleton]
          rcases Nat.lt_succ_iff_lt_or_eq.mp hr' with h | h
          · exact Or.inl (hms ms' hs' h h0')
          · right; rw [rank_inj ds ms' ms hs' hs h]
      · refine ⟨nbs, i, by unfold nbPut; rw [if_neg h0], hl, by omega, by omega, ?_, hx, ?_⟩
        · intro hd
          have := horI_zero ds ms hd hs (not_not.mp h0)
          right
          rcases hi3 hd with h | h <;> omega
        · intro ms' hs' hr' h0'
          rcases Nat.lt_succ_iff_lt_or_eq.mp hr' with h | h
          · exact hms ms' hs' h h0'
          · rw [rank_inj ds ms' ms hs' hs h] at h0'
            exact absurd h0' h0
    rw [e1]
    simp only [Option.bind_eq_bind, Option.bind_some]
    rcases nbStep_spec ds ms 1 (horI ds ms) hs with ⟨e, r⟩ | ⟨ms', e, hs', r⟩
    · rw [e]
      refine ⟨nbs1, i1, rfl, ?_⟩
      intro hd x
      have hfull : nbs1.take i1 = nbs1 := by
        apply List.take_of_length_le
        rcases h4 hd with h | h
        · rw [h1]; omega
        · rw [h1]; omega
      constructor
      · intro hx'; rw [← hfull] at hx'; exact h5 x hx'
      · rintro ⟨h0, ms', hs', rfl⟩
        rw [← hfull]
        exact h6 ms' hs' (by rw [r]; exact rank_lt ds ms' hs') h0
    · rw [e]
      dsimp only
      have e' : horI ds ms + ((1 : Nat) : Int) * (horI ds ms' - horI ds ms) = horI ds ms' := by push_cast; ring
      rw [e']
      rw [← r] at h2 h3 h4 h6
      exact ih ms' i1 nbs1 hs' (by omega) h1 h2 h3 h4 h5 h6

theorem first_steps : ∀ (ds : List Nat) (k : Nat), Steps ds (List.replicate ds.length (-1)) ∧ rank (List.replicate ds.length (-1)) = 0 ∧
    (k : Int) * horI ds (List.replicate ds.length (-1)) = -(((offsetsFrom k ds).sum : Nat) : Int)
  | [], k => by simp [Steps, rank, horI, offsetsFrom]
  | d :: ds, k => by
    obtain ⟨h1, h2, h3⟩ := first_steps ds (k * d)
    rw [List.length_cons, List.replicate_succ]
    refine ⟨⟨Or.inl rfl, h1⟩, by simp [rank, h2], ?_⟩
    simp only [horI, offsetsFrom, List.sum_cons]
    push_cast at h3 ⊢
    linarith

theorem neighbours_spec (ds : List Nat) (junk : Nat → Int) : ∃ nbs i, neighbours (offsetsFrom 1 ds) junk = some (nbs, i) ∧
    ((∀ d ∈ ds, 3 ≤ d) → ∀ x, x ∈ nbs ↔ x ≠ 0 ∧ ∃ ms', Steps ds ms' ∧ x = horI ds ms') := by
  obtain ⟨h1, h2, h3⟩ := first_steps ds 1
  unfold neighbours
  dsimp only
  rw [offsetsFrom_length, ← h3, Nat.cast_one, one_mul]
  refine nbLoop_spec ds _ _ _ _ h1 (by omega) (by simp) (by omega) ?_ (fun _ => Or.inl h2.symm) (by simp) (by intro ms' _ h; omega)
  rw [h2]
  intro h
  have : 1 ≤ 3 ^ ds.length := Nat.one_le_pow _ _ (by omega)
  omega

/-! ## The scan -/

theorem greaterThan_spec (F : List α) (pt : Nat) (v : α) : ∀ nbs : List Int, (∀ o ∈ nbs, 0 ≤ (pt : Int) + o ∧ (pt : Int) + o < F.length) →
    ∃ b, greaterThan F pt v nbs = some b ∧ (b = true ↔ ∀ o ∈ nbs, ∀ q' (h : q' < F.length), (q' : Int) = pt + o → F[q'] < v)
  | [], _ => ⟨true, rfl, by simp⟩
  | o :: nbs, h => by
    obtain ⟨b, e, hb⟩ := greaterThan_spec F pt v nbs (fun x hx => h x (by simp [hx]))
    obtain ⟨h1, h2⟩ := h o (by simp)
    obtain ⟨q, hq⟩ : ∃ q : Nat, (pt : Int) + o = q := ⟨((pt : Int) + o).toNat, by omega⟩
    have hql : q < F.length := by omega
    unfold greaterThan
    rw [hq, rdI_nat, rd_of_lt hql]
    simp only [Option.bind_eq_bind, Option.bind_some]
    by_cases hc : v > F[q]
    · rw [if_pos hc]
      refine ⟨b, e, hb.trans ⟨fun hh x hx => ?_, fun hh x hx => hh x (by simp [hx])⟩⟩
      rcases List.mem_cons.mp hx with rfl | h'
      · intro q' hq' eq
        have : q' = q := by omega
        subst this
        exact hc
      · exact hh x h'
    · rw [if_neg hc]
      refine ⟨false, rfl, by simp only [Bool.false_eq_true, false_iff]; intro hh; exact hc (hh o (by simp) q hql hq.symm)⟩

/-- Subscripts in the interior. -/
def Good : List Nat → List Nat → Prop
  | [], [] => True
  | d :: ds, m :: ms => (1 ≤ m ∧ m + 2 ≤ d) ∧ Good ds ms
  | _, _ => False

/-- The same, but the first may be that of the last element. -/
def TopGood : List Nat → List Nat → Prop
  | d :: ds, m :: ms => (1 ≤ m ∧ m + 1 ≤ d) ∧ Good ds ms
  | _, _ => False

theorem good_inner : ∀ (ds ms : List Nat) (r : Nat), Good ds ms → Inner ds (hor ds ms r)
  | [], [], _, _ => trivial
  | d :: ds, m :: ms, r, h => by
    obtain ⟨⟨h1, h2⟩, h3⟩ := h
    have e1 : (m + d * hor ds ms r) % d = m := by rw [Nat.add_mul_mod_self_left, Nat.mod_eq_of_lt (by omega)]
    have e2 : (m + d * hor ds ms r) / d = hor ds ms r := by rw [Nat.add_mul_div_left _ _ (by omega), Nat.div_eq_of_lt (by omega), Nat.zero_add]
    simp only [Inner, hor]
    rw [e1, e2]
    exact ⟨h1, h2, good_inner ds ms r h3⟩
  | [], _ :: _, _, h => absurd h (by simp [Good])
  | _ :: _, [], _, h => absurd h (by simp [Good])

theorem inner_three : ∀ (ds : List Nat) (q : Nat), Inner ds q → ∀ d ∈ ds, 3 ≤ d
  | [], _, _ => by simp
  | d :: ds, q, ⟨h1, h2, h3⟩ => by
    intro x hx
    rcases List.mem_cons.mp hx with rfl | h
    · omega
    · exact inner_three ds _ h3 x h

theorem good_ones : ∀ ds : List Nat, (∀ d ∈ ds, 3 ≤ d) → Good ds (List.replicate ds.length 1)
  | [], _ => trivial
  | d :: ds, h => by
    rw [List.length_cons, List.replicate_succ]
    have := h d (by simp)
    exact ⟨⟨by omega, by omega⟩, good_ones ds (fun x hx => h x (by simp [hx]))⟩

theorem good_top {ds ms : List Nat} (hne : ds ≠ []) (h : Good ds ms) : TopGood ds ms ∧ TopGood ds (incHead ms) ∧ ∀ r, hor ds (incHead ms) r = hor ds ms r + 1 := by
  cases ds with
  | nil => exact absurd rfl hne
  | cons d ds =>
    cases ms with
    | nil => exact absurd h (by simp [Good])
    | cons m ms =>
      obtain ⟨⟨h1, h2⟩, h3⟩ := h
      exact ⟨⟨⟨h1, by omega⟩, h3⟩, ⟨⟨by omega, by omega⟩, h3⟩, fun r => by simp only [incHead, hor]; omega⟩

theorem carry_spec : ∀ (ds ms : List Nat) (k L r : Nat), (∀ d ∈ ds, 3 ≤ d) → TopGood ds ms →
    ((carry ds (offsetsFrom k ds) ms (L + k * hor ds ms r)).2.2 = false ∧ Good ds (carry ds (offsetsFrom k ds) ms (L + k * hor ds ms r)).1 ∧
      (carry ds (offsetsFrom k ds) ms (L + k * hor ds ms r)).2.1 = L + k * hor ds (carry ds (offsetsFrom k ds) ms (L + k * hor ds ms r)).1 r ∧
      hor ds ms r ≤ hor ds (carry ds (offsetsFrom k ds) ms (L + k * hor ds ms r)).1 r ∧
      ∀ q, hor ds ms r ≤ q → Inner ds q → hor ds (carry ds (offsetsFrom k ds) ms (L + k * hor ds ms r)).1 r ≤ q) ∨
    (carry ds (offsetsFrom k ds) ms (L + k * hor ds ms r) =
        (List.replicate ds.length 1, L + k * hor ds (List.replicate ds.length 1) (r + 1), true) ∧
      hor ds ms r < hor ds (List.replicate ds.length 1) (r + 1) ∧
      ∀ q, hor ds ms r ≤ q → Inner ds q → hor ds (List.replicate ds.length 1) (r + 1) ≤ q)
  | [], _, _, _, _, _, h => absurd h (by simp [TopGood])
  | _ :: _, [], _, _, _, _, h => absurd h (by simp [TopGood])
  | d :: ds, m :: ms, k, L, r, hd, h => by
    have hd3 := hd d (by simp)
    obtain ⟨⟨h1, h2⟩, h3⟩ := h
    by_cases hc : m + 1 ≥ d
    · have hm : m + 1 = d := by omega
      have step : ∀ (w' : Nat), (∀ q, hor ds ms r + 1 ≤ q → Inner ds q → w' ≤ q) →
          ∀ q, m + d * hor ds ms r ≤ q → Inner (d :: ds) q → 1 + d * w' ≤ q := by
        intro w' hw q hq hi
        obtain ⟨i1, i2, i3⟩ := hi
        have e := Nat.mod_add_div q d
        have h4 : hor ds ms r + 1 ≤ q / d := by
          by_contra hcon
          have h5 : q / d ≤ hor ds ms r := by omega
          have h6 : d * (q / d) ≤ d * hor ds ms r := Nat.mul_le_mul_left _ h5
          omega
        have h7 : d * w' ≤ d * (q / d) := Nat.mul_le_mul_left _ (hw _ h4 i3)
        omega
      have epos : L + k * (m + d * hor ds ms r) + 2 * k = (L + k) + (k * d) * (hor ds ms r + 1) := by
        rw [← hm]; ring
      have mono : ∀ w', hor ds ms r + 1 ≤ w' → m + d * hor ds ms r < 1 + d * w' := by
        intro w' hw
        have : d * (hor ds ms r + 1) ≤ d * w' := Nat.mul_le_mul_left _ hw
        have e : d * (hor ds ms r + 1) = d * hor ds ms r + d := by ring
        omega
      simp only [carry, offsetsFrom, hor]
      rw [if_pos hc, epos]
      by_cases hne : ds = []
      · subst hne
        cases ms with
        | cons x xs => exact absurd h3 (by simp [Good])
        | nil =>
          right
          have step' := step (r + 1) (fun q hq _ => by simpa [hor] using hq)
          have mono' := mono (r + 1) (by simp [hor])
          simp only [hor] at step' mono'
          simp only [carry, incHead, hor, List.length_cons, List.length_nil, List.replicate_succ, List.replicate_zero]
          refine ⟨?_, mono', step'⟩
          congr 2
          ring
      · obtain ⟨_, t2, t3⟩ := good_top hne h3
        rw [← t3 r]
        rcases carry_spec ds (incHead ms) (k * d) (L + k) r (fun x hx => hd x (by simp [hx])) t2 with ⟨c1, c2, c3, c4, c5⟩ | ⟨c1, c2, c3⟩
        · left
          generalize carry ds (offsetsFrom (k * d) ds) (incHead ms) (L + k + k * d * hor ds (incHead ms) r) = c at *
          rw [t3 r] at c4 c5
          refine ⟨c1, ⟨⟨le_refl _, by omega⟩, c2⟩, ?_, (mono _ c4).le, step _ c5⟩
          rw [c3]
          simp only [hor]
          ring
        · right
          rw [c1]
          rw [t3 r] at c2 c3
          rw [List.length_cons, List.replicate_succ]
          simp only [hor]
          refine ⟨?_, mono _ c2.le, step _ c3⟩
          congr 2
          ring
    · left
      simp only [carry, offsetsFrom]
      rw [if_neg hc]
      exact ⟨rfl, ⟨⟨h1, by omega⟩, h3⟩, rfl, le_refl _, fun q hq _ => hq⟩

/-- Subscripts inside the array. -/
def Within : List Nat → List Nat → Prop
  | [], [] => True
  | d :: ds, m :: ms => m < d ∧ Within ds ms
  | _, _ => False

theorem within_lt : ∀ ds ms, Within ds ms → hor ds ms 0 < ds.prod
  | [], [], _ => by simp [hor]
  | d :: ds, m :: ms, ⟨h1, h2⟩ => by
    have := within_lt ds ms h2
    simp only [hor, List.prod_cons]
    have h3 : d * (hor ds ms 0 + 1) ≤ d * ds.prod := Nat.mul_le_mul_left _ this
    have e : d * (hor ds ms 0 + 1) = d * hor ds ms 0 + d := by ring
    omega
  | [], _ :: _, h => absurd h (by simp [Within])
  | _ :: _, [], h => absurd h (by simp [Within])

theorem nextLayer_spec : ∀ ds ms, Within ds ms →
    (nextLayer ds ms = none ∧ hor ds ms 0 + 1 = ds.prod) ∨ ∃ ms', nextLayer ds ms = some ms' ∧ Within ds ms' ∧ hor ds ms' 0 = hor ds ms 0 + 1
  | [], [], _ => Or.inl ⟨rfl, by simp [hor]⟩
  | d :: ds, m :: ms, ⟨h1, h2⟩ => by
    simp only [nextLayer, hor, List.prod_cons]
    by_cases hc : m + 1 ≥ d
    · have hm : m + 1 = d := by omega
      rw [if_pos hc]
      rcases nextLayer_spec ds ms h2 with ⟨e, r⟩ | ⟨ms', e, hw, r⟩
      · left
        refine ⟨by rw [e]; rfl, ?_⟩
        rw [← r, ← hm]; ring
      · right
        refine ⟨0 :: ms', by rw [e]; rfl, ⟨by omega, hw⟩, ?_⟩
        simp only [hor]
        rw [r, ← hm]; ring
    · right
      rw [if_neg hc]
      exact ⟨_, rfl, ⟨by omega, h2⟩, by simp only [hor]; omega⟩
  | [], _ :: _, h => absurd h (by simp [Within])
  | _ :: _, [], h => absurd h (by simp [Within])

theorem hor_top_lt : ∀ ds ms r, TopGood ds ms → hor ds ms r < ds.prod * (r + 1) := by
  have good : ∀ ds ms r, Good ds ms → hor ds ms r < ds.prod * (r + 1) := by
    intro ds
    induction ds with
    | nil => intro ms r h; cases ms with
      | nil => simp [hor]
      | cons m ms => exact absurd h (by simp [Good])
    | cons d ds ih => intro ms r h; cases ms with
      | nil => exact absurd h (by simp [Good])
      | cons m ms =>
        have := ih ms r h.2
        simp only [hor, List.prod_cons]
        have h3 : d * (hor ds ms r + 1) ≤ d * (ds.prod * (r + 1)) := Nat.mul_le_mul_left _ this
        have e : d * (hor ds ms r + 1) = d * hor ds ms r + d := by ring
        have := h.1
        rw [Nat.mul_assoc]
        omega
  intro ds ms r h
  cases ds with
  | nil => exact absurd h (by simp [TopGood])
  | cons d ds =>
    cases ms with
    | nil => exact absurd h (by simp [TopGood])
    | cons m ms =>
      have := good ds ms r h.2
      simp only [hor, List.prod_cons]
      have h3 : d * (hor ds ms r + 1) ≤ d * (ds.prod * (r + 1)) := Nat.mul_le_mul_left _ this
      have e : d * (hor ds ms r + 1) = d * hor ds ms r + d := by ring
      have := h.1
      rw [Nat.mul_assoc]
      omega

theorem hor_ones_ge : ∀ ds r, ds.prod * r ≤ hor ds (List.replicate ds.length 1) r
  | [], r => by simp [hor]
  | d :: ds, r => by
    rw [List.length_cons, List.replicate_succ, List.prod_cons]
    simp only [hor]
    have := Nat.mul_le_mul_left d (hor_ones_ge ds r)
    rw [Nat.mul_assoc]
    omega

theorem isMaximum_spec (F : List α) (thr : WithBot α) (ds : List Nat) (R : Nat) (hF : F.length = ds.prod * R) (nbs : List Int)
    (hn : ∀ x, x ∈ nbs ↔ x ≠ 0 ∧ ∃ ms', Steps ds ms' ∧ x = horI ds ms') (q : Nat) (hq : q < F.length) (hi : Inner ds q) :
    ∃ b, isMaximum F thr nbs q = some b ∧ (b = true ↔ LocalMax F thr ds q) := by
  obtain ⟨b, e, hb⟩ := greaterThan_spec F q F[q] nbs (by
    intro o ho
    obtain ⟨_, ms, hs, rfl⟩ := (hn o).mp ho
    have := inner_range ds q ms R hi hs (by omega)
    rw [hF]
    exact this)
  unfold isMaximum
  rw [rd_of_lt hq]
  simp only [Option.bind_eq_bind, Option.bind_some]
  by_cases ht : (F[q] : WithBot α) ≥ thr
  · rw [if_pos ht]
    refine ⟨b, e, hb.trans ⟨fun h => ⟨hq, hi, ht, ?_⟩, ?_⟩⟩
    · intro q' hq' hne hnear
      obtain ⟨ms, hs, eq⟩ := (near_iff ds q q' hi).mp hnear
      exact h (horI ds ms) ((hn _).mpr ⟨by omega, ms, hs, rfl⟩) q' hq' eq
    · rintro ⟨_, _, _, h⟩ o ho q' hq' eq
      obtain ⟨h0, ms, hs, rfl⟩ := (hn o).mp ho
      exact h q' hq' (by omega) ((near_iff ds q q' hi).mpr ⟨ms, hs, eq⟩)
  · rw [if_neg ht]
    refine ⟨false, rfl, by simp only [Bool.false_eq_true, false_iff]; rintro ⟨_, _, h, _⟩; exact ht h⟩

open Classical in
/-- The maxima below a position. -/
noncomputable def maxima (F : List α) (thr : WithBot α) (ds : List Nat) (n : Nat) : List Nat :=
  ((List.range n).filter (fun q => decide (LocalMax F thr ds q))).map (· + 1)

theorem maxima_skip (F : List α) (thr : WithBot α) (ds : List Nat) (a : Nat) : ∀ k, (∀ q, a ≤ q → q < a + k → ¬ LocalMax F thr ds q) →
    maxima F thr ds (a + k) = maxima F thr ds a
  | 0, _ => rfl
  | k + 1, h => by
    rw [← maxima_skip F thr ds a k (fun q h1 h2 => h q h1 (by omega))]
    unfold maxima
    rw [show a + (k + 1) = (a + k) + 1 by omega, List.range_succ, List.filter_append, List.filter_cons]
    simp [h (a + k) (by omega) (by omega)]

theorem maxima_skip' (F : List α) (thr : WithBot α) (ds : List Nat) (a b : Nat) (hab : a ≤ b) (h : ∀ q, a ≤ q → q < b → ¬ LocalMax F thr ds q) :
    maxima F thr ds b = maxima F thr ds a := by
  obtain ⟨k, rfl⟩ := Nat.exists_eq_add_of_le hab
  exact maxima_skip F thr ds a k h

theorem maxima_succ (F : List α) (thr : WithBot α) (ds : List Nat) (a : Nat) :
    (LocalMax F thr ds a → maxima F thr ds (a + 1) = maxima F thr ds a ++ [a + 1]) ∧ (¬ LocalMax F thr ds a → maxima F thr ds (a + 1) = maxima F thr ds a) := by
  unfold maxima
  rw [List.range_succ, List.filter_append, List.filter_cons]
  constructor <;> intro h <;> simp [h]

theorem push_spec (junk MN x : Nat) (hMN : 0 < MN) (s : Maxima) (hs : s.count ≤ s.buf.length) :
    ∃ s', s.push junk MN x = some s' ∧ s'.count ≤ s'.buf.length ∧ s'.buf.take s'.count = s.buf.take s.count ++ [x] := by
  unfold Maxima.push
  dsimp only
  by_cases hf : s.count = s.buf.length
  · rw [if_pos hf]
    dsimp only
    have hlt : (s.buf ++ List.replicate MN junk).length - MN < (s.buf ++ List.replicate MN junk).length := by
      rw [List.length_append, List.length_replicate]; omega
    rw [wr_of_lt hlt]
    simp only [Option.bind_eq_bind, Option.bind_some]
    refine ⟨_, rfl, by dsimp only; rw [List.length_set]; omega, ?_⟩
    dsimp only
    rw [take_set_succ _ _ _ hlt, List.length_append, List.length_replicate, Nat.add_sub_cancel, List.take_left, hf, List.take_length]
  · rw [if_neg hf]
    have hlt : s.count < s.buf.length := by omega
    rw [wr_of_lt hlt]
    simp only [Option.bind_eq_bind, Option.bind_some]
    exact ⟨_, rfl, by dsimp only; rw [List.length_set]; omega, take_set_succ _ _ _ hlt⟩

theorem maxLoop_spec (F : List α) (thr : WithBot α) (ds es : List Nat) (hne : ds ≠ []) (hds : ∀ d ∈ ds, 3 ≤ d) (hF : F.length = ds.prod * es.prod)
    (nbs : List Int) (hn : ∀ x, x ∈ nbs ↔ x ≠ 0 ∧ ∃ ms', Steps ds ms' ∧ x = horI ds ms') (junk MN : Nat) (hMN : 0 < MN) :
    ∀ (fuel : Nat) (ms ls : List Nat) (s : Maxima), TopGood ds ms → Within es ls → F.length ≤ fuel + hor ds ms (hor es ls 0) →
      s.count ≤ s.buf.length → s.buf.take s.count = maxima F thr ds (hor ds ms (hor es ls 0)) →
      ∃ s', maxLoop F thr nbs junk MN ds (offsetsFrom 1 ds) es fuel ms ls (hor ds ms (hor es ls 0)) s = some s' ∧
        s'.buf.take s'.count = maxima F thr ds F.length := by
  intro fuel
  induction fuel with
  | zero =>
    intro ms ls s hm hl hf
    have h1 := hor_top_lt ds ms (hor es ls 0) hm
    have h2 := within_lt es ls hl
    have h3 : ds.prod * (hor es ls 0 + 1) ≤ ds.prod * es.prod := Nat.mul_le_mul_left _ h2
    omega
  | succ fuel ih =>
    intro ms ls s hm hl hf hs hb
    have h1 := hor_top_lt ds ms (hor es ls 0) hm
    have h2 := within_lt es ls hl
    have h3 : ds.prod * (hor es ls 0 + 1) ≤ ds.prod * es.prod := Nat.mul_le_mul_left _ h2
    unfold maxLoop
    have hc := carry_spec ds ms 1 0 (hor es ls 0) hds hm
    rw [Nat.one_mul, Nat.zero_add] at hc
    dsimp only
    rcases hc with ⟨c1, c2, c3, c4, c5⟩ | ⟨c1, c2, c3⟩
    · generalize carry ds (offsetsFrom 1 ds) ms (hor ds ms (hor es ls 0)) = c at *
      rw [Nat.one_mul, Nat.zero_add] at c3
      rw [if_neg (by rw [c1]; simp), c3]
      obtain ⟨t1, t2, t3⟩ := good_top hne c2
      have hq := hor_top_lt ds c.1 (hor es ls 0) t1
      have hi := good_inner ds c.1 (hor es ls 0) c2
      obtain ⟨b, e, hbb⟩ := isMaximum_spec F thr ds es.prod hF nbs hn _ (by omega) hi
      have hskip := maxima_skip' F thr ds _ _ c4 (by
        intro q q1 q2 hmax
        obtain ⟨_, hin, _⟩ := hmax
        have := c5 q q1 hin
        omega)
      rw [e]
      simp only [Option.bind_eq_bind, Option.bind_some]
      have e4 : hor ds c.1 (hor es ls 0) + 1 = hor ds (incHead c.1) (hor es ls 0) := (t3 _).symm
      cases b with
      | true =>
        obtain ⟨s', p1, p2, p3⟩ := push_spec junk MN (hor ds c.1 (hor es ls 0) + 1) hMN s hs
        have p1' : s.pushIf junk MN true (hor ds c.1 (hor es ls 0) + 1) = some s' := p1
        rw [p1']
        simp only [Option.bind_some]
        rw [e4]
        refine ih _ ls s' t2 hl (by omega) p2 ?_
        rw [p3, hb, ← e4, (maxima_succ F thr ds _).1 (hbb.mp rfl), hskip]
      | false =>
        have p1' : s.pushIf junk MN false (hor ds c.1 (hor es ls 0) + 1) = some s := rfl
        rw [p1']
        simp only [Option.bind_some]
        rw [e4]
        refine ih _ ls s t2 hl (by omega) hs ?_
        rw [hb, ← e4, (maxima_succ F thr ds _).2 (fun h => by simpa using hbb.mpr h), hskip]
    · rw [c1]
      simp only [if_true]
      rcases nextLayer_spec es ls hl with ⟨e, r⟩ | ⟨ls', e, hl', r⟩
      · rw [e]
        refine ⟨s, rfl, ?_⟩
        rw [hb]
        symm
        refine maxima_skip' F thr ds _ _ (by omega) ?_
        intro q q1 q2 hmax
        obtain ⟨_, hin, _⟩ := hmax
        have h4 := c3 q q1 hin
        have h5 := hor_ones_ge ds (hor es ls 0 + 1)
        rw [r] at h5 h4
        omega
      · rw [e]
        dsimp only
        rw [Nat.one_mul, Nat.zero_add, ← r]
        rw [← r] at c2 c3
        refine ih _ ls' s (good_top hne (good_ones ds hds)).1 hl' (by omega) hs ?_
        rw [hb]
        symm
        refine maxima_skip' F thr ds _ _ c2.le ?_
        intro q q1 q2 hmax
        obtain ⟨_, hin, _⟩ := hmax
        have := c3 q q1 hin
        omega

theorem maxima_isLocalmax (F : List α) (thr : WithBot α) (ds : List Nat) : IsLocalmax F thr ds (maxima F thr ds F.length) := by
  refine ⟨?_, ?_⟩
  · unfold maxima
    rw [List.pairwise_map]
    refine List.Pairwise.imp (fun h => by omega) (List.Pairwise.filter _ List.pairwise_lt_range)
  · intro x
    unfold maxima
    simp only [List.mem_map, List.mem_filter, List.mem_range, decide_eq_true_eq]
    constructor
    · rintro ⟨q, ⟨_, h⟩, rfl⟩; exact ⟨q, rfl, h⟩
    · rintro ⟨q, rfl, h⟩; exact ⟨q, ⟨h.1, h⟩, rfl⟩

theorem within_zero : ∀ es : List Nat, (∀ e ∈ es, 0 < e) → Within es (List.replicate es.length 0) ∧ hor es (List.replicate es.length 0) 0 = 0
  | [], _ => ⟨trivial, rfl⟩
  | e :: es, h => by
    obtain ⟨h1, h2⟩ := within_zero es (fun x hx => h x (by simp [hx]))
    rw [List.length_cons, List.replicate_succ]
    exact ⟨⟨h e (by simp), h1⟩, by simp [hor, h2]⟩

theorem sum_offsets : ∀ (ds : List Nat) (k : Nat), (offsetsFrom k ds).sum = k * hor ds (List.replicate ds.length 1) 0
  | [], k => by simp [offsetsFrom, hor]
  | d :: ds, k => by
    rw [List.length_cons, List.replicate_succ]
    simp only [offsetsFrom, List.sum_cons, hor, sum_offsets ds (k * d)]
    ring

theorem localmaxAlong_spec (junk : Nat) (junkN : Nat → Int) (F : List α) (thr : WithBot α) (dims : List Nat) (p : Nat) (h2 : 2 ≤ dims.length)
    (hp : 1 ≤ p) (hp' : p ≤ dims.length) (hF : F.length = dims.prod) (hpos : ∀ e ∈ dims.drop p, 0 < e) :
    ∃ L, localmaxAlong junk junkN F thr dims p = some L ∧ IsLocalmax F thr (dims.take p) L := by
  unfold localmaxAlong
  obtain ⟨nbs, i, e, hn⟩ := neighbours_spec (dims.take p) junkN
  rw [rd_of_lt (show 0 < dims.length by omega), rd_of_lt (show 1 < dims.length by omega)]
  simp only [Option.bind_eq_bind, Option.bind_some]
  rw [offsetsFrom_take, e]
  simp only [Option.bind_some]
  by_cases hany : (dims.take p).any (fun d => decide (d < 3)) = true
  · rw [if_pos hany]
    refine ⟨[], rfl, List.Pairwise.nil, fun x => ⟨fun h => by simp at h, ?_⟩⟩
    rintro ⟨q, _, _, hi, _⟩
    obtain ⟨d, hd, hd3⟩ := List.any_eq_true.mp hany
    have := inner_three _ q hi d hd
    simp at hd3
    omega
  · rw [if_neg hany]
    have hds : ∀ d ∈ dims.take p, 3 ≤ d := by
      intro d hd
      by_contra hcon
      exact hany (List.any_eq_true.mpr ⟨d, hd, by simpa using hcon⟩)
    have hc : max p 1 = p := by omega
    have hlen : (dims.take p).length = p := by rw [List.length_take]; omega
    have hne : dims.take p ≠ [] := by
      intro h; rw [h] at hlen; simp at hlen; omega
    have hprod : (dims.take p).prod * (dims.drop p).prod = dims.prod := by rw [← List.prod_append, List.take_append_drop]
    obtain ⟨w1, w2⟩ := within_zero (dims.drop p) hpos
    have hall : ∀ d ∈ dims, 0 < d := by
      intro d hd
      rw [← List.take_append_drop p dims, List.mem_append] at hd
      rcases hd with h | h
      · have := hds d h; omega
      · exact hpos d h
    have hMN : 0 < dims[0] * dims[1] := Nat.mul_pos (hall _ (List.getElem_mem _)) (hall _ (List.getElem_mem _))
    have ones := good_ones _ hds
    have e1 : (List.replicate p 1 ++ List.replicate (dims.length - p) 0).take p = List.replicate (dims.take p).length 1 := by
      rw [List.take_left' (by simp), hlen]
    have e2 : (List.replicate p 1 ++ List.replicate (dims.length - p) 0).drop p = List.replicate (dims.drop p).length 0 := by
      rw [List.drop_left' (by simp), List.length_drop]
    have hpt := sum_offsets (dims.take p) 1
    rw [Nat.one_mul] at hpt
    obtain ⟨s', m1, m2⟩ := maxLoop_spec F thr (dims.take p) (dims.drop p) hne hds (by rw [hF, hprod]) nbs (hn hds) junk (dims[0] * dims[1]) hMN
      (dims.prod + 1) (List.replicate (dims.take p).length 1) (List.replicate (dims.drop p).length 0) ⟨List.replicate (dims[0] * dims[1]) junk, 0⟩
      (good_top hne ones).1 w1 (by omega) (by simp) (by
        rw [w2]
        have : maxima F thr (dims.take p) (hor (dims.take p) (List.replicate (dims.take p).length 1) 0) = maxima F thr (dims.take p) 0 := by
          refine maxima_skip' F thr _ 0 _ (by omega) ?_
          intro q _ q2 hmax
          obtain ⟨_, hin, _⟩ := hmax
          -- the corner of ones is the first element of the interior
          have low : ∀ (ds : List Nat) (q : Nat), Inner ds q → hor ds (List.replicate ds.length 1) 0 ≤ q := by
            intro ds
            induction ds with
            | nil => intro q _; simp [hor]
            | cons d ds ih =>
              intro q hq
              have h5 := ih _ hq.2.2
              rw [List.length_cons, List.replicate_succ]
              simp only [hor]
              have h6 := Nat.mul_le_mul_left d h5
              have h7 := Nat.mod_add_div q d
              have h8 := hq.1
              omega
          have := low _ q hin
          omega
        rw [this]
        simp [maxima])
    rw [w2] at m1
    rw [hc, offsetsFrom_take, e1, e2, hpt, m1]
    simp only [Option.bind_some]
    refine ⟨_, rfl, ?_⟩
    rw [m2]
    exact maxima_isLocalmax F thr _

/-- C156: the result is the increasing list of the positions of the local maximisers: of the elements not on the boundary, not smaller than the
threshold, and larger than all the elements whose subscripts differ by at most one along the first `P` dimensions. -/
theorem localmax_correct (junk : Nat) (junkN : Nat → Int) (F : List α) (thr : WithBot α) (dims : List Nat) (P : Option Nat) (h2 : 2 ≤ dims.length)
    (hF : F.length = dims.prod) (hP : ∀ p, P = some p → 1 ≤ p ∧ p ≤ dims.length ∧ ∀ e ∈ dims.drop p, 0 < e) :
    ∃ L, localmax junk junkN F thr dims P = some (some L) ∧ IsLocalmax F thr (searched dims P) L := by
  unfold localmax
  rw [rd_of_lt (show 0 < dims.length by omega), rd_of_lt (show 1 < dims.length by omega)]
  simp only [Option.bind_eq_bind, Option.bind_some]
  cases P with
  | some p =>
    obtain ⟨p1, p2, p3⟩ := hP p rfl
    obtain ⟨L, e, hL⟩ := localmaxAlong_spec junk junkN F thr dims p h2 p1 p2 hF p3
    dsimp only
    rw [if_neg (by omega), e]
    exact ⟨L, rfl, hL⟩
  | none =>
    dsimp only
    by_cases hv : dims.length = 2 ∧ (dims[0] = 1 ∨ dims[1] = 1)
    · rw [if_pos hv]
      obtain ⟨hv1, hv2⟩ := hv
      obtain ⟨M, N, rfl⟩ : ∃ M N, dims = [M, N] := by
        match dims, hv1 with
        | [M, N], _ => exact ⟨M, N, rfl⟩
      simp only [List.getElem_cons_zero, List.getElem_cons_succ] at hv2 ⊢
      have hs : searched [M, N] none = [M * N] := by
        unfold searched
        rw [if_pos ⟨rfl, by rcases hv2 with h | h <;> simp [h]⟩]
        simp
      rw [hs]
      have hF' : F.length = M * N := by simpa using hF
      by_cases h0 : M * N = 0
      · have e0 : max M N = 1 := by
          rcases Nat.mul_eq_zero.mp h0 with h | h <;> rcases hv2 with h' | h' <;> omega
        rw [e0]
        obtain ⟨nbs, i, e, _⟩ := neighbours_spec [1] junkN
        refine ⟨[], ?_, List.Pairwise.nil, fun x => ⟨fun h => by simp at h, ?_⟩⟩
        · unfold localmaxAlong
          simp only [rd, List.getElem?_cons_zero, List.getElem?_cons_succ, Option.bind_eq_bind, Option.bind_some, offsetsFrom_take]
          rw [show ([1, 1] : List Nat).take 1 = [1] from rfl, e]
          rfl
        · rintro ⟨q, _, hq, _⟩
          omega
      · have e1 : max M N = M * N := by
          rcases hv2 with h' | h'
          · subst h'; rw [Nat.one_mul] at h0 ⊢; omega
          · subst h'; rw [Nat.mul_one] at h0 ⊢; omega
        rw [e1]
        obtain ⟨L, e, hL⟩ := localmaxAlong_spec junk junkN F thr [M * N, 1] 1 (by simp) (by omega) (by simp) (by simpa using hF') (by simp)
        rw [e]
        exact ⟨L, rfl, hL⟩
    · rw [if_neg hv]
      obtain ⟨L, e, hL⟩ := localmaxAlong_spec junk junkN F thr dims dims.length h2 (by omega) (le_refl _) hF (by simp)
      rw [e]
      refine ⟨L, rfl, ?_⟩
      have hs : searched dims none = dims.take dims.length := by
        unfold searched
        rw [List.take_length, if_neg]
        rintro ⟨h3, h4⟩
        apply hv
        refine ⟨h3, ?_⟩
        obtain ⟨j, hj, ej⟩ := List.mem_iff_getElem.mp h4
        rcases (show j = 0 ∨ j = 1 by omega) with rfl | rfl
        · exact Or.inl ej
        · exact Or.inr ej
      rw [hs]
      exact hL

/-- A 4 by 3 matrix twice: only the first layer has a maximum. -/
example : (2 ≤ [4, 3, 2].length ∧ ([1, 1, 1, 1, 1, 5, 1, 1, 1, 1, 1, 1, 9, 1, 1, 1, 1, 5, 5, 1, 1, 1, 1, 1] : List Int).length = [4, 3, 2].prod ∧
    (∀ p, (some 2 : Option Nat) = some p → 1 ≤ p ∧ p ≤ [4, 3, 2].length ∧ ∀ e ∈ [4, 3, 2].drop p, 0 < e)) ∧
    localmax 0 (fun _ => 7) ([1, 1, 1, 1, 1, 5, 1, 1, 1, 1, 1, 1, 9, 1, 1, 1, 1, 5, 5, 1, 1, 1, 1, 1] : List Int) ⊥ [4, 3, 2] (some 2) = some (some [6]) := by
  refine ⟨⟨by decide, by decide, ?_⟩, by decide⟩
  rintro p hp
  cases hp
  decide

/-! ## Other numbers of dimensions, empty arrays -/

/-- The function does what it says for all arrays and all `P` that it accepts. -/
def LocalmaxClaim : Prop :=
  ∀ (junk : Nat) (junkN : Nat → Int) (F : List Int) (thr : WithBot Int) (dims : List Nat) (p : Nat), 2 ≤ dims.length → F.length = dims.prod → F ≠ [] →
    p ≤ dims.length → ∃ L, localmax junk junkN F thr dims (some p) = some (some L) ∧ IsLocalmax F thr (dims.take p) L

/-- C157: the claim is false for `P = 0`, which is accepted: no element has neighbours then, but the last element of a column is not
returned. -/
theorem localmax_claim_false : ¬ LocalmaxClaim := by
  intro h
  obtain ⟨L, e, _, hL⟩ := h 0 (fun _ => 0) [5] ⊥ [1, 1] 0 (by decide) (by decide) (by decide) (by decide)
  have e1 : localmax 0 (fun _ => 0) ([5] : List Int) ⊥ [1, 1] (some 0) = some (some []) := by decide
  rw [e1] at e
  have e2 : L = [] := by simpa using e.symm
  subst e2
  have := (hL 1).mpr ⟨0, rfl, by decide, trivial, bot_le, by
    intro q' hq' hne
    simp at hq'
    omega⟩
  simp at this

/-- Empty arrays give an empty result. -/
def LocalmaxEmptyClaim : Prop :=
  ∀ (junk : Nat) (junkN : Nat → Int) (thr : WithBot Int) (dims : List Nat) (p : Nat), 2 ≤ dims.length → dims.prod = 0 → 1 ≤ p → p ≤ dims.length →
    localmax junk junkN ([] : List Int) thr dims (some p) = some (some [])

/-- C157: the claim is false: with no layers, the first element of the interior of a layer is read. -/
theorem localmaxEmpty_claim_false : ¬ LocalmaxEmptyClaim := by
  intro h
  have := h 0 (fun _ => 0) ⊥ [3, 3, 0] 2 (by decide) (by decide) (by decide) (by decide)
  revert this
  decide

end Verif.Toolbox
