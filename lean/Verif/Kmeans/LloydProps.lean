import Verif.Kmeans.UpdateLemmas
import Mathlib.Algebra.Order.Ring.Rat
import Mathlib.Algebra.Field.Rat

/-!
# Lloyd's algorithm: properties (C27)
-/

set_option linter.unusedSectionVars false

namespace Verif.Kmeans

variable {K ρ : Type} [Field K] [LinearOrder K] [IsStrictOrderedRing K]
variable {m : Metric} {dim nC N : Nat} {data : List K}

/-- The energy of given centres is determined. -/
theorem IsEnergy.unique {centers : List K} {e e' : K} (h : IsEnergy m dim nC N data centers e)
    (h' : IsEnergy m dim nC N data centers e') : e = e' := by
  obtain ⟨a, h1, rfl⟩ := h
  obtain ⟨a', h1', rfl⟩ := h'
  refine Finset.sum_congr rfl fun x hx => ?_
  have hx : x < N := by simpa using hx
  exact le_antisymm ((h1 x hx).2 _ (h1' x hx).1) ((h1' x hx).2 _ (h1 x hx).1)

/-- The energy is the least cost of an assignment. -/
theorem IsEnergy.le_cost {centers : List K} {e : K} (h : IsEnergy m dim nC N data centers e) {b : Nat → Nat}
    (hb : ∀ x < N, b x < nC) : e ≤ cost m dim N data centers b := by
  obtain ⟨a, h1, rfl⟩ := h
  exact Finset.sum_le_sum fun x hx => (h1 x (by simpa using hx)).2 _ (hb x (by simpa using hx))

/-- What an update does to the centres: each non-empty centre is optimal in every component. -/
def Optimal (m : Metric) (dim N : Nat) (data centers : List K) (a : Nat → Nat) (c : Nat) : Prop :=
  ∀ j < dim, ∀ o : K, match m with
    | .l1 => ∑ x ∈ Finset.range N with a x = c, |comp data dim x j - comp centers dim c j| ≤
        ∑ x ∈ Finset.range N with a x = c, |comp data dim x j - o|
    | .l2 => ∑ x ∈ Finset.range N with a x = c, (comp data dim x j - comp centers dim c j) ^ 2 ≤
        ∑ x ∈ Finset.range N with a x = c, (comp data dim x j - o) ^ 2

/-- **C27 (update step).** With at least one point and no more centres than points, for any assignment: the update of the
centres does not increase the cost of the assignment.  If no centre is empty, every centre becomes optimal for the points
assigned to it.  With the Euclidean distance this also holds for the non-empty centres when some are empty, and the empty
ones are placed at data points. -/
theorem lloydUpdate_correct {u : ρ → Nat → Nat × ρ} (hu : ∀ r n, 0 < n → (u r n).1 < n) (hN : 0 < N) (hCN : nC ≤ N)
    (hd : data.length = N * dim) {perms : List (List Nat)} (hp : m = .l1 → sortData data dim N dim = some perms)
    {s : LState K ρ} {a : Nat → Nat} (ha : Arr s.q.asgn N a) (hn : ∀ x < N, a x < nC) (hc : s.centers.length = nC * dim) :
    ∃ s', lloydUpdate u m dim nC N data perms s = some s' ∧ s'.centers.length = nC * dim ∧ s'.q = s.q ∧
      cost m dim N data s'.centers a ≤ cost m dim N data s.centers a ∧
      ((∀ c < nC, ∃ x < N, a x = c) → ∀ c < nC, Optimal m dim N data s'.centers a c) ∧
      (m = .l2 → ∀ c < nC, if ∃ x < N, a x = c then Optimal m dim N data s'.centers a c else RestartedAt dim N data s'.centers c) := by
  obtain ⟨ms, h1, h2⟩ := countMasses_spec ha hCN hn
  have hf := flat_comp hd
  have hg := flat_comp hc
  have hmass : ∀ c, 0 < mass N a c ↔ ∃ x < N, a x = c := by
    intro c
    unfold mass
    rw [Finset.card_pos]
    constructor
    · rintro ⟨x, hx⟩; simp at hx; exact ⟨x, hx⟩
    · rintro ⟨x, hx⟩; exact ⟨x, by simpa using hx⟩
  unfold lloydUpdate
  rw [h1]
  cases m
  · obtain ⟨perms', e1, _, e3⟩ := sortData_spec hN data dim dim
    rw [hp rfl] at e1
    cases e1
    obtain ⟨cs', r', g', q1, q2, q3⟩ := updateL1Lloyd_spec hu hN hf ha h2 hn hCN e3 dim s.centers s.rng _ (le_refl _) hg
    simp only [Option.bind_eq_bind, Option.bind_some, q1]
    refine ⟨_, rfl, q2.len, rfl, ?_, fun hall c hc j hj o => ?_, by simp⟩
    · refine cost_le (m := .l1) hf hg q2 hn fun c hc h0 j hj => ?_
      rcases (q3 c hc h0 j hj).1 with h | h
      · simp only [h]; exact le_refl _
      · exact h _
    · rw [Flat.comp_eq q2 hc hj]
      exact (q3 c hc ((hmass c).mpr (hall c hc)) j hj).2 (fun c' hc' => (hmass c').mpr (hall c' hc')) (by omega) o
  · obtain ⟨cs', r', g', q1, q2, q3⟩ := updateL2_spec hu hN hf ha h2 hn hCN s.rng
    simp only [Option.bind_eq_bind, Option.bind_some, q1]
    have hopt : ∀ c < nC, 0 < mass N a c → Optimal .l2 dim N data cs' a c := by
      intro c hc h0 j hj o
      have := q3 c hc
      rw [if_pos h0] at this
      simp only
      rw [Flat.comp_eq q2 hc hj, this j hj]
      exact mean_opt a _ h0 j o
    refine ⟨_, rfl, q2.len, rfl, ?_, fun hall c hc => hopt c hc ((hmass c).mpr (hall c hc)), fun _ c hc => ?_⟩
    · refine cost_le (m := .l2) hf hg q2 hn fun c hc h0 j hj => ?_
      have := q3 c hc
      rw [if_pos h0] at this
      simp only
      rw [this j hj]
      exact mean_opt a _ h0 j _
    · by_cases h0 : ∃ x < N, a x = c
      · rw [if_pos h0]; exact hopt c hc ((hmass c).mpr h0)
      · rw [if_neg h0]
        have := q3 c hc
        rw [if_neg (fun h => h0 ((hmass c).mp h))] at this
        obtain ⟨x, x1, x2⟩ := this
        exact ⟨x, x1, fun j hj => by rw [Flat.comp_eq q2 hc hj]; exact x2 j hj⟩

/-- The blocks of the state have the right sizes. -/
structure LState.Ok (dim nC N : Nat) (s : LState K ρ) : Prop where
  centers : s.centers.length = nC * dim
  asgn : s.q.asgn.length = N
  dists : s.q.dists.length = N
  tmp : s.q.tmp.length = nC

theorem lloydLoop_correct {u : ρ → Nat → Nat × ρ} (hu : ∀ r n, 0 < n → (u r n).1 < n) (hC : 0 < nC) (hCN : nC ≤ N)
    (hdim : 0 < dim) (hd : data.length = N * dim) (minVar : K) {perms : List (List Nat)}
    (hp : m = .l1 → sortData data dim N dim = some perms) :
    ∀ (rem : Nat) (init prev : Option K) (s : LState K ρ), s.Ok dim nC N →
    ∃ log e s', lloydLoop u m dim nC N data perms minVar rem init prev s = some (log, e, s') ∧ s'.Ok dim nC N ∧
      IsEnergy m dim nC N data s'.centers e ∧
      (∀ x < N, ∃ c, s'.q.asgn[x]? = some c ∧ Nearest m dim nC data s'.centers x c) ∧
      log.getLast? = some e ∧ log.length ≤ rem + 1 ∧ log.Pairwise (fun p q => q ≤ p) ∧
      (∃ e0, log.head? = some e0 ∧ IsEnergy m dim nC N data s.centers e0) ∧
      (log.length ≤ rem → ∃ i p, init.or log.head? = some i ∧ log.dropLast.getLast?.or prev = some p ∧
        (e = p ∨ (p - e) / (i - e) < minVar)) := by
  intro rem
  induction rem with
  | zero =>
    intro init prev s hs
    obtain ⟨q', a, h1, h2, h3, h4, h5⟩ := quantize_spec (m := m) hdim hd hs.centers hC hs.asgn hs.dists hs.tmp
    unfold lloydLoop
    simp only [Option.bind_eq_bind, h1, Option.bind_some, energy_spec h3]
    have hE : IsEnergy m dim nC N data s.centers (∑ x ∈ Finset.range N, pc m dim data s.centers x (a x)) :=
      ⟨a, fun x hx => (h5 x hx).1, rfl⟩
    exact ⟨_, _, _, rfl, ⟨hs.centers, h2.len, h3.len, h4⟩, hE, fun x hx => ⟨a x, h2.get x hx, (h5 x hx).1⟩, rfl, by simp, by simp,
      ⟨_, rfl, hE⟩, by simp⟩
  | succ rem ih =>
    intro init prev s hs
    obtain ⟨q', a, h1, h2, h3, h4, h5⟩ := quantize_spec (m := m) hdim hd hs.centers hC hs.asgn hs.dists hs.tmp
    unfold lloydLoop
    simp only [Option.bind_eq_bind, h1, Option.bind_some, energy_spec h3]
    set e := ∑ x ∈ Finset.range N, pc m dim data s.centers x (a x) with he
    have hE : IsEnergy m dim nC N data s.centers e := ⟨a, fun x hx => (h5 x hx).1, rfl⟩
    by_cases hstop : lloydStop minVar init prev e = true
    · rw [if_pos hstop]
      refine ⟨_, _, _, rfl, ⟨hs.centers, h2.len, h3.len, h4⟩, hE, fun x hx => ⟨a x, h2.get x hx, (h5 x hx).1⟩, rfl, by simp, by simp,
        ⟨_, rfl, hE⟩, fun _ => ?_⟩
      unfold lloydStop at hstop
      cases init <;> cases prev <;> simp at hstop
      exact ⟨_, _, rfl, rfl, hstop⟩
    · rw [if_neg hstop]
      obtain ⟨s1, g1, g2, g3, g4, _⟩ := lloydUpdate_correct (m := m) hu (by omega) hCN hd hp (s := { s with q := q' }) h2
        (fun x hx => (h5 x hx).1.1) hs.centers
      rw [g1]
      simp only [Option.bind_some]
      obtain ⟨log, e', s', i1, i2, i3, i4, i5, i6, i7, ⟨e0, i8, i9⟩, i10⟩ := ih (init.or (some e)) (some e) s1
        ⟨g2, by rw [g3]; exact h2.len, by rw [g3]; exact h3.len, by rw [g3]; exact h4⟩
      rw [i1]
      refine ⟨_, _, _, rfl, i2, i3, i4, ?_, by simp; omega, ?_, ⟨e, rfl, hE⟩, fun hl => ?_⟩
      · cases log with
        | nil => simp at i5
        | cons y l => simpa using i5
      · rw [List.pairwise_cons]
        refine ⟨fun y hy => ?_, i7⟩
        have h0 : e0 ≤ e := by
          refine le_trans (i9.le_cost (b := a) fun x hx => (h5 x hx).1.1) ?_
          exact g4
        cases log with
        | nil => simp at hy
        | cons z l =>
          simp only [List.head?_cons, Option.some.injEq] at i8
          subst i8
          rcases List.mem_cons.mp hy with rfl | hy
          · exact h0
          · exact le_trans ((List.pairwise_cons.mp i7).1 y hy) h0
      · simp at hl
        obtain ⟨i, p, j1, j2, j3⟩ := i10 hl
        refine ⟨i, p, ?_, ?_, j3⟩
        · cases init <;> simpa using j1
        · cases log with
          | nil => simp at i8
          | cons z l =>
            cases l with
            | nil => simpa using j2
            | cons w l =>
              rw [List.dropLast_cons_cons, List.getLast?_cons] at j2 ⊢
              rw [List.dropLast_cons_cons]
              rw [List.getLast?_cons] at *
              simpa [List.dropLast] using j2

/-- **C27.** Lloyd's algorithm, with at least one centre and no more centres than points: no undefined behaviour; the
energies of the successive iterations never increase; the value returned is the energy of the final centres, thus at most
that of the initial ones, and the final assignments are to nearest centres; there are at most `maxNumIterations + 1`
iterations and fewer only if the energy did not change or its variation relative to the total decrease is below the
threshold. -/
theorem lloyd_correct {u : ρ → Nat → Nat × ρ} (hu : ∀ r n, 0 < n → (u r n).1 < n) (hC : 0 < nC) (hCN : nC ≤ N)
    (hdim : 0 < dim) (hd : data.length = N * dim) (minVar : K) (maxIt : Nat) (s : LState K ρ) (hs : s.Ok dim nC N) :
    ∃ log e s', lloyd u m dim nC N data minVar maxIt s = some (log, e, s') ∧ s'.centers.length = nC * dim ∧
      IsEnergy m dim nC N data s'.centers e ∧
      (∀ x < N, ∃ c, s'.q.asgn[x]? = some c ∧ Nearest m dim nC data s'.centers x c) ∧
      log.Pairwise (fun p q => q ≤ p) ∧ log.getLast? = some e ∧
      (∃ e0, log.head? = some e0 ∧ IsEnergy m dim nC N data s.centers e0 ∧ e ≤ e0) ∧
      log.length ≤ maxIt + 1 ∧
      (log.length ≤ maxIt → ∃ e0 p, log.head? = some e0 ∧ log.dropLast.getLast? = some p ∧
        (e = p ∨ (p - e) / (e0 - e) < minVar)) := by
  have : ∃ perms, (match m with | .l1 => sortData data dim N dim | .l2 => some []) = some perms ∧
      (m = .l1 → sortData data dim N dim = some perms) := by
    cases m
    · obtain ⟨perms, e1, _, _⟩ := sortData_spec (by omega : 0 < N) data dim dim
      exact ⟨perms, e1, fun _ => e1⟩
    · exact ⟨[], rfl, by simp⟩
  obtain ⟨perms, h1, h2⟩ := this
  obtain ⟨log, e, s', i1, i2, i3, i4, i5, i6, i7, ⟨e0, i8, i9⟩, i10⟩ :=
    lloydLoop_correct (m := m) hu hC hCN hdim hd minVar h2 maxIt none none s hs
  have hl : lloyd u m dim nC N data minVar maxIt s = some (log, e, s') := by
    unfold lloyd
    cases m <;> simp only at h1 <;> simp only [Option.bind_eq_bind, h1, Option.bind_some, i1]
  clear i1
  refine ⟨log, e, s', hl, i2.centers, i3, i4, i7, i5, ⟨e0, i8, i9, ?_⟩, i6, fun hl => ?_⟩
  · cases log with
    | nil => simp at i8
    | cons y l =>
      simp only [List.head?_cons, Option.some.injEq] at i8
      subst i8
      cases l with
      | nil => simp at i5; exact le_of_eq i5.symm
      | cons z l =>
        have : e ∈ z :: l := List.mem_of_getLast? (by simpa using i5)
        exact (List.pairwise_cons.mp i7).1 e this
  · obtain ⟨i, p, j1, j2, j3⟩ := i10 hl
    exact ⟨i, p, by simpa using j1, by simpa using j2, j3⟩

/-! ## More centres than points -/

/-- With more centres than points the block of the cluster masses, allocated with one entry per *point*, is accessed out of
bounds: refuted for such inputs. -/
def ManyCentersClaim : Prop :=
  ∀ (dim nC N : Nat) (data : List ℚ) (s : LState ℚ Unit), 0 < nC → 0 < dim → 0 < N → data.length = N * dim → s.Ok dim nC N →
    lloyd (fun r n => (n - 1, r)) .l2 dim nC N data 0 100 s ≠ none

theorem many_centers_claim_false : ¬ ManyCentersClaim := by
  intro h
  refine h 1 2 1 [0] { centers := [3, 1], q := { asgn := [0], dists := [0], tmp := [0, 0] }, rng := () }
    (by decide) (by decide) (by decide) rfl ⟨rfl, rfl, rfl, rfl⟩ ?_
  have e : (lloyd (fun r n => (n - 1, r)) .l2 1 2 1 [(0 : ℚ)] 0 100
    { centers := [3, 1], q := { asgn := [0], dists := [0], tmp := [0, 0] }, rng := () }).isNone = true := by decide +kernel
  exact Option.isNone_iff_eq_none.mp e

/-! ## An empty centre stops the medians early -/

/-- With the `l^1` distance the non-empty centres should be medians also when a centre is empty: refuted, because restarting a
centre ends the loop over the dimensions. -/
def MedianClaim : Prop :=
  ∀ (dim nC N : Nat) (data : List ℚ) (perms : List (List Nat)) (s s' : LState ℚ Unit) (a : Nat → Nat), 0 < N → nC ≤ N →
    data.length = N * dim → sortData data dim N dim = some perms → Arr s.q.asgn N a → (∀ x < N, a x < nC) →
    s.centers.length = nC * dim → lloydUpdate (fun r n => (n - 1, r)) .l1 dim nC N data perms s = some s' →
    ∀ c < nC, (∃ x < N, a x = c) → Optimal .l1 dim N data s'.centers a c

theorem median_claim_false : ¬ MedianClaim := by
  intro h
  have e : (lloydUpdate (fun r n => (n - 1, r)) .l1 2 2 2 [(0 : ℚ), 0, 0, 0] [[1, 0], [1, 0]]
      { centers := [5, 5, 9, 9], q := { asgn := [0, 0], dists := [], tmp := [] }, rng := () }).map LState.centers =
      some [0, 5, 0, 0] := by decide +kernel
  obtain ⟨s', e1, e2⟩ := Option.map_eq_some_iff.mp e
  have := h 2 2 2 _ [[1, 0], [1, 0]] _ s' (fun _ => 0) (by decide) (by decide) rfl (by decide +kernel)
    ⟨rfl, by decide⟩ (by decide) rfl e1 0 (by decide) ⟨0, by decide, rfl⟩ 1 (by decide) 0
  rw [e2] at this
  revert this
  decide +kernel

/-! ## Non-vacuity -/

/-- Six points on a line, two centres: the energies decrease until nothing changes. -/
example : (lloyd (fun r n => (n - 1, r)) .l2 1 2 6 [(0 : ℚ), 1, 2, 10, 11, 12] 0 100
    { centers := [0, 1], q := { asgn := List.replicate 6 9, dists := List.replicate 6 9, tmp := [9, 9] }, rng := () }).map
    (fun r => (r.1, r.2.1, r.2.2.centers, r.2.2.q.asgn)) = some ([303, 1258/25, 4, 4], 4, [1, 11], [0, 0, 0, 1, 1, 1]) := by
  decide +kernel

example : (lloyd (fun r n => (n - 1, r)) .l1 1 2 6 [(0 : ℚ), 1, 2, 10, 11, 12] 0 100
    { centers := [0, 1], q := { asgn := List.replicate 6 9, dists := List.replicate 6 9, tmp := [9, 9] }, rng := () }).map
    (fun r => (r.1, r.2.1, r.2.2.centers, r.2.2.q.asgn)) = some ([31, 6, 4, 4], 4, [1, 11], [0, 0, 0, 1, 1, 1]) := by
  decide +kernel

example : ({ centers := [0, 1], q := { asgn := List.replicate 6 9, dists := List.replicate 6 9, tmp := [9, 9] }, rng := () } :
    LState ℚ Unit).Ok 1 2 6 := ⟨rfl, rfl, rfl, rfl⟩

end Verif.Kmeans
