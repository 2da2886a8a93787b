import Verif.Kmeans.ElkanLemmas
import Mathlib.Analysis.Real.Sqrt

/-!
# Elkan's algorithm: properties (C28)
-/

set_option linter.unusedSectionVars false

namespace Verif.Kmeans

variable {K ρ : Type} [Field K] [LinearOrder K] [IsStrictOrderedRing K]
variable {m : Metric} {dim nC N : Nat} {data : List K}

/-- The blocks of the state have the right sizes. -/
structure EState.Sizes (dim nC N : Nat) (s : EState K ρ) : Prop where
  centers : s.centers.length = nC * dim
  newCenters : s.newCenters.length = nC * dim
  cdist : s.cdist.length = nC * nC
  c2n : s.c2n.length = nC
  next : s.next.length = nC
  pts : s.pts.length = N

/-- Every point is assigned to a nearest centre. -/
def EState.Exact (m : Metric) (dim nC N : Nat) (data : List K) (s : EState K ρ) : Prop :=
  ∀ x < N, ∃ p, s.pts[x]? = some p ∧ Nearest m dim nC data s.centers x p.asgn

/-- Invariant of the iterations. -/
structure EOk (m : Metric) (dim nC N : Nat) (data : List K) (s : EState K ρ) (f : Nat → Pt K) : Prop where
  sizes : s.Sizes dim nC N
  arr : Arr s.pts N f
  ok : ∀ x < N, PtOk nC (pc m dim data s.centers x) (f x)
  near : ∀ x < N, ∀ c < nC, pc m dim data s.centers x (f x).asgn ≤ pc m dim data s.centers x c

theorem EOk.exact {s : EState K ρ} {f : Nat → Pt K} (h : EOk m dim nC N data s f) : s.Exact m dim nC N data :=
  fun x hx => ⟨f x, h.arr.get x hx, (h.ok x hx).asgn, h.near x hx⟩

theorem EOk.isEnergy {s : EState K ρ} {f : Nat → Pt K} (h : EOk m dim nC N data s f) :
    IsEnergy m dim nC N data s.centers (cost m dim N data s.centers fun x => (f x).asgn) :=
  ⟨_, fun x hx => ⟨(h.ok x hx).asgn, h.near x hx⟩, rfl⟩

theorem table_spec {centers mem : List K} (hdim : 0 < dim) (hc : centers.length = nC * dim) (hm : mem.length = nC * nC) :
    ∃ r, AllPairs.allPairs mem dim centers nC none 0 m.dist = some r ∧ r.length = nC * nC ∧
      ∀ a < nC, ∀ b < nC, r[b + a * nC]? = some (vdist m dim (comp centers dim a) (comp centers dim b)) := by
  obtain ⟨r, h1, h2, h3⟩ := AllPairs.allPairs_one mem dim nC 0 centers m.dist hdim hc hm
  refine ⟨r, h1, h2, fun a ha b hb => ?_⟩
  rw [h3 b hb a ha, dist_vec hc (by omega) hc (by omega)]
  rcases Nat.le_total a b with h | h
  · rw [min_eq_right h, max_eq_left h]
  · rw [min_eq_left h, max_eq_right h, vdist_symm]

theorem geo_spec (m : Metric) (dim nC : Nat) (data centers : List K) (x : Nat) :
    Geo m nC (pc m dim data centers x) fun a b => vdist m dim (comp centers dim a) (comp centers dim b) :=
  ⟨fun _ => vdist_nonneg _ _ _ _, fun _ _ _ _ h => prune _ _ _ h⟩

theorem point_spec {centers : List K} (hd : data.length = N * dim) (hc : centers.length = nC * dim) {x : Nat} (hx : x < N) :
    ∀ c < nC, ∃ w, AllPairs.slice centers ((c * dim : Nat) : Int) dim = some w ∧
      m.dist (AllPairs.vec data dim x) w = pc m dim data centers x c :=
  fun c hcc => ⟨AllPairs.vec centers dim c, AllPairs.slice_vec hc hcc rfl, dist_vec hd hx hc hcc⟩

theorem elkanUpdate_correct {u : ρ → Nat → Nat × ρ} (hu : ∀ r n, 0 < n → (u r n).1 < n) (hN : 0 < N) (hCN : nC ≤ N)
    (hd : data.length = N * dim) {perms : List (List Nat)} (hp : m = .l1 → sortData data dim N dim = some perms)
    {asgn : List Nat} {a : Nat → Nat} (ha : Arr asgn N a) (hn : ∀ x < N, a x < nC) {centers newCenters : List K}
    (hc : centers.length = nC * dim) (hc' : newCenters.length = nC * dim) (r : ρ) :
    ∃ cs r', elkanUpdate u m dim nC N data perms asgn newCenters r = some (cs, r') ∧ cs.length = nC * dim ∧
      cost m dim N data cs a ≤ cost m dim N data centers a ∧
      ∀ c < nC, if ∃ x < N, a x = c then Optimal m dim N data cs a c else RestartedAt dim N data cs c := by
  obtain ⟨ms, h1, h2⟩ := countMasses_spec ha hCN hn
  have hf := flat_comp hd
  have hg := flat_comp hc
  have hmass : ∀ c, 0 < mass N a c ↔ ∃ x < N, a x = c := by
    intro c
    unfold mass
    rw [Finset.card_pos]
    constructor
    · rintro ⟨x, hx⟩; simp at hx; exact ⟨x, hx⟩
    · rintro ⟨x, hx⟩; exact ⟨x, by simpa using hx⟩
  unfold elkanUpdate
  rw [h1]
  cases m
  · obtain ⟨perms', e1, _, e3⟩ := sortData_spec hN data dim dim
    rw [hp rfl] at e1
    cases e1
    obtain ⟨cs', r', g', q1, q2, q3, q4⟩ := updateL1Elkan_spec hu hN hf ha h2 hn hCN e3 newCenters r _ (flat_comp hc')
    simp only [Option.bind_eq_bind, Option.bind_some, q1]
    refine ⟨_, _, rfl, q2.len, ?_, fun c hc => ?_⟩
    · exact cost_le (m := .l1) hf hg q2 hn fun c hc h0 j hj => q3 c hc h0 j hj _
    · by_cases h0 : ∃ x < N, a x = c
      · rw [if_pos h0]
        intro j hj o
        simp only
        rw [Flat.comp_eq q2 hc hj]
        exact q3 c hc ((hmass c).mpr h0) j hj o
      · rw [if_neg h0]
        obtain ⟨x, x1, x2⟩ := q4 c hc (by have := mt (hmass c).mp h0; omega)
        exact ⟨x, x1, fun j hj => by rw [Flat.comp_eq q2 hc hj, x2]⟩
  · obtain ⟨cs', r', g', q1, q2, q3⟩ := updateL2_spec hu hN hf ha h2 hn hCN r
    simp only [Option.bind_eq_bind, Option.bind_some, q1]
    refine ⟨_, _, rfl, q2.len, ?_, fun c hc => ?_⟩
    · refine cost_le (m := .l2) hf hg q2 hn fun c hc h0 j hj => ?_
      have := q3 c hc
      rw [if_pos h0] at this
      simp only
      rw [this j hj]
      exact mean_opt a _ h0 j _
    · have := q3 c hc
      by_cases h0 : ∃ x < N, a x = c
      · rw [if_pos ((hmass c).mpr h0)] at this
        rw [if_pos h0]
        intro j hj o
        simp only
        rw [Flat.comp_eq q2 hc hj, this j hj]
        exact mean_opt a _ ((hmass c).mpr h0) j o
      · rw [if_neg (fun h => h0 ((hmass c).mp h))] at this
        rw [if_neg h0]
        obtain ⟨x, x1, x2⟩ := this
        exact ⟨x, x1, fun j hj => by rw [Flat.comp_eq q2 hc hj]; exact x2 j hj⟩

theorem map_arr {l : List (Pt K)} {f : Nat → Pt K} (h : Arr l N f) : Arr (l.map Pt.asgn) N fun x => (f x).asgn :=
  ⟨by simp [h.len], fun x hx => by simp [h.get x hx]⟩

/-- One iteration, from a consistent state. -/
theorem elkanIter_correct {sqrt : K → K} (hs : m = .l2 → IsSqrt sqrt) {u : ρ → Nat → Nat × ρ}
    (hu : ∀ r n, 0 < n → (u r n).1 < n) (hC : 0 < nC) (hCN : nC ≤ N) (hdim : 0 < dim) (hd : data.length = N * dim)
    {perms : List (List Nat)} (hp : m = .l1 → sortData data dim N dim = some perms) {s : EState K ρ} {f : Nat → Pt K}
    (h : EOk m dim nC N data s f) :
    ∃ s' b f', elkanIter sqrt u m dim nC N data perms s = some (s', b) ∧ EOk m dim nC N data s' f' ∧
      (∀ e e', IsEnergy m dim nC N data s.centers e → IsEnergy m dim nC N data s'.centers e' → e' ≤ e) ∧
      (∀ c < nC, if ∃ x < N, (f x).asgn = c then Optimal m dim N data s'.centers (fun x => (f x).asgn) c
        else RestartedAt dim N data s'.centers c) ∧
      (b = true → ∀ x < N, (f' x).asgn = (f x).asgn) := by
  obtain ⟨nc, r', a1, a2, a3, a4⟩ := elkanUpdate_correct (m := m) hu (by omega) hCN hd hp (map_arr h.arr)
    (fun x hx => (h.ok x hx).asgn) h.sizes.centers h.sizes.newCenters s.rng
  have hmot : ∃ c2n, motions m dim nC nc s.centers s.c2n = some c2n ∧
      Arr c2n nC fun c => vdist m dim (comp nc dim c) (comp s.centers dim c) := by
    obtain ⟨r, e1, F, e2, e3⟩ := iter_inv (n := nC) (f := fun c c2n => do
      let a ← AllPairs.slice nc ((c * dim : Nat) : Int) dim
      let b ← AllPairs.slice s.centers ((c * dim : Nat) : Int) dim
      wr c2n c (m.dist a b)) (s := s.c2n)
      (fun i (l : List K) => ∃ F : Nat → K, Arr l nC F ∧ ∀ c < i, F c = vdist m dim (comp nc dim c) (comp s.centers dim c))
      ⟨_, Arr.of_len' h.sizes.c2n 0, by simp⟩ (by
      intro i hi l ⟨F, e1, e2⟩
      have hx1 : AllPairs.slice nc ((i * dim : Nat) : Int) dim = some (AllPairs.vec nc dim i) := AllPairs.slice_vec a2 hi rfl
      have hx2 : AllPairs.slice s.centers ((i * dim : Nat) : Int) dim = some (AllPairs.vec s.centers dim i) :=
        AllPairs.slice_vec h.sizes.centers hi rfl
      simp only [Option.bind_eq_bind, hx1, hx2, Option.bind_some, dist_vec a2 hi h.sizes.centers hi]
      obtain ⟨l', w1, w2⟩ := e1.wr hi (vdist m dim (comp nc dim i) (comp s.centers dim i))
      refine ⟨l', w1, _, w2, fun c hc => ?_⟩
      unfold upd1
      by_cases e : c = i
      · rw [if_pos e, e]
      · rw [if_neg e]; exact e2 c (by omega))
    exact ⟨r, e1, e2.congr fun c hc => e3 c hc⟩
  obtain ⟨c2n, b1, b2⟩ := hmot
  obtain ⟨cd, c1, c2, c3⟩ := table_spec (m := m) hdim a2 h.sizes.cdist
  obtain ⟨next, d1, d2⟩ := nextDistances_spec c3 h.sizes.next
  obtain ⟨pts, g1, g, g2, g3, g4⟩ := iter_inv (n := N) (f := fun x pts => do
    let p ← rd pts x
    let p ← moveBounds sqrt m nC c2n p
    wr pts x p) (s := s.pts)
    (fun i (l : List (Pt K)) => ∃ g : Nat → Pt K, Arr l N g ∧ (∀ x < N, i ≤ x → g x = f x) ∧
      ∀ x < i, (g x).asgn = (f x).asgn ∧ PtOk nC (pc m dim data nc x) (g x)) ⟨f, h.arr, by simp, by simp⟩ (by
    intro i hi l ⟨g, q1, q2, q3⟩
    obtain ⟨p', p1, p2, p3⟩ := moveBounds_spec hs (v := comp data dim i) (C := comp s.centers dim) (C' := comp nc dim) b2 (h.ok i hi)
    simp only [Option.bind_eq_bind, q1.rd hi, Option.bind_some, q2 i hi (le_refl _), p1]
    obtain ⟨l', w1, w2⟩ := q1.wr hi p'
    refine ⟨l', w1, _, w2, fun x hx hix => ?_, fun x hx => ?_⟩
    · unfold upd1; rw [if_neg (by omega)]; exact q2 x hx (by omega)
    · unfold upd1
      by_cases e : x = i
      · rw [if_pos e, e]; exact ⟨p2, p3⟩
      · rw [if_neg e]; exact q3 x (by omega))
  obtain ⟨rr, i1, f', i2, i3, i4, i5⟩ := iter_inv (n := N) (f := fun x (r : List (Pt K) × Bool) => do
    let p ← rd r.1 x
    let v ← AllPairs.slice data ((x * dim : Nat) : Int) dim
    let p' ← reassign m dim nC nc cd next v p
    let pts ← wr r.1 x p'.1
    some (pts, r.2 && !p'.2)) (s := (pts, true))
    (fun i (r : List (Pt K) × Bool) => ∃ f' : Nat → Pt K, Arr r.1 N f' ∧ (∀ x < N, i ≤ x → f' x = g x) ∧
      (∀ x < i, PtOk nC (pc m dim data nc x) (f' x) ∧ ∀ c < nC, pc m dim data nc x (f' x).asgn ≤ pc m dim data nc x c) ∧
      (r.2 = true → ∀ x < i, (f' x).asgn = (g x).asgn)) ⟨g, g2, by simp, by simp, by simp⟩ (by
    intro i hi r ⟨f', q1, q2, q3, q4⟩
    obtain ⟨p', p1, p2, p3, p4⟩ := reassign_spec (geo_spec m dim nC data nc i) (point_spec hd a2 hi) c3 d2 (g4 i hi).2
    have hx : AllPairs.slice data ((i * dim : Nat) : Int) dim = some (AllPairs.vec data dim i) := AllPairs.slice_vec hd hi rfl
    simp only [Option.bind_eq_bind, q1.rd hi, Option.bind_some, q2 i hi (le_refl _), hx, p1]
    obtain ⟨l', w1, w2⟩ := q1.wr hi p'.1
    rw [w1]
    simp only [Option.bind_some]
    refine ⟨_, rfl, _, w2, fun x hx hix => ?_, fun x hx => ?_, fun hb x hx => ?_⟩
    · unfold upd1; rw [if_neg (by omega)]; exact q2 x hx (by omega)
    · unfold upd1
      by_cases e : x = i
      · rw [if_pos e, e]; exact ⟨p2, p3⟩
      · rw [if_neg e]; exact q3 x (by omega)
    · simp only [Bool.and_eq_true, Bool.not_eq_true'] at hb
      unfold upd1
      by_cases e : x = i
      · rw [if_pos e, e]; exact p4 hb.2
      · rw [if_neg e]; exact q4 hb.1 x (by omega))
  unfold elkanIter
  simp only [Option.bind_eq_bind] at g1 i1
  simp only [Option.bind_eq_bind, a1, Option.bind_some, b1, c1, d1, g1, i1]
  obtain ⟨F, F1, _⟩ := d2
  refine ⟨_, _, f', rfl, ⟨⟨a2, h.sizes.centers, c2, b2.len, F1.len, i2.len⟩, i2, fun x hx => (i4 x hx).1, fun x hx => (i4 x hx).2⟩,
    fun e e' he he' => ?_, a4, fun hb x hx => by rw [i5 hb x hx, (g4 x hx).1]⟩
  rw [IsEnergy.unique he h.isEnergy]
  exact le_trans (he'.le_cost fun x hx => (h.ok x hx).asgn) a3

/-- `t` does not have a larger energy than `s`. -/
def EnergyLe (m : Metric) (dim nC N : Nat) (data : List K) (s t : EState K ρ) : Prop :=
  ∀ e e', IsEnergy m dim nC N data s.centers e → IsEnergy m dim nC N data t.centers e' → e' ≤ e

theorem elkanLoop_correct {sqrt : K → K} (hs : m = .l2 → IsSqrt sqrt) {u : ρ → Nat → Nat × ρ}
    (hu : ∀ r n, 0 < n → (u r n).1 < n) (hC : 0 < nC) (hCN : nC ≤ N) (hdim : 0 < dim) (hd : data.length = N * dim)
    {perms : List (List Nat)} (hp : m = .l1 → sortData data dim N dim = some perms) :
    ∀ (rem : Nat) (s : EState K ρ) (f : Nat → Pt K), EOk m dim nC N data s f →
    ∃ tr s' f', elkanLoop sqrt u m dim nC N data perms rem s = some (tr, s') ∧ EOk m dim nC N data s' f' ∧
      tr.getLast? = some s' ∧ tr.length ≤ rem + 1 ∧ (s :: tr).Pairwise (EnergyLe m dim nC N data) ∧
      (∀ t ∈ tr, t.Exact m dim nC N data) ∧
      (tr.length ≤ rem → ∃ t, (s :: tr).dropLast.getLast? = some t ∧ t.pts.map Pt.asgn = s'.pts.map Pt.asgn) := by
  intro rem
  have hdone : ∀ {s s' : EState K ρ} {f f' : Nat → Pt K}, EOk m dim nC N data s f → EOk m dim nC N data s' f' →
      (∀ x < N, (f' x).asgn = (f x).asgn) → s.pts.map Pt.asgn = s'.pts.map Pt.asgn := fun h h' he =>
    (map_arr h.arr).eq ((map_arr h'.arr).congr he)
  induction rem with
  | zero =>
    intro s f h
    obtain ⟨s', b, f', e1, e2, e3, _, e5⟩ := elkanIter_correct hs hu hC hCN hdim hd hp h
    unfold elkanLoop
    simp only [Option.bind_eq_bind, e1, Option.bind_some]
    exact ⟨_, _, f', rfl, e2, rfl, by simp, by simpa [EnergyLe] using e3, by simpa using e2.exact, by simp⟩
  | succ rem ih =>
    intro s f h
    obtain ⟨s', b, f', e1, e2, e3, _, e5⟩ := elkanIter_correct hs hu hC hCN hdim hd hp h
    unfold elkanLoop
    simp only [Option.bind_eq_bind, e1, Option.bind_some]
    by_cases hb : b = true
    · rw [if_pos hb]
      exact ⟨_, _, f', rfl, e2, rfl, by simp, by simpa [EnergyLe] using e3, by simpa using e2.exact,
        fun _ => ⟨s, rfl, hdone h e2 (e5 hb)⟩⟩
    · rw [if_neg hb]
      obtain ⟨tr, s'', f'', i1, i2, i3, i4, i5, i6, i7⟩ := ih s' f' e2
      rw [i1]
      refine ⟨_, _, f'', rfl, i2, ?_, by simp; omega, ?_, ?_, fun hl => ?_⟩
      · cases tr with
        | nil => simp at i3
        | cons y l => simpa using i3
      · rw [List.pairwise_cons]
        refine ⟨fun t ht => ?_, i5⟩
        rcases List.mem_cons.mp ht with rfl | ht
        · exact e3
        · have h1 := (List.pairwise_cons.mp i5).1 t ht
          exact fun e e' he he' => le_trans (h1 _ e' e2.isEnergy he') (e3 e _ he e2.isEnergy)
      · intro t ht
        rcases List.mem_cons.mp ht with rfl | ht
        · exact e2.exact
        · exact i6 t ht
      · simp at hl
        obtain ⟨t, t1, t2⟩ := i7 hl
        refine ⟨t, ?_, t2⟩
        cases tr with
        | nil => simp at i3
        | cons y l => simpa [List.dropLast, List.getLast?_cons] using t1

/-- **C28.** Elkan's algorithm, with at least one centre and no more centres than points, with either distance: no undefined
behaviour; after the initial assignment and after *every* iteration each point is assigned to a nearest centre, in spite of
the distance computations skipped; the energy never increases; the value returned is the energy of the final centres; there
are at most `maxNumIterations + 1` assignments (two at least), and fewer only if the last one changed nothing. -/
theorem elkan_correct {sqrt : K → K} (hs : m = .l2 → IsSqrt sqrt) {u : ρ → Nat → Nat × ρ}
    (hu : ∀ r n, 0 < n → (u r n).1 < n) (hC : 0 < nC) (hCN : nC ≤ N) (hdim : 0 < dim) (hd : data.length = N * dim)
    (maxIt : Nat) (s : EState K ρ) (h : s.Sizes dim nC N) :
    ∃ tr e s', elkan sqrt u m dim nC N data maxIt s = some (tr, e, s') ∧
      (∀ t ∈ tr, t.Exact m dim nC N data) ∧ tr.Pairwise (EnergyLe m dim nC N data) ∧
      (∃ s0, tr.head? = some s0 ∧ s0.centers = s.centers) ∧ tr.getLast? = some s' ∧
      IsEnergy m dim nC N data s'.centers e ∧ s'.Sizes dim nC N ∧
      tr.length ≤ max maxIt 1 + 1 ∧
      (tr.length ≤ max maxIt 1 → ∃ t, tr.dropLast.getLast? = some t ∧ t.pts.map Pt.asgn = s'.pts.map Pt.asgn) := by
  have : ∃ perms, (match m with | .l1 => sortData data dim N dim | .l2 => some []) = some perms ∧
      (m = .l1 → sortData data dim N dim = some perms) := by
    cases m
    · obtain ⟨perms, e1, _, _⟩ := sortData_spec (by omega : 0 < N) data dim dim
      exact ⟨perms, e1, fun _ => e1⟩
    · exact ⟨[], rfl, by simp⟩
  obtain ⟨perms, h1, h2⟩ := this
  obtain ⟨cd, c1, c2, c3⟩ := table_spec (m := m) hdim h.centers h.cdist
  obtain ⟨pts, g1, g2, g3⟩ := iter_inv (n := N) (f := fun x pts => do
    let v ← AllPairs.slice data ((x * dim : Nat) : Int) dim
    let p ← initPoint m dim nC s.centers cd v
    wr pts x p) (s := s.pts)
    (fun i (l : List (Pt K)) => l.length = N ∧ ∀ x < i, ∃ p, l[x]? = some p ∧ PtOk nC (pc m dim data s.centers x) p ∧
      ∀ c < nC, pc m dim data s.centers x p.asgn ≤ pc m dim data s.centers x c) ⟨h.pts, by simp⟩ (by
    intro i hi l ⟨q1, q2⟩
    have hx : AllPairs.slice data ((i * dim : Nat) : Int) dim = some (AllPairs.vec data dim i) := AllPairs.slice_vec hd hi rfl
    obtain ⟨p, p1, p2, p3⟩ := initPoint_spec (geo_spec m dim nC data s.centers i) hC (point_spec hd h.centers hi) c3
    simp only [Option.bind_eq_bind, hx, Option.bind_some, p1]
    refine ⟨_, wr_of_lt (by omega) p, by simp [q1], fun x hx => ?_⟩
    by_cases e : x = i
    · subst e; exact ⟨p, by rw [List.getElem?_set_self (by omega)], p2, p3⟩
    · rw [List.getElem?_set_ne (by omega)]; exact q2 x (by omega))
  obtain ⟨f, hf⟩ : ∃ f : Nat → Pt K, Arr pts N f := ⟨_, Arr.of_len' g2 { asgn := 0, ub := 0, strict := true, lb := [] }⟩
  have hok : EOk m dim nC N data { s with cdist := cd, pts := pts } f := by
    refine ⟨⟨h.centers, h.newCenters, c2, h.c2n, h.next, g2⟩, hf, fun x hx => ?_, fun x hx => ?_⟩ <;>
    · obtain ⟨p, p1, p2, p3⟩ := g3 x hx
      rw [hf.get x hx] at p1
      cases p1
      first | exact p2 | exact p3
  obtain ⟨tr, s', f', i1, i2, i3, i4, i5, i6, i7⟩ := elkanLoop_correct hs hu hC hCN hdim hd h2 (maxIt - 1) _ f hok
  have hen : trueEnergy m dim N data s'.centers s'.pts = some (cost m dim N data s'.centers fun x => (f' x).asgn) := by
    obtain ⟨e, e1, e2⟩ := iter_inv (n := N) (f := fun x e => do
      let p ← rd s'.pts x
      let v ← AllPairs.slice data ((x * dim : Nat) : Int) dim
      let w ← AllPairs.slice s'.centers ((p.asgn * dim : Nat) : Int) dim
      some (e + m.dist v w)) (s := 0)
      (fun i (e : K) => e = ∑ x ∈ Finset.range i, pc m dim data s'.centers x (f' x).asgn) (by simp) (by
      intro i hi e he
      have hx : AllPairs.slice data ((i * dim : Nat) : Int) dim = some (AllPairs.vec data dim i) := AllPairs.slice_vec hd hi rfl
      obtain ⟨w, w1, w2⟩ := point_spec (m := m) hd i2.sizes.centers hi _ (i2.ok i hi).asgn
      simp only [Option.bind_eq_bind, i2.arr.rd hi, Option.bind_some, hx, w1, w2]
      exact ⟨_, rfl, by rw [Finset.sum_range_succ, he]⟩)
    unfold trueEnergy cost
    rw [e1, e2]
  have hrun : elkan sqrt u m dim nC N data maxIt s =
      some ({ s with cdist := cd, pts := pts } :: tr, cost m dim N data s'.centers fun x => (f' x).asgn, s') := by
    unfold elkan
    simp only [Option.bind_eq_bind] at g1
    cases m <;> simp only at h1 <;> simp only [Option.bind_eq_bind, h1, Option.bind_some, c1, g1, i1, hen]
  refine ⟨_, _, _, hrun, ?_, i5, ⟨_, rfl, rfl⟩, ?_, i2.isEnergy, i2.sizes, ?_, fun hl => ?_⟩
  · intro t ht
    rcases List.mem_cons.mp ht with rfl | ht
    · exact hok.exact
    · exact i6 t ht
  · cases tr with
    | nil => simp at i3
    | cons y l => simpa using i3
  · simp; omega
  · rw [List.length_cons] at hl
    exact i7 (by omega)

/-! ## Non-vacuity -/

/-- The real square root. -/
example : IsSqrt Real.sqrt := fun a h => ⟨Real.sqrt_nonneg a, Real.mul_self_sqrt h⟩

/-- Six points on a line, two centres: assignments and centres of each iteration. -/
example : (elkan (fun x => x) (fun r n => (n - 1, r)) .l1 1 2 6 [(0 : ℚ), 1, 2, 10, 11, 12] 100
    { centers := [0, 1], newCenters := [9, 9], cdist := [9, 9, 9, 9], c2n := [9, 9], next := [none, none],
      pts := List.replicate 6 { asgn := 7, ub := 9, strict := false, lb := [] }, rng := () }).map
    (fun r => (r.1.map (fun s => (s.centers, s.pts.map Pt.asgn)), r.2.1)) =
    some ([([0, 1], [0, 1, 1, 1, 1, 1]), ([0, 10], [0, 0, 0, 1, 1, 1]), ([1, 11], [0, 0, 0, 1, 1, 1])], 4) := by
  decide +kernel

end Verif.Kmeans
