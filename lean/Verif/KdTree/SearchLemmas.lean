import Verif.KdTree.QueryLemmas

/-! # Lemmas for C24: the branch and bound search -/

namespace Verif.KdTree

open Heap

variable {K : Type} [Field K] [LinearOrder K]

/-- An entry of the search heap stands for a subtree with the given shape and points, with the squared distance to its box as
lower bound. -/
def SubOf (F : Forest K) (q : List K) (x : SearchState K) (l : Shape × List Nat) : Prop :=
  ∃ t b e lo hi, F.trees[x.tree]? = some t ∧ IsTree F.dim F.data t.nodes t.dataIndex l.1 x.nodeIndex b e ∧
    Bounded t.nodes l.1 x.nodeIndex lo hi ∧ e ≤ t.dataIndex.length ∧ l.2 = ptsIn t.dataIndex b e ∧
    (∀ p ∈ l.2, p < F.numData ∧ InBox F.dim F.data p lo hi) ∧ x.lowerBound = boxDist F.dim q lo hi

/-- The lower bounds used by the search are lower bounds, and the number of comparisons is not limited. -/
def Exact (F : Forest K) (q : List K) : Prop :=
  F.maxComparisons = 0 ∧ ∀ p lo hi, p < F.numData → InBox F.dim F.data p lo hi → boxDist F.dim q lo hi ≤ ptDist F q p

/-- Number of nodes of the subtrees in the heap. -/
def budget (L : List (Shape × List Nat)) : Nat := (L.map (fun l => l.1.size)).sum

/-- A point is in one of the subtrees. -/
def InL (L : List (Shape × List Nat)) (p : Nat) : Prop := ∃ l ∈ L, p ∈ l.2

theorem budget_length (L : List (Shape × List Nat)) : L.length ≤ budget L := by
  induction L with
  | nil => simp [budget]
  | cons a L ih =>
    have := a.1.size_pos
    simp only [budget, List.map_cons, List.sum_cons, List.length_cons] at ih ⊢
    omega

theorem budget_cons (a : Shape × List Nat) (L : List (Shape × List Nat)) : budget (a :: L) = a.1.size + budget L := by
  simp [budget]

theorem budget_perm {L L' : List (Shape × List Nat)} (h : L.Perm L') : budget L = budget L' :=
  (h.map _).sum_eq

theorem InL_perm {L L' : List (Shape × List Nat)} (h : L.Perm L') (p : Nat) : InL L p ↔ InL L' p := by
  unfold InL
  constructor
  · rintro ⟨l, h1, h2⟩; exact ⟨l, h.mem_iff.1 h1, h2⟩
  · rintro ⟨l, h1, h2⟩; exact ⟨l, h.mem_iff.2 h1, h2⟩

/-- Invariant of the search heap. -/
structure HI (F : Forest K) (q : List K) (h : Heap.State (SearchState K)) (L : List (Shape × List Nat)) : Prop where
  valid : h.Valid cmpSearch
  len : h.arr.length = F.maxNumNodes
  sub : List.Forall₂ (SubOf F q) h.content L

theorem HI.size {F : Forest K} {q : List K} {h : Heap.State (SearchState K)} {L : List (Shape × List Nat)} (hh : HI F q h L) :
    h.size = L.length := by
  rw [← hh.sub.length_eq, State.content, List.length_take]
  have := hh.valid.1
  omega

theorem push_HI {F : Forest K} {q : List K} {h : Heap.State (SearchState K)} {L : List (Shape × List Nat)} (hh : HI F q h L)
    {x : SearchState K} {l : Shape × List Nat} (hx : SubOf F q x l) (hb : budget L < F.maxNumNodes) :
    ∃ h' L', step cmpSearch h (.push x) = some h' ∧ HI F q h' L' ∧ L'.Perm (l :: L) := by
  obtain ⟨h', a1, a2, ⟨a3, a4⟩, a5, -⟩ := step_correct threeWay_cmpSearch h (.push x) hh.valid
    (by
      simp only [Legal]
      rw [hh.len, hh.size]
      exact Nat.lt_of_le_of_lt (budget_length L) hb)
  obtain ⟨L', b1, b2⟩ := List.perm_comp_forall₂ a4 (List.Forall₂.cons hx hh.sub)
  exact ⟨h', L', a1, ⟨a2, a5.trans hh.len, b1⟩, b2⟩

theorem pop_HI {F : Forest K} {q : List K} {h : Heap.State (SearchState K)} {L : List (Shape × List Nat)} (hh : HI F q h L)
    (h0 : h.size ≠ 0) :
    ∃ h' x l L', step cmpSearch h .pop = some h' ∧ rd h'.arr h'.size = some x ∧ HI F q h' L' ∧ SubOf F q x l ∧
      L.Perm (l :: L') ∧ ∀ y ∈ h.content, x.lowerBound ≤ y.lowerBound := by
  obtain ⟨h', a1, a2, ⟨a3, m, a4, a5, a6⟩, a7, -⟩ := step_correct threeWay_cmpSearch h .pop hh.valid
    (by simp only [Legal]; omega)
  obtain ⟨L1, b1, b2⟩ := List.perm_comp_forall₂ a6 hh.sub
  cases b1 with
  | cons hx hs =>
    rename_i l L'
    exact ⟨h', m, l, L', a1, by rw [rd_getElem?, a4], ⟨a2, a7.trans hh.len, hs⟩, hx, b2.symm, fun y hy => cmpSearch_le (a5.2 y hy)⟩

variable [IsStrictOrderedRing K]

omit [IsStrictOrderedRing K] in
theorem update_get {α : Type} (f : Nat → α) (i d : Nat) (v : α) : Function.update f i v d = if d = i then v else f d := by
  rw [Function.update_apply]

omit [IsStrictOrderedRing K] in
theorem inBox_hi {dim : Nat} {data : List K} {p i : Nat} {lo hi : Nat → Option K} {t : K} (h : InBox dim data p lo hi)
    (hc : coord dim data p i ≤ t) : InBox dim data p lo (Function.update hi i (some t)) := by
  intro d hd
  refine ⟨(h d hd).1, ?_⟩
  rw [update_get]
  split
  · rename_i c; subst c
    intro u hu
    rw [Option.mem_def, Option.some.injEq] at hu
    rw [← hu]; exact hc
  · exact (h d hd).2

omit [IsStrictOrderedRing K] in
theorem inBox_lo {dim : Nat} {data : List K} {p i : Nat} {lo hi : Nat → Option K} {t : K} (h : InBox dim data p lo hi)
    (hc : t ≤ coord dim data p i) : InBox dim data p (Function.update lo i (some t)) hi := by
  intro d hd
  refine ⟨?_, (h d hd).2⟩
  rw [update_get]
  split
  · rename_i c; subst c
    intro u hu
    rw [Option.mem_def, Option.some.injEq] at hu
    rw [← hu]; exact hc
  · exact (h d hd).1

omit [Field K] [LinearOrder K] [IsStrictOrderedRing K] in
theorem ptsIn_ne {idx : List (Entry K)} {b e : Nat} (h : b < e) (he : e ≤ idx.length) : ∃ p, p ∈ ptsIn idx b e :=
  ⟨idx[b].index, mem_ptsIn.2 ⟨b, idx[b], Nat.le_refl _, h, List.getElem?_eq_getElem (by omega), rfl⟩⟩

/-- The two children of an internal node: the one visited next keeps the lower bound and the other one gets `saveDist`. -/
theorem SubOf.children {F : Forest K} {q : List K} {x : SearchState K} {l r : Shape} {pts : List Nat}
    (hq : q.length = F.dim) (h : SubOf F q x (.node l r, pts)) :
    ∃ t nd qx sn sv pn ps, F.trees[x.tree]? = some t ∧ t.nodes[x.nodeIndex]? = some nd ∧ rd q nd.splitDimension = some qx ∧
      ¬ nd.lowerChild < 0 ∧ sn.size + sv.size + 1 = (Shape.node l r).size ∧ (sn = l ∨ sn = r) ∧
      (∀ p, p ∈ pts ↔ p ∈ pn ∨ p ∈ ps) ∧
      SubOf F q { tree := x.tree, nodeIndex := (if qx ≤ nd.splitThreshold then nd.lowerChild else nd.upperChild).toNat,
                  lowerBound := x.lowerBound } (sn, pn) ∧
      SubOf F q { tree := x.tree, nodeIndex := (if qx ≤ nd.splitThreshold then nd.upperChild else nd.lowerChild).toNat,
                  lowerBound := saveDist x.lowerBound qx nd.lowerBound nd.splitThreshold nd.upperBound } (sv, ps) := by
  obtain ⟨t, b, e, lo, hi, h1, h2, h3, h4, h5, h6, h7⟩ := h
  simp only at h1 h2 h3 h5 h6
  obtain ⟨nd, m, c1, c2, n1, n2, n3, n4, n5, n6, n7, n8, tl, tr⟩ := h2
  obtain ⟨nd', m1, m2, m3, m4, m5⟩ := h3
  rw [n1] at m1
  cases m1
  have hbm := tl.lt
  have hme := tr.lt
  have happ := ptsIn_append t.dataIndex (Nat.le_of_lt hbm) (Nat.le_of_lt hme)
  have hL : ∀ p ∈ ptsIn t.dataIndex b m, p ∈ pts := fun p hp => by rw [h5, happ]; exact List.mem_append_left _ hp
  have hR : ∀ p ∈ ptsIn t.dataIndex m e, p ∈ pts := fun p hp => by rw [h5, happ]; exact List.mem_append_right _ hp
  have hint : InInterval nd.splitThreshold (lo nd.splitDimension) (hi nd.splitDimension) := by
    constructor
    · intro u hu
      obtain ⟨p, hp⟩ := ptsIn_ne hbm (by omega : m ≤ t.dataIndex.length)
      exact (((h6 p (hL p hp)).2 _ n6).1 u hu).trans (n7 p hp)
    · intro u hu
      obtain ⟨p, hp⟩ := ptsIn_ne hme h4
      exact (n8 p hp).trans (((h6 p (hR p hp)).2 _ n6).2 u hu)
  have hqx : nd.splitDimension < q.length := by omega
  have hget : q.getD nd.splitDimension 0 = q[nd.splitDimension] := by
    rw [List.getD_eq_getElem?_getD, List.getElem?_eq_getElem hqx]; rfl
  have hiff : ∀ p, p ∈ pts ↔ p ∈ ptsIn t.dataIndex b m ∨ p ∈ ptsIn t.dataIndex m e := by
    intro p; rw [h5, happ, List.mem_append]
  by_cases hle : q[nd.splitDimension] ≤ nd.splitThreshold
  · obtain ⟨a1, a2⟩ := axis_le hint hle
    refine ⟨t, nd, q[nd.splitDimension], l, r, ptsIn t.dataIndex b m, ptsIn t.dataIndex m e, h1, n1, rd_of_lt hqx,
      by rw [n2]; omega, by simp only [Shape.size]; omega, Or.inl rfl, hiff, ?_, ?_⟩
    · rw [if_pos hle]
      refine ⟨t, b, m, lo, Function.update hi nd.splitDimension (some nd.splitThreshold), h1, by simpa [n2] using tl, m4, by omega,
        rfl, fun p hp => ⟨(h6 p (hL p hp)).1, inBox_hi (h6 p (hL p hp)).2 (n7 p hp)⟩, ?_⟩
      rw [boxDist_update_hi n6, hget, a1]
      simp only [h7]; ring
    · rw [if_pos hle]
      refine ⟨t, m, e, Function.update lo nd.splitDimension (some nd.splitThreshold), hi, h1, by simpa [n3] using tr, m5, h4,
        rfl, fun p hp => ⟨(h6 p (hR p hp)).1, inBox_lo (h6 p (hR p hp)).2 (n8 p hp)⟩, ?_⟩
      rw [boxDist_update_lo n6, hget]
      simp only
      rw [m2, m3, a2, h7]
  · obtain ⟨a1, a2⟩ := axis_gt hint (not_le.1 hle)
    refine ⟨t, nd, q[nd.splitDimension], r, l, ptsIn t.dataIndex m e, ptsIn t.dataIndex b m, h1, n1, rd_of_lt hqx,
      by rw [n2]; omega, by simp only [Shape.size]; omega, Or.inr rfl, fun p => (hiff p).trans or_comm, ?_, ?_⟩
    · rw [if_neg hle]
      refine ⟨t, m, e, Function.update lo nd.splitDimension (some nd.splitThreshold), hi, h1, by simpa [n3] using tr, m5, h4,
        rfl, fun p hp => ⟨(h6 p (hR p hp)).1, inBox_lo (h6 p (hR p hp)).2 (n8 p hp)⟩, ?_⟩
      rw [boxDist_update_lo n6, hget, a1]
      simp only [h7]; ring
    · rw [if_neg hle]
      refine ⟨t, b, m, lo, Function.update hi nd.splitDimension (some nd.splitThreshold), h1, by simpa [n2] using tl, m4, by omega,
        rfl, fun p hp => ⟨(h6 p (hL p hp)).1, inBox_hi (h6 p (hL p hp)).2 (n7 p hp)⟩, ?_⟩
      rw [boxDist_update_hi n6, hget]
      simp only
      rw [m2, m3, a2, h7]

omit [IsStrictOrderedRing K] in
theorem SubOf.lb {F : Forest K} {q : List K} {x : SearchState K} {l : Shape × List Nat} (h : SubOf F q x l) (hE : Exact F q) :
    ∀ p ∈ l.2, x.lowerBound ≤ ptDist F q p := by
  obtain ⟨t, b, e, lo, hi, h1, h2, h3, h4, h5, h6, h7⟩ := h
  intro p hp
  rw [h7]
  exact hE.2 p lo hi (h6 p hp).1 (h6 p hp).2

omit [IsStrictOrderedRing K] in
/-- The neighbour at the top of a full heap is the farthest one. -/
theorem full_top {F : Forest K} {id : Nat} {q : List K} {k : Nat} {nb : Heap.State (Neighbor K)} {book : List Nat}
    (hk : 0 < k) (h : NI F id q k nb book) (hsz : ¬ nb.size < k) :
    ∃ top d, rd nb.arr 0 = some top ∧ top.distance = some d ∧ nb.size = k ∧ ∀ y ∈ nb.content, y.distance.getD 0 ≤ d := by
  have hsize : nb.size = k := by
    have := h.valid.1
    rw [h.len] at this
    omega
  obtain ⟨top, t, ht, hc⟩ := content_ne h.valid.1 (by omega)
  obtain ⟨pt, hpt, ept, bpt⟩ := h.mem top (by rw [hc]; simp)
  refine ⟨top, ptDist F q pt, by rw [rd_getElem?, ht], by rw [ept]; rfl, hsize, fun y hy => ?_⟩
  have := cmpNeighbor_le (top_min threeWay_cmpNeighbor h.valid ht y hy)
  rw [ept] at this
  exact this

/-- A run of `vl_kdforest_query_recursively`. -/
theorem queryRec_spec {F : Forest K} {id : Nat} {q : List K} {k : Nat} (hk : 0 < k) (hd : 0 < F.dim)
    (hdata : F.data.length = F.numData * F.dim) (hq : q.length = F.dim) :
    ∀ (fuel : Nat) (sh : Shape) (pts : List Nat) (ti ni : Nat) (dist : K) (s : QState K) (L : List (Shape × List Nat)),
      sh.size ≤ fuel → SubOf F q { tree := ti, nodeIndex := ni, lowerBound := dist } (sh, pts) → QI F id q k s → HI F q s.heap L →
      budget L + sh.size ≤ F.maxNumNodes →
      ∃ s' L', queryRec F id q k fuel ti ni dist s = some s' ∧ QI F id q k s' ∧ HI F q s'.heap L' ∧
        budget L' + 1 ≤ budget L + sh.size ∧ Mono F q k s s' ∧
        (Exact F q → ∀ p, p ∈ pts ∨ InL L p → Settled F q k s'.nb p ∨ InL L' p) ∧ 1 ≤ s'.numComparisons := by
  intro fuel
  induction fuel with
  | zero =>
    intro sh pts ti ni dist s L hf
    have := sh.size_pos
    omega
  | succ fuel ih =>
    intro sh pts ti ni dist s L hf hsub hqi hhi hb
    cases sh with
    | leaf =>
      obtain ⟨t, b, e, lo, hi, h1, ⟨nd, n1, n2, n3, n4, n5⟩, h3, h4, h5, h6, h7⟩ := hsub
      simp only at h1 n1 h5 h6
      unfold queryRec
      rw [rd_getElem?, h1]
      simp only [Option.bind_eq_bind, Option.bind_some]
      rw [rd_getElem?, n1]
      simp only [Option.bind_some]
      rw [rd_of_lt (by rw [n4]; omega)]
      simp only [Option.bind_some]
      rw [if_pos (by rw [n2]; omega), n2, n3, show (-(-(b : Int) - 1) - 1).toNat = b by omega,
        show (-(-(e : Int) - 1) - 1).toNat = e by omega]
      obtain ⟨s', e1, a1, a2, a3, a4, a5⟩ := leafLoop_spec hk hdata h4 (fun p hp => (h6 p (by rw [h5]; exact hp)).1) hqi
      refine ⟨s', L, e1, a1, by rw [a2]; exact hhi, Nat.le_refl _, a3, ?_, a5 n5⟩
      rintro hE p (hp | hp)
      · exact Or.inl (a4 hE.1 p (by rw [← h5]; exact hp))
      · exact Or.inr hp
    | node l r =>
      obtain ⟨t, nd, qx, sn, sv, pn, ps, h1, h2, h3, h4, h5, h5', h6, h7, h8⟩ := hsub.children hq
      simp only at h1 h2 h7 h8
      unfold queryRec
      rw [rd_getElem?, h1]
      simp only [Option.bind_eq_bind, Option.bind_some]
      rw [rd_getElem?, h2]
      simp only [Option.bind_some]
      rw [h3]
      simp only [Option.bind_some]
      rw [if_neg h4]
      have hsv := sv.size_pos
      have hsn := sn.size_pos
      have hpush := push_HI hhi h8 (by omega)
      have hcont : ∀ (heap : Heap.State (SearchState K)) (L1 : List (Shape × List Nat)), HI F q heap L1 →
          budget L1 ≤ budget L + sv.size →
          (Exact F q → ∀ p, p ∈ ps ∨ InL L p → Settled F q k s.nb p ∨ InL L1 p) →
          ∃ s' L', queryRec F id q k fuel ti (if qx ≤ nd.splitThreshold then nd.lowerChild else nd.upperChild).toNat dist
              { s with heap := heap } = some s' ∧ QI F id q k s' ∧ HI F q s'.heap L' ∧
            budget L' + 1 ≤ budget L + (Shape.node l r).size ∧ Mono F q k s s' ∧
            (Exact F q → ∀ p, p ∈ pts ∨ InL L p → Settled F q k s'.nb p ∨ InL L' p) ∧ 1 ≤ s'.numComparisons := by
        intro heap L1 g1 g2 g3
        obtain ⟨s', L', e1, a1, a2, a3, a4, a5, a6⟩ := ih sn pn ti _ dist { s with heap := heap } L1 (by omega) h7
          ⟨hqi.ni, hqi.cmps, hqi.cnt⟩ g1 (by omega)
        refine ⟨s', L', e1, a1, a2, by omega, a4, ?_, a6⟩
        intro hE p hp
        have : p ∈ pn ∨ (p ∈ ps ∨ InL L p) := by
          rcases hp with c | c
          · rcases (h6 p).1 c with c | c
            · exact Or.inl c
            · exact Or.inr (Or.inl c)
          · exact Or.inr (Or.inr c)
        rcases this with c | c
        · exact a5 hE p (Or.inl c)
        · rcases g3 hE p c with c | c
          · exact Or.inl (a4 p c)
          · exact a5 hE p (Or.inr c)
      obtain ⟨h', L1, p1, p2, p3⟩ := hpush
      have hyes := hcont h' L1 p2 (by rw [budget_perm p3, budget_cons]; simp only; omega)
        (fun _ p hp => Or.inr (by
          rw [InL_perm p3]
          rcases hp with c | ⟨l0, c1, c2⟩
          · exact ⟨(sv, ps), by simp, c⟩
          · exact ⟨l0, by simp [c1], c2⟩))
      unfold worth
      by_cases hsz : s.nb.size < k
      · rw [if_pos hsz]
        simp only [Option.bind_some, if_true]
        rw [p1]
        simp only [Option.bind_some]
        exact hyes
      · rw [if_neg hsz]
        obtain ⟨top, d, t1, t2, t3, t4⟩ := full_top hk hqi.ni hsz
        rw [t1]
        simp only [Option.bind_eq_bind, Option.bind_some]
        rw [t2]
        simp only [gtNan]
        by_cases hw : saveDist dist qx nd.lowerBound nd.splitThreshold nd.upperBound < d
        · simp only [hw, decide_true, if_true]
          rw [p1]
          simp only [Option.bind_some]
          exact hyes
        · simp only [hw, decide_false, Bool.false_eq_true, if_false, Option.bind_some]
          refine hcont s.heap L hhi (by omega) ?_
          rintro hE p (hp | hp)
          · left
            right
            refine ⟨t3, fun y hy => (t4 y hy).trans ((not_lt.1 hw).trans (h8.lb hE p hp))⟩
          · exact Or.inr hp

/-- A run of the branch and bound loop. -/
theorem mainLoop_spec {F : Forest K} {id : Nat} {q : List K} {k : Nat} (hk : 0 < k) (hd : 0 < F.dim)
    (hdata : F.data.length = F.numData * F.dim) (hq : q.length = F.dim) :
    ∀ (fuel : Nat) (s : QState K) (L : List (Shape × List Nat)), budget L < fuel → budget L ≤ F.maxNumNodes →
      QI F id q k s → HI F q s.heap L →
      ∃ s', mainLoop F id q k (F.maxNumNodes + 1) fuel s = some s' ∧ QI F id q k s' ∧ s'.heap.arr.length = F.maxNumNodes ∧
        Mono F q k s s' ∧ (Exact F q → ∀ p, InL L p → Settled F q k s'.nb p) ∧ (1 ≤ s.numComparisons ∨ L ≠ [] → 1 ≤ s'.numComparisons) := by
  intro fuel
  induction fuel with
  | zero => intro s L h; omega
  | succ fuel ih =>
    intro s L hf hM hqi hhi
    unfold mainLoop
    by_cases hlim : F.maxComparisons = 0 ∨ s.numComparisons < F.maxComparisons
    · rw [if_pos hlim]
      by_cases h0 : s.heap.size = 0
      · rw [if_pos h0]
        refine ⟨s, rfl, hqi, hhi.len, fun _ h => h, ?_, fun hor => hor.resolve_right (by rw [hhi.size] at h0; simpa using h0)⟩
        rintro - p ⟨l, hl, -⟩
        rw [hhi.size] at h0
        rw [List.length_eq_zero_iff.1 h0] at hl
        simp at hl
      · rw [if_neg h0]
        obtain ⟨h', x, l, L', a1, a2, a3, a4, a5, a6⟩ := pop_HI hhi h0
        rw [a1]
        simp only [Option.bind_eq_bind, Option.bind_some]
        rw [a2]
        simp only [Option.bind_some]
        have hbud : budget L = l.1.size + budget L' := by rw [budget_perm a5, budget_cons]
        have hrec : ∃ s', (queryRec F id q k (F.maxNumNodes + 1) x.tree x.nodeIndex x.lowerBound { s with heap := h' }).bind
            (fun s => mainLoop F id q k (F.maxNumNodes + 1) fuel s) = some s' ∧ QI F id q k s' ∧ s'.heap.arr.length = F.maxNumNodes ∧
            Mono F q k s s' ∧ (Exact F q → ∀ p, InL L p → Settled F q k s'.nb p) ∧ (1 ≤ s.numComparisons ∨ L ≠ [] → 1 ≤ s'.numComparisons) := by
          obtain ⟨s1, L1, e1, b1, b2, b3, b4, b5, b6⟩ := queryRec_spec (id := id) hk hd hdata hq (F.maxNumNodes + 1) l.1 l.2 x.tree x.nodeIndex
            x.lowerBound { s with heap := h' } L' (by omega) a4 ⟨hqi.ni, hqi.cmps, hqi.cnt⟩ a3 (by omega)
          rw [e1]
          simp only [Option.bind_some]
          obtain ⟨s2, e2, c1, c2, c3, c4, c5⟩ := ih s1 L1 (by omega) (by omega) b1 b2
          refine ⟨s2, e2, c1, c2, fun p hp => c3 p (b4 p hp), ?_, fun _ => c5 (Or.inl b6)⟩
          intro hE p hp
          rw [InL_perm a5] at hp
          obtain ⟨l0, g1, g2⟩ := hp
          have : p ∈ l.2 ∨ InL L' p := by
            rcases List.mem_cons.1 g1 with c | c
            · left; rw [← c]; exact g2
            · right; exact ⟨l0, c, g2⟩
          rcases b5 hE p this with c | c
          · exact c3 p c
          · exact c4 hE p c
        unfold finished
        by_cases hfull : s.nb.size = k
        · rw [if_pos hfull]
          obtain ⟨top, d, t1, t2, t3, t4⟩ := full_top hk hqi.ni (by omega)
          rw [t1]
          simp only [Option.bind_eq_bind, Option.bind_some]
          rw [t2]
          simp only [ltNan]
          by_cases hw : d < x.lowerBound
          · simp only [hw, decide_true, if_true]
            refine ⟨_, rfl, ⟨hqi.ni, hqi.cmps, hqi.cnt⟩, a3.len, fun _ h => h, ?_, fun _ => by have := hqi.cnt; simp only; omega⟩
            rintro hE p ⟨l0, g1, g2⟩
            right
            refine ⟨t3, fun y hy => (t4 y hy).trans ?_⟩
            obtain ⟨y', hy1, hy2⟩ : ∃ y' ∈ s.heap.content, SubOf F q y' l0 := by
              have := hhi.sub
              obtain ⟨i, hi⟩ := List.mem_iff_getElem.1 g1
              obtain ⟨hi, rfl⟩ := hi
              have hi' : i < s.heap.content.length := by rw [this.length_eq]; exact hi
              exact ⟨s.heap.content[i], List.getElem_mem hi', (List.forall₂_iff_get.1 this).2 i hi' hi⟩
            exact (le_of_lt hw).trans ((a6 y' hy1).trans (hy2.lb hE p g2))
          · simp only [hw, decide_false, Bool.false_eq_true, if_false]
            exact hrec
        · rw [if_neg hfull]
          simp only [Option.bind_some]
          exact hrec
    · rw [if_neg hlim]
      exact ⟨s, rfl, hqi, hhi.len, fun _ h => h, fun hE => absurd (Or.inl hE.1) hlim, fun _ => by omega⟩

end Verif.KdTree
