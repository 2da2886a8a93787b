import Verif.KdTree.BoxLemmas
import Verif.KdTree.QuerySpec
import Mathlib.Data.List.Perm.Basic
import Mathlib.Data.List.Forall2
import Mathlib.Data.List.Nodup

/-! # Lemmas for C24: invariants of a query -/

namespace Verif.KdTree

open Heap

variable {K : Type} [Field K] [LinearOrder K]

omit [Field K] in
theorem threeWay_cmpSearch : ThreeWay (cmpSearch (K := K)) := by
  constructor
  · intro a b
    unfold cmpSearch
    rcases lt_trichotomy a.lowerBound b.lowerBound with h | h | h
    · simp [h, not_lt_of_gt h]
    · simp [h]
    · simp [h, not_lt_of_gt h]
  · intro a b c
    unfold cmpSearch
    rcases lt_trichotomy a.lowerBound b.lowerBound with h | h | h <;> rcases lt_trichotomy b.lowerBound c.lowerBound with g | g | g
    · simp [h, g, h.trans g]
    · simp [← g, h]
    · simp [g, not_lt_of_gt g]
    · simp [h, g]
    · simp [h, g]
    · simp [g, not_lt_of_gt g]
    · simp [h, not_lt_of_gt h]
    · simp [h, not_lt_of_gt h]
    · simp [h, not_lt_of_gt h]

theorem threeWay_cmpNeighbor : ThreeWay (cmpNeighbor (K := K)) := by
  constructor
  · intro a b
    unfold cmpNeighbor
    rcases lt_trichotomy (a.distance.getD 0) (b.distance.getD 0) with h | h | h
    · simp [h, not_lt_of_gt h]
    · simp [h]
    · simp [h, not_lt_of_gt h]
  · intro a b c
    unfold cmpNeighbor
    rcases lt_trichotomy (a.distance.getD 0) (b.distance.getD 0) with h | h | h <;>
      rcases lt_trichotomy (b.distance.getD 0) (c.distance.getD 0) with g | g | g
    · simp [h, not_lt_of_gt h]
    · simp [h, not_lt_of_gt h]
    · simp [h, not_lt_of_gt h]
    · simp [g, not_lt_of_gt g]
    · simp [h, g]
    · simp [h, g]
    · simp [g, not_lt_of_gt g]
    · simp [← g, h]
    · simp [h, g, g.trans h]

omit [Field K] in
theorem cmpSearch_le {x y : SearchState K} (h : cmpSearch x y ≤ 0) : x.lowerBound ≤ y.lowerBound := by
  unfold cmpSearch at h
  split at h
  · rename_i c; exact le_of_lt c
  · split at h
    · omega
    · rename_i c; exact not_lt.1 c

theorem cmpNeighbor_le {x y : Neighbor K} (h : cmpNeighbor x y ≤ 0) : y.distance.getD 0 ≤ x.distance.getD 0 := by
  unfold cmpNeighbor at h
  split at h
  · rename_i c; exact le_of_lt c
  · split at h
    · omega
    · rename_i c; exact not_lt.1 c

omit [Field K] [LinearOrder K] in
theorem top_min {α : Type} {cmp : α → α → Int} (h : ThreeWay cmp) {s : Heap.State α} (hv : s.Valid cmp) {top : α}
    (ht : s.arr[0]? = some top) : ∀ y ∈ s.content, cmp top y ≤ 0 := by
  intro y hy
  obtain ⟨hn, hh⟩ := hv
  rw [State.content, isHeap_take hn] at hh
  rw [State.content, List.mem_iff_getElem?] at hy
  obtain ⟨i, hi⟩ := hy
  rw [List.getElem?_take] at hi
  split at hi
  · rename_i hin
    have := root_min h hh i hin
    rw [ht, hi] at this
    exact this
  · simp at hi

/-! ### The neighbours -/

/-- The point is among the neighbours, or is not closer than any of the full set of neighbours. -/
def Settled (F : Forest K) (q : List K) (k : Nat) (nb : Heap.State (Neighbor K)) (p : Nat) : Prop :=
  nbOf F q p ∈ nb.content ∨ (nb.size = k ∧ ∀ y ∈ nb.content, y.distance.getD 0 ≤ ptDist F q p)

/-- Invariant of the neighbours and of the book of visited points. -/
structure NI (F : Forest K) (id : Nat) (q : List K) (k : Nat) (nb : Heap.State (Neighbor K)) (book : List Nat) : Prop where
  valid : nb.Valid cmpNeighbor
  len : nb.arr.length = k
  blen : book.length = F.numData
  ids : ∀ v ∈ book, v ≤ id
  mem : ∀ y ∈ nb.content, ∃ p < F.numData, y = nbOf F q p ∧ book[p]? = some id
  nodup : nb.content.Nodup
  settled : ∀ p < F.numData, book[p]? = some id → Settled F q k nb p

omit [Field K] [LinearOrder K] in
theorem nbOf_inj {F : Forest K} {q : List K} {p p' : Nat} (h : nbOf F q p = nbOf F q p') : p = p' := by
  simp only [nbOf, Neighbor.mk.injEq] at h
  omega

omit [Field K] [LinearOrder K] in
theorem content_ne {nb : Heap.State (Neighbor K)} (h : nb.size ≤ nb.arr.length) (h0 : 0 < nb.size) :
    ∃ top t, nb.arr[0]? = some top ∧ nb.content = top :: t := by
  obtain ⟨n, hn⟩ : ∃ n, nb.size = n + 1 := ⟨nb.size - 1, by omega⟩
  unfold State.content
  rw [hn] at h ⊢
  cases hb : nb.arr with
  | nil => rw [hb] at h; simp at h
  | cons a l => exact ⟨a, l.take n, rfl, rfl⟩

theorem addNeighbor_spec {F : Forest K} {id : Nat} {q : List K} {k : Nat} {nb : Heap.State (Neighbor K)} {book : List Nat} {p : Nat}
    (hk : 0 < k) (h : NI F id q k nb book) (hp : p < F.numData) (hnew : book[p]? ≠ some id) :
    ∃ nb', addNeighbor k p (ptDist F q p) nb = some nb' ∧ NI F id q k nb' (book.set p id) ∧
      (∀ p', Settled F q k nb p' → Settled F q k nb' p') ∧ Settled F q k nb' p ∧ nb'.size = min k (nb.size + 1) := by
  have hpb : p < book.length := by rw [h.blen]; exact hp
  have hnot : nbOf F q p ∉ nb.content := by
    intro hm
    obtain ⟨p', _, e1, e2⟩ := h.mem _ hm
    rw [nbOf_inj e1] at hnew
    exact hnew e2
  have hbook : ∀ p' : Nat, book[p']? = some id → (book.set p id)[p']? = some id := by
    intro p' hp'
    by_cases c : p = p'
    · subst c; exact absurd hp' hnew
    · rw [List.getElem?_set_ne c]; exact hp'
  have hbook' : ∀ p' : Nat, p' ≠ p → (book.set p id)[p']? = some id → book[p']? = some id := by
    intro p' c hp'
    rw [List.getElem?_set_ne (Ne.symm c)] at hp'
    exact hp'
  have hids : ∀ v ∈ book.set p id, v ≤ id := fun v hv => by
    rcases List.mem_or_eq_of_mem_set hv with c | c
    · exact h.ids v c
    · exact Nat.le_of_eq c
  unfold addNeighbor
  by_cases hsz : nb.size < k
  · rw [if_pos hsz]
    obtain ⟨nb', a1, a2, ⟨a3, a4⟩, a5, -⟩ := step_correct threeWay_cmpNeighbor nb (.push (nbOf F q p)) h.valid
      (by simp only [Legal, h.len]; exact hsz)
    have a1' : Heap.step cmpNeighbor nb (.push { index := (p : Int), distance := some (ptDist F q p) }) = some nb' := a1
    have hmono : ∀ p', Settled F q k nb p' → Settled F q k nb' p' := by
      rintro p' (hm | ⟨hs, -⟩)
      · exact Or.inl (a4.mem_iff.2 (List.mem_cons_of_mem _ hm))
      · omega
    have hself : Settled F q k nb' p := Or.inl (a4.mem_iff.2 (by simp))
    refine ⟨nb', a1', ?_, hmono, hself, by omega⟩
    constructor
    · exact a2
    · rw [a5, h.len]
    · rw [List.length_set, h.blen]
    · exact hids
    · intro y hy
      rcases List.mem_cons.1 (a4.subset hy) with c | c
      · exact ⟨p, hp, c, List.getElem?_set_self hpb⟩
      · obtain ⟨p', b1, b2, b3⟩ := h.mem y c
        exact ⟨p', b1, b2, hbook p' b3⟩
    · exact a4.nodup_iff.2 (List.nodup_cons.2 ⟨hnot, h.nodup⟩)
    · intro p' hp' hb
      by_cases c : p' = p
      · subst c; exact hself
      · exact hmono p' (h.settled p' hp' (hbook' p' c hb))
  · rw [if_neg hsz]
    have hsize : nb.size = k := by
      have := h.valid.1
      rw [h.len] at this
      omega
    obtain ⟨top, t, ht, hc⟩ := content_ne h.valid.1 (by omega)
    rw [rd_getElem?, ht]
    simp only [Option.bind_eq_bind, Option.bind_some]
    have htop : ∀ y ∈ nb.content, y.distance.getD 0 ≤ top.distance.getD 0 :=
      fun y hy => cmpNeighbor_le (top_min threeWay_cmpNeighbor h.valid ht y hy)
    obtain ⟨pt, hpt, ept, bpt⟩ := h.mem top (by rw [hc]; simp)
    have hgt : gtNan top.distance (ptDist F q p) = decide (ptDist F q p < ptDist F q pt) := by
      rw [ept]; rfl
    have htd : top.distance.getD 0 = ptDist F q pt := by rw [ept]; rfl
    rw [hgt]
    by_cases hlt : ptDist F q p < ptDist F q pt
    · rw [if_pos (by simpa using hlt)]
      obtain ⟨nb', a1, a2, ⟨a3, a4⟩, a5, -⟩ := step_correct threeWay_cmpNeighbor nb (.update 0 (nbOf F q p)) h.valid
        (by simp only [Legal]; omega)
      have a1' : Heap.step cmpNeighbor nb (.update 0 { index := (p : Int), distance := some (ptDist F q p) }) = some nb' := a1
      rw [hc, List.set_cons_zero] at a4
      have hcont : ∀ y ∈ nb'.content, y = nbOf F q p ∨ y ∈ nb.content := by
        intro y hy
        rcases List.mem_cons.1 (a4.subset hy) with c | c
        · exact Or.inl c
        · rw [hc]; exact Or.inr (List.mem_cons_of_mem _ c)
      have hmono : ∀ p', Settled F q k nb p' → Settled F q k nb' p' := by
        rintro p' (hm | ⟨hs, hle⟩)
        · rw [hc] at hm
          rcases List.mem_cons.1 hm with c | c
          · refine Or.inr ⟨by omega, fun y hy => ?_⟩
            have hpp : p' = pt := nbOf_inj (c.trans ept)
            subst hpp
            rcases hcont y hy with d | d
            · rw [d]; exact le_of_lt hlt
            · rw [← htd]; exact htop y d
          · exact Or.inl (a4.mem_iff.2 (List.mem_cons_of_mem _ c))
        · refine Or.inr ⟨by omega, fun y hy => ?_⟩
          rcases hcont y hy with d | d
          · rw [d]
            have := hle top (by rw [hc]; simp)
            rw [htd] at this
            exact (le_of_lt hlt).trans this
          · exact hle y d
      have hself : Settled F q k nb' p := Or.inl (a4.mem_iff.2 (by simp))
      refine ⟨nb', a1', ?_, hmono, hself, by omega⟩
      constructor
      · exact a2
      · rw [a5, h.len]
      · rw [List.length_set, h.blen]
      · exact hids
      · intro y hy
        rcases hcont y hy with c | c
        · exact ⟨p, hp, c, List.getElem?_set_self hpb⟩
        · obtain ⟨p', b1, b2, b3⟩ := h.mem y c
          exact ⟨p', b1, b2, hbook p' b3⟩
      · rw [a4.nodup_iff]
        have hnd := h.nodup
        rw [hc] at hnd hnot
        exact List.nodup_cons.2 ⟨fun hm => hnot (List.mem_cons_of_mem _ hm), (List.nodup_cons.1 hnd).2⟩
      · intro p' hp' hb
        by_cases c : p' = p
        · subst c; exact hself
        · exact hmono p' (h.settled p' hp' (hbook' p' c hb))
    · rw [if_neg (by simpa using hlt)]
      have hself : Settled F q k nb p := Or.inr ⟨hsize, fun y hy => (htop y hy).trans (by rw [htd]; exact not_lt.1 hlt)⟩
      refine ⟨nb, rfl, ?_, fun _ hs => hs, hself, by omega⟩
      exact ⟨h.valid, h.len, by rw [List.length_set, h.blen], hids,
        fun y hy => by obtain ⟨p', b1, b2, b3⟩ := h.mem y hy; exact ⟨p', b1, b2, hbook p' b3⟩, h.nodup,
        fun p' hp' hb => by
          by_cases c : p' = p
          · subst c; exact hself
          · exact h.settled p' hp' (hbook' p' c hb)⟩

/-- Invariant of the state of a query apart from the search heap: neighbours, and the number of comparisons, which never
exceeds the limit and, up to `k`, is the number of neighbours. -/
structure QI (F : Forest K) (id : Nat) (q : List K) (k : Nat) (s : QState K) : Prop where
  ni : NI F id q k s.nb s.book
  cmps : F.maxComparisons ≠ 0 → s.numComparisons ≤ F.maxComparisons
  cnt : s.nb.size = min k s.numComparisons

theorem Settled.size_pos {F : Forest K} {q : List K} {k : Nat} {nb : Heap.State (Neighbor K)} {p : Nat} (hk : 0 < k) (h : Settled F q k nb p) : 1 ≤ nb.size := by
  rcases h with h | h
  · by_contra hc
    have : nb.size = 0 := by omega
    unfold State.content at h
    rw [this] at h
    simp at h
  · omega

/-- Progress of a query: what is settled remains settled. -/
def Mono (F : Forest K) (q : List K) (k : Nat) (s s' : QState K) : Prop :=
  ∀ p, Settled F q k s.nb p → Settled F q k s'.nb p

theorem leafStep_spec {F : Forest K} {id : Nat} {q : List K} {k : Nat} (hk : 0 < k) (hdata : F.data.length = F.numData * F.dim)
    {idx : List (Entry K)} {b i : Nat} {en : Entry K} (hen : idx[b + i]? = some en) (hp : en.index < F.numData) {s : QState K}
    (h : QI F id q k s) :
    ∃ s', leafStep F id q k idx b i s = some s' ∧ QI F id q k s' ∧ s'.heap = s.heap ∧ Mono F q k s s' ∧
      (F.maxComparisons = 0 → Settled F q k s'.nb en.index) ∧ 1 ≤ s'.numComparisons := by
  unfold leafStep
  by_cases hlim : F.maxComparisons = 0 ∨ s.numComparisons < F.maxComparisons
  · rw [if_pos hlim, rd_getElem?, hen]
    simp only [Option.bind_eq_bind, Option.bind_some]
    have hbl : en.index < s.book.length := by rw [h.ni.blen]; exact hp
    rw [rd_of_lt hbl]
    simp only [Option.bind_some]
    by_cases hseen : s.book[en.index] = id
    · rw [if_pos hseen]
      have hset : Settled F q k s.nb en.index := h.ni.settled _ hp (by rw [List.getElem?_eq_getElem hbl, hseen])
      have := hset.size_pos hk
      have := h.cnt
      exact ⟨s, rfl, h, rfl, fun _ hs => hs, fun _ => hset, by omega⟩
    · rw [if_neg hseen, wr_of_lt hbl]
      simp only [Option.bind_some]
      rw [AllPairs.slice_vec hdata hp rfl]
      simp only [Option.bind_some]
      obtain ⟨nb', a1, a2, a3, a4, a5⟩ := addNeighbor_spec hk h.ni hp (by
        rw [List.getElem?_eq_getElem hbl]
        intro hc
        exact hseen (Option.some.inj hc))
      have a1' : addNeighbor k en.index (F.distFn q (AllPairs.vec F.data F.dim en.index)) s.nb = some nb' := a1
      rw [a1']
      have := h.cnt
      exact ⟨_, rfl, ⟨a2, fun hne => by simp only; omega, by simp only; omega⟩, rfl, a3, fun _ => a4, by simp only; omega⟩
  · rw [if_neg hlim]
    exact ⟨s, rfl, h, rfl, fun _ hs => hs, fun h0 => absurd (Or.inl h0) hlim, by omega⟩

theorem leafLoop_spec {F : Forest K} {id : Nat} {q : List K} {k : Nat} (hk : 0 < k) (hdata : F.data.length = F.numData * F.dim)
    {idx : List (Entry K)} {b e : Nat} (he : e ≤ idx.length) (hp : ∀ p ∈ ptsIn idx b e, p < F.numData) {s : QState K}
    (h : QI F id q k s) :
    ∃ s', iter (e - b) (leafStep F id q k idx b) s = some s' ∧ QI F id q k s' ∧ s'.heap = s.heap ∧ Mono F q k s s' ∧
      (F.maxComparisons = 0 → ∀ p ∈ ptsIn idx b e, Settled F q k s'.nb p) ∧ (b < e → 1 ≤ s'.numComparisons) := by
  obtain ⟨s', e1, h1, h2, h3, h4, h5⟩ := iter_inv (n := e - b) (f := leafStep F id q k idx b) (s := s)
    (fun i s' => QI F id q k s' ∧ s'.heap = s.heap ∧ Mono F q k s s' ∧
      (F.maxComparisons = 0 → ∀ p ∈ ptsIn idx b (b + i), Settled F q k s'.nb p) ∧ (0 < i → 1 ≤ s'.numComparisons))
    ⟨h, rfl, fun _ hs => hs, fun _ p hp => (by
      obtain ⟨j, en, h1, h2, -⟩ := mem_ptsIn.1 hp
      omega), fun h0 => absurd h0 (Nat.lt_irrefl 0)⟩
    (by
      intro i hi s1 ⟨g1, g2, g3, g4, _⟩
      have hlt : b + i < idx.length := by omega
      obtain ⟨s2, e2, k1, k2, k3, k4, k5⟩ := leafStep_spec hk hdata (List.getElem?_eq_getElem hlt)
        (hp _ (mem_ptsIn.2 ⟨b + i, idx[b + i], by omega, by omega, List.getElem?_eq_getElem hlt, rfl⟩)) g1
      refine ⟨s2, e2, k1, k2.trans g2, fun p hs => k3 p (g3 p hs), fun h0 p hp' => ?_, fun _ => k5⟩
      obtain ⟨j, en, h1, h2, h3, h4⟩ := mem_ptsIn.1 hp'
      by_cases c : j = b + i
      · subst c
        rw [List.getElem?_eq_getElem hlt] at h3
        cases h3
        rw [← h4]
        exact k4 h0
      · exact k3 p (g4 h0 p (mem_ptsIn.2 ⟨j, en, h1, by omega, h3, h4⟩)))
  refine ⟨s', e1, h1, h2, h3, fun h0 p hp' => h4 h0 p ?_, fun hbe => h5 (by omega)⟩
  obtain ⟨j, en, a1, a2, a3, a4⟩ := mem_ptsIn.1 hp'
  exact mem_ptsIn.2 ⟨j, en, a1, by omega, a3, a4⟩

end Verif.KdTree
