import Verif.KdTree.BatchModel
import Verif.KdTree.QueryProps
import Verif.Heap.Agree

/-! # Lemmas for C25: a query does not depend on what earlier queries left in the searcher -/

namespace Verif.KdTree

open Heap

variable {K : Type} [Field K] [LinearOrder K]

/-- Two states of a query that differ only in the unused parts of the arrays and in the way visited points are marked. -/
structure QAgree (id id' : Nat) (s s' : QState K) : Prop where
  heap : SAgree s.heap s'.heap
  nb : SAgree s.nb s'.nb
  blen : s.book.length = s'.book.length
  book : ∀ p : Nat, s.book[p]? = some id ↔ s'.book[p]? = some id'
  comps : s.numComparisons = s'.numComparisons

theorem addNeighbor_agree {k di : Nat} {dist : K} {nb nb' : Heap.State (Neighbor K)} (hk : 0 < k) (h : SAgree nb nb') :
    ORel SAgree (addNeighbor k di dist nb) (addNeighbor k di dist nb') := by
  unfold addNeighbor
  rw [← h.1]
  by_cases hs : nb.size < k
  · rw [if_pos hs, if_pos hs]; exact push_agree h _
  · rw [if_neg hs, if_neg hs, ← h.2.rd (by omega : 0 < nb.size)]
    simp only [Option.bind_eq_bind]
    cases rd nb.arr 0 with
    | none => trivial
    | some top =>
      simp only [Option.bind_some]
      split
      · exact update_agree h (by omega) _
      · exact h

theorem leafStep_agree {F : Forest K} {id id' : Nat} {q : List K} {k : Nat} {idx : List (Entry K)} {b i : Nat} {s s' : QState K}
    (hk : 0 < k) (h : QAgree id id' s s') :
    ORel (QAgree id id') (leafStep F id q k idx b i s) (leafStep F id' q k idx b i s') := by
  unfold leafStep
  rw [← h.comps]
  by_cases hl : F.maxComparisons = 0 ∨ s.numComparisons < F.maxComparisons
  · rw [if_pos hl, if_pos hl]
    simp only [Option.bind_eq_bind]
    cases rd idx (b + i) with
    | none => trivial
    | some en =>
      simp only [Option.bind_some]
      by_cases hb : en.index < s.book.length
      · rw [rd_of_lt hb, rd_of_lt (h.blen ▸ hb)]
        simp only [Option.bind_some]
        have hiff : s.book[en.index] = id ↔ (s'.book[en.index]'(h.blen ▸ hb)) = id' := by
          have := h.book en.index
          rw [List.getElem?_eq_getElem hb, List.getElem?_eq_getElem (h.blen ▸ hb)] at this
          simpa using this
        by_cases hseen : s.book[en.index] = id
        · rw [if_pos hseen, if_pos (hiff.1 hseen)]; exact h
        · rw [if_neg hseen, if_neg (fun c => hseen (hiff.2 c)), wr_of_lt hb, wr_of_lt (h.blen ▸ hb)]
          simp only [Option.bind_some]
          cases AllPairs.slice F.data (en.index * F.dim : Nat) F.dim with
          | none => trivial
          | some x =>
            simp only [Option.bind_some]
            refine (addNeighbor_agree hk h.nb).bind (fun nb nb' hnb => ?_)
            refine ⟨h.heap, hnb, by simp [h.blen], fun p => ?_, rfl⟩
            simp only
            by_cases c : en.index = p
            · subst c
              rw [List.getElem?_set_self hb, List.getElem?_set_self (h.blen ▸ hb)]
              simp
            · rw [List.getElem?_set_ne c, List.getElem?_set_ne c]
              exact h.book p
      · rw [rd_getElem?, rd_getElem?, List.getElem?_eq_none (by omega), List.getElem?_eq_none (by rw [← h.blen]; omega)]
        trivial
  · rw [if_neg hl, if_neg hl]; exact h

omit [Field K] in
theorem worth_agree {k : Nat} {nb nb' : Heap.State (Neighbor K)} (hk : 0 < k) (h : SAgree nb nb') (sd : K) :
    worth k nb sd = worth k nb' sd := by
  unfold worth
  rw [← h.1]
  by_cases hs : nb.size < k
  · rw [if_pos hs, if_pos hs]
  · rw [if_neg hs, if_neg hs, ← h.2.rd (by omega : 0 < nb.size)]

omit [Field K] in
theorem finished_agree {k : Nat} {nb nb' : Heap.State (Neighbor K)} (hk : 0 < k) (h : SAgree nb nb') (lb : K) :
    finished k nb lb = finished k nb' lb := by
  unfold finished
  rw [← h.1]
  by_cases hs : nb.size = k
  · rw [if_pos hs, if_pos hs, ← h.2.rd (by omega : 0 < nb.size)]
  · rw [if_neg hs, if_neg hs]

theorem queryRec_agree {F : Forest K} {id id' : Nat} {q : List K} {k : Nat} (hk : 0 < k) :
    ∀ (fuel ti ni : Nat) (dist : K) (s s' : QState K), QAgree id id' s s' →
      ORel (QAgree id id') (queryRec F id q k fuel ti ni dist s) (queryRec F id' q k fuel ti ni dist s') := by
  intro fuel
  induction fuel with
  | zero => intros; trivial
  | succ fuel ih =>
    intro ti ni dist s s' h
    unfold queryRec
    simp only [Option.bind_eq_bind]
    cases rd F.trees ti with
    | none => trivial
    | some tree =>
      simp only [Option.bind_some]
      cases rd tree.nodes ni with
      | none => trivial
      | some node =>
        simp only [Option.bind_some]
        cases rd q node.splitDimension with
        | none => trivial
        | some x =>
          simp only [Option.bind_some]
          by_cases hl : node.lowerChild < 0
          · rw [if_pos hl, if_pos hl]
            exact iter_rel _ h (fun i a b _ hab => leafStep_agree hk hab)
          · rw [if_neg hl, if_neg hl, worth_agree hk h.nb]
            cases worth k s'.nb (saveDist dist x node.lowerBound node.splitThreshold node.upperBound) with
            | none => trivial
            | some w =>
              simp only [Option.bind_some]
              refine ORel.bind (R := SAgree) ?_ (fun a b hab => ih _ _ _ _ _ ⟨hab, h.nb, h.blen, h.book, h.comps⟩)
              cases w
              · exact h.heap
              · exact push_agree h.heap _

theorem mainLoop_agree {F : Forest K} {id id' : Nat} {q : List K} {k : Nat} (hk : 0 < k) (depth : Nat) :
    ∀ (fuel : Nat) (s s' : QState K), QAgree id id' s s' →
      ORel (QAgree id id') (mainLoop F id q k depth fuel s) (mainLoop F id' q k depth fuel s') := by
  intro fuel
  induction fuel with
  | zero => intros; trivial
  | succ fuel ih =>
    intro s s' h
    unfold mainLoop
    rw [← h.comps, ← h.heap.1]
    by_cases hl : F.maxComparisons = 0 ∨ s.numComparisons < F.maxComparisons
    · rw [if_pos hl, if_pos hl]
      by_cases h0 : s.heap.size = 0
      · rw [if_pos h0, if_pos h0]; exact h
      · rw [if_neg h0, if_neg h0]
        simp only [Option.bind_eq_bind]
        refine (pop_agree h.heap).bind (fun a b hab => ?_)
        obtain ⟨g1, g2, g3⟩ := hab
        rw [← g2, ← g3.rd (by omega : a.size < s.heap.size)]
        have hheap : SAgree a b := ⟨g2, g3.mono (by omega)⟩
        cases rd a.arr a.size with
        | none => trivial
        | some st =>
          simp only [Option.bind_some]
          rw [finished_agree hk h.nb]
          cases finished k s'.nb st.lowerBound with
          | none => trivial
          | some fin =>
            simp only [Option.bind_some]
            cases fin
            · exact (queryRec_agree hk _ _ _ _ { s with heap := a } { s' with heap := b, numComparisons := s.numComparisons }
                ⟨hheap, h.nb, h.blen, h.book, rfl⟩).bind (fun a b hab => ih a b hab)
            · exact ⟨hheap, h.nb, h.blen, h.book, rfl⟩
    · rw [if_neg hl, if_neg hl]; exact h

omit [Field K] [LinearOrder K] in
theorem fillMissing_agree {k : Nat} {nb nb' : Heap.State (Neighbor K)} (hl : nb.arr.length = k) (hs : nb.size ≤ k) (h : SAgree nb nb') :
    fillMissing k nb = fillMissing k nb' := by
  unfold fillMissing
  rw [← h.1]
  have key : ∀ n, n ≤ k - nb.size → ORel (fun a b => Agree (nb.size + n) a b ∧ a.length = k)
      (iter n (fun i a => wr a (nb.size + i) { index := -1, distance := none }) nb.arr)
      (iter n (fun i a => wr a (nb.size + i) { index := -1, distance := none }) nb'.arr) := by
    intro n
    induction n with
    | zero => intro _; exact ⟨h.2, hl⟩
    | succ n ih =>
      intro hn
      simp only [iter]
      refine (ih (by omega)).bind (fun a b ⟨hab, hlen⟩ => ?_)
      have := hab.wr (m' := nb.size + (n + 1)) (i := nb.size + n) (fun j hj => by omega) { index := -1, distance := none }
      rw [wr_of_lt (by omega)] at this ⊢
      cases hb : wr b (nb.size + n) { index := -1, distance := none } with
      | none => rw [hb] at this; exact this.elim
      | some b' =>
        rw [hb] at this
        exact ⟨this, by simp [hlen]⟩
  refine ORel.eq ((key (k - nb.size) (Nat.le_refl _)).mono (fun a b ⟨hab, hlen⟩ => ?_))
  apply Agree.eq
  exact hab.mono (by omega)

/-- Two searchers of the same forest give the same answer. -/
theorem query_agree [IsStrictOrderedRing K] (F : Forest K) (hF : F.Built) (S S' : Searcher K) (hS : S.Ok F) (hS' : S'.Ok F) (k : Nat)
    (hk : 0 < k) (nb nb' : List (Neighbor K)) (hb : nb.length = k) (hb' : nb'.length = k) (q : List K) (hq : q.length = F.dim) :
    (query F S nb k q).map (fun r => r.2) = (query F S' nb' k q).map (fun r => r.2) := by
  unfold query assert'
  rw [if_pos (by simpa using hk)]
  simp only [Option.bind_eq_bind, Option.bind_some]
  obtain ⟨h, L, e1, a1, a2, a3⟩ := initHeap hF q S.heapArray hS.heap
  have hinit := iter_rel (R := SAgree)
    (f := fun ti h => Heap.step cmpSearch h (.push { tree := ti, nodeIndex := 0, lowerBound := (0 : K) }))
    (g := fun ti h => Heap.step cmpSearch h (.push { tree := ti, nodeIndex := 0, lowerBound := (0 : K) })) F.trees.length
    (s := ⟨S.heapArray, 0⟩) (s' := ⟨S'.heapArray, 0⟩) ⟨rfl, by simp only [hS.heap, hS'.heap], fun i hi => by simp at hi⟩
    (fun i a b _ hab => push_agree hab _)
  rw [e1] at hinit ⊢
  cases e1' : iter F.trees.length (fun ti h => Heap.step cmpSearch h (.push { tree := ti, nodeIndex := 0, lowerBound := (0 : K) }))
      ⟨S'.heapArray, 0⟩ with
  | none => rw [e1'] at hinit; exact hinit.elim
  | some h' =>
    rw [e1'] at hinit
    simp only [Option.bind_some]
    obtain ⟨s, e2, b1, b2, b3, b4⟩ := mainLoop_spec (id := S.searchId + 1) hk hF.dim hF.data hq (F.maxNumNodes + 1)
      { heap := h, nb := ⟨nb, 0⟩, book := S.book, numComparisons := 0 } L (by omega) (by omega)
      ⟨⟨empty_valid _ _, hb, hS.book, fun v hv => Nat.le_succ_of_le (hS.ids v hv),
        by simp [State.content], by simp [State.content], fun p hp hp' => by
          have := hS.ids _ (List.mem_of_getElem? hp')
          omega⟩, fun _ => Nat.zero_le _, by simp⟩ a1
    have hmain := mainLoop_agree (F := F) (id := S.searchId + 1) (id' := S'.searchId + 1) (q := q) hk (F.maxNumNodes + 1) (F.maxNumNodes + 1)
      { heap := h, nb := ⟨nb, 0⟩, book := S.book, numComparisons := 0 }
      { heap := h', nb := ⟨nb', 0⟩, book := S'.book, numComparisons := 0 }
      ⟨hinit, ⟨rfl, by simp only [hb, hb'], fun i hi => by simp at hi⟩, by simp only [hS.book, hS'.book], fun p => by
        constructor
        · intro hp
          have := hS.ids _ (List.mem_of_getElem? hp)
          omega
        · intro hp
          have := hS'.ids _ (List.mem_of_getElem? hp)
          omega, rfl⟩
    rw [e2] at hmain ⊢
    cases e2' : mainLoop F (S'.searchId + 1) q k (F.maxNumNodes + 1) (F.maxNumNodes + 1)
        { heap := h', nb := ⟨nb', 0⟩, book := S'.book, numComparisons := 0 } with
    | none => rw [e2'] at hmain; exact hmain.elim
    | some s' =>
      rw [e2'] at hmain
      have hm : QAgree (S.searchId + 1) (S'.searchId + 1) s s' := hmain
      simp only [Option.bind_some]
      have hsz : s.nb.size ≤ k := by
        have := b1.ni.valid.1
        rw [b1.ni.len] at this
        exact this
      rw [← fillMissing_agree b1.ni.len hsz hm.nb, ← hm.nb.1, ← hm.comps]
      cases fillMissing k s.nb with
      | none => rfl
      | some a =>
        simp only [Option.bind_some]
        cases Heap.popAll cmpNeighbor a s.nb.size with
        | none => rfl
        | some a' => rfl

end Verif.KdTree
