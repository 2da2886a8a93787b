import Verif.Life.HeapProps
import Verif.Life.KdModel

/-! Lemmas about the doubly linked list of the searchers of a kd-forest. -/

namespace Verif.Life

/-- A searcher with its blocks. -/
structure Ser where
  p : Nat
  a : Nat
  b : Nat
  va : List ℚ
  vb : List ℚ

/-- The address of the first searcher, or else `next`. -/
def headp : List Ser → Option Nat → Option Nat
  | [], next => next
  | x :: _, _ => some x.p

/-- The address of the last searcher, or else `prev`. -/
def lastp : Option Nat → List Ser → Option Nat
  | prev, [] => prev
  | _, x :: l => lastp (some x.p) l

/-- The links of a part of the list between `prev` and `next`. -/
def Seg (nodes : Nat → Option Node) : Option Nat → List Ser → Option Nat → Prop
  | _, [], _ => True
  | prev, x :: l, next =>
    nodes x.p = some ⟨headp l next, prev, x.a, x.b⟩ ∧ Seg nodes (some x.p) l next

theorem headp_append (A B : List Ser) (next : Option Nat) :
    headp (A ++ B) next = headp A (headp B next) := by
  cases A <;> rfl

theorem lastp_append (A B : List Ser) : ∀ prev, lastp prev (A ++ B) = lastp (lastp prev A) B := by
  induction A with
  | nil => intro prev; rfl
  | cons x A ih => intro prev; exact ih _

theorem seg_append (nodes : Nat → Option Node) (A B : List Ser) (next : Option Nat) :
    ∀ prev, Seg nodes prev (A ++ B) next ↔
      Seg nodes prev A (headp B next) ∧ Seg nodes (lastp prev A) B next := by
  induction A with
  | nil => intro prev; simp [Seg, lastp]
  | cons x A ih =>
    intro prev
    simp only [List.cons_append, Seg, headp_append, ih, lastp]
    tauto

theorem seg_congr {nodes nodes' : Nat → Option Node} (L : List Ser) (next : Option Nat) :
    ∀ prev, (∀ x ∈ L, nodes' x.p = nodes x.p) → Seg nodes prev L next → Seg nodes' prev L next := by
  induction L with
  | nil => intro _ _ _; trivial
  | cons x L ih =>
    intro prev h s
    exact ⟨(h x (List.mem_cons_self ..)).trans s.1,
      ih _ (fun y hy => h y (List.mem_cons_of_mem _ hy)) s.2⟩

theorem lastOf_seg (nodes : Nat → Option Node) (l : List Ser) : ∀ (x : Ser) (prev : Option Nat)
    (fuel : Nat), Seg nodes prev (x :: l) none → l.length < fuel →
    lastOf nodes fuel x.p = lastp (some x.p) l := by
  induction l with
  | nil =>
    intro x prev fuel s hf
    obtain ⟨f, rfl⟩ : ∃ f, fuel = f + 1 := ⟨fuel - 1, by simp at hf; omega⟩
    simp [lastOf, s.1, headp, lastp]
  | cons y l ih =>
    intro x prev fuel s hf
    obtain ⟨f, rfl⟩ : ∃ f, fuel = f + 1 := ⟨fuel - 1, by simp at hf; omega⟩
    have := ih y (some x.p) f s.2 (by simp at hf; omega)
    simp [lastOf, s.1, headp, this, lastp]

theorem walk_seg (nodes : Nat → Option Node) (L : List Ser) : ∀ (prev : Option Nat) (i : Nat),
    Seg nodes prev L none → walk nodes i (headp L none) = some ((L.map Ser.p)[i]?) := by
  induction L with
  | nil => intro prev i _; cases i <;> simp [walk, headp]
  | cons x L ih =>
    intro prev i s
    cases i with
    | zero => simp [walk, headp]
    | succ i =>
      have := ih (some x.p) i s.2
      rw [headp, walk, s.1]
      simpa using this

/-- Taking a searcher out of the list. -/
theorem unlink_seg (s : FS) (A B : List Ser) (x : Ser) (hs : Seg s.nodes none (A ++ x :: B) none)
    (nd : ((A ++ x :: B).map Ser.p).Nodup) (hh : s.forest.head = headp (A ++ x :: B) none) :
    ∃ n nodes', s.nodes x.p = some n ∧ n.states = x.a ∧ n.book = x.b ∧
      unlink s n = some (nodes', headp (A ++ B) none) ∧ Seg nodes' none (A ++ B) none ∧
      ∀ q, q ∉ (A ++ B).map Ser.p → nodes' q = s.nodes q := by
  obtain ⟨hA, hx, hB⟩ := (seg_append s.nodes A (x :: B) none none).mp hs
  refine ⟨⟨headp B none, lastp none A, x.a, x.b⟩, ?_⟩
  rcases List.eq_nil_or_concat A with rfl | ⟨A', a, rfl⟩
  · cases B with
    | nil =>
      exact ⟨s.nodes, hx, rfl, rfl, rfl, trivial, fun _ _ => rfl⟩
    | cons b B' =>
      obtain ⟨hb, hB'⟩ := hB
      have hbn : ∀ y ∈ B', y.p ≠ b.p := by
        simp only [List.nil_append, List.map_cons, List.nodup_cons] at nd
        exact fun y hy e => nd.2.1 (e ▸ List.mem_map_of_mem hy)
      refine ⟨Function.update s.nodes b.p (some ⟨headp B' none, none, b.a, b.b⟩), hx, rfl, rfl,
        ?_, ?_, ?_⟩
      · simp [unlink, lastp, headp, hb]
      · refine ⟨by simp, seg_congr B' none _ (fun y hy => ?_) hB'⟩
        exact Function.update_of_ne (hbn y hy) _ _
      · intro q hq
        refine Function.update_of_ne ?_ _ _
        rintro rfl
        simp at hq
  · rw [List.concat_eq_append] at *
    obtain ⟨hA', ha, -⟩ := (seg_append s.nodes A' [a] _ none).mp hA
    have hla : lastp none (A' ++ [a]) = some a.p := by rw [lastp_append]; rfl
    rw [hla] at hx ⊢
    have ndA : ∀ y ∈ A', y.p ≠ a.p := by
      rw [List.append_assoc, List.map_append] at nd
      exact fun y hy => (List.nodup_append.mp nd).2.2 _ (List.mem_map_of_mem hy) _ (by simp)
    cases B with
    | nil =>
      refine ⟨Function.update s.nodes a.p (some ⟨none, lastp none A', a.a, a.b⟩), hx, rfl, rfl,
        ?_, ?_, ?_⟩
      · have : s.forest.head = headp (A' ++ [a] ++ []) none := by
          rw [hh]; simp only [headp_append]; cases A' <;> rfl
        simp [unlink, headp, ha, this]
      · rw [List.append_nil, seg_append]
        refine ⟨seg_congr A' _ _ (fun y hy => Function.update_of_ne (ndA y hy) _ _) hA', ?_, trivial⟩
        simp [headp]
      · intro q hq
        refine Function.update_of_ne ?_ _ _
        rintro rfl
        simp at hq
    | cons b B' =>
      obtain ⟨hb, hB'⟩ := hB
      have nd2 := nd
      rw [List.map_append] at nd2
      have dis := (List.nodup_append.mp nd2).2.2
      have hAb : ∀ y ∈ A' ++ [a], ∀ z ∈ b :: B', y.p ≠ z.p := fun y hy z hz =>
        dis _ (List.mem_map_of_mem hy) _ (List.mem_map_of_mem (List.mem_cons_of_mem _ hz))
      have hbn : ∀ y ∈ B', y.p ≠ b.p := by
        have := (List.nodup_append.mp nd2).2.1
        simp only [List.map_cons, List.nodup_cons] at this
        exact fun y hy e => this.2.1 (e ▸ List.mem_map_of_mem hy)
      have hab : a.p ≠ b.p := hAb a (by simp) b (by simp)
      refine ⟨Function.update (Function.update s.nodes a.p (some ⟨some b.p, lastp none A', a.a, a.b⟩))
        b.p (some ⟨headp B' none, some a.p, b.a, b.b⟩), hx, rfl, rfl, ?_, ?_, ?_⟩
      · have : s.forest.head = headp (A' ++ [a] ++ b :: B') none := by
          rw [hh]; simp only [headp_append]; cases A' <;> rfl
        simp [unlink, headp, ha, this, Function.update_of_ne hab.symm, hb]
      · rw [seg_append, seg_append]
        refine ⟨⟨seg_congr A' _ _ (fun y hy => ?_) hA', ?_, trivial⟩, ?_, ?_⟩
        · rw [Function.update_of_ne (hAb y (by simp [hy]) b (by simp)),
            Function.update_of_ne (ndA y hy)]
        · rw [Function.update_of_ne hab]; simp [headp]
        · rw [hla]; simp
        · refine seg_congr B' none _ (fun y hy => ?_) hB'
          rw [Function.update_of_ne (hbn y hy), Function.update_of_ne
            (hAb a (by simp) y (by simp [hy])).symm]
      · intro q hq
        rw [Function.update_of_ne, Function.update_of_ne]
        · rintro rfl; simp at hq
        · rintro rfl; simp at hq

/-- Adding a searcher at the end of the list. -/
theorem link_seg (s : FS) (L : List Ser) (hs : Seg s.nodes none L none)
    (nd : (L.map Ser.p).Nodup) (hh : s.forest.head = headp L none)
    (hn : s.forest.num = L.length) (hf : L.length ≤ s.heap.next) (x : Ser)
    (hx : x.p ∉ L.map Ser.p) :
    ∃ nodes' prev, link s x.p = some (nodes', headp (L ++ [x]) none, prev) ∧
      Seg (Function.update nodes' x.p (some ⟨none, prev, x.a, x.b⟩)) none (L ++ [x]) none ∧
      ∀ q, q ∉ L.map Ser.p → nodes' q = s.nodes q := by
  rcases List.eq_nil_or_concat L with rfl | ⟨A, a, rfl⟩
  · refine ⟨s.nodes, none, ?_, ⟨by simp [headp], trivial⟩, fun _ _ => rfl⟩
    simp only [List.length_nil] at hn
    simp [link, hn, headp]
  · rw [List.concat_eq_append] at *
    obtain ⟨hA, ha, -⟩ := (seg_append s.nodes A [a] none none).mp hs
    have ndA : ∀ y ∈ A, y.p ≠ a.p := by
      rw [List.map_append] at nd
      exact fun y hy => (List.nodup_append.mp nd).2.2 _ (List.mem_map_of_mem hy) _ (by simp)
    have hla : lastp none (A ++ [a]) = some a.p := by rw [lastp_append]; rfl
    refine ⟨Function.update s.nodes a.p (some ⟨some x.p, lastp none A, a.a, a.b⟩), some a.p, ?_,
      ?_, ?_⟩
    · have hne : s.forest.num ≠ 0 := by rw [hn]; simp
      have hlast : ∃ q, s.forest.head = some q ∧ lastOf s.nodes s.heap.next q = some a.p ∧
          headp (A ++ [a] ++ [x]) none = some q := by
        cases A with
        | nil =>
          refine ⟨a.p, hh, ?_, rfl⟩
          exact lastOf_seg s.nodes [] a none _ hs (by simp at hf ⊢; omega)
        | cons y A =>
          refine ⟨y.p, hh, ?_, rfl⟩
          have := lastOf_seg s.nodes (A ++ [a]) y none s.heap.next hs (by simp at hf ⊢; omega)
          rw [this, ← hla]
          rfl
      obtain ⟨q, h1, h2, h3⟩ := hlast
      simp [link, hne, h1, h2, ha]
      rw [← h3]; simp
    · have hxa : a.p ≠ x.p := by
        rintro e; apply hx; rw [← e]; simp
      rw [seg_append, seg_append, hla]
      refine ⟨⟨seg_congr A _ _ (fun y hy => ?_) hA, ?_, trivial⟩, ?_, trivial⟩
      · rw [Function.update_of_ne, Function.update_of_ne (ndA y hy)]
        rintro e; apply hx; rw [← e]; simp; exact Or.inl ⟨y, hy, rfl⟩
      · rw [Function.update_of_ne hxa]; simp [headp]
      · simp [headp]
    · intro q hq
      refine Function.update_of_ne ?_ _ _
      rintro rfl
      simp at hq

/-! ## Blocks -/

/-- The blocks of a searcher. -/
def sb (x : Ser) : List Block := [(x.a, x.va), (x.b, x.vb), (x.p, [])]

/-- `T` are the blocks of the trees `ts`. -/
def TL : List TreeB → List Block → Prop
  | [], T => T = []
  | t :: ts, T => ∃ v w l, T = (t.nodes, v) :: (t.index, w) :: (t.self, []) :: l ∧ TL ts l

/-- `T` are the blocks of all the trees. -/
def TB : Option (Nat × List TreeB) → List Block → Prop
  | none, T => T = []
  | some (p, ts), T => ∃ v l, T = l ++ [(p, v)] ∧ TL ts l

theorem TL.length : ∀ (ts : List TreeB) (T : List Block), TL ts T → T.length = 3 * ts.length
  | [], _, h => by rw [h]; rfl
  | t :: ts, T, ⟨v, w, l, e, h⟩ => by rw [e]; simp [TL.length ts l h]; omega

theorem freeTrees_own : ∀ (ts : List TreeB) (T : List Block), TL ts T → ∀ {h : Heap}
    {B : List Block}, Own h (T ++ B) → ∃ h', freeTrees ts h = some h' ∧ Own h' B
  | [], _, e, h, B, o => by subst e; exact ⟨h, rfl, o⟩
  | t :: ts, T, ⟨v, w, l, e, hl⟩, h, B, o => by
    subst e
    obtain ⟨h1, e1, o1⟩ := free_own o
    obtain ⟨h2, e2, o2⟩ := free_own o1
    obtain ⟨h3, e3, o3⟩ := free_own o2
    obtain ⟨h4, e4, o4⟩ := freeTrees_own ts l hl o3
    exact ⟨h4, by simp [freeTrees, e1, e2, e3, e4], o4⟩

theorem dropTrees_own (t : Option (Nat × List TreeB)) (T : List Block) (ht : TB t T) {h : Heap}
    {B : List Block} (o : Own h (T ++ B)) : ∃ h', dropTrees h t = some h' ∧ Own h' B := by
  cases t with
  | none => subst ht; exact ⟨h, rfl, o⟩
  | some t =>
    obtain ⟨p, ts⟩ := t
    obtain ⟨v, l, e, hl⟩ := ht
    subst e
    have o' : Own h (l ++ ((p, v) :: B)) := o.of_perm (by perm)
    obtain ⟨h1, e1, o1⟩ := freeTrees_own ts l hl o'
    obtain ⟨h2, e2, o2⟩ := free_own o1
    exact ⟨h2, by simp [dropTrees, e1, e2], o2⟩

theorem allocTrees_own (E : Env) (ok : ∀ m, E.ok m = true) (n k : Nat) : ∀ {h : Heap}
    {B : List Block}, Own h B → ∃ ts h' T, allocTrees E n k h = some (ts, h') ∧ ts.length = k ∧
      TL ts T ∧ Own h' (T ++ B) := by
  induction k with
  | zero => exact fun {h B} o => ⟨[], h, [], rfl, rfl, rfl, o⟩
  | succ k ih =>
    intro h B o
    obtain ⟨h1, p, v1, e1, l1, o1⟩ := need_own (E := E) o 0 ok
    obtain rfl := List.length_eq_zero_iff.mp l1
    obtain ⟨h2, i, v2, e2, -, o2⟩ := need_own (E := E) o1 n ok
    obtain ⟨h3, q, v3, e3, -, o3⟩ := need_own (E := E) o2 (2 * n - 1) ok
    obtain ⟨ts, h4, T, e4, hl, ht, o4⟩ := ih o3
    refine ⟨⟨p, i, q⟩ :: ts, h4, (q, v3) :: (i, v2) :: (p, []) :: T, ?_, by simp [hl],
      ⟨v3, v2, T, rfl, ht⟩, o4.of_perm (by perm)⟩
    simp [allocTrees, e1, e2, e3, e4]

theorem sub_keys (L : List Ser) : (L.map Ser.p).Sublist ((L.flatMap sb).map Prod.fst) := by
  induction L with
  | nil => exact List.Sublist.refl _
  | cons x L ih =>
    simp only [List.map_cons, List.flatMap_cons, sb, List.cons_append, List.nil_append]
    exact ((ih.cons_cons _).cons _).cons _

/-- The state of a forest in a heap with other blocks `R`; `T` are the blocks of
its trees. -/
structure FInv (s : FS) (L : List Ser) (T R : List Block) : Prop where
  seg : Seg s.nodes none L none
  head : s.forest.head = headp L none
  num : s.forest.num = L.length
  gone : ∀ q, q ∉ L.map Ser.p → s.nodes q = none
  trees : TB s.forest.trees T
  own : Own s.heap (L.flatMap sb ++ (T ++ ((s.forest.self, []) :: R)))

theorem FInv.nodup {s : FS} {L : List Ser} {T R : List Block} (v : FInv s L T R) :
    (L.map Ser.p).Nodup := by
  have := v.own.nodup
  rw [List.map_append] at this
  exact (sub_keys L).nodup (List.nodup_append.mp this).1

theorem FInv.keys {s : FS} {L : List Ser} {T R : List Block} (v : FInv s L T R) :
    ∀ p ∈ L.map Ser.p, p < s.heap.next := by
  intro p hp
  obtain ⟨b, hb, e⟩ := List.mem_map.mp ((sub_keys L).subset hp)
  rw [← e]
  exact v.own.lt b (List.mem_append_left _ hb)

theorem FInv.bound {s : FS} {L : List Ser} {T R : List Block} (v : FInv s L T R) :
    L.length ≤ s.heap.next := by
  have h : (L.map Ser.p).Subperm (List.range s.heap.next) :=
    List.subperm_of_subset v.nodup fun p hp => List.mem_range.mpr (v.keys p hp)
  simpa using h.length_le

theorem newSearcher_inv {E : Env} (ok : ∀ m, E.ok m = true) {s : FS} {L : List Ser}
    {T R : List Block} (v : FInv s L T R) :
    ∃ x s', newSearcher E s = some (x.p, s') ∧ x.p ∉ L.map Ser.p ∧ FInv s' (L ++ [x]) T R ∧
      x.vb.length = s.forest.numData ∧ s'.forest.numData = s.forest.numData ∧
      s'.forest.numTrees = s.forest.numTrees ∧ s'.forest.trees = s.forest.trees := by
  obtain ⟨h1, e1, n1, o1⟩ := malloc_own (E := E) v.own 0 (ok _)
  have en1 : need E s.heap 0 = some (s.heap.next, h1) := by simp [need, e1]
  obtain ⟨h2, a, va, en2, -, o2⟩ := need_own (E := E) o1 s.forest.maxNodes ok
  obtain ⟨h3, b, vb, en3, lb, o3⟩ := need_own (E := E) o2 s.forest.numData ok
  have hx : s.heap.next ∉ L.map Ser.p := fun hm => absurd (v.keys _ hm) (lt_irrefl _)
  obtain ⟨nodes', prev, el, hs, hk⟩ := link_seg s L v.seg v.nodup v.head v.num v.bound
    ⟨s.heap.next, a, b, va, vb⟩ hx
  refine ⟨⟨s.heap.next, a, b, va, vb⟩, ⟨{ s.forest with num := s.forest.num + 1, head := headp (L ++ [⟨s.heap.next, a, b, va, vb⟩]) none },
    Function.update nodes' s.heap.next (some ⟨none, prev, a, b⟩), h3⟩, ?_, hx, ⟨hs, rfl, ?_, ?_, v.trees, ?_⟩, lb, rfl, rfl, rfl⟩
  · simp only [newSearcher, en1, Option.bind_eq_bind, Option.bind_some, el, en2, en3]
  · simp [v.num]
  · intro q hq
    simp only [List.map_append, List.map_cons, List.map_nil, List.mem_append, List.mem_singleton,
      not_or] at hq
    simp only
    rw [Function.update_of_ne hq.2, hk q hq.1]
    exact v.gone q hq.1
  · refine o3.of_perm ?_
    rw [List.flatMap_append]
    simp only [fresh, List.range_zero, List.map_nil, List.flatMap_cons, sb, List.flatMap_nil]
    perm

theorem delSearcher_inv {s : FS} {A B : List Ser} {x : Ser} {T R : List Block}
    (v : FInv s (A ++ x :: B) T R) :
    ∃ s', delSearcher s x.p = some s' ∧ FInv s' (A ++ B) T R ∧
      s'.forest.numData = s.forest.numData ∧ s'.forest.numTrees = s.forest.numTrees ∧
      s'.forest.trees = s.forest.trees ∧ s'.heap.next = s.heap.next ∧
      s'.forest.self = s.forest.self := by
  obtain ⟨n, nodes', hn, ha, hb, eu, hs, hk⟩ := unlink_seg s A B x v.seg v.nodup v.head
  have o0 : Own s.heap ((x.a, x.va) :: (x.b, x.vb) :: (x.p, []) :: ((A ++ B).flatMap sb ++
      (T ++ ((s.forest.self, []) :: R)))) := by
    refine v.own.of_perm ?_
    simp only [List.flatMap_append, List.flatMap_cons, sb]
    perm
  obtain ⟨h1, e1, o1⟩ := free_own o0
  obtain ⟨h2, e2, o2⟩ := free_own o1
  obtain ⟨h3, e3, o3⟩ := free_own o2
  have hnext : ∀ {h h' : Heap} {p : Nat}, free h p = some h' → h'.next = h.next := by
    intro h h' p e
    unfold free at e
    split at e
    · cases e; rfl
    · cases e
  have hxn : x.p ∉ (A ++ B).map Ser.p := by
    have := v.nodup
    rw [List.map_append, List.map_cons, List.nodup_middle, List.nodup_cons] at this
    rw [List.map_append]
    exact this.1
  refine ⟨⟨{ s.forest with num := s.forest.num - 1, head := headp (A ++ B) none },
    Function.update nodes' x.p none, h3⟩, by simp only [delSearcher, hn, Option.bind_eq_bind, Option.bind_some, eu, ha, e1, hb,
    e2, e3], ⟨?_, rfl, ?_, ?_, v.trees, o3⟩, rfl, rfl, rfl, ?_, rfl⟩
  · refine seg_congr _ _ _ (fun y hy => ?_) hs
    refine Function.update_of_ne ?_ _ _
    rintro e
    exact hxn (e ▸ List.mem_map_of_mem hy)
  · have := v.num
    simp only [List.length_append, List.length_cons] at this ⊢
    omega
  · intro q hq
    by_cases hqx : q = x.p
    · subst hqx; simp
    · simp only
      rw [Function.update_of_ne hqx, hk q hq]
      refine v.gone q ?_
      simp only [List.map_append, List.map_cons, List.mem_append, List.mem_cons, not_or] at hq ⊢
      exact ⟨hq.1, hqx, hq.2⟩
  · rw [hnext e3, hnext e2, hnext e1]

theorem getSearcher_inv {s : FS} {L : List Ser} {T R : List Block} (v : FInv s L T R) (pos : Nat) :
    getSearcher s pos = some ((L.map Ser.p)[pos]?) := by
  rw [getSearcher, v.head]
  exact walk_seg s.nodes L none pos v.seg

theorem dropAll_inv (L : List Ser) : ∀ {s : FS} {T R : List Block}, FInv s L T R → ∀ (fuel : Nat),
    L.length < fuel → ∃ s', dropAll fuel s = some s' ∧ FInv s' [] T R ∧
      s'.forest.trees = s.forest.trees ∧ s'.forest.self = s.forest.self := by
  induction L with
  | nil =>
    intro s T R v fuel hf
    obtain ⟨f, rfl⟩ : ∃ f, fuel = f + 1 := ⟨fuel - 1, by simp at hf; omega⟩
    have := getSearcher_inv v 0
    exact ⟨s, by simp [dropAll, this], v, rfl, rfl⟩
  | cons x L ih =>
    intro s T R v fuel hf
    obtain ⟨f, rfl⟩ : ∃ f, fuel = f + 1 := ⟨fuel - 1, by simp at hf; omega⟩
    have := getSearcher_inv v 0
    obtain ⟨s1, e1, v1, -, -, t1, -, f1⟩ := delSearcher_inv (A := []) v
    obtain ⟨s2, e2, v2, t2, f2⟩ := ih v1 f (by simp at hf; omega)
    exact ⟨s2, by simp [dropAll, this, e1, e2], v2, t2.trans t1, f2.trans f1⟩

theorem fDelete_inv {s : FS} {L : List Ser} {T R : List Block} (v : FInv s L T R) :
    ∃ h, fDelete s = some h ∧ h.live.Perm R := by
  obtain ⟨s1, e1, v1, t1, f1⟩ := dropAll_inv L v (s.heap.next + 1) (Nat.lt_succ_of_le v.bound)
  obtain ⟨h2, e2, o2⟩ := dropTrees_own _ T v1.trees (by simpa using v1.own)
  obtain ⟨h3, e3, o3⟩ := free_own o2
  exact ⟨h3, by simp [fDelete, e1, e2, e3], o3.perm⟩

theorem fBuild_inv {E : Env} (ok : ∀ m, E.ok m = true) {s : FS} {L : List Ser}
    {T R : List Block} (v : FInv s L T R) (n used : Nat) :
    ∃ s' T', fBuild E s n used = some s' ∧ FInv s' L T' (T ++ R) ∧
      T'.length = 3 * s.forest.numTrees + 1 ∧ s'.forest.numTrees = s.forest.numTrees ∧
      s'.forest.numData = n := by
  obtain ⟨h1, p, w, e1, -, o1⟩ := need_own (E := E) v.own s.forest.numTrees ok
  obtain ⟨ts, h2, l, e2, hl, ht, o2⟩ := allocTrees_own E ok n s.forest.numTrees o1
  refine ⟨⟨{ s.forest with numData := n, maxNodes := used, trees := some (p, ts) }, s.nodes, h2⟩,
    l ++ [(p, w)], by simp only [fBuild, e1, Option.bind_eq_bind, Option.bind_some, e2],
    ⟨v.seg, v.head, v.num, v.gone, ⟨w, l, rfl, ht⟩, ?_⟩, ?_, rfl, rfl⟩
  · refine o2.of_perm ?_
    simp only
    perm
  · rw [List.length_append, TL.length ts l ht, hl]; rfl

theorem fNew_inv {E : Env} (ok : ∀ m, E.ok m = true) {h : Heap} {B : List Block} (o : Own h B)
    (numTrees : Nat) : ∃ s, fNew E h numTrees = some s ∧ FInv s [] [] B ∧
      s.forest.numTrees = numTrees ∧ s.forest.numData = 0 := by
  obtain ⟨h1, p, v, e1, l1, o1⟩ := need_own (E := E) o 0 ok
  obtain rfl := List.length_eq_zero_iff.mp l1
  exact ⟨⟨⟨p, numTrees, 0, 0, none, 0, none⟩, fun _ => none, h1⟩, by simp only [fNew, e1, Option.bind_eq_bind, Option.bind_some],
    ⟨trivial, rfl, rfl, fun _ _ => rfl, rfl, o1⟩, rfl, rfl⟩

end Verif.Life
