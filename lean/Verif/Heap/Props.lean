import Verif.Heap.Lemmas

/-!
# Properties C01, C02: the heap is a priority queue
-/

namespace Verif.Heap

variable {α : Type}

/-! ### Specification -/

/-- Heap order of a list read as an implicit binary tree: no element compares greater than its children. -/
def IsHeap (cmp : α → α → Int) (l : List α) : Prop :=
  ∀ (i c : Nat) (x y : α), (c = 2 * i + 1 ∨ c = 2 * i + 2) → l[i]? = some x → l[c]? = some y → cmp x y ≤ 0

/-- The elements currently in the heap. -/
def State.content (s : State α) : List α := s.arr.take s.size

/-- The heap does not exceed its array and is heap ordered. -/
def State.Valid (cmp : α → α → Int) (s : State α) : Prop :=
  s.size ≤ s.arr.length ∧ IsHeap cmp s.content

/-- What a caller has to respect: room for a push, a non-empty heap for a pop, an index in the heap for an update. -/
def Legal (s : State α) : Op α → Prop
  | .push _ => s.size < s.arr.length
  | .pop => 0 < s.size
  | .update i _ => i < s.size

/-- `m` is a smallest element of `l`. -/
def IsMinOf (cmp : α → α → Int) (m : α) (l : List α) : Prop := m ∈ l ∧ ∀ y ∈ l, cmp m y ≤ 0

/-- Effect of a call on the contents, in terms of collections of elements only. -/
def Effect (cmp : α → α → Int) (s s' : State α) : Op α → Prop
  | .push x => s'.size = s.size + 1 ∧ s'.content.Perm (x :: s.content)
  | .pop => s.size = s'.size + 1 ∧
      ∃ m, s'.arr[s'.size]? = some m ∧ IsMinOf cmp m s.content ∧ (m :: s'.content).Perm s.content
  | .update i x => s'.size = s.size ∧ s'.content.Perm (s.content.set i x)

/-! ### Auxiliary -/

theorem isHeap_take {cmp : α → α → Int} {a : List α} {n : Nat} (hn : n ≤ a.length) :
    IsHeap cmp (a.take n) ↔ Ord cmp a n := by
  constructor
  · intro h j hj hjn
    have := h ((j - 1) / 2) j a[(j - 1) / 2] a[j] (by omega)
      (by rw [List.getElem?_take, if_pos (by omega), List.getElem?_eq_getElem])
      (by rw [List.getElem?_take, if_pos (by omega), List.getElem?_eq_getElem])
    rw [List.getElem?_eq_getElem (by omega), List.getElem?_eq_getElem (by omega)]
    exact this
  · intro h i c x y hc hx hy
    rw [List.getElem?_take] at hx hy
    split at hx
    · split at hy
      · have := h c (by omega) (by omega)
        rw [show (c - 1) / 2 = i by omega, hx, hy] at this
        exact this
      · simp at hy
    · simp at hx

theorem take_perm {a a' : List α} {n : Nat} (hp : a'.Perm a) (hk : ∀ k, n ≤ k → a'[k]? = a[k]?) :
    (a'.take n).Perm (a.take n) := by
  have hd : a'.drop n = a.drop n := by
    apply List.ext_getElem?
    intro i
    rw [List.getElem?_drop, List.getElem?_drop, hk _ (by omega)]
  have := hp
  rw [← List.take_append_drop n a', ← List.take_append_drop n a, hd] at this
  exact (List.perm_append_right_iff _).1 this

theorem ord_mono {cmp : α → α → Int} {a : List α} {n m : Nat} (h : Ord cmp a n) (hm : m ≤ n) : Ord cmp a m :=
  fun j hj hjm => h j hj (by omega)

theorem push_aux {cmp : α → α → Int} (h : ThreeWay cmp) (s : State α) (x : α) (hv : s.Valid cmp)
    (hl : s.size < s.arr.length) :
    ∃ s', step cmp s (.push x) = some s' ∧ s'.Valid cmp ∧ Effect cmp s s' (.push x) ∧
      s'.arr.length = s.arr.length ∧ (∀ k, s.size < k → s'.arr[k]? = s.arr[k]?) := by
  obtain ⟨hn, hh⟩ := hv
  rw [State.content, isHeap_take hn] at hh
  have hb : OrdExceptAbove cmp (s.arr.set s.size x) (s.size + 1) s.size := by
    constructor
    · intro j hj hjn hji
      rw [List.getElem?_set_ne (by omega), List.getElem?_set_ne (by omega)]
      exact hh j hj (by omega)
    · intro h0 c hc hcn hci; omega
  obtain ⟨a', h1, h2, h3, h4⟩ := down_spec h (s.arr.set s.size x) (s.size + 1) s.size (by simp; omega) (by omega) hb
  refine ⟨⟨a', s.size + 1⟩, ?_, ?_, ?_, ?_, ?_⟩
  · simp [step, wr_of_lt hl, push, h1]
  · have hlen : s.size + 1 ≤ a'.length := by rw [h2.length_eq]; simp; omega
    exact ⟨hlen, by rw [State.content, isHeap_take hlen]; exact h3⟩
  · refine ⟨rfl, ?_⟩
    refine (take_perm (n := s.size + 1) h2 (fun k hk => h4 k (by omega))).trans ?_
    simp only [State.content]
    rw [List.take_add_one, List.getElem?_set_self hl, List.take_set_of_le (Nat.le_refl _)]
    simp only [Option.toList]
    exact List.perm_append_comm
  · simpa using h2.length_eq
  · intro k hk
    rw [show (State.mk a' (s.size + 1)).arr = a' from rfl, h4 k hk, List.getElem?_set_ne (by omega)]

theorem pop_core {cmp : α → α → Int} (h : ThreeWay cmp) (a : List α) (n : Nat) (hn : n + 1 ≤ a.length)
    (ho : Ord cmp a (n + 1)) :
    ∃ a', pop cmp a (n + 1) = some (a', n) ∧ a'.Perm a ∧ Ord cmp a' n ∧ a'[n]? = a[0]? ∧
      (∀ k, n < k → a'[k]? = a[k]?) := by
  have hsw := swp_of_lt (l := a) (i := 0) (j := n) (by omega) (by omega)
  have hlen := swp_length hsw
  have hat : ∀ k, ((a.set 0 a[n]).set n a[0])[k]? = if k = n then a[0]? else if k = 0 then a[n]? else a[k]? :=
    swp_getElem? hsw
  by_cases h1 : n > 1
  · have hb : OrdExceptBelow cmp ((a.set 0 a[n]).set n a[0]) n 0 := by
      constructor
      · intro j hj hjn hji
        rw [hat, hat, if_neg (by omega), if_neg hji, if_neg (by omega), if_neg (by omega)]
        exact ho j hj (by omega)
      · intro h0; omega
    obtain ⟨a', h2, h3, h4, h5⟩ := up_spec h _ n 0 (by rw [hlen]; omega) hb
    refine ⟨a', ?_, h3.trans (swp_perm hsw), h4, ?_, ?_⟩
    · simp [pop, assert', hsw, h1, h2]
    · rw [h5 n (Nat.le_refl _), hat, if_pos rfl]
    · intro k hk; rw [h5 k (by omega), hat, if_neg (by omega), if_neg (by omega)]
  · refine ⟨_, ?_, swp_perm hsw, ?_, ?_, ?_⟩
    · simp [pop, assert', hsw, h1]
    · intro j hj hjn; omega
    · rw [hat, if_pos rfl]
    · intro k hk; rw [hat, if_neg (by omega), if_neg (by omega)]

theorem pop_aux {cmp : α → α → Int} (h : ThreeWay cmp) (s : State α) (hv : s.Valid cmp)
    (hl : 0 < s.size) :
    ∃ s', step cmp s .pop = some s' ∧ s'.Valid cmp ∧ Effect cmp s s' .pop ∧
      s'.arr.length = s.arr.length ∧ (∀ k, s.size ≤ k → s'.arr[k]? = s.arr[k]?) := by
  obtain ⟨hn, hh⟩ := hv
  rw [State.content, isHeap_take hn] at hh
  obtain ⟨arr, size⟩ := s
  simp only at hn hh hl
  obtain ⟨n, rfl⟩ : ∃ n, size = n + 1 := ⟨size - 1, by omega⟩
  obtain ⟨a', h1, h2, h3, h4, h5⟩ := pop_core h arr n hn hh
  have hlen : n < a'.length := by rw [h2.length_eq]; omega
  refine ⟨⟨a', n⟩, ?_, ⟨by simp; omega, ?_⟩, ?_, h2.length_eq, ?_⟩
  · simp [step, h1]
  · rw [State.content, isHeap_take (by simp; omega)]; exact h3
  · refine ⟨rfl, arr[0], ?_, ⟨?_, ?_⟩, ?_⟩
    · rw [show (State.mk a' n).arr = a' from rfl, h4, List.getElem?_eq_getElem]
    · simp only [State.content]
      rw [List.mem_iff_getElem?]
      exact ⟨0, by rw [List.getElem?_take, if_pos (by omega), List.getElem?_eq_getElem]⟩
    · intro y hy
      simp only [State.content] at hy
      rw [List.mem_iff_getElem?] at hy
      obtain ⟨i, hi⟩ := hy
      rw [List.getElem?_take] at hi
      split at hi
      · rename_i hin
        have := root_min h hh i hin
        rw [hi, List.getElem?_eq_getElem (by omega)] at this
        exact this
      · simp at hi
    · simp only [State.content]
      have hp := take_perm (n := n + 1) h2 (fun k hk => h5 k (by omega))
      refine List.Perm.trans ?_ hp
      rw [List.take_add_one, h4, List.getElem?_eq_getElem (by omega)]
      simp only [Option.toList]
      exact List.perm_append_comm (l₁ := [_])
  · intro k hk; exact h5 k (by simp at hk; omega)

theorem update_aux {cmp : α → α → Int} (h : ThreeWay cmp) (s : State α) (i : Nat) (x : α) (hv : s.Valid cmp)
    (hl : i < s.size) :
    ∃ s', step cmp s (.update i x) = some s' ∧ s'.Valid cmp ∧ Effect cmp s s' (.update i x) ∧
      s'.arr.length = s.arr.length ∧ (∀ k, s.size ≤ k → s'.arr[k]? = s.arr[k]?) := by
  obtain ⟨hn, hh⟩ := hv
  rw [State.content, isHeap_take hn] at hh
  obtain ⟨arr, n⟩ := s
  simp only at hn hh hl
  have hwr := wr_of_lt (l := arr) (i := i) (by omega) x
  have hblen : (arr.set i x).length = arr.length := by simp
  have hset : ∀ k, k ≠ i → (arr.set i x)[k]? = arr[k]? := fun k hk => List.getElem?_set_ne (by omega)
  have hskip : 0 < i → ∀ c, 0 < c → c < n → (c - 1) / 2 = i →
      ole cmp (arr.set i x)[(i - 1) / 2]? (arr.set i x)[c]? := by
    intro h0 c hc hcn hci
    rw [hset _ (by omega), hset _ (by omega)]
    refine ole_trans h (hh i h0 hl) ?_
    rw [← hci]
    exact hh c hc hcn
  -- it suffices to know the outcome of `update`
  suffices hsuff : ∃ a', update cmp (arr.set i x) n i = some a' ∧ a'.Perm (arr.set i x) ∧ Ord cmp a' n ∧
      (∀ k, n ≤ k → a'[k]? = (arr.set i x)[k]?) by
    obtain ⟨a', h1, h2, h3, h4⟩ := hsuff
    have hlen : a'.length = arr.length := by rw [h2.length_eq, hblen]
    refine ⟨⟨a', n⟩, ?_, ⟨by simp; omega, ?_⟩, ⟨rfl, ?_⟩, hlen, ?_⟩
    · simp [step, hwr, h1]
    · rw [State.content, isHeap_take (by simp; omega)]; exact h3
    · simp only [State.content]
      refine (take_perm h2 h4).trans ?_
      rw [List.take_set]
    · intro k hk
      simp only at hk ⊢
      rw [h4 k hk, hset k (by omega)]
  unfold update
  -- is the new value below its parent ?
  by_cases hpar : ∀ (hi0 : 0 < i), ole cmp (arr.set i x)[(i - 1) / 2]? (arr.set i x)[i]?
  · have hb : OrdExceptBelow cmp (arr.set i x) n i := by
      constructor
      · intro j hj hjn hji
        by_cases hj' : j = i
        · subst hj'; exact hpar hj
        · rw [hset _ hji, hset _ hj']; exact hh j hj hjn
      · exact hskip
    obtain ⟨a', h2, h3, h4, h5⟩ := up_spec h _ n i (by omega) hb
    rw [h2]
    simp only [Option.bind_eq_bind, Option.bind_some]
    rw [down_of_ord h a' n i (by rw [h3.length_eq]; omega) hl h4]
    exact ⟨a', rfl, h3, h4, h5⟩
  · -- smaller than the parent, hence not larger than the children: the first sift does nothing
    have hi0 : 0 < i := by
      by_contra h0
      exact hpar (fun h' => absurd h' h0)
    have hlt : ole cmp (arr.set i x)[i]? (arr.set i x)[(i - 1) / 2]? := by
      have hnp : ¬ ole cmp (arr.set i x)[(i - 1) / 2]? (arr.set i x)[i]? := fun hc => hpar (fun _ => hc)
      rw [List.getElem?_eq_getElem (show i < (arr.set i x).length by omega),
        List.getElem?_eq_getElem (show (i - 1) / 2 < (arr.set i x).length by omega)] at hnp ⊢
      simp only [ole] at hnp ⊢
      exact (h.total _ _).resolve_left hnp
    have hup : up cmp (arr.set i x) n i = some (arr.set i x) := by
      have hcmp : ∀ c, 0 < c → c < n → (c - 1) / 2 = i → ∃ d, cmpAt cmp (arr.set i x) i c = some d ∧ ¬ d > 0 := by
        intro c hc hcn hci
        refine ⟨_, cmpAt_spec (by omega) (by omega), ?_⟩
        have := ole_trans h hlt (hskip hi0 c hc hcn hci)
        rw [List.getElem?_eq_getElem (show i < (arr.set i x).length by omega),
          List.getElem?_eq_getElem (show c < (arr.set i x).length by omega)] at this
        simp only [ole] at this
        omega
      rw [up]
      split
      · rfl
      · rename_i hL
        obtain ⟨d, hd, hd0⟩ := hcmp (leftChild i) (by simp [leftChild]) (by omega) (by simp [leftChild])
        split
        · rw [hd]; simp [hd0]
        · rename_i hR
          obtain ⟨e, he, he0⟩ := hcmp (rightChild i) (by simp [rightChild]) (by omega)
            (by simp [rightChild, leftChild]; omega)
          rw [cmpAt_spec (show leftChild i < (arr.set i x).length by omega)
            (show rightChild i < (arr.set i x).length by omega), hd, he]
          simp [hd0, he0]
    rw [hup]
    simp only [Option.bind_eq_bind, Option.bind_some]
    obtain ⟨a', h1, h2, h3, h4⟩ := down_spec h (arr.set i x) n i (by omega) hl
      ⟨fun j hj hjn hji => by
        by_cases hjp : (j - 1) / 2 = i
        · rw [hjp]; exact ole_trans h hlt (hskip hi0 j hj hjn hjp)
        · rw [hset _ hjp, hset _ hji]; exact hh j hj hjn, hskip⟩
    exact ⟨a', h1, h2, h3, fun k hk => h4 k (by omega)⟩

/-! ### C01 -/

/-- Every legal call on a valid heap runs without touching memory outside of the array and yields a valid heap whose content
changed exactly as prescribed; entries behind the heap are untouched. -/
theorem step_correct {cmp : α → α → Int} (h : ThreeWay cmp) (s : State α) (o : Op α) (hv : s.Valid cmp)
    (hl : Legal s o) :
    ∃ s', step cmp s o = some s' ∧ s'.Valid cmp ∧ Effect cmp s s' o ∧
      s'.arr.length = s.arr.length ∧ (∀ k, s.size < k → s'.arr[k]? = s.arr[k]?) := by
  cases o with
  | push x => exact push_aux h s x hv hl
  | pop =>
    obtain ⟨s', h1, h2, h3, h4, h5⟩ := pop_aux h s hv hl
    exact ⟨s', h1, h2, h3, h4, fun k hk => h5 k (by omega)⟩
  | update i x =>
    obtain ⟨s', h1, h2, h3, h4, h5⟩ := update_aux h s i x hv hl
    exact ⟨s', h1, h2, h3, h4, fun k hk => h5 k (by omega)⟩

/-- C01 for pops and updates: these calls only permute the array (apart from the value stored by the client). -/
theorem pop_permutes {cmp : α → α → Int} (h : ThreeWay cmp) (s s' : State α) (hv : s.Valid cmp) (hl : 0 < s.size)
    (hs : step cmp s .pop = some s') : s'.arr.Perm s.arr := by
  obtain ⟨hn, hh⟩ := hv
  rw [State.content, isHeap_take hn] at hh
  obtain ⟨arr, size⟩ := s
  simp only at hn hh hl
  obtain ⟨n, rfl⟩ : ∃ n, size = n + 1 := ⟨size - 1, by omega⟩
  obtain ⟨a', h1, h2, -⟩ := pop_core h arr n hn hh
  simp [step, h1] at hs
  subst hs
  exact h2

/-- A sequence of calls is legal for a heap of `n` elements in an array of `cap` entries: every push has room, every pop
finds a non-empty heap, every update addresses an element of the heap. -/
def legalSeq (cap : Nat) : Nat → List (Op α) → Bool
  | _, [] => true
  | n, .push _ :: os => n < cap && legalSeq cap (n + 1) os
  | n, .pop :: os => 0 < n && legalSeq cap (n - 1) os
  | n, .update i _ :: os => i < n && legalSeq cap n os

/-- C01: along every legal history of calls starting from a valid heap there is no undefined behaviour, and at every point
the heap is heap ordered; the array keeps its length. -/
theorem run_valid {cmp : α → α → Int} (h : ThreeWay cmp) (s : State α) (os : List (Op α)) (hv : s.Valid cmp)
    (hl : legalSeq s.arr.length s.size os) :
    ∃ s', run cmp s os = some s' ∧ s'.Valid cmp ∧ s'.arr.length = s.arr.length := by
  induction os generalizing s with
  | nil => exact ⟨s, rfl, hv, rfl⟩
  | cons o os ih =>
    have hlo : Legal s o := by
      cases o <;> simp_all [legalSeq, Legal]
    obtain ⟨s1, h1, h2, he, h4, -⟩ := step_correct h s o hv hlo
    obtain ⟨s2, h5, h6, h7⟩ := ih s1 h2 (by
      rw [h4]
      cases o <;> simp_all [legalSeq, Effect])
    exact ⟨s2, by simp [run, h1, h5], h6, h7.trans h4⟩

/-- The empty heap on any array is valid, so that `run_valid` applies to every array. -/
theorem empty_valid (cmp : α → α → Int) (a : List α) : (State.mk a 0).Valid cmp := by
  refine ⟨Nat.zero_le _, ?_⟩
  intro i c x y _ hx
  simp [State.content] at hx

/-! ### C02 -/

/-- C02: a pop on a non-empty valid heap moves a minimal element to the index it returns (the new heap size) and removes
exactly that element. -/
theorem pop_is_delete_min {cmp : α → α → Int} (h : ThreeWay cmp) (s : State α) (hv : s.Valid cmp) (hl : 0 < s.size) :
    ∃ s' m, step cmp s .pop = some s' ∧ s.size = s'.size + 1 ∧ s'.arr[s'.size]? = some m ∧
      m ∈ s.content ∧ (∀ y ∈ s.content, cmp m y ≤ 0) ∧ (m :: s'.content).Perm s.content := by
  obtain ⟨s', h1, -, ⟨h2, m, h3, h4, h5⟩, -⟩ := step_correct h s .pop hv hl
  exact ⟨s', m, h1, h2, h3, h4.1, h4.2, h5⟩

/-- C02: popping everything lists the elements in non-decreasing order (from the end of the array to its beginning, since the
k-th pop stores its result at the index `heapSize - k`). -/
theorem popAll_sorts {cmp : α → α → Int} (h : ThreeWay cmp) (a : List α) (n : Nat) (hn : n ≤ a.length)
    (hh : IsHeap cmp (a.take n)) :
    ∃ a', popAll cmp a n = some a' ∧ (a'.take n).Perm (a.take n) ∧
      (a'.take n).reverse.Pairwise (fun x y => cmp x y ≤ 0) ∧ a'.drop n = a.drop n := by
  rw [isHeap_take hn] at hh
  suffices hs : ∃ a', popAll cmp a n = some a' ∧ (a'.take n).Perm (a.take n) ∧
      (a'.take n).Pairwise (fun x y => cmp y x ≤ 0) ∧ (∀ k, n ≤ k → a'[k]? = a[k]?) by
    obtain ⟨a', h1, h2, h3, h4⟩ := hs
    refine ⟨a', h1, h2, by rw [List.pairwise_reverse]; exact h3, ?_⟩
    apply List.ext_getElem?
    intro i
    rw [List.getElem?_drop, List.getElem?_drop, h4 _ (by omega)]
  induction n generalizing a with
  | zero => exact ⟨a, rfl, List.Perm.refl _, by simp, fun _ _ => rfl⟩
  | succ n ih =>
    obtain ⟨b, h1, h2, h3, h4, h5⟩ := pop_core h a n hn hh
    obtain ⟨a', g1, g2, g3, g4⟩ := ih b (by rw [h2.length_eq]; omega) h3
    have hb : (b.take (n + 1)).Perm (a.take (n + 1)) := take_perm h2 (fun k hk => h5 k (by omega))
    have e1 : a'.take (n + 1) = a'.take n ++ [a[0]] := by
      rw [List.take_add_one, g4 n (Nat.le_refl _), h4, List.getElem?_eq_getElem (by omega)]; rfl
    have e2 : b.take (n + 1) = b.take n ++ [a[0]] := by
      rw [List.take_add_one, h4, List.getElem?_eq_getElem (by omega)]; rfl
    refine ⟨a', ?_, ?_, ?_, ?_⟩
    · simp [popAll, h1, g1]
    · rw [e1]
      refine List.Perm.trans ?_ hb
      rw [e2]
      exact List.Perm.append_right _ g2
    · rw [e1, List.pairwise_append]
      refine ⟨g3, by simp, ?_⟩
      intro x hx y hy
      simp only [List.mem_singleton] at hy
      subst hy
      have hx' : x ∈ a.take (n + 1) := hb.subset (by rw [e2]; simp [g2.subset hx])
      rw [List.mem_iff_getElem?] at hx'
      obtain ⟨i, hi⟩ := hx'
      rw [List.getElem?_take] at hi
      split at hi
      · rename_i hin
        have := root_min h hh i hin
        rw [hi, List.getElem?_eq_getElem (by omega)] at this
        exact this
      · simp at hi
    · intro k hk
      rw [g4 k (by omega), h5 k (by omega)]

/-! ### The hypotheses are met by concrete non-trivial cases -/

section Examples

/-- The library's default comparison. -/
private abbrev dcmp : Int → Int → Int := fun a b => a - b

private abbrev history : List (Op Int) :=
  [.push 5, .push 3, .push 8, .push 1, .push 3, .update 2 0, .pop, .push 7, .pop]

example : legalSeq 6 0 history = true := by decide

example : ∃ s', run dcmp ⟨[0, 0, 0, 0, 0, 0], 0⟩ history = some s' ∧ s'.Valid dcmp ∧ s'.arr.length = 6 :=
  run_valid threeWay_sub _ _ (empty_valid _ _) (by decide)

example : (run dcmp ⟨[0, 0, 0, 0, 0, 0], 0⟩ history).map (fun s => (s.arr, s.size)) =
    some ([3, 3, 7, 5, 1, 0], 4) := by decide +kernel

example : (State.mk [1, 3, 2, 9] 3).Valid dcmp ∧ 0 < (State.mk [1, 3, 2, 9] 3).size := by
  refine ⟨⟨by decide, ?_⟩, by decide⟩
  rw [State.content, isHeap_take (by decide)]
  intro j hj hjn
  obtain rfl | rfl : j = 1 ∨ j = 2 := by simp at hjn; omega
  all_goals simp [ole, dcmp]

example : popAll dcmp [1, 3, 2, 9] 3 = some [3, 2, 1, 9] := by decide +kernel

end Examples

end Verif.Heap
