import Mathlib.Tactic.NormNum
import Verif.Life.GmmProps
import Verif.Life.FailModel

/-!
# Memory that runs out: SVMs and scale spaces
-/

namespace Verif.Life

theorem Heap.Good.own {h : Heap} (g : h.Good) : Own h h.live := ⟨.refl _, g.nodup, g.lt⟩

/-- A request, whatever its outcome. -/
theorem malloc_cases (E : Env) {h : Heap} {B : List Block} (o : Own h B) (n : Nat) :
    (∃ h' v, malloc E h n = (some h.next, h') ∧ E.ok h.next = true ∧ h'.next = h.next + 1 ∧
      v.length = n ∧ Own h' ((h.next, v) :: B)) ∨
    (∃ h', malloc E h n = (none, h') ∧ E.ok h.next = false ∧ h'.next = h.next + 1 ∧ Own h' B) := by
  cases hok : E.ok h.next with
  | true =>
    obtain ⟨h', e, hn, o'⟩ := malloc_own (E := E) o n hok
    exact Or.inl ⟨h', _, e, rfl, hn, fresh_length _ _ _, o'⟩
  | false =>
    obtain ⟨h', e, hn, o'⟩ := malloc_fail (E := E) o n hok
    exact Or.inr ⟨h', e, rfl, hn, o'⟩

/-! ## SVM -/

/-- The number of requests that the creation of an SVM makes for its parts. -/
def parts (sdca : Bool) : Nat := if sdca then 3 else 2

theorem svm_core (E : Env) {h : Heap} {B : List Block} (o : Own h B) (sdca : Bool) (dim n : Nat)
    (h0 : E.ok h.next = true) :
    (∃ s h1 p a v1 v2 v3, svmNewAbstract E h sdca dim n = some (some s, h1) ∧
      s = ⟨h.next, some p, a, some (h.next + parts sdca), none⟩ ∧
      a.isSome = sdca ∧
      (∀ i < parts sdca, E.ok (h.next + 1 + i) = true) ∧
      Own h1 ((h.next, []) :: (p, v1) :: (blk a v2 ++ (h.next + parts sdca, v3) :: B))) ∨
    (∃ h1, svmNewAbstract E h sdca dim n = some (none, h1) ∧
      (∃ i < parts sdca, E.ok (h.next + 1 + i) = false) ∧
      Own h1 ((h.next, []) :: B)) := by
  obtain ⟨h1, e1, n1, o1⟩ := malloc_own (E := E) o 0 h0
  have en : need E h 0 = some (h.next, h1) := by simp [need, e1]
  rcases malloc_cases E o1 dim with ⟨h2, v2, e2, k2, n2, l2, o2⟩ | ⟨h2, e2, k2, n2, o2⟩
  · cases sdca with
    | false =>
      rcases malloc_cases E o2 n with ⟨h3, v3, e3, k3, n3, l3, o3⟩ | ⟨h3, e3, k3, n3, o3⟩
      · rw [n2, n1] at e3 k3 o3
        rw [n1] at e2 k2
        refine Or.inl ⟨_, h3, h.next + 1, none, v2, [], v3, ?_, rfl, rfl, ?_, ?_⟩
        · simp [svmNewAbstract, en, e2, svmAlpha, e3, parts]
        · intro i hi
          have : i = 0 ∨ i = 1 := by simp [parts] at hi; omega
          rcases this with rfl | rfl
          · exact k2
          · exact k3
        · rw [Nat.add_assoc] at o3
          refine o3.of_perm ?_
          simp only [blk, parts, fresh, List.range_zero, List.map_nil, Nat.reduceAdd,
            Bool.false_eq_true, if_false]
          perm
      · refine Or.inr ?_
        have o3' : Own h3 ((h1.next, v2) :: (h.next, fresh E h.next 0) :: B) := o3
        obtain ⟨h4, e4, o4⟩ := free_own o3'
        refine ⟨h4, ?_, ⟨1, by simp [parts], ?_⟩, o4⟩
        · simp [svmNewAbstract, en, e2, svmAlpha, e3, svmErr, freeIf, e4]
        · rw [n2, n1] at k3; exact k3
    | true =>
      rcases malloc_cases E o2 n with ⟨h3, v3, e3, k3, n3, l3, o3⟩ | ⟨h3, e3, k3, n3, o3⟩
      · rcases malloc_cases E o3 n with ⟨h4, v4, e4, k4, n4, l4, o4⟩ | ⟨h4, e4, k4, n4, o4⟩
        · rw [n3, n2, n1] at e4 k4 o4
          rw [n2, n1] at e3 k3
          rw [n1] at e2 k2
          refine Or.inl ⟨_, h4, h.next + 1, some (h.next + 1 + 1), v2, v3, v4, ?_, rfl, rfl, ?_, ?_⟩
          · simp [svmNewAbstract, en, e2, svmAlpha, e3, e4, parts]
          · intro i hi
            have : i = 0 ∨ i = 1 ∨ i = 2 := by simp [parts] at hi; omega
            rcases this with rfl | rfl | rfl
            · exact k2
            · exact k3
            · exact k4
          · rw [show h.next + 1 + 1 + 1 = h.next + 3 from rfl] at o4
            refine o4.of_perm ?_
            simp only [blk, parts, fresh, List.range_zero, List.map_nil, if_true]
            perm
        · refine Or.inr ?_
          have o4' : Own h4 ((h1.next, v2) :: (h2.next, v3) :: (h.next, fresh E h.next 0) :: B) :=
            o4.of_perm (by perm)
          obtain ⟨h5, e5, o5⟩ := free_own o4'
          obtain ⟨h6, e6, o6⟩ := free_own o5
          refine ⟨h6, ?_, ⟨2, by simp [parts], ?_⟩, o6⟩
          · simp [svmNewAbstract, en, e2, svmAlpha, e3, e4, svmErr, freeIf, e5, e6]
          · rw [n3, n2, n1] at k4; exact k4
      · refine Or.inr ?_
        have o3' : Own h3 ((h1.next, v2) :: (h.next, fresh E h.next 0) :: B) := o3
        obtain ⟨h4, e4, o4⟩ := free_own o3'
        refine ⟨h4, ?_, ⟨1, by simp [parts], ?_⟩, o4⟩
        · simp [svmNewAbstract, en, e2, svmAlpha, e3, svmErr, freeIf, e4]
        · rw [n2, n1] at k3; exact k3
  · refine Or.inr ⟨h2, ?_, ⟨0, by simp only [parts]; split <;> omega, ?_⟩, o2⟩
    · simp [svmNewAbstract, en, e2, svmErr, freeIf]
    · rw [n1] at k2; exact k2

/-- An SVM that is created and deleted leaves one block behind, that of its
scores; everything else is given back.  When memory runs out for one of its
parts, the function returns NULL and leaves the structure behind.  Other memory
is untouched. -/
theorem svm_new_delete (E : Env) (h : Heap) (g : h.Good) (sdca : Bool) (dim n : Nat)
    (h0 : E.ok h.next = true) :
    (∃ s h1 hd p v, svmNewAbstract E h sdca dim n = some (some s, h1) ∧
      (∀ i < parts sdca, E.ok (h.next + 1 + i) = true) ∧ s.alpha.isSome = sdca ∧
      svmDelete h1 s = some hd ∧ s.scores = some p ∧ hd.live.Perm ((p, v) :: h.live)) ∨
    (∃ h1, svmNewAbstract E h sdca dim n = some (none, h1) ∧
      (∃ i < parts sdca, E.ok (h.next + 1 + i) = false) ∧
      h1.live.Perm ((h.next, []) :: h.live)) := by
  rcases svm_core E g.own sdca dim n h0 with
    ⟨s, h1, p, a, v1, v2, v3, e1, rfl, ha, hok, o1⟩ | ⟨h1, e1, hf, o1⟩
  · have o2 : Own h1 ((p, v1) :: (blk a v2 ++ ((h.next, []) :: (h.next + parts sdca, v3) ::
        h.live))) := o1.of_perm (by perm)
    obtain ⟨h2, e2, o3⟩ := free_own o2
    obtain ⟨h3, e3, o4⟩ := freeIf_own o3
    obtain ⟨h4, e4, o5⟩ := free_own o4
    exact Or.inl ⟨_, h1, h4, _, v3, e1, hok, ha, by
        simp only [svmDelete, show freeIf h1 (some p) = some h2 from e2, Option.bind_eq_bind,
          Option.bind_some, e3, show freeIf h3 none = some h3 from rfl, e4], rfl,
      o5.perm⟩
  · exact Or.inr ⟨h1, e1, hf, o1.perm⟩

/-- Creating and deleting an SVM ought to leave the heap as it was. -/
def SvmNoLeakClaim : Prop :=
  ∀ (E : Env), (∀ m, E.ok m = true) → ∀ (h : Heap), h.Good → ∀ (sdca : Bool) (dim n : Nat),
    ∃ s h1 hd, svmNew E h sdca dim n = some (s, h1) ∧ svmDelete h1 s = some hd ∧
      hd.live.Perm h.live

/-- It does not. -/
theorem svm_no_leak_claim_false : ¬ SvmNoLeakClaim := by
  intro hc
  obtain ⟨s, h1, hd, e1, e2, hp⟩ := hc allOk (fun _ => rfl) ⟨[], 0⟩ ⟨List.nodup_nil, by simp⟩ true 1 1
  have key : (do
      let s ← svmNew allOk ⟨[], 0⟩ true 1 1
      let h ← svmDelete s.2 s.1
      some h.live.length) = some 1 := by decide +kernel
  rw [e1] at key
  simp only [Option.bind_eq_bind, Option.bind_some, e2, Option.some.injEq] at key
  rw [hp.length_eq] at key
  simp at key

/-- `vl_svm_new` is defined exactly when no request fails: it dereferences the
NULL that it gets otherwise, instead of returning it.  When it is defined, one
block is leaked by the deletion. -/
theorem svm_new_defined (E : Env) (h : Heap) (g : h.Good) (sdca : Bool) (dim n : Nat) :
    ((svmNew E h sdca dim n).isSome ↔ ∀ i < parts sdca + 2, E.ok (h.next + i) = true) ∧
    ∀ s h1, svmNew E h sdca dim n = some (s, h1) → ∃ hd p v, svmDelete h1 s = some hd ∧
      s.scores = some p ∧ hd.live.Perm ((p, v) :: h.live) := by
  rcases malloc_cases E g.own 0 with ⟨h1, w, e1, k1, n1, l1, o1⟩ | ⟨h1, e1, k1, n1, o1⟩
  · have en : need E h 0 = some (h.next, h1) := by simp [need, e1]
    obtain rfl := List.length_eq_zero_iff.mp l1
    cases k2 : E.ok h1.next with
    | false =>
      have e2 : svmNew E h sdca dim n = none := by
        have en2 : need E h1 0 = none := by simp [need, malloc, k2]
        simp [svmNew, en, svmNewAbstract, en2]
      refine ⟨?_, by simp [e2]⟩
      rw [e2]
      simp only [Option.isSome_none, Bool.false_eq_true, false_iff]
      intro hall
      have := hall 1 (by omega)
      rw [← n1, k2] at this
      cases this
    | true =>
      rcases svm_core E o1 sdca dim n k2 with
        ⟨s, h2, p, a, v1, v2, v3, e2, rfl, ha, hok, o2⟩ | ⟨h2, e2, ⟨i, hi, hf⟩, o2⟩
      · have e3 : svmNew E h sdca dim n =
            some (⟨h1.next, some p, a, some (h1.next + parts sdca), some h.next⟩, h2) := by
          simp [svmNew, en, e2]
        refine ⟨?_, ?_⟩
        · rw [e3]
          simp only [Option.isSome_some, true_iff]
          intro i hi
          rcases i with _ | _ | i
          · exact k1
          · rw [← k2, n1]
          · have := hok i (by omega)
            rw [n1] at this
            rw [← this]
            congr 1
            omega
        · intro s h3 hs
          rw [e3] at hs
          cases hs
          have o3 : Own h2 ((p, v1) :: (blk a v2 ++ ((h.next, []) :: (h1.next, []) ::
              (h1.next + parts sdca, v3) :: h.live))) := o2.of_perm (by perm)
          obtain ⟨h3, e4, o4⟩ := free_own o3
          obtain ⟨h4, e5, o5⟩ := freeIf_own o4
          obtain ⟨h5, e6, o6⟩ := free_own o5
          obtain ⟨h6, e7, o7⟩ := free_own o6
          exact ⟨h6, _, v3, by
            simp only [svmDelete, show freeIf h2 (some p) = some h3 from e4, Option.bind_eq_bind,
              Option.bind_some, e5, show freeIf h4 (some h.next) = some h5 from e6, e7], rfl,
            o7.perm⟩
      · have e3 : svmNew E h sdca dim n = none := by simp [svmNew, en, e2]
        refine ⟨?_, by simp [e3]⟩
        rw [e3]
        simp only [Option.isSome_none, Bool.false_eq_true, false_iff]
        intro hall
        have := hall (i + 2) (by omega)
        rw [n1, show h.next + 1 + 1 + i = h.next + (i + 2) by omega, this] at hf
        cases hf
  · have e2 : svmNew E h sdca dim n = none := by simp [svmNew, need, e1]
    refine ⟨?_, by simp [e2]⟩
    rw [e2]
    simp only [Option.isSome_none, Bool.false_eq_true, false_iff]
    intro hall
    have := hall 0 (by omega)
    rw [Nat.add_zero, k1] at this
    cases this

example : (svmNew allOk ⟨[(0, [5])], 1⟩ true 2 3).isSome ∧
    (svmNewAbstract ⟨fun i => i != 2, fun _ _ => 0⟩ ⟨[], 0⟩ true 1 1).map (fun r => r.2.live) =
      some [(0, [])] := by decide +kernel

/-! ## Scale space -/

theorem ssFree_own (l : List Block) (k : Nat) : ∀ {h : Heap} {B : List Block}, Own h (l ++ B) →
    ∃ h', ssFree (l.map (fun b => some b.1) ++ List.replicate k none) h = some h' ∧ Own h' B := by
  induction l with
  | nil =>
    intro h B o
    refine ⟨h, ?_, o⟩
    rw [List.map_nil, List.nil_append]
    induction k with
    | zero => rfl
    | succ k ih => rw [List.replicate_succ, ssFree]; exact ih
  | cons b l ih =>
    intro h B o
    obtain ⟨h1, e1, o1⟩ := free_own o
    obtain ⟨h2, e2, o2⟩ := ih o1
    exact ⟨h2, by simp [ssFree, freeIf, e1, e2], o2⟩

theorem ssAlloc_own (E : Env) (sizes : List Nat) : ∀ {h : Heap} {B : List Block}, Own h B →
    ∃ (l : List Block) (k : Nat) (h' : Heap), ssAlloc E sizes h =
        (l.map (fun b => some b.1) ++ List.replicate k none, h', decide (k ≠ 0)) ∧
      l.length + k = sizes.length ∧ Own h' (l ++ B) ∧
      (k = 0 → l.map (fun b => b.2.length) = sizes ∧ ∀ i < sizes.length, E.ok (h.next + i) = true) ∧
      (k ≠ 0 → ∃ i < sizes.length, E.ok (h.next + i) = false) := by
  induction sizes with
  | nil => exact fun {h B} o => ⟨[], 0, h, rfl, rfl, o, fun _ => ⟨rfl, by simp⟩, by simp⟩
  | cons n ns ih =>
    intro h B o
    rcases malloc_cases E o n with ⟨h1, v, e1, k1, n1, l1, o1⟩ | ⟨h1, e1, k1, n1, o1⟩
    · obtain ⟨l, k, h2, e2, hk, o2, h3, h4⟩ := ih o1
      refine ⟨(h.next, v) :: l, k, h2, ?_, by simp; omega, o2.of_perm (by perm), ?_, ?_⟩
      · simp [ssAlloc, e1, e2]
      · intro hk0
        obtain ⟨h5, h6⟩ := h3 hk0
        refine ⟨by simp [l1, h5], fun i hi => ?_⟩
        cases i with
        | zero => exact k1
        | succ i =>
          have := h6 i (by simpa using hi)
          rw [n1] at this
          rw [← this]; congr 1; omega
      · intro hk0
        obtain ⟨i, hi, hf⟩ := h4 hk0
        refine ⟨i + 1, by simpa using hi, ?_⟩
        rw [n1] at hf
        rw [← hf]; congr 1; omega
    · refine ⟨[], ns.length + 1, h1, ?_, by simp, o1, by simp, fun _ => ⟨0, by simp, k1⟩⟩
      simp [ssAlloc, e1, List.replicate_succ]

/-- The creation of a scale space. -/
theorem ss_core (E : Env) (sizes : List Nat) {h : Heap} {B : List Block} (o : Own h B) :
    (∃ (s : SS) (h1 : Heap) (l : List Block) (w : List ℚ), ssNew E h sizes = some (some s, h1) ∧
      (∀ i < sizes.length + 2, E.ok (h.next + i) = true) ∧ s.sizes = sizes ∧
      s.octs = l.map (fun b => some b.1) ∧ l.map (fun b => b.2.length) = sizes ∧
      Own h1 (l ++ ((s.list, w) :: (s.self, []) :: B))) ∨
    (∃ h1, ssNew E h sizes = some (none, h1) ∧
      (E.ok h.next = false ∨ E.ok (h.next + 1) = false) ∧ Own h1 B) ∨
    (∃ (h1 : Heap) (p : Nat) (w : List ℚ), ssNew E h sizes = some (none, h1) ∧
      (∃ i < sizes.length, E.ok (h.next + 2 + i) = false) ∧
      E.ok h.next = true ∧ E.ok (h.next + 1) = true ∧ Own h1 ((p, w) :: B)) := by
  rcases malloc_cases E o 0 with ⟨h1, v1, e1, k1, n1, l1, o1⟩ | ⟨h1, e1, k1, n1, o1⟩
  · obtain rfl := List.length_eq_zero_iff.mp l1
    rcases malloc_cases E o1 sizes.length with ⟨h2, v2, e2, k2, n2, l2, o2⟩ | ⟨h2, e2, k2, n2, o2⟩
    · obtain ⟨l, k, h3, e3, hk, o3, h4, h5⟩ := ssAlloc_own E sizes o2
      rw [n1] at k2
      by_cases hk0 : k = 0
      · subst hk0
        obtain ⟨h6, h7⟩ := h4 rfl
        simp only [List.replicate_zero, List.append_nil, ne_eq, not_true_eq_false, decide_false]
          at e3
        refine Or.inl ⟨⟨h.next, h1.next, sizes, l.map fun b => some b.1⟩, h3, l, v2, ?_, ?_, rfl,
          rfl, h6, o3⟩
        · simp [ssNew, e1, e2, e3]
        · intro i hi
          rcases i with _ | _ | i
          · exact k1
          · exact k2
          · have := h7 i (by omega)
            rw [n2, n1] at this
            rw [← this]; congr 1; omega
      · obtain ⟨h6, e6, o6⟩ := ssFree_own l k o3
        have o6' : Own h6 ((h.next, []) :: (h1.next, v2) :: B) := o6.of_perm (by perm)
        obtain ⟨h7, e7, o7⟩ := free_own o6'
        have ht : decide (k ≠ 0) = true := decide_eq_true hk0
        rw [ht] at e3
        refine Or.inr (Or.inr ⟨h7, h1.next, v2, ?_, ?_, k1, k2, o7⟩)
        · simp [ssNew, e1, e2, e3, e6, e7]
        · obtain ⟨i, hi, hf⟩ := h5 hk0
          refine ⟨i, hi, ?_⟩
          rw [n2, n1] at hf
          exact hf
    · obtain ⟨h3, e3, o3⟩ := free_own o2
      refine Or.inr (Or.inl ⟨h3, by simp [ssNew, e1, e2, e3], Or.inr ?_, o3⟩)
      rw [n1] at k2; exact k2
  · exact Or.inr (Or.inl ⟨h1, by simp [ssNew, e1], Or.inl k1, o1⟩)

/-- Creating a scale space never goes wrong.  It gives an object exactly when no
request fails, and deleting the object gives back all the memory.  It gives NULL
otherwise: nothing is left behind when the structure or the list of octaves
cannot be allocated, and one block, the list, when an octave cannot. -/
theorem scalespace_new_delete (E : Env) (h : Heap) (g : h.Good) (sizes : List Nat) :
    (∃ s h1 hd, ssNew E h sizes = some (some s, h1) ∧
      (∀ i < sizes.length + 2, E.ok (h.next + i) = true) ∧
      ssDelete h1 s = some hd ∧ hd.live.Perm h.live) ∨
    (∃ h1, ssNew E h sizes = some (none, h1) ∧
      (E.ok h.next = false ∨ E.ok (h.next + 1) = false) ∧ h1.live.Perm h.live) ∨
    (∃ h1 b, ssNew E h sizes = some (none, h1) ∧
      (∃ i < sizes.length, E.ok (h.next + 2 + i) = false) ∧
      E.ok h.next = true ∧ E.ok (h.next + 1) = true ∧ h1.live.Perm (b :: h.live)) := by
  rcases ss_core E sizes g.own with ⟨s, h1, l, w, e1, hok, -, hoct, -, o1⟩ |
    ⟨h1, e1, hf, o1⟩ | ⟨h1, p, w, e1, hf, k1, k2, o1⟩
  · obtain ⟨h2, e2, o2⟩ := ssFree_own l 0 o1
    obtain ⟨h3, e3, o3⟩ := free_own o2
    obtain ⟨h4, e4, o4⟩ := free_own o3
    simp only [List.replicate_zero, List.append_nil] at e2
    exact Or.inl ⟨s, h1, h4, e1, hok, by simp [ssDelete, hoct, e2, e3, e4], o4.perm⟩
  · exact Or.inr (Or.inl ⟨h1, e1, hf, o1.perm⟩)
  · exact Or.inr (Or.inr ⟨h1, _, e1, hf, k1, k2, o1.perm⟩)

/-- When NULL is returned, the heap ought to be as it was. -/
def ScalespaceNullClaim : Prop :=
  ∀ (E : Env) (h : Heap), h.Good → ∀ (sizes : List Nat) (h1 : Heap),
    ssNew E h sizes = some (none, h1) → h1.live.Perm h.live

/-- The list of octaves is left behind when an octave cannot be allocated. -/
theorem scalespace_null_claim_false : ¬ ScalespaceNullClaim := by
  intro hc
  have := hc ⟨fun i => decide (i < 2), fun _ _ => 0⟩ ⟨[], 0⟩ ⟨List.nodup_nil, by simp⟩ [1]
    ⟨[(1, [0])], 3⟩ rfl
  simpa using this.length_eq

/-- The octaves of `s` are live blocks and contain `vs`. -/
def SS.Holds (s : SS) (h : Heap) (vs : List (List ℚ)) : Prop :=
  ∃ ps : List Nat, s.octs = ps.map some ∧ ps.length = s.sizes.length ∧
    vs.map List.length = s.sizes ∧
    ∀ (i : Nat) (p : Nat), ps[i]? = some p → load h p = vs[i]?

theorem memcpy_mem {h : Heap} {B : List Block} {src dst n : Nat} {v w : List ℚ}
    (o : Own h ((dst, w) :: B)) (hm : (src, v) ∈ B) (hv : v.length = n) (hw : w.length = n) :
    ∃ h', memcpy h dst src n = some h' ∧ Own h' ((dst, v) :: B) := by
  have p := List.perm_cons_erase hm
  obtain ⟨h1, e1, o1⟩ := memcpy_own (o.of_perm (p.cons _)) hv hw
  exact ⟨h1, e1, o1.of_perm (p.symm.cons _)⟩

/-- A block of the copy, its source, and their contents. -/
structure Row where
  n : Nat
  d : Nat
  p : Nat
  w : List ℚ
  v : List ℚ

theorem ssCopyLoop_own (l : List Row) : ∀ {h : Heap} {B : List Block},
    (∀ r ∈ l, r.w.length = r.n ∧ r.v.length = r.n ∧ (r.p, r.v) ∈ B) →
    Own h (l.map (fun r => (r.d, r.w)) ++ B) →
    ∃ h', ssCopyLoop (l.map Row.n) (l.map fun r => some r.d) (l.map fun r => some r.p) h = some h' ∧
      Own h' (l.map (fun r => (r.d, r.v)) ++ B) := by
  induction l with
  | nil => exact fun {h B} _ o => ⟨h, rfl, o⟩
  | cons r l ih =>
    intro h B hl o
    obtain ⟨h1, h2, h3⟩ := hl r (List.mem_cons_self ..)
    obtain ⟨h4, e4, o4⟩ := memcpy_mem (B := l.map (fun r => (r.d, r.w)) ++ B) o
      (List.mem_append_right _ h3) h2 h1
    have o5 : Own h4 (l.map (fun r => (r.d, r.w)) ++ ((r.d, r.v) :: B)) := o4.of_perm (by perm)
    obtain ⟨h6, e6, o6⟩ := ih (B := (r.d, r.v) :: B) (fun r' hr' =>
      ⟨(hl r' (List.mem_cons_of_mem _ hr')).1, (hl r' (List.mem_cons_of_mem _ hr')).2.1,
        List.mem_cons_of_mem _ (hl r' (List.mem_cons_of_mem _ hr')).2.2⟩) o5
    refine ⟨h6, by simp [ssCopyLoop, e4, e6], o6.of_perm ?_⟩
    rw [List.map_cons]
    perm

theorem mem_of_load {h : Heap} {p : Nat} {v : List ℚ} (e : load h p = some v) : (p, v) ∈ h.live := by
  unfold load at e
  obtain ⟨b, hb, he⟩ := Option.map_eq_some_iff.mp e
  have h1 := List.mem_of_find?_eq_some hb
  have h2 := List.find?_some hb
  simp only [beq_iff_eq] at h2
  rw [← h2, ← he]
  exact h1

theorem load_of_mem {h : Heap} {B : List Block} (o : Own h B) {p : Nat} {v : List ℚ}
    (hm : (p, v) ∈ B) : load h p = some v :=
  load_own (o.of_perm (List.perm_cons_erase hm))

/-- A copy of a scale space is NULL exactly when a request fails; otherwise it has
the same geometry, its octaves have the same contents in blocks of their own, and
the original keeps its contents. -/
theorem scalespace_copy (E : Env) (h : Heap) (g : h.Good) (s : SS) (vs : List (List ℚ))
    (hs : s.Holds h vs) :
    (∃ c h1, ssCopy E h s = some (some c, h1) ∧ c.sizes = s.sizes ∧ c.Holds h1 vs ∧
      s.Holds h1 vs ∧ (∀ b ∈ h.live, b ∈ h1.live) ∧
      (∀ p, some p ∈ c.octs → p ∉ h.live.map Prod.fst) ∧
      ∀ i < s.sizes.length + 2, E.ok (h.next + i) = true) ∨
    (∃ h1, ssCopy E h s = some (none, h1) ∧ (∀ b ∈ h.live, b ∈ h1.live) ∧
      ∃ i < s.sizes.length + 2, E.ok (h.next + i) = false) := by
  obtain ⟨ps, hoct, hpl, hvl, hload⟩ := hs
  rcases ss_core E s.sizes g.own with ⟨c, h1, l, w, e1, hok, hcs, hcoct, hl, o1⟩ |
    ⟨h1, e1, hf, o1⟩ | ⟨h1, p, w, e1, ⟨i, hi, hf⟩, k1, k2, o1⟩
  · refine Or.inl ?_
    have hvl' : vs.length = s.sizes.length := by rw [← hvl, List.length_map]
    have hll : l.length = s.sizes.length := by rw [← hl, List.length_map]
    -- the rows of the copy
    let rows : List Row := (List.range s.sizes.length).map fun i =>
      ⟨(s.sizes[i]?).getD 0, ((l[i]?).getD (0, [])).1, (ps[i]?).getD 0,
        ((l[i]?).getD (0, [])).2, (vs[i]?).getD []⟩
    have rowmap : ∀ {β : Type} (f : Row → β) (m : List β), m.length = s.sizes.length →
        (∀ i (hi : i < s.sizes.length), m[i]? = some (f
          ⟨(s.sizes[i]?).getD 0, ((l[i]?).getD (0, [])).1, (ps[i]?).getD 0,
            ((l[i]?).getD (0, [])).2, (vs[i]?).getD []⟩)) → rows.map f = m := by
      intro β f m hm hi
      apply List.ext_getElem?
      intro j
      by_cases hj : j < s.sizes.length
      · simp only [rows, List.map_map, List.getElem?_map, List.getElem?_range hj, Option.map_some]
        exact (hi j hj).symm
      · simp only [rows, List.map_map, List.getElem?_map]
        rw [List.getElem?_eq_none (by simpa using hj), List.getElem?_eq_none (by omega)]
        rfl
    have r1 : rows.map Row.n = s.sizes := rowmap _ _ rfl fun i hi => by
      rw [List.getElem?_eq_getElem hi]; rfl
    have r2 : rows.map (fun r => some r.d) = c.octs := rowmap _ _ (by simp [hcoct, hll])
      fun i hi => by
        rw [hcoct, List.getElem?_map, List.getElem?_eq_getElem (by omega)]; rfl
    have r3 : rows.map (fun r => some r.p) = s.octs := rowmap _ _ (by simp [hoct, hpl])
      fun i hi => by
        rw [hoct, List.getElem?_map, List.getElem?_eq_getElem (by omega)]; rfl
    have r4 : rows.map (fun r => (r.d, r.w)) = l := rowmap _ _ hll fun i hi => by
        rw [List.getElem?_eq_getElem (by omega)]; rfl
    have r5 : ∀ r ∈ rows, r.w.length = r.n ∧ r.v.length = r.n ∧
        (r.p, r.v) ∈ (c.list, w) :: (c.self, []) :: h.live := by
      intro r hr
      obtain ⟨i, hi, rfl⟩ := List.mem_map.mp hr
      have hi' : i < s.sizes.length := List.mem_range.mp hi
      have a1 : l[i]? = some l[i] := List.getElem?_eq_getElem (by omega)
      have a2 : ps[i]? = some ps[i] := List.getElem?_eq_getElem (by omega)
      have a3 : vs[i]? = some vs[i] := List.getElem?_eq_getElem (by omega)
      have a4 : s.sizes[i]? = some s.sizes[i] := List.getElem?_eq_getElem hi'
      simp only [a1, a2, a3, a4, Option.getD_some]
      refine ⟨?_, ?_, ?_⟩
      · have := congrArg (fun m : List Nat => m[i]?) hl
        simp only [List.getElem?_map, a1, a4, Option.map_some, Option.some.injEq] at this
        exact this
      · have := congrArg (fun m : List Nat => m[i]?) hvl
        simp only [List.getElem?_map, a3, a4, Option.map_some, Option.some.injEq] at this
        exact this
      · have := hload i _ a2
        rw [a3] at this
        exact List.mem_cons_of_mem _ (List.mem_cons_of_mem _ (mem_of_load this))
    have o1' : Own h1 (rows.map (fun r => (r.d, r.w)) ++ ((c.list, w) :: (c.self, []) :: h.live)) := by
      rw [r4]; exact o1
    obtain ⟨h2, e2, o2⟩ := ssCopyLoop_own rows r5 o1'
    rw [r1, r2, r3] at e2
    have hkeep : ∀ b ∈ h.live, b ∈ h2.live := fun b hb => o2.perm.mem_iff.mpr
      (List.mem_append_right _ (List.mem_cons_of_mem _ (List.mem_cons_of_mem _ hb)))
    refine ⟨c, h2, by simp [ssCopy, e1, e2], hcs, ?_, ?_, hkeep, ?_, hok⟩
    · refine ⟨l.map Prod.fst, by rw [hcoct]; simp, by rw [hcs, List.length_map, hll], by rw [hcs, hvl], ?_⟩
      intro i p hp
      have hi : i < l.length := by
        have := (List.getElem?_eq_some_iff.mp hp).1
        simpa using this
      have a1 : l[i]? = some l[i] := List.getElem?_eq_getElem hi
      have a3 : vs[i]? = some vs[i] := List.getElem?_eq_getElem (by omega)
      simp only [List.getElem?_map, a1, Option.map_some, Option.some.injEq] at hp
      rw [a3]
      refine load_of_mem o2 (List.mem_append_left _ (List.mem_map.mpr ⟨⟨(s.sizes[i]?).getD 0,
        ((l[i]?).getD (0, [])).1, (ps[i]?).getD 0, ((l[i]?).getD (0, [])).2, (vs[i]?).getD []⟩,
        List.mem_map.mpr ⟨i, List.mem_range.mpr (by omega), rfl⟩, ?_⟩))
      simp only [a1, a3, Option.getD_some, hp]
    · refine ⟨ps, hoct, hpl, hvl, ?_⟩
      intro i p hp
      have hi : i < ps.length := (List.getElem?_eq_some_iff.mp hp).1
      have a3 : vs[i]? = some vs[i] := List.getElem?_eq_getElem (by omega)
      have := hload i p hp
      rw [a3] at this ⊢
      exact load_of_mem o2 (List.mem_append_right _ (List.mem_cons_of_mem _
        (List.mem_cons_of_mem _ (mem_of_load this))))
    · intro p hp hm
      rw [hcoct] at hp
      obtain ⟨b, hb, hbp⟩ := List.mem_map.mp hp
      have nd := o1.nodup
      rw [List.map_append] at nd
      refine (List.nodup_append.mp nd).2.2 b.1 (List.mem_map_of_mem hb) b.1 ?_ rfl
      rw [List.map_cons, List.map_cons]
      refine List.mem_cons_of_mem _ (List.mem_cons_of_mem _ ?_)
      rw [Option.some.inj hbp]
      exact hm
  · refine Or.inr ⟨h1, by simp [ssCopy, e1], fun b hb => o1.perm.mem_iff.mpr hb, ?_⟩
    rcases hf with hf | hf
    · exact ⟨0, by omega, hf⟩
    · exact ⟨1, by omega, hf⟩
  · refine Or.inr ⟨h1, by simp [ssCopy, e1], fun b hb => o1.perm.mem_iff.mpr
      (List.mem_cons_of_mem _ hb), ⟨i + 2, by omega, ?_⟩⟩
    rw [← hf]; congr 1; omega

example : SS.Holds ⟨0, 1, [1, 2], [some 2, some 3]⟩
    ⟨[(2, [7]), (3, [8, 9]), (1, [0, 0]), (0, [])], 4⟩ [[7], [8, 9]] := by
  refine ⟨[2, 3], rfl, rfl, rfl, ?_⟩
  intro i p hp
  rcases i with _ | _ | i
  · cases hp; rfl
  · cases hp; rfl
  · simp at hp

end Verif.Life
