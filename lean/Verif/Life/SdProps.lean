import Verif.Life.BufProps
import Verif.Life.SdModel

/-! # C233: SVM data sets serve any sequence of kernel maps and give back their memory -/

namespace Verif.Life

/-! ## Specification -/

/-- The values of a map have the announced size. -/
def KMap.Wf (k : KMap) : Prop := ∀ x, (k.ev x).length = k.dim

/-- A vector as the SVM sees it. -/
def mapped : Option KMap → List ℚ → List ℚ
  | none, row => row
  | some k, row => row.flatMap k.ev

/-- The map that is set after some calls. -/
def lastMap : Option KMap → List SdOp → Option KMap
  | m, [] => m
  | _, .set k :: ops => lastMap k ops
  | m, _ :: ops => lastMap m ops

/-- The elements exist, and the models are as large as the vectors that the SVM sees. -/
def SdLegal (data : List (List ℚ)) : Option KMap → List SdOp → Prop
  | _, [] => True
  | _, .set k :: ops => (∀ q, k = some q → q.Wf) ∧ SdLegal data k ops
  | m, .inner i model :: ops => (∃ row, data[i]? = some row ∧ (mapped m row).length ≤ model.length) ∧ SdLegal data m ops
  | m, .add i model _ :: ops => (∃ row, data[i]? = some row ∧ (mapped m row).length ≤ model.length) ∧ SdLegal data m ops

/-- The data set after some calls. -/
def SdReached (E : Env) (h0 : Heap) (data : List (List ℚ)) (ops : List SdOp) (r : Sd × Heap) : Prop :=
  ∃ s0 h, sdNew E h0 data = (some s0, h) ∧ sdRun E ops (s0, h) = some r

/-! ## Proofs -/

theorem dotAt_eq (b : List ℚ) : ∀ m : List ℚ, b.length ≤ m.length → dotAt b m = some (List.zipWith (· * ·) b m).sum := by
  induction b with
  | nil => intro m _; simp [dotAt]
  | cons x b ih =>
    intro m hm
    cases m with
    | nil => simp at hm
    | cons y m => simp [dotAt, ih m (by simpa using hm)]

theorem addAt_eq (c : ℚ) (b : List ℚ) : ∀ m : List ℚ, b.length ≤ m.length → addAt c b m = some (m.mapIdx fun j y => y + b[j]?.getD 0 * c) := by
  induction b with
  | nil =>
    intro m _
    simp only [addAt, List.getElem?_nil, Option.getD_none, zero_mul, add_zero, Option.some.injEq]
    apply List.ext_getElem <;> simp
  | cons x b ih =>
    intro m hm
    cases m with
    | nil => simp at hm
    | cons y m => simp [addAt, ih m (by simpa using hm), List.mapIdx_cons]

theorem zip_split (a b : List ℚ) : ∀ m : List ℚ, a.length ≤ m.length →
    List.zipWith (· * ·) (a ++ b) m = List.zipWith (· * ·) a m ++ List.zipWith (· * ·) b (m.drop a.length) := by
  induction a with
  | nil => intro m _; simp
  | cons x a ih =>
    intro m hm
    cases m with
    | nil => simp at hm
    | cons y m => simp [ih m (by simpa using hm)]

theorem add_split (c : ℚ) (a b m : List ℚ) (hm : a.length ≤ m.length) :
    (m.mapIdx fun j y => y + (a ++ b)[j]?.getD 0 * c) =
      ((m.take a.length).mapIdx fun j y => y + a[j]?.getD 0 * c) ++ ((m.drop a.length).mapIdx fun j y => y + b[j]?.getD 0 * c) := by
  conv_lhs => rw [← List.take_append_drop a.length m, List.mapIdx_append]
  congr 1
  · apply List.ext_getElem
    · simp
    · intro j h1 h2
      have hj : j < a.length := by
        simp only [List.length_mapIdx, List.length_take] at h1
        omega
      simp [List.getElem?_append_left hj]
  · apply List.ext_getElem
    · simp
    · intro j h1 h2
      have e : (m.take a.length).length = a.length := by simp [hm]
      simp only [List.getElem_mapIdx, e]
      rw [List.getElem?_append_right (by omega), Nat.add_sub_cancel]

theorem store_inv {h h' : Heap} {R : List Block} {p : Option Nat} {w v : List ℚ} (o : Own h (blk p w ++ R)) (e : storeIf h p v = some h') :
    ∃ w', Own h' (blk p w' ++ R) ∧ w'.length = w.length := by
  cases p with
  | none =>
    cases v with
    | nil => cases e; exact ⟨w, o, rfl⟩
    | cons => cases e
  | some p =>
    have hv : v.length ≤ w.length := by
      by_contra c
      have : storeIf h (some p) v = none := by
        simp only [storeIf, store, load_own (show Own h ((p, w) :: R) from o), if_neg c]
      rw [this] at e
      cases e
    obtain ⟨h1, e1, o1⟩ := store_own (show Own h ((p, w) :: R) from o) v hv
    have : h' = h1 := by
      have e' : store h p v = some h' := e
      rw [e1] at e'
      exact (Option.some.inj e').symm
    subst this
    exact ⟨v ++ w.drop v.length, o1, by simp; omega⟩

theorem homInner_inv (k : KMap) (p : Option Nat) (d : Nat) {R : List Block} (l : List ℚ) :
    ∀ {h h' : Heap} {w : List ℚ} {model : List ℚ} {r : ℚ}, Own h (blk p w ++ R) → homInner k p d l model h = some (r, h') →
    ∃ w', Own h' (blk p w' ++ R) ∧ w'.length = w.length := by
  induction l with
  | nil => intro h h' w model r o e; cases e; exact ⟨w, o, rfl⟩
  | cons x l ih =>
    intro h h' w model r o e
    simp only [homInner, Option.bind_eq_bind, Option.bind_eq_some_iff, Option.some.injEq, Prod.mk.injEq] at e
    obtain ⟨h1, e1, b, -, q, -, ⟨r2, h2⟩, e2, -, rfl⟩ := e
    obtain ⟨w1, o1, l1⟩ := store_inv o e1
    obtain ⟨w2, o2, l2⟩ := ih o1 e2
    exact ⟨w2, o2, l2.trans l1⟩

theorem homAdd_inv (k : KMap) (p : Option Nat) (d : Nat) (c : ℚ) {R : List Block} (l : List ℚ) :
    ∀ {h h' : Heap} {w : List ℚ} {model : List ℚ} {r : List ℚ}, Own h (blk p w ++ R) → homAdd k p d c l model h = some (r, h') →
    ∃ w', Own h' (blk p w' ++ R) ∧ w'.length = w.length := by
  induction l with
  | nil => intro h h' w model r o e; cases e; exact ⟨w, o, rfl⟩
  | cons x l ih =>
    intro h h' w model r o e
    simp only [homAdd, Option.bind_eq_bind, Option.bind_eq_some_iff, Option.some.injEq, Prod.mk.injEq] at e
    obtain ⟨h1, e1, b, -, q, -, ⟨r2, h2⟩, e2, -, rfl⟩ := e
    obtain ⟨w1, o1, l1⟩ := store_inv o e1
    obtain ⟨w2, o2, l2⟩ := ih o1 e2
    exact ⟨w2, o2, l2.trans l1⟩

theorem buf_rw {h : Heap} {R : List Block} {p : Nat} {w v : List ℚ} (o : Own h (blk (some p) w ++ R)) (hv : v.length = w.length) :
    ∃ h', storeIf h (some p) v = some h' ∧ Own h' (blk (some p) v ++ R) ∧ readIf h' (some p) w.length = some v := by
  obtain ⟨h1, e1, o1⟩ := store_full (show Own h ((p, w) :: R) from o) v hv
  refine ⟨h1, e1, o1, ?_⟩
  simp only [readIf, load_own o1, Option.bind_eq_bind, Option.bind_some]
  rw [if_pos (by omega), List.take_of_length_le (by omega)]

theorem homInner_eq {k : KMap} (wf : k.Wf) (p : Nat) {R : List Block} (l : List ℚ) :
    ∀ {h : Heap} {w : List ℚ} {model : List ℚ}, Own h (blk (some p) w ++ R) → w.length = k.dim → (l.flatMap k.ev).length ≤ model.length →
    ∃ h', homInner k (some p) k.dim l model h = some ((List.zipWith (· * ·) (l.flatMap k.ev) model).sum, h') := by
  induction l with
  | nil => intro h w model o hw hm; exact ⟨h, by simp [homInner]⟩
  | cons x l ih =>
    intro h w model o hw hm
    rw [List.flatMap_cons, List.length_append, wf x] at hm
    obtain ⟨h1, e1, o1, r1⟩ := buf_rw o (v := k.ev x) (by rw [wf x, hw])
    obtain ⟨h2, e2⟩ := ih (model := model.drop k.dim) o1 (wf x) (by rw [List.length_drop]; omega)
    rw [hw] at r1
    refine ⟨h2, ?_⟩
    simp only [homInner, e1, r1, e2, dotAt_eq (k.ev x) model (by rw [wf x]; omega), Option.bind_eq_bind, Option.bind_some]
    rw [List.flatMap_cons, zip_split _ _ _ (by rw [wf x]; omega), List.sum_append, wf x]

theorem homAdd_eq {k : KMap} (wf : k.Wf) (p : Nat) (c : ℚ) {R : List Block} (l : List ℚ) :
    ∀ {h : Heap} {w : List ℚ} {model : List ℚ}, Own h (blk (some p) w ++ R) → w.length = k.dim → (l.flatMap k.ev).length ≤ model.length →
    ∃ h', homAdd k (some p) k.dim c l model h = some (model.mapIdx fun j y => y + (l.flatMap k.ev)[j]?.getD 0 * c, h') := by
  induction l with
  | nil =>
    intro h w model o hw hm
    refine ⟨h, ?_⟩
    simp only [homAdd, List.flatMap_nil, Option.some.injEq, Prod.mk.injEq, and_true]
    apply List.ext_getElem <;> simp
  | cons x l ih =>
    intro h w model o hw hm
    rw [List.flatMap_cons, List.length_append, wf x] at hm
    obtain ⟨h1, e1, o1, r1⟩ := buf_rw o (v := k.ev x) (by rw [wf x, hw])
    obtain ⟨h2, e2⟩ := ih (model := model.drop k.dim) o1 (wf x) (by rw [List.length_drop]; omega)
    rw [hw] at r1
    refine ⟨h2, ?_⟩
    simp only [homAdd, e1, r1, e2, addAt_eq c (k.ev x) (model.take k.dim) (by rw [wf x, List.length_take]; omega), Option.bind_eq_bind,
      Option.bind_some]
    rw [List.flatMap_cons, add_split _ _ _ _ (by rw [wf x]; omega), wf x]

structure SdInv (h : Heap) (s : Sd) (F : List Block) (v : List ℚ) : Prop where
  own : Own h (blk s.buf v ++ ((s.self, []) :: F))
  hom : (s.hom = none ∧ s.buf = none) ∨ ∃ k, s.hom = some k ∧ s.homDim = k.dim ∧ v.length = k.dim

theorem SdInv.self {h : Heap} {s : Sd} {F : List Block} {v : List ℚ} (i : SdInv h s F v) : load h s.self = some [] :=
  load_own (B := blk s.buf v ++ F) (i.own.of_perm (by perm))

theorem sdDelete_own {h : Heap} {s : Sd} {F : List Block} {v : List ℚ} (i : SdInv h s F v) : ∃ h', sdDelete h s = some h' ∧ Own h' F := by
  obtain ⟨h1, e1, o1⟩ := freeIf_own i.own
  obtain ⟨h2, e2, o2⟩ := free_own o1
  exact ⟨h2, by simp only [sdDelete, i.self, e1, e2, Option.bind_eq_bind, Option.bind_some], o2⟩

theorem sdSet_inv (E : Env) {h : Heap} {s : Sd} {F : List Block} {v : List ℚ} (i : SdInv h s F v) (m : Option KMap) :
    ∃ s' h' v', sdSet E h s m = some (s', h') ∧ SdInv h' s' F v' ∧ s'.data = s.data ∧ s'.hom = m ∧
      (E.ok h.next = true → m ≠ none → s'.buf ≠ none) := by
  obtain ⟨h1, e1, o1⟩ := freeIf_own i.own
  have hn : h1.next = h.next := by
    cases hb : s.buf with
    | none => rw [hb] at e1; cases e1; rfl
    | some p =>
      rw [hb] at e1
      simp only [freeIf, free] at e1
      split at e1
      · cases e1; rfl
      · cases e1
  cases m with
  | none =>
    exact ⟨{ s with hom := none, homDim := 0, buf := none }, h1, [], by simp only [sdSet, i.self, e1, Option.bind_eq_bind, Option.bind_some],
      ⟨o1, .inl ⟨rfl, rfl⟩⟩, rfl, rfl, fun _ c => absurd rfl c⟩
  | some k =>
    rcases malloc_cases E o1 k.dim with ⟨h2, v2, e2, k2, n2, l2, o2⟩ | ⟨h2, e2, k2, n2, o2⟩
    · refine ⟨{ s with hom := some k, homDim := k.dim, buf := some h1.next }, h2, v2,
        by simp only [sdSet, i.self, e1, e2, Option.bind_eq_bind, Option.bind_some], ⟨o2, .inr ⟨k, rfl, rfl, l2⟩⟩, rfl, rfl, fun _ _ => by simp⟩
    · refine ⟨{ s with hom := some k, homDim := k.dim, buf := none }, h2, List.replicate k.dim 0,
        by simp only [sdSet, i.self, e1, e2, Option.bind_eq_bind, Option.bind_some], ⟨o2, .inr ⟨k, rfl, rfl, by simp⟩⟩, rfl, rfl, fun c _ => ?_⟩
      rw [hn, c] at k2
      cases k2

theorem sdStep_inv (E : Env) {h : Heap} {s : Sd} {F : List Block} {v : List ℚ} (i : SdInv h s F v) (op : SdOp) {s' : Sd} {h' : Heap}
    (e : sdStep E (s, h) op = some (s', h')) : ∃ v', SdInv h' s' F v' := by
  cases op with
  | set m =>
    obtain ⟨s1, h1, v1, e1, i1, -⟩ := sdSet_inv E i m
    have e' : sdSet E h s m = some (s', h') := e
    rw [e1] at e'
    cases e'
    exact ⟨v1, i1⟩
  | inner j model =>
    simp only [sdStep, Option.map_eq_some_iff, Prod.mk.injEq] at e
    obtain ⟨⟨r, h1⟩, e1, rfl, rfl⟩ := e
    simp only [sdInner, i.self, Option.bind_eq_bind, Option.bind_some, Option.bind_eq_some_iff] at e1
    obtain ⟨row, -, e2⟩ := e1
    cases hk : s.hom with
    | none =>
      rw [hk] at e2
      simp only [Option.map_eq_some_iff, Prod.mk.injEq] at e2
      obtain ⟨_, -, -, rfl⟩ := e2
      exact ⟨v, i⟩
    | some k =>
      rw [hk] at e2
      obtain ⟨w, o, l⟩ := homInner_inv k s.buf s.homDim row i.own e2
      refine ⟨w, o, ?_⟩
      rcases i.hom with c | ⟨k', c1, c2, c3⟩
      · exact .inl c
      · exact .inr ⟨k', c1, c2, l.trans c3⟩
  | add j model c =>
    simp only [sdStep, Option.map_eq_some_iff, Prod.mk.injEq] at e
    obtain ⟨⟨r, h1⟩, e1, rfl, rfl⟩ := e
    simp only [sdAdd, i.self, Option.bind_eq_bind, Option.bind_some, Option.bind_eq_some_iff] at e1
    obtain ⟨row, -, e2⟩ := e1
    cases hk : s.hom with
    | none =>
      rw [hk] at e2
      simp only [Option.map_eq_some_iff, Prod.mk.injEq] at e2
      obtain ⟨_, -, -, rfl⟩ := e2
      exact ⟨v, i⟩
    | some k =>
      rw [hk] at e2
      obtain ⟨w, o, l⟩ := homAdd_inv k s.buf s.homDim c row i.own e2
      refine ⟨w, o, ?_⟩
      rcases i.hom with c | ⟨k', c1, c2, c3⟩
      · exact .inl c
      · exact .inr ⟨k', c1, c2, l.trans c3⟩

theorem sdRun_own (E : Env) {F : List Block} (ops : List SdOp) :
    ∀ {h : Heap} {s : Sd} {v : List ℚ}, SdInv h s F v → ∀ {s' : Sd} {h' : Heap}, sdRun E ops (s, h) = some (s', h') → ∃ v', SdInv h' s' F v' := by
  induction ops with
  | nil => intro h s v i s' h' e; cases e; exact ⟨v, i⟩
  | cons op ops ih =>
    intro h s v i s' h' e
    simp only [sdRun, Option.bind_eq_bind, Option.bind_eq_some_iff] at e
    obtain ⟨⟨s1, h1⟩, e1, e2⟩ := e
    obtain ⟨v1, i1⟩ := sdStep_inv E i op e1
    exact ih i1 e2

/-- The map that is set, with its buffer. -/
structure SdOk (s : Sd) (data : List (List ℚ)) (m : Option KMap) : Prop where
  data : s.data = data
  hom : s.hom = m
  wf : ∀ k, m = some k → k.Wf
  buf : m ≠ none → s.buf ≠ none

theorem sdInner_eq {h : Heap} {s : Sd} {F : List Block} {v : List ℚ} {data : List (List ℚ)} {m : Option KMap} (i : SdInv h s F v)
    (k : SdOk s data m) {j : Nat} {row model : List ℚ} (hr : data[j]? = some row) (hm : (mapped m row).length ≤ model.length) :
    ∃ h', sdInner h s j model = some ((List.zipWith (· * ·) (mapped m row) model).sum, h') := by
  simp only [sdInner, i.self, k.data, hr, k.hom, Option.bind_eq_bind, Option.bind_some]
  cases m with
  | none => exact ⟨h, by simp only [dotAt_eq row model hm, Option.map_some]; rfl⟩
  | some q =>
    obtain ⟨p, hp⟩ := Option.ne_none_iff_exists'.mp (k.buf (by simp))
    rcases i.hom with ⟨c, -⟩ | ⟨q', c1, c2, c3⟩
    · rw [k.hom] at c; cases c
    · rw [k.hom] at c1
      cases c1
      have o := i.own
      rw [hp] at o
      obtain ⟨h', e⟩ := homInner_eq (k.wf q rfl) p row o c3 hm
      exact ⟨h', by simp only [hp, c2]; exact e⟩

theorem sdAdd_eq {h : Heap} {s : Sd} {F : List Block} {v : List ℚ} {data : List (List ℚ)} {m : Option KMap} (i : SdInv h s F v)
    (k : SdOk s data m) {j : Nat} {row model : List ℚ} (hr : data[j]? = some row) (hm : (mapped m row).length ≤ model.length) (c : ℚ) :
    ∃ h', sdAdd h s j model c = some (model.mapIdx fun t y => y + (mapped m row)[t]?.getD 0 * c, h') := by
  simp only [sdAdd, i.self, k.data, hr, k.hom, Option.bind_eq_bind, Option.bind_some]
  cases m with
  | none => exact ⟨h, by simp only [addAt_eq c row model hm, Option.map_some]; rfl⟩
  | some q =>
    obtain ⟨p, hp⟩ := Option.ne_none_iff_exists'.mp (k.buf (by simp))
    rcases i.hom with ⟨c, -⟩ | ⟨q', c1, c2, c3⟩
    · rw [k.hom] at c; cases c
    · rw [k.hom] at c1
      cases c1
      have o := i.own
      rw [hp] at o
      obtain ⟨h', e⟩ := homAdd_eq (k.wf q rfl) p c row o c3 hm
      exact ⟨h', by simp only [hp, c2]; exact e⟩

theorem sdRun_ok {E : Env} (ok : ∀ m, E.ok m = true) {F : List Block} {data : List (List ℚ)} (ops : List SdOp) :
    ∀ {h : Heap} {s : Sd} {v : List ℚ} {m : Option KMap}, SdInv h s F v → SdOk s data m → SdLegal data m ops →
    ∃ s' h' v', sdRun E ops (s, h) = some (s', h') ∧ SdInv h' s' F v' ∧ SdOk s' data (lastMap m ops) := by
  induction ops with
  | nil => intro h s v m i k _; exact ⟨s, h, v, rfl, i, k⟩
  | cons op ops ih =>
    intro h s v m i k hl
    cases op with
    | set q =>
      obtain ⟨s1, h1, v1, e1, i1, d1, m1, b1⟩ := sdSet_inv E i q
      obtain ⟨s2, h2, v2, e2, i2, k2⟩ := ih i1 (m := q) ⟨d1.trans k.data, m1, hl.1, b1 (ok _)⟩ hl.2
      exact ⟨s2, h2, v2, by simp only [sdRun, sdStep, e1, e2, Option.bind_eq_bind, Option.bind_some], i2, k2⟩
    | inner j model =>
      obtain ⟨⟨row, hr, hm⟩, hl⟩ := hl
      obtain ⟨h1, e1⟩ := sdInner_eq i k hr hm
      have e1' : sdStep E (s, h) (.inner j model) = some (s, h1) := by simp only [sdStep, e1, Option.map_some]
      obtain ⟨v1, i1⟩ := sdStep_inv E i _ e1'
      obtain ⟨s2, h2, v2, e2, i2, k2⟩ := ih i1 k hl
      exact ⟨s2, h2, v2, by simp only [sdRun, e1', e2, Option.bind_eq_bind, Option.bind_some], i2, k2⟩
    | add j model c =>
      obtain ⟨⟨row, hr, hm⟩, hl⟩ := hl
      obtain ⟨h1, e1⟩ := sdAdd_eq i k hr hm c
      have e1' : sdStep E (s, h) (.add j model c) = some (s, h1) := by simp only [sdStep, e1, Option.map_some]
      obtain ⟨v1, i1⟩ := sdStep_inv E i _ e1'
      obtain ⟨s2, h2, v2, e2, i2, k2⟩ := ih i1 k hl
      exact ⟨s2, h2, v2, by simp only [sdRun, e1', e2, Option.bind_eq_bind, Option.bind_some], i2, k2⟩

theorem sdNew_inv (E : Env) {h h' : Heap} {F : List Block} (o : Own h F) {data : List (List ℚ)} {s : Sd} (e : sdNew E h data = (some s, h')) :
    SdInv h' s F [] ∧ SdOk s data none := by
  rcases malloc_cases E o 0 with ⟨h2, v2, e2, k2, n2, l2, o2⟩ | ⟨h2, e2, k2, n2, o2⟩
  · obtain rfl : v2 = [] := List.length_eq_zero_iff.mp l2
    simp only [sdNew, e2, Prod.mk.injEq, Option.some.injEq] at e
    obtain ⟨rfl, rfl⟩ := e
    exact ⟨⟨o2, .inl ⟨rfl, rfl⟩⟩, rfl, rfl, (fun _ c => by cases c), fun c => absurd rfl c⟩
  · simp [sdNew, e2] at e

/-! ## Theorems -/

/-- C233: kernel maps may be set, replaced and removed at any time, between any uses of the data: no call is undefined, the blocks of others are
untouched, and the inner product and the accumulation are those of the vectors mapped by the map that was set last, whatever maps were set before. -/
theorem svmdata_history (E : Env) (ok : ∀ m, E.ok m = true) (h0 : Heap) (g : h0.Good) (data : List (List ℚ)) (ops : List SdOp)
    (hl : SdLegal data none ops) :
    (∃ r, SdReached E h0 data ops r) ∧ ∀ s h, SdReached E h0 data ops (s, h) →
      (∀ b ∈ h0.live, b ∈ h.live) ∧
      ∀ i row model, data[i]? = some row → (mapped (lastMap none ops) row).length ≤ model.length →
        (∃ h', sdInner h s i model = some ((List.zipWith (· * ·) (mapped (lastMap none ops) row) model).sum, h')) ∧
        ∀ c, ∃ h', sdAdd h s i model c = some (model.mapIdx fun t y => y + (mapped (lastMap none ops) row)[t]?.getD 0 * c, h') := by
  obtain ⟨h1, e1, -, o1⟩ := malloc_own (E := E) g.own 0 (ok _)
  have e0 : sdNew E h0 data = (some ⟨h0.next, data, none, none, 0⟩, h1) := by simp only [sdNew, e1]
  obtain ⟨i0, k0⟩ := sdNew_inv E g.own e0
  obtain ⟨s2, h2, v2, e2, i2, k2⟩ := sdRun_ok ok ops i0 k0 hl
  refine ⟨⟨_, _, _, e0, e2⟩, ?_⟩
  rintro s h ⟨s0', h0', e0', e⟩
  rw [e0] at e0'
  cases e0'
  rw [e2] at e
  cases e
  refine ⟨fun b hb => ?_, fun i row model hr hm => ⟨sdInner_eq i2 k2 hr hm, fun c => sdAdd_eq i2 k2 hr hm c⟩⟩
  rw [i2.own.perm.mem_iff]
  simp [hb]

/-- C233: after any defined history, with any requests of memory failing, deleting the data set gives back all its blocks. -/
theorem svmdata_no_leak (E : Env) (h0 : Heap) (g : h0.Good) (data : List (List ℚ)) (ops : List SdOp) (s : Sd) (h : Heap)
    (r : SdReached E h0 data ops (s, h)) : ∃ h', sdDelete h s = some h' ∧ h'.live.Perm h0.live := by
  obtain ⟨s0, h1, e0, e⟩ := r
  obtain ⟨i0, -⟩ := sdNew_inv E g.own e0
  obtain ⟨v, i⟩ := sdRun_own E ops i0 e
  obtain ⟨h', e', o⟩ := sdDelete_own i
  exact ⟨h', e', o.perm⟩

/-- C234: setting a map and using the data is defined, whatever requests of memory fail. -/
def SdFailClaim : Prop :=
  ∀ (E : Env) (h0 : Heap) (_ : h0.Good) (data : List (List ℚ)) (ops : List SdOp) (s : Sd) (h : Heap), sdNew E h0 data = (some s, h) →
    SdLegal data none ops → ∃ r, sdRun E ops (s, h) = some r

/-- C234: if the buffer cannot be allocated this is not noticed, and the first use of a vector that is not empty writes to NULL. -/
theorem svmdata_null_undefined (E : Env) (h0 : Heap) (g : h0.Good) (data : List (List ℚ)) (s : Sd) (h : Heap) (e : sdNew E h0 data = (some s, h))
    (k : KMap) (wf : k.Wf) (hk : 0 < k.dim) (fail : E.ok h.next = false) :
    ∃ s' h', sdSet E h s (some k) = some (s', h') ∧ ∀ i x row model, data[i]? = some (x :: row) → sdInner h' s' i model = none := by
  obtain ⟨i0, k0⟩ := sdNew_inv E g.own e
  have hb : s.buf = none := by
    rcases i0.hom with ⟨-, c⟩ | ⟨q, c, -⟩
    · exact c
    · rw [k0.hom] at c; cases c
  obtain ⟨h1, e1, n1, o1⟩ := malloc_fail (E := E) i0.own k.dim fail
  rw [hb] at o1
  refine ⟨{ s with hom := some k, homDim := k.dim, buf := none }, h1,
    by simp only [sdSet, i0.self, hb, freeIf, e1, Option.bind_eq_bind, Option.bind_some], fun i x row model hr => ?_⟩
  have hl : load h1 s.self = some [] := load_own (show Own h1 ((s.self, []) :: h0.live) from o1)
  have hs : storeIf h1 none (k.ev x) = none := by
    cases hx : k.ev x with
    | nil => have := wf x; rw [hx] at this; simp at this; omega
    | cons => rfl
  simp only [sdInner, hl, k0.data, hr, Option.bind_eq_bind, Option.bind_some, homInner, hs, Option.bind_none]

theorem sd_fail_claim_false : ¬ SdFailClaim := by
  intro c
  have h := c ⟨fun n => n == 0, fun _ _ => 0⟩ ⟨[], 0⟩ ⟨by simp, by simp⟩ [[1]] [.set (some ⟨1, fun x => [x]⟩), .inner 0 [1]] ⟨0, [[1]], none, none, 0⟩ ⟨[(0, [])], 1⟩
    (by rfl) (by simp [SdLegal, mapped, KMap.Wf])
  revert h
  simp [sdRun, sdStep, sdSet, load, freeIf, malloc, sdInner, homInner, storeIf]

/-- A map with three elements, then one with two, then none. -/
example : SdLegal [[1, 2], [3, 4]] none [.set (some ⟨3, fun x => [x, 2 * x, 1]⟩), .inner 0 [1, 1, 1, 1, 1, 1], .set (some ⟨2, fun x => [x, 1]⟩),
    .add 1 [0, 0, 0, 0] 2, .set none, .inner 1 [1, 1]] := by
  simp [SdLegal, mapped, KMap.Wf]

example : ((sdNew allOk ⟨[], 0⟩ [[1, 2], [3, 4]]).1.bind fun s => (sdRun allOk [.set (some ⟨3, fun x => [x, 2 * x, 1]⟩), .inner 0 [1, 1, 1, 1, 1, 1],
    .set (some ⟨2, fun x => [x, 1]⟩)] (s, (sdNew allOk ⟨[], 0⟩ [[1, 2], [3, 4]]).2)).bind fun r => (sdInner r.2 r.1 1 [1, 10, 100, 1000]).map Prod.fst) =
      some 1413 := by decide +kernel

end Verif.Life
