import Mathlib.Tactic.NormNum
import Mathlib.Tactic.Ring
import Verif.Life.KmProps
import Verif.Life.KdLemmas

/-!
# Theorems about the searchers of a kd-forest
-/

namespace Verif.Life

/-! ## Specification -/

/-- The searchers of the forest are those of `ps`, in this order: this is what
`vl_kdforest_get_searcher` and the number of searchers tell. -/
def Listed (s : FS) (ps : List Nat) : Prop :=
  (∀ pos, getSearcher s pos = some ps[pos]?) ∧ s.forest.num = ps.length ∧ ps.Nodup

/-- Only searchers of the forest may be deleted. -/
def FOp.Legal (s : FS) : FOp → Prop
  | .delete p => ∃ pos, getSearcher s pos = some (some p)
  | _ => True

/-- Every call of a history is legal in the state in which it is made. -/
def FLegal (E : Env) : List FOp → FS → Prop
  | [], _ => True
  | op :: ops, s => op.Legal s ∧ ∀ s', fStep E s op = some s' → FLegal E ops s'

/-- Whether a call is a build. -/
def FOp.isBuild : FOp → Bool
  | .build _ _ => true
  | _ => false

/-- A state reached from a new forest by the legal history `ops`. -/
def FReached (E : Env) (h0 : Heap) (numTrees : Nat) (ops : List FOp) (s : FS) : Prop :=
  ∃ s0, fNew E h0 numTrees = some s0 ∧ FLegal E ops s0 ∧ fRun E ops s0 = some s

/-! ## Proofs -/

theorem FInv.listed {s : FS} {L : List Ser} {T R : List Block} (v : FInv s L T R) :
    Listed s (L.map Ser.p) :=
  ⟨getSearcher_inv v, by rw [v.num, List.length_map], v.nodup⟩

theorem Listed.unique {s : FS} {ps qs : List Nat} (h1 : Listed s ps) (h2 : Listed s qs) :
    ps = qs := by
  apply List.ext_getElem?
  intro i
  have := (h1.1 i).symm.trans (h2.1 i)
  exact Option.some.inj this

theorem FInv.split {s : FS} {L : List Ser} {T R : List Block} (v : FInv s L T R) {p : Nat}
    (hp : p ∈ L.map Ser.p) : ∃ A x B, L = A ++ x :: B ∧ x.p = p ∧
      (A ++ B).map Ser.p = (L.map Ser.p).erase p := by
  obtain ⟨x, hx, e⟩ := List.mem_map.mp hp
  obtain ⟨A, B, rfl⟩ := List.append_of_mem hx
  refine ⟨A, x, B, rfl, e, ?_⟩
  have nd := v.nodup
  rw [List.map_append, List.map_cons] at nd
  have hA : p ∉ A.map Ser.p := by
    intro hm
    exact (List.nodup_append.mp nd).2.2 p hm x.p (List.mem_cons_self ..) e.symm
  rw [List.map_append, List.map_append, List.map_cons, List.erase_append_right _ hA, ← e,
    List.erase_cons_head]

/-- Blocks of trees forgotten by builds. -/
structure FGhost (h0 : Heap) (numTrees builds : Nat) (s : FS) (L : List Ser) (T R : List Block) :
    Prop where
  inv : FInv s L T (R ++ h0.live)
  trees : s.forest.numTrees = numTrees
  pos : 0 < builds → T.length = 3 * numTrees + 1
  zero : builds = 0 → T = []
  lost : R.length = (builds - 1) * (3 * numTrees + 1)

theorem fstep_ghost {E : Env} (ok : ∀ m, E.ok m = true) {h0 : Heap} {numTrees builds : Nat}
    {s : FS} {L : List Ser} {T R : List Block} (v : FGhost h0 numTrees builds s L T R) (op : FOp)
    (hl : op.Legal s) :
    ∃ s' L' T' R', fStep E s op = some s' ∧
      FGhost h0 numTrees (builds + if op.isBuild then 1 else 0) s' L' T' R' ∧
      (op.isBuild = false → s'.forest.numData = s.forest.numData ∧
        ∀ x ∈ L', x ∈ L ∨ x.vb.length = s.forest.numData) ∧
      (op.isBuild = true → L' = L) := by
  have hnew : ∃ s' L', (newSearcher E s).map Prod.snd = some s' ∧
      FGhost h0 numTrees builds s' L' T R ∧ s'.forest.numData = s.forest.numData ∧
        ∀ x ∈ L', x ∈ L ∨ x.vb.length = s.forest.numData := by
    obtain ⟨x, s', e, -, v', hb, hd, hn, -⟩ := newSearcher_inv ok v.inv
    refine ⟨s', L ++ [x], by rw [e]; rfl, ⟨v', hn.trans v.trees, v.pos, v.zero, v.lost⟩, hd, ?_⟩
    intro y hy
    rcases List.mem_append.mp hy with h | h
    · exact Or.inl h
    · rw [List.mem_singleton] at h; subst h; exact Or.inr hb
  cases op with
  | build n used =>
    obtain ⟨s', T', e, v', hT, hn, hd⟩ := fBuild_inv ok v.inv n used
    refine ⟨s', L, T', T ++ R, e, ⟨?_, hn.trans v.trees, ?_, ?_, ?_⟩, by simp [FOp.isBuild], fun _ => rfl⟩
    · rw [List.append_assoc]; exact v'
    · intro _; rw [hT, v.trees]
    · simp [FOp.isBuild]
    · rw [List.length_append, v.lost]
      simp only [FOp.isBuild, if_true, Nat.add_sub_cancel]
      rcases Nat.eq_zero_or_pos builds with h | h
      · rw [v.zero h, h]; simp
      · rw [v.pos h]
        obtain ⟨k, rfl⟩ : ∃ k, builds = k + 1 := ⟨builds - 1, by omega⟩
        rw [Nat.add_sub_cancel]
        ring
  | new =>
    obtain ⟨s', L', e, g, h1, h2⟩ := hnew
    refine ⟨s', L', T, R, ?_, by simpa [FOp.isBuild] using g, fun _ => ⟨h1, h2⟩, by simp [FOp.isBuild]⟩
    cases hq : newSearcher E s with
    | none => rw [hq] at e; cases e
    | some r => rw [hq] at e; cases e; simp [fStep, hq]
  | query =>
    have hg := getSearcher_inv v.inv 0
    cases L with
    | nil =>
      obtain ⟨s', L', e, g, h1, h2⟩ := hnew
      refine ⟨s', L', T, R, ?_, by simpa [FOp.isBuild] using g, fun _ => ⟨h1, h2⟩, by simp [FOp.isBuild]⟩
      cases hq : newSearcher E s with
      | none => rw [hq] at e; cases e
      | some r => rw [hq] at e; cases e; simp [fStep, querySearcher, hg, hq]
    | cons x L =>
      exact ⟨s, x :: L, T, R, by simp [fStep, querySearcher, hg], by simpa [FOp.isBuild] using v,
        fun _ => ⟨rfl, fun y hy => Or.inl hy⟩, by simp [FOp.isBuild]⟩
  | delete p =>
    obtain ⟨pos, hp⟩ := hl
    rw [getSearcher_inv v.inv pos] at hp
    have hm : p ∈ L.map Ser.p := List.mem_of_getElem? (Option.some.inj hp)
    obtain ⟨A, x, B, rfl, rfl, -⟩ := v.inv.split hm
    obtain ⟨s', e, v', hd, hn, -, -, -⟩ := delSearcher_inv v.inv
    refine ⟨s', A ++ B, T, R, e, ⟨v', hn.trans v.trees, ?_, ?_, ?_⟩, fun _ => ⟨hd, ?_⟩,
      by simp [FOp.isBuild]⟩
    · simpa [FOp.isBuild] using v.pos
    · simpa [FOp.isBuild] using v.zero
    · simpa [FOp.isBuild] using v.lost
    · intro y hy
      refine Or.inl ?_
      simp only [List.mem_append, List.mem_cons] at hy ⊢
      tauto

theorem frun_ghost {E : Env} (ok : ∀ m, E.ok m = true) {h0 : Heap} {numTrees : Nat}
    (ops : List FOp) : ∀ {builds : Nat} {s : FS} {L : List Ser} {T R : List Block},
    FGhost h0 numTrees builds s L T R → FLegal E ops s →
    ∃ s' L' T' R', fRun E ops s = some s' ∧
      FGhost h0 numTrees (builds + ops.countP FOp.isBuild) s' L' T' R' ∧
      (ops.countP FOp.isBuild = 0 → s'.forest.numData = s.forest.numData ∧
        ((∀ x ∈ L, x.vb.length = s.forest.numData) → ∀ x ∈ L', x.vb.length = s.forest.numData)) := by
  induction ops with
  | nil => exact fun {b s L T R} v _ => ⟨s, L, T, R, rfl, by simpa using v, fun _ => ⟨rfl, id⟩⟩
  | cons op ops ih =>
    intro b s L T R v hl
    obtain ⟨s1, L1, T1, R1, e1, v1, k1, -⟩ := fstep_ghost ok v op hl.1
    obtain ⟨s2, L2, T2, R2, e2, v2, k2⟩ := ih v1 (hl.2 s1 e1)
    refine ⟨s2, L2, T2, R2, by simp [fRun, e1, e2], ?_, ?_⟩
    · rw [List.countP_cons]
      have : b + (List.countP FOp.isBuild ops + if op.isBuild then 1 else 0) =
          (b + if op.isBuild then 1 else 0) + List.countP FOp.isBuild ops := by omega
      rw [this]
      exact v2
    · intro hc
      rw [List.countP_cons] at hc
      have hb : op.isBuild = false := by
        cases h : op.isBuild with
        | false => rfl
        | true => rw [h] at hc; simp at hc
      rw [hb] at hc
      obtain ⟨h1, h2⟩ := k1 hb
      obtain ⟨h3, h4⟩ := k2 (by simpa using hc)
      refine ⟨h3.trans h1, fun hL => ?_⟩
      rw [← h1]
      refine h4 fun x hx => ?_
      rw [h1]
      rcases h2 x hx with h | h
      · exact hL x h
      · exact h

theorem fstart_ghost {E : Env} (ok : ∀ m, E.ok m = true) {h0 : Heap} (g : h0.Good)
    (numTrees : Nat) : ∃ s, fNew E h0 numTrees = some s ∧ FGhost h0 numTrees 0 s [] [] [] := by
  obtain ⟨s, e, v, hn, -⟩ := fNew_inv ok (h := h0) (B := h0.live) ⟨.refl _, g.nodup, g.lt⟩ numTrees
  exact ⟨s, e, v, hn, by simp, by simp, by simp⟩

theorem FReached.ghost {E : Env} (ok : ∀ m, E.ok m = true) {h0 : Heap} (g : h0.Good)
    {numTrees : Nat} {ops : List FOp} {s : FS} (r : FReached E h0 numTrees ops s) :
    ∃ L T R, FGhost h0 numTrees (ops.countP FOp.isBuild) s L T R := by
  obtain ⟨s0, e0, hl, e⟩ := r
  obtain ⟨s0', e0', v⟩ := fstart_ghost ok g numTrees
  rw [e0] at e0'
  cases e0'
  obtain ⟨s', L, T, R, e', v', -⟩ := frun_ghost ok ops v hl
  rw [e] at e'
  cases e'
  exact ⟨L, T, R, by simpa using v'⟩

/-! ## Theorems -/

/-- Searchers may be made and deleted in any order, by any number of threads in
turn, and the forest be built and queried in between: no step is undefined, no
link dangles or loops, and at each moment the searchers form one list.  A new
searcher is added at its end; a searcher that is deleted is taken out and the
others keep their order. -/
theorem searchers_history (E : Env) (ok : ∀ m, E.ok m = true) (h0 : Heap) (g : h0.Good)
    (numTrees : Nat) :
    (∃ s0, fNew E h0 numTrees = some s0 ∧ Listed s0 [] ∧ ∀ ops, FLegal E ops s0 →
      ∃ s, fRun E ops s0 = some s) ∧
    ∀ ops s, FReached E h0 numTrees ops s →
      ∃ ps, Listed s ps ∧ (∀ b ∈ h0.live, b ∈ s.heap.live) ∧
        (∃ p s', newSearcher E s = some (p, s') ∧ p ∉ ps ∧ Listed s' (ps ++ [p])) ∧
        (∀ p ∈ ps, ∃ s', delSearcher s p = some s' ∧ Listed s' (ps.erase p)) ∧
        (∀ p, p ∉ ps → delSearcher s p = none) ∧
        (∀ p ps', ps = p :: ps' → querySearcher E s = some (p, s)) ∧
        ∀ n used, ∃ s', fBuild E s n used = some s' ∧ Listed s' ps := by
  constructor
  · obtain ⟨s0, e0, v⟩ := fstart_ghost ok g numTrees
    refine ⟨s0, e0, v.inv.listed, fun ops hl => ?_⟩
    obtain ⟨s', -, -, -, e', -⟩ := frun_ghost ok ops v hl
    exact ⟨s', e'⟩
  · intro ops s r
    obtain ⟨L, T, R, v⟩ := r.ghost ok g
    refine ⟨L.map Ser.p, v.inv.listed, ?_, ?_, ?_, ?_, ?_, ?_⟩
    · intro b hb
      refine v.inv.own.perm.mem_iff.mpr ?_
      simp only [List.mem_append, List.mem_cons]
      exact Or.inr (Or.inr (Or.inr (Or.inr hb)))
    · obtain ⟨x, s', e, hx, v', -⟩ := newSearcher_inv ok v.inv
      refine ⟨x.p, s', e, hx, ?_⟩
      have := v'.listed
      rwa [List.map_append] at this
    · intro p hp
      obtain ⟨A, x, B, rfl, rfl, he⟩ := v.inv.split hp
      obtain ⟨s', e, v', -⟩ := delSearcher_inv v.inv
      exact ⟨s', e, he ▸ v'.listed⟩
    · intro p hp
      simp [delSearcher, v.inv.gone p hp]
    · intro p ps' hp
      have := getSearcher_inv v.inv 0
      rw [hp] at this
      simp [querySearcher, this]
    · intro n used
      obtain ⟨s', T', e, v', -⟩ := fBuild_inv ok v.inv n used
      exact ⟨s', e, v'.listed⟩

/-- Deleting a forest deletes its searchers and gives back all its memory but the
trees of all builds except the last one: for each, one block and three for each
tree. -/
theorem forest_delete (E : Env) (ok : ∀ m, E.ok m = true) (h0 : Heap) (g : h0.Good)
    (numTrees : Nat) (ops : List FOp) (s : FS) (r : FReached E h0 numTrees ops s) :
    ∃ h lost, fDelete s = some h ∧ h.live.Perm (lost ++ h0.live) ∧
      lost.length = (ops.countP FOp.isBuild - 1) * (3 * numTrees + 1) := by
  obtain ⟨L, T, R, v⟩ := r.ghost ok g
  obtain ⟨h, e, hp⟩ := fDelete_inv v.inv
  exact ⟨h, R, e, hp, v.lost⟩

/-- A forest ought to give back all its memory. -/
def ForestNoLeakClaim : Prop :=
  ∀ (E : Env), (∀ m, E.ok m = true) → ∀ (h0 : Heap), h0.Good → ∀ (numTrees : Nat)
    (ops : List FOp) (s : FS), FReached E h0 numTrees ops s →
    ∃ h, fDelete s = some h ∧ h.live.Perm h0.live

theorem legal_simple (E : Env) (ops : List FOp) (h : ∀ op ∈ ops, ∀ p, op ≠ .delete p) :
    ∀ s, FLegal E ops s := by
  induction ops with
  | nil => intro _; trivial
  | cons op ops ih =>
    intro s
    refine ⟨?_, fun s' _ => ih (fun o ho => h o (List.mem_cons_of_mem _ ho)) s'⟩
    cases op with
    | delete p => exact absurd rfl (h _ (List.mem_cons_self ..) p)
    | _ => trivial

theorem reached_simple (numTrees : Nat) (ops : List FOp) (h : ∀ op ∈ ops, ∀ p, op ≠ .delete p) :
    ∃ s, FReached allOk ⟨[], 0⟩ numTrees ops s ∧
      (fNew allOk ⟨[], 0⟩ numTrees).bind (fRun allOk ops) = some s := by
  obtain ⟨⟨s0, e0, -, hr⟩, -⟩ := searchers_history allOk (fun _ => rfl) ⟨[], 0⟩
    ⟨List.nodup_nil, by simp⟩ numTrees
  obtain ⟨s, e⟩ := hr ops (legal_simple _ ops h s0)
  exact ⟨s, ⟨s0, e0, legal_simple _ ops h s0, e⟩, by rw [e0]; exact e⟩

/-- It does not if it is built twice. -/
theorem forest_no_leak_claim_false : ¬ ForestNoLeakClaim := by
  intro hc
  obtain ⟨s, r, e⟩ := reached_simple 1 [.build 1 1, .build 1 1] (by simp)
  obtain ⟨h, e1, hp⟩ := hc allOk (fun _ => rfl) ⟨[], 0⟩ ⟨List.nodup_nil, by simp⟩ 1 _ s r
  obtain ⟨h', lost, e2, hp2, hl⟩ := forest_delete allOk (fun _ => rfl) ⟨[], 0⟩
    ⟨List.nodup_nil, by simp⟩ 1 _ s r
  rw [e1] at e2
  cases e2
  have := (hp.symm.trans hp2).length_eq
  simp [FOp.isBuild, List.countP_cons] at this hl
  omega

/-- A searcher made after the last build can visit every datum of the forest.
Missing, since it fails: the same for searchers made before. -/
theorem searcher_visits_partial (E : Env) (ok : ∀ m, E.ok m = true) (h0 : Heap) (g : h0.Good)
    (numTrees : Nat) (ops ops' : List FOp) (s s' : FS) (r : FReached E h0 numTrees ops s)
    (hnone : Listed s []) (hl : FLegal E ops' s) (hb : ∀ op ∈ ops', ∀ n used, op ≠ .build n used)
    (e : fRun E ops' s = some s') (p pos : Nat) (hp : getSearcher s' pos = some (some p)) :
    s'.forest.numData = s.forest.numData ∧ ∀ di < s'.forest.numData, visit s' p di = some s' := by
  obtain ⟨L, T, R, v⟩ := r.ghost ok g
  have hL : L = [] := by
    have := hnone.unique v.inv.listed
    exact List.map_eq_nil_iff.mp this.symm
  subst hL
  have hcount : ops'.countP FOp.isBuild = 0 := by
    rw [List.countP_eq_zero]
    intro op ho
    cases op with
    | build n used => exact absurd rfl (hb _ ho n used)
    | _ => simp [FOp.isBuild]
  obtain ⟨s'', L', T', R', e', v', k⟩ := frun_ghost ok ops' v hl
  rw [e] at e'
  cases e'
  obtain ⟨h1, h2⟩ := k hcount
  refine ⟨h1, fun di hdi => ?_⟩
  rw [getSearcher_inv v'.inv pos] at hp
  have hm : p ∈ L'.map Ser.p := List.mem_of_getElem? (Option.some.inj hp)
  obtain ⟨A, x, B, rfl, rfl, -⟩ := v'.inv.split hm
  have hx := h2 (by simp) x (by simp)
  obtain ⟨n, nodes', hn, -, hbk, -⟩ := unlink_seg s' A B x v'.inv.seg v'.inv.nodup v'.inv.head
  have o : Own s'.heap ((x.b, x.vb) :: ((x.a, x.va) :: (x.p, []) :: ((A ++ B).flatMap sb ++
      (T' ++ ((s'.forest.self, []) :: (R' ++ h0.live)))))) := by
    refine v'.inv.own.of_perm ?_
    simp only [List.flatMap_append, List.flatMap_cons, sb]
    perm
  have hload := load_own o
  rw [← hbk] at hload
  simp only [visit, hn, Option.bind_eq_bind, Option.bind_some, hload]
  rw [if_pos]
  rw [hx, ← h1]
  exact hdi

/-- Every searcher ought to be able to visit every datum. -/
def SearcherVisitsClaim : Prop :=
  ∀ (E : Env), (∀ m, E.ok m = true) → ∀ (h0 : Heap), h0.Good → ∀ (numTrees : Nat)
    (ops : List FOp) (s : FS), FReached E h0 numTrees ops s → ∀ p pos,
    getSearcher s pos = some (some p) → ∀ di < s.forest.numData, visit s p di = some s

/-- A searcher made before a build with more data leaves its book: the searcher
of `vl_kdforest_query` is kept from one query to the next. -/
theorem searcher_visits_claim_false : ¬ SearcherVisitsClaim := by
  intro hc
  obtain ⟨s, r, e⟩ := reached_simple 1 [.build 1 1, .query, .build 2 3] (by simp)
  have k1 : ((fNew allOk ⟨[], 0⟩ 1).bind (fRun allOk [.build 1 1, .query, .build 2 3])).map
      (fun s => (getSearcher s 0, s.forest.numData, (visit s 5 1).isSome)) =
      some (some (some 5), 2, false) := by decide +kernel
  rw [e] at k1
  simp only [Option.map_some, Option.some.injEq, Prod.mk.injEq] at k1
  have := hc allOk (fun _ => rfl) ⟨[], 0⟩ ⟨List.nodup_nil, by simp⟩ 1 _ s r 5 0 k1.1 1
    (by rw [k1.2.1]; norm_num)
  rw [this] at k1
  simp at k1

/-- The hypotheses are met by a forest that is built and given two searchers, of
which the first is deleted. -/
example : ∃ s, FReached allOk ⟨[(0, [3])], 1⟩ 1 [.build 2 3, .new, .new, .delete 6] s := by
  obtain ⟨⟨s0, e0, -, hr⟩, -⟩ := searchers_history allOk (fun _ => rfl) ⟨[(0, [3])], 1⟩
    ⟨by simp, by simp⟩ 1
  have hl : FLegal allOk [.build 2 3, .new, .new, .delete 6] s0 := by
    refine ⟨trivial, fun s1 h1 => ⟨trivial, fun s2 h2 => ⟨trivial, fun s3 h3 => ⟨⟨0, ?_⟩,
      fun _ _ => trivial⟩⟩⟩⟩
    have k : ((fNew allOk ⟨[(0, [3])], 1⟩ 1).bind (fRun allOk [.build 2 3, .new, .new])).map
        (fun s => getSearcher s 0) = some (some (some 6)) := by decide +kernel
    have e3 : fRun allOk [.build 2 3, .new, .new] s0 = some s3 := by
      simp [fRun, h1, h2, h3]
    rw [e0, Option.bind_some, e3] at k
    exact Option.some.inj k
  obtain ⟨s, e⟩ := hr _ hl
  exact ⟨s, s0, e0, hl, e⟩

end Verif.Life
