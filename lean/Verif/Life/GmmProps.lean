import Verif.Life.GmmLemmas

/-!
# The life of Gaussian mixtures

A client holds k-means objects and a Gaussian mixture, and initialises, trains,
resets, copies and deletes the mixture in any order.
-/

namespace Verif.Life

/-! ## Specification -/

/-- The pointers of the k-means object that a mixture owns. -/
def Init.pointers : Init → List Nat
  | .mine k => k.pointers
  | _ => []

/-- The pointers that a mixture holds and owns. -/
def GM.pointers (g : GM) : List Nat :=
  [g.self, g.priors, g.means, g.covs, g.bounds] ++ g.posts.toList ++ g.init.pointers

/-- What the documentation asks of each call: arrays of the sizes that go with
the mixture and the number of data, at least one datum and one repetition, and
k-means objects that exist and are the client's. -/
def GOp.Legal (s : GState) : GOp → Prop
  | .reset => True
  | .setStart _ => True
  | .setBounds b => b.length = s.1.dim
  | .setPar x => ParFits s.1.dim s.1.num x
  | .setInit p => ∀ a ∈ p, ∃ k ∈ s.2.1, k.self = a
  | .initKmeans n p r => 0 < n ∧ (∀ a ∈ p, ∃ k ∈ s.2.1, k.self = a) ∧ GShaped s.1.dim s.1.num n r
  | .initRand n r => 0 < n ∧ GShaped s.1.dim s.1.num n r
  | .em n f => 0 < n ∧ ∀ y, ParFits s.1.dim s.1.num (f y).1 ∧ (f y).2.1.length = n * s.1.num
  | .cluster n reps => 0 < n ∧ reps ≠ [] ∧ ∀ r ∈ reps, GShaped s.1.dim s.1.num n r

/-- Every call of a history is legal in the state in which it is made. -/
def GLegal (E : Env) : List GOp → GState → Prop
  | [], _ => True
  | op :: ops, s => op.Legal s ∧ ∀ s', gStep E s op = some s' → GLegal E ops s'

/-- A state that a client reaches: some k-means objects are made and used, then a
mixture is created and goes through a legal history. -/
def GReached (E : Env) (h0 : Heap) (s : GState) : Prop :=
  ∃ ks h, Reached E h0 (ks, h) ∧ ∃ dim num g h1, gNew E h dim num = some (g, h1) ∧
    ∃ ops, GLegal E ops (g, ks, h1) ∧ gRun E ops (g, ks, h1) = some s

/-! ## Proofs -/

theorem gstep_inv {E : Env} (ok : ∀ m, E.ok m = true) {s : GState} {R : List Block}
    {gs : List Ghost} {x : GG} (v : GInv s R gs x) (op : GOp) (hl : op.Legal s) :
    ∃ s' gs' x', gStep E s op = some s' ∧ GInv s' R gs' x' ∧ s'.1.bounds = s.1.bounds ∧
      Same s.2.1 s'.2.1 := by
  obtain ⟨g, ks, h⟩ := s
  cases op with
  | reset =>
    obtain ⟨h1, e1, o1, f1⟩ := gReset_own v.own v.fits
    refine ⟨({ g with posts := none, numData := 0, init := resetInit g.init }, ks, h1), gs, x,
      by simp only [gStep, e1, Option.bind_eq_bind, Option.bind_some], ⟨v.objs, o1, v.kfits, f1, fun a ha => v.theirs a ?_⟩,
      rfl, rfl⟩
    simp only at ha ⊢
    cases hi : g.init <;> rw [hi] at ha <;> cases ha
    rfl
  | setStart st =>
    exact ⟨_, gs, x, rfl, ⟨v.objs, v.own, v.kfits,
      ⟨v.fits.par, v.fits.b, v.fits.some, v.fits.none, v.fits.init⟩, v.theirs⟩, rfl, rfl⟩
  | setBounds b =>
    obtain ⟨h1, e1, o1, f1⟩ := gSetBounds_own b v.own v.fits hl
    exact ⟨(g, ks, h1), gs, _, by simp [gStep, e1], ⟨v.objs, o1, v.kfits, f1, v.theirs⟩, rfl, rfl⟩
  | setPar y =>
    obtain ⟨h1, e1, o1, f1⟩ := putPar_own v.own v.fits y hl
    exact ⟨(g, ks, h1), gs, _, by simp [gStep, e1], ⟨v.objs, o1, v.kfits, f1, v.theirs⟩, rfl, rfl⟩
  | setInit p =>
    obtain ⟨h1, e1, o1, f1⟩ := gSetInit_own p v.own v.fits
    refine ⟨({ g with init := pointTo p }, ks, h1), gs, x, by simp [gStep, e1],
      ⟨v.objs, o1, v.kfits, f1, fun a ha => ?_⟩, rfl, rfl⟩
    cases p with
    | none => cases ha
    | some c => cases ha; exact hl _ rfl
  | initKmeans n p r =>
    obtain ⟨i, q, ks', h', gs', x', e, v', -, -, hs⟩ := gKmeans_inv ok v hl.1 p hl.2.1 r hl.2.2
    exact ⟨_, gs', x', e, v', rfl, hs⟩
  | initRand n r =>
    obtain ⟨i, q, h', x', e, v', -, -⟩ := gRand_inv ok v hl.1 r hl.2
    exact ⟨({ g with posts := some q, numData := n, init := i }, ks, h'), gs, x',
      by simp [gStep, e], v', rfl, rfl⟩
  | em n f =>
    obtain ⟨q, h', x', e, v', -⟩ := gEm_inv ok v hl.1 f hl.2
    exact ⟨({ g with posts := some q, numData := n }, ks, h'), gs, x', by simp [gStep, e], v', rfl,
      rfl⟩
  | cluster n reps =>
    obtain ⟨g', ks', h', gs', x', e, v', -, hs, -, -, -, hb, -⟩ :=
      gCluster_inv ok v hl.1 reps hl.2.2 hl.2.1
    exact ⟨(g', ks', h'), gs', x', e, v', hb, hs⟩

theorem grun_inv {E : Env} (ok : ∀ m, E.ok m = true) {R : List Block} (ops : List GOp) :
    ∀ (s : GState) (gs : List Ghost) (x : GG), GInv s R gs x → GLegal E ops s →
      ∃ s' gs' x', gRun E ops s = some s' ∧ GInv s' R gs' x' ∧ s'.1.bounds = s.1.bounds ∧
        Same s.2.1 s'.2.1 := by
  induction ops with
  | nil => exact fun s gs x v _ => ⟨s, gs, x, rfl, v, rfl, rfl⟩
  | cons op ops ih =>
    intro s gs x v hl
    obtain ⟨s1, gs1, x1, e1, v1, b1, m1⟩ := gstep_inv ok v op hl.1
    obtain ⟨s2, gs2, x2, e2, v2, b2, m2⟩ := ih s1 gs1 x1 v1 (hl.2 s1 e1)
    exact ⟨s2, gs2, x2, by simp [gRun, e1, e2], v2, b2.trans b1, Eq.trans m2 m1⟩

theorem new_inv {E : Env} (ok : ∀ m, E.ok m = true) {h0 : Heap} (hg : h0.Good) {ks : List KM}
    {h : Heap} (r : Reached E h0 (ks, h)) (dim num : Nat) :
    ∃ g h1 gs x, gNew E h dim num = some (g, h1) ∧ GInv (g, ks, h1) h0.live gs x := by
  obtain ⟨gs, v⟩ := r.inv ok hg
  obtain ⟨g, h1, x, e, o, f, hi, -⟩ := gNew_own (E := E) v.own dim num ok
  exact ⟨g, h1, gs, x, e, v.objs, o, v.fits, f, fun p hp => by rw [hi] at hp; cases hp⟩

theorem GReached.inv {E : Env} (ok : ∀ m, E.ok m = true) {h0 : Heap} (hg : h0.Good)
    {s : GState} (r : GReached E h0 s) : ∃ gs x, GInv s h0.live gs x := by
  obtain ⟨ks, h, r, dim, num, g, h1, e, ops, hl, er⟩ := r
  obtain ⟨g', h1', gs, x, e', v⟩ := new_inv ok hg r dim num
  rw [e] at e'
  cases e'
  obtain ⟨s', gs', x', er', v', -⟩ := grun_inv ok ops _ gs x v hl
  rw [er] at er'
  cases er'
  exact ⟨gs', x', v'⟩

theorem keys_gblocks (g : GM) (x : GG) : (gblocks g x).map Prod.fst = g.pointers := by
  have h1 : (blk g.posts x.q).map Prod.fst = g.posts.toList := by cases g.posts <;> rfl
  have h2 : (initBlocks g.init x.kc x.kd).map Prod.fst = g.init.pointers := by
    cases g.init with
    | mine k => exact keys_chunk _ _ _
    | null => rfl
    | theirs p => rfl
  simp [gblocks, GM.pointers, h1, h2]

/-! ## Theorems -/

/-- A mixture may be initialised, trained, reset and reconfigured in any order:
no block is freed twice, used after it is freed, or written past its end, and the
live blocks are those of the mixture, of the client's k-means objects and of the
rest of the program, whose contents do not change.  Deleting the mixture gives
back everything but one block, that of the lower bounds of the covariances. -/
theorem gmm_history (E : Env) (ok : ∀ m, E.ok m = true) (h0 : Heap) (hg : h0.Good)
    (ks : List KM) (h : Heap) (r : Reached E h0 (ks, h)) (dim num : Nat) :
    ∃ g0 h1, gNew E h dim num = some (g0, h1) ∧ ∀ ops, GLegal E ops (g0, ks, h1) →
      ∃ g ks' h', gRun E ops (g0, ks, h1) = some (g, ks', h') ∧
        (h'.live.map Prod.fst).Perm
          (g.pointers ++ (ks'.flatMap KM.pointers ++ h0.live.map Prod.fst)) ∧
        (h'.live.map Prod.fst).Nodup ∧ ks'.map KM.self = ks.map KM.self ∧
        (∀ b ∈ h0.live, b ∈ h'.live) ∧
        ∃ hd, gDelete h' g = some hd ∧
          (hd.live.map Prod.fst).Perm
            (g0.bounds :: (ks'.flatMap KM.pointers ++ h0.live.map Prod.fst)) ∧
          ∀ b ∈ h0.live, b ∈ hd.live := by
  obtain ⟨g0, h1, gs, x, e, v⟩ := new_inv ok hg r dim num
  refine ⟨g0, h1, e, fun ops hl => ?_⟩
  obtain ⟨⟨g, ks', h'⟩, gs', x', er, v', hb, hs⟩ := grun_inv ok ops _ gs x v hl
  have hk : ((gs'.flatMap gchunk ++ h0.live).map Prod.fst) =
      ks'.flatMap KM.pointers ++ h0.live.map Prod.fst := by
    rw [List.map_append, keys_ghosts, ← v'.objs]
  obtain ⟨hd, ed, od⟩ := gDelete_own v'.own
  refine ⟨g, ks', h', er, ?_, ?_, hs, ?_, hd, ed, ?_, ?_⟩
  · have := v'.own.perm.map Prod.fst
    rwa [List.map_append, keys_gblocks, hk] at this
  · exact (v'.own.perm.map _).nodup_iff.mpr v'.own.nodup
  · exact fun b hb => v'.own.perm.mem_iff.mpr
      (List.mem_append_right _ (List.mem_append_right _ hb))
  · have := od.perm.map Prod.fst
    rw [List.map_cons, hk] at this
    simp only at hb
    rwa [← hb]
  · exact fun b hb => od.perm.mem_iff.mpr
      (List.mem_cons_of_mem _ (List.mem_append_right _ hb))

/-- Creating and deleting a mixture ought to leave the heap as it was. -/
def GmmNoLeakClaim : Prop :=
  ∀ (E : Env), (∀ m, E.ok m = true) → ∀ (h0 : Heap), h0.Good → ∀ (dim num : Nat),
    ∃ g h1 hd, gNew E h0 dim num = some (g, h1) ∧ gDelete h1 g = some hd ∧ hd.live.Perm h0.live

/-- It never does: each mixture leaks a block. -/
theorem gmm_no_leak_claim_false : ¬ GmmNoLeakClaim := by
  intro hc
  obtain ⟨g, h1, hd, e1, e2, hp⟩ := hc allOk (fun _ => rfl) ⟨[], 0⟩ ⟨List.nodup_nil, by simp⟩ 1 1
  obtain ⟨g0, h1', e, hh⟩ := gmm_history allOk (fun _ => rfl) ⟨[], 0⟩ ⟨List.nodup_nil, by simp⟩
    [] ⟨[], 0⟩ ⟨[], trivial, rfl⟩ 1 1
  rw [e1] at e
  cases e
  obtain ⟨g', ks', h', er, -, -, hks, -, hd', ed, hp', -⟩ := hh [] trivial
  cases er
  rw [e2] at ed
  cases ed
  have hl := hp'.length_eq
  rw [List.perm_nil.mp hp] at hl
  simp at hl

/-- Clustering from k-means or from random data leaves in the mixture the
parameters, the posteriors and the log-likelihood of the first repetition of
greatest log-likelihood, and the lower bounds as they were. -/
theorem gmm_cluster_keeps_best (E : Env) (ok : ∀ m, E.ok m = true) (h0 : Heap) (hg : h0.Good)
    (g : GM) (ks : List KM) (h : Heap) (r : GReached E h0 (g, ks, h)) (n : Nat)
    (reps : List GRep) (hl : (GOp.cluster n reps).Legal (g, ks, h))
    (hs : g.cfg.start ≠ .custom) :
    ∃ g' ks' h' p q, gCluster E h ks g n reps = some (g', ks', h') ∧
      g'.dim = g.dim ∧ g'.num = g.num ∧ g'.numData = n ∧ load h' g'.bounds = load h g.bounds ∧
      g'.posts = some p ∧ load h' p = some q ∧
      ∃ j, ∃ hj : j < reps.length, g'.cfg.ll = (reps[j].em reps[j].par).2.2 ∧
        getPar h' g' = some (reps[j].em reps[j].par).1 ∧
        q.take (n * g.num) = (reps[j].em reps[j].par).2.1 ∧
        (∀ r ∈ reps, (r.em r.par).2.2 ≤ g'.cfg.ll) ∧
        ∀ a, ∀ ha : a < j, ((reps[a]'(ha.trans hj)).em (reps[a]'(ha.trans hj)).par).2.2 < g'.cfg.ll := by
  obtain ⟨gs, x, v⟩ := r.inv ok hg
  obtain ⟨g', ks', h', gs', x', e, v', hb, -, hd, hn, -, hbo, hnd, hp, -, outs, ho1, ho2, -, ho4⟩ :=
    gCluster_inv ok v hl.1 reps hl.2.2 hl.2.1
  obtain ⟨p, hp⟩ := Option.isSome_iff_exists.mp hp
  have bl : ∀ (h : Heap) (g : GM) (x : GG) (F : List Block), Own h (gblocks g x ++ F) →
      load h g.bounds = some x.b := fun h g x F o =>
    load_own (B := (g.self, []) :: (g.priors, x.par.priors) :: (g.means, x.par.means) ::
      (g.covs, x.par.covs) :: (blk g.posts x.q ++ (initBlocks g.init x.kc x.kd ++ F)))
      (o.of_perm (by unfold gblocks; perm))
  obtain ⟨j, hj, h1, h2, h3⟩ := bestOf_first _ _ ho4
  have ho := ho2 hs
  subst ho
  have hj' : j < reps.length := by simpa using hj
  simp only [List.getElem_map, outcome, Prod.mk.injEq, neg_inj] at h1
  refine ⟨g', ks', h', p, x'.q, e, hd, hn, hnd, ?_, hp, posts_load v'.own hp, j, hj', h1.1.symm,
    ?_, h1.2.2.symm, ?_, ?_⟩
  · rw [bl h' g' x' _ v'.own, bl h g x _ v.own, hb]
  · rw [getPar_own v'.own, h1.2.1]
  · intro r hr
    have := h2 (outcome (r.em r.par)) (List.mem_map.mpr ⟨r, hr, rfl⟩)
    simpa [outcome] using this
  · intro a ha
    have := h3 a ha
    simpa [outcome] using this

/-- With the parameters set by the client, every repetition ought to start from
them. -/
def CustomClaim : Prop :=
  ∀ (E : Env), (∀ m, E.ok m = true) → ∀ (h0 : Heap), h0.Good → ∀ (g : GM) (ks : List KM) (h : Heap),
    GReached E h0 (g, ks, h) → g.cfg.start = .custom → ∀ (n : Nat) (reps : List GRep),
    (GOp.cluster n reps).Legal (g, ks, h) → ∀ x, getPar h g = some x →
    ∃ g' ks' h', gCluster E h ks g n reps = some (g', ks', h') ∧
      ∃ r ∈ reps, getPar h' g' = some (r.em x).1

/-- With one repetition, EM starts from the parameters set by the client.
Missing, since it fails: the same for more repetitions. -/
theorem custom_partial (E : Env) (ok : ∀ m, E.ok m = true) (h0 : Heap) (hg : h0.Good)
    (g : GM) (ks : List KM) (h : Heap) (r : GReached E h0 (g, ks, h))
    (hs : g.cfg.start = .custom) (n : Nat) (rep : GRep)
    (hl : (GOp.cluster n [rep]).Legal (g, ks, h)) (x : Par) (hx : getPar h g = some x) :
    ∃ g' ks' h', gCluster E h ks g n [rep] = some (g', ks', h') ∧
      getPar h' g' = some (rep.em x).1 ∧ g'.cfg.ll = (rep.em x).2.2 := by
  obtain ⟨gs, y, v⟩ := r.inv ok hg
  obtain ⟨g', ks', h', gs', x', e, v', hb, -, hd, hn, -, hbo, hnd, hp, -, outs, ho1, -, ho3, ho4⟩ :=
    gCluster_inv ok v hl.1 [rep] hl.2.2 hl.2.1
  have hy := getPar_own v.own
  simp only at hy
  rw [hx] at hy
  cases hy
  obtain ⟨o, rfl⟩ := List.length_eq_one_iff.mp ho1
  have := ho3 hs
  simp only [List.head?_cons, Option.map_some, Option.some.injEq] at this
  subst this
  simp only [bestOf, Option.map_none, better, if_true, outcome, Option.some.injEq,
    Prod.mk.injEq, neg_inj] at ho4
  exact ⟨g', ks', h', e, by rw [getPar_own v'.own, ho4.2.1], ho4.1.symm⟩

/-- The repetition used in the counterexample: it adds one to the mean and finds
the solution better unless it starts from the mean 7. -/
def badRep : GRep :=
  ⟨[⟨[0], [0], none, 0⟩], [0], ⟨[1], [7], [1]⟩, [1],
    fun y => (⟨[1], [y.means.headD 0 + 1], [1]⟩, [1], if y.means = [7] then 0 else 1)⟩

theorem badRep_shaped : GShaped 1 1 1 badRep :=
  ⟨by intro k hk
      rw [badRep, List.mem_singleton] at hk
      subst hk
      exact ⟨rfl, rfl, by simp⟩,
    by simp [badRep], rfl, ⟨rfl, rfl, rfl⟩, rfl, fun _ => ⟨⟨rfl, rfl, rfl⟩, rfl⟩⟩

/-- The mixture of the counterexample after its parameters are set. -/
def badG : GM := ⟨0, ⟨50, 1, 0, .custom, 0⟩, 1, 1, 0, 1, 2, 3, 4, none, .null⟩

/-- The heap of the counterexample. -/
def badH : Heap := ⟨[(3, [1]), (2, [7]), (1, [1]), (4, [1 / 10000]), (0, [])], 5⟩

theorem bad_reached : GReached allOk ⟨[], 0⟩ (badG, [], badH) := by
  refine ⟨[], ⟨[], 0⟩, ⟨[], trivial, rfl⟩, 1, 1, _, _, rfl,
    [.setStart .custom, .setPar ⟨[1], [7], [1]⟩], ⟨trivial, fun s1 e1 => ?_⟩, rfl⟩
  obtain rfl := Option.some.inj e1
  exact ⟨⟨rfl, rfl, rfl⟩, fun _ _ => trivial⟩

/-- The second repetition starts from uninitialised memory, the blocks exchanged
with the best solution. -/
theorem custom_claim_false : ¬ CustomClaim := by
  intro hc
  obtain ⟨g', ks', h', e, r, hr, hpar⟩ := hc allOk (fun _ => rfl) ⟨[], 0⟩ ⟨List.nodup_nil, by simp⟩
    badG [] badH bad_reached rfl 1 [badRep, badRep]
    ⟨Nat.one_pos, by simp, by
      intro r hr
      have : r = badRep := by simpa using hr
      subst this
      exact badRep_shaped⟩ ⟨[1], [7], [1]⟩ rfl
  have hr' : r = badRep := by simpa using hr
  subst hr'
  have key : (do
      let s ← gCluster allOk badH [] badG 1 [badRep, badRep]
      load s.2.2 s.1.means) = some [1] := by decide +kernel
  rw [e] at key
  have hm : load h' g'.means = some [1] := key
  simp only [getPar, Option.bind_eq_bind, Option.bind_eq_some_iff, Option.some.injEq] at hpar
  obtain ⟨p, hp, m, hm', c, hcov, heq⟩ := hpar
  rw [hm] at hm'
  cases hm'
  have := congrArg Par.means heq
  simp [badRep] at this

theorem memcpy_own {h : Heap} {F : List Block} {src dst n : Nat} {v w : List ℚ}
    (o : Own h ((dst, w) :: (src, v) :: F)) (hv : v.length = n) (hw : w.length = n) :
    ∃ h', memcpy h dst src n = some h' ∧ Own h' ((dst, v) :: (src, v) :: F) := by
  have hl : load h src = some v := load_own (B := (dst, w) :: F) (o.of_perm (by perm))
  obtain ⟨h1, e1, o1⟩ := store_full o v (by rw [hv, hw])
  refine ⟨h1, ?_, o1⟩
  simp only [memcpy, hl, Option.bind_eq_bind, Option.bind_some, hv, le_refl, if_true]
  rw [List.take_of_length_le hv.le, e1]

/-- A copy has the settings and the parameters of the original and its own
blocks, and the original is untouched.  Missing, since it fails: the lower
bounds of the covariances, which are set back to 1/10000. -/
theorem gmm_copy_partial (E : Env) (ok : ∀ m, E.ok m = true) (h0 : Heap) (hg : h0.Good)
    (g : GM) (ks : List KM) (h : Heap) (r : GReached E h0 (g, ks, h)) :
    ∃ c h', gCopy E h g = some (c, h') ∧ c.cfg = g.cfg ∧ c.dim = g.dim ∧ c.num = g.num ∧
      getPar h' c = getPar h g ∧ (getPar h g).isSome ∧ c.posts = none ∧ c.init = .null ∧
      (∀ p ∈ c.pointers, p ∉ h.live.map Prod.fst) ∧ (∀ b ∈ h.live, b ∈ h'.live) ∧
      load h' c.bounds = some (List.replicate g.dim (1 / 10000)) := by
  obtain ⟨gs, x, v⟩ := r.inv ok hg
  obtain ⟨c, h1, y, e1, o1, f1, hi, hp, hd, hn, hb⟩ := gNew_own (E := E) v.own g.dim g.num ok
  have fy := f1.par
  rw [hd, hn] at fy
  have fx := v.fits.par
  simp only at fx
  have o2 : Own h1 ((c.means, y.par.means) :: (g.means, x.par.means) :: ((c.self, []) ::
      (c.priors, y.par.priors) :: (c.covs, y.par.covs) :: (c.bounds, y.b) :: (g.self, []) ::
      (g.priors, x.par.priors) :: (g.covs, x.par.covs) :: (g.bounds, x.b) ::
      (blk g.posts x.q ++ (initBlocks g.init x.kc x.kd ++ (gs.flatMap gchunk ++ h0.live))))) :=
    o1.of_perm (by simp only [gblocks, hp, hi, blk, initBlocks]; perm)
  obtain ⟨h2, e2, o3⟩ := memcpy_own o2 fx.means fy.means
  have o4 : Own h2 ((c.covs, y.par.covs) :: (g.covs, x.par.covs) :: ((c.self, []) ::
      (c.priors, y.par.priors) :: (c.means, x.par.means) :: (c.bounds, y.b) :: (g.self, []) ::
      (g.priors, x.par.priors) :: (g.means, x.par.means) :: (g.bounds, x.b) ::
      (blk g.posts x.q ++ (initBlocks g.init x.kc x.kd ++ (gs.flatMap gchunk ++ h0.live))))) :=
    o3.of_perm (by perm)
  obtain ⟨h3, e3, o5⟩ := memcpy_own o4 fx.covs fy.covs
  have o6 : Own h3 ((c.priors, y.par.priors) :: (g.priors, x.par.priors) :: ((c.self, []) ::
      (c.covs, x.par.covs) :: (c.means, x.par.means) :: (c.bounds, y.b) :: (g.self, []) ::
      (g.covs, x.par.covs) :: (g.means, x.par.means) :: (g.bounds, x.b) ::
      (blk g.posts x.q ++ (initBlocks g.init x.kc x.kd ++ (gs.flatMap gchunk ++ h0.live))))) :=
    o5.of_perm (by perm)
  obtain ⟨h4, e4, o7⟩ := memcpy_own o6 fx.priors fy.priors
  have o8 : Own h4 (gblocks { c with cfg := g.cfg } { y with par := x.par } ++
      (gblocks g x ++ (gs.flatMap gchunk ++ h0.live))) :=
    o7.of_perm (by simp only [gblocks, hp, hi, blk, initBlocks]; perm)
  refine ⟨{ c with cfg := g.cfg }, h4, ?_, rfl, hd, hn, ?_, ?_, hp, hi, ?_, ?_, ?_⟩
  · simp only [gCopy, e1, e2, e3, e4, Option.bind_eq_bind, Option.bind_some]
  · rw [getPar_own o8, getPar_own v.own]
  · rw [getPar_own v.own]; rfl
  · intro p hp hm
    have nd := o8.nodup
    rw [List.map_append, keys_gblocks] at nd
    exact (List.nodup_append.mp nd).2.2 p hp p ((v.own.perm.map Prod.fst).mem_iff.mp hm) rfl
  · exact fun b hb => o8.perm.mem_iff.mpr (List.mem_append_right _ (v.own.perm.mem_iff.mp hb))
  · rw [← hb]
    exact load_own (B := (c.self, []) :: (c.priors, x.par.priors) :: (c.means, x.par.means) ::
      (c.covs, x.par.covs) :: (gblocks g x ++ (gs.flatMap gchunk ++ h0.live)))
      (o8.of_perm (by simp only [gblocks, hp, hi, blk, initBlocks]; perm))

/-- A copy ought to have the lower bounds of the original. -/
def GmmCopyClaim : Prop :=
  ∀ (E : Env), (∀ m, E.ok m = true) → ∀ (h0 : Heap), h0.Good → ∀ (g : GM) (ks : List KM) (h : Heap),
    GReached E h0 (g, ks, h) →
    ∃ c h', gCopy E h g = some (c, h') ∧ load h' c.bounds = load h g.bounds

/-- A mixture whose lower bounds were set, before it is copied. -/
theorem bounded_reached : GReached allOk ⟨[], 0⟩
    (⟨0, ⟨50, 1, 0, .rand, 0⟩, 1, 1, 0, 1, 2, 3, 4, none, .null⟩, [],
      ⟨[(4, [2]), (3, [0]), (2, [0]), (1, [0]), (0, [])], 5⟩) := by
  refine ⟨[], ⟨[], 0⟩, ⟨[], trivial, rfl⟩, 1, 1, _, _, rfl, [.setBounds [2]],
    ⟨rfl, fun _ _ => trivial⟩, rfl⟩

/-- The copy of a mixture loses the lower bounds that the client set. -/
theorem gmm_copy_claim_false : ¬ GmmCopyClaim := by
  intro hc
  obtain ⟨c, h', e, hb⟩ := hc allOk (fun _ => rfl) ⟨[], 0⟩ ⟨List.nodup_nil, by simp⟩ _ _ _
    bounded_reached
  obtain ⟨c2, h2, e2, -, -, -, -, -, -, -, -, -, hb2⟩ := gmm_copy_partial allOk (fun _ => rfl) ⟨[], 0⟩
    ⟨List.nodup_nil, by simp⟩ _ _ _ bounded_reached
  rw [e] at e2
  cases e2
  rw [hb2] at hb
  have : load ⟨[(4, [2]), (3, [0]), (2, [0]), (1, [0]), (0, [])], 5⟩ 4 = some [(2 : ℚ)] := rfl
  rw [this] at hb
  revert hb
  decide +kernel

theorem reset_init {h h' : Heap} {g g' : GM} (e : gReset h g = some (g', h')) :
    g'.init = resetInit g.init := by
  simp only [gReset, Option.bind_eq_bind, Option.bind_eq_some_iff, Option.some.injEq,
    Prod.mk.injEq] at e
  obtain ⟨_, -, _, -, _, -, rfl, -⟩ := e
  rfl

theorem prepare_init {E : Env} {h h' : Heap} {g g' : GM} {n : Nat}
    (e : gPrepare E h g n = some (g', h')) : g'.init = g.init := by
  unfold gPrepare at e
  split at e
  · simp only [Option.bind_eq_bind, Option.bind_eq_some_iff, Option.some.injEq,
      Prod.mk.injEq] at e
    obtain ⟨_, -, _, -, rfl, -⟩ := e
    rfl
  · simp only [Option.some.injEq, Prod.mk.injEq] at e
    obtain ⟨rfl, -⟩ := e
    rfl

theorem given_init {h h' : Heap} {g g' : GM} {p : Option Nat}
    (e : gGiven h g p = some (g', h')) :
    g'.init = match p with | none => g.init | some a => .theirs a := by
  cases p with
  | none =>
    simp only [gGiven, Option.some.injEq, Prod.mk.injEq] at e
    obtain ⟨rfl, -⟩ := e
    rfl
  | some a =>
    simp only [gGiven, gSetInit, Option.bind_eq_bind, Option.bind_eq_some_iff, Option.some.injEq,
      Prod.mk.injEq] at e
    obtain ⟨_, -, rfl, -⟩ := e
    rfl

/-- Initialising with k-means through a pointer that is not one of the client's
objects is undefined. -/
theorem dangling_none {E : Env} {h : Heap} {ks : List KM} {g : GM} {n : Nat} {p : Option Nat}
    {r : GRep} {a : Nat} (ha : ∀ k ∈ ks, k.self ≠ a)
    (hp : p = some a ∨ (p = none ∧ g.init = .theirs a)) : gKmeans E h ks g n p r = none := by
  cases hc : gKmeans E h ks g n p r with
  | none => rfl
  | some s =>
    exfalso
    simp only [gKmeans, Option.bind_eq_bind, Option.bind_eq_some_iff] at hc
    obtain ⟨⟨g1, h1⟩, e1, ⟨g2, h2⟩, e2, ⟨g3, h3⟩, e3, s4, e4, -⟩ := hc
    have hi : g3.init = .theirs a := by
      rcases hp with rfl | ⟨rfl, hg⟩
      · exact given_init e3
      · rw [given_init e3, prepare_init e2, reset_init e1, hg]
        rfl
    have hf : ks.findIdx? (fun k => k.self == a) = none := by
      rw [List.findIdx?_eq_none_iff]
      intro k hk
      simpa using ha k hk
    simp [clusterInit, hi, hf] at e4

/-- Once a mixture has made a k-means object of its own, that object cannot be
given back to it: `vl_gmm_set_kmeans_init_object` with the pointer that
`vl_gmm_get_kmeans_init_object` returns succeeds, but it deletes the object, so
that the next initialisation with k-means works on freed memory; and giving the
pointer to `vl_gmm_init_with_kmeans` does so at once. -/
theorem own_init_dangles (E : Env) (ok : ∀ m, E.ok m = true) (h0 : Heap) (hg : h0.Good)
    (g : GM) (ks : List KM) (h : Heap) (r : GReached E h0 (g, ks, h)) (k : KM)
    (hk : g.init = .mine k) (n : Nat) (rep : GRep) :
    (∃ g' h', gSetInit h g (some k.self) = some (g', h') ∧
      load h k.self = some [] ∧ load h' k.self = none ∧
      gKmeans E h' ks g' n none rep = none) ∧
    gKmeans E h ks g n (some k.self) rep = none := by
  obtain ⟨gs, x, v⟩ := r.inv ok hg
  have hne : ∀ k' ∈ ks, k'.self ≠ k.self := by
    intro k' hk' heq
    have nd := v.own.nodup
    rw [List.map_append, keys_gblocks, List.map_append, keys_ghosts, ← v.objs] at nd
    refine (List.nodup_append.mp nd).2.2 k.self ?_ k'.self ?_ heq.symm
    · simp [GM.pointers, hk, Init.pointers, KM.pointers]
    · refine List.mem_append_left _ (List.mem_flatMap.mpr ⟨k', hk', ?_⟩)
      simp [KM.pointers]
  obtain ⟨h1, e1, o1, f1⟩ := gSetInit_own (some k.self) v.own v.fits
  refine ⟨⟨_, h1, e1, ?_, ?_, dangling_none hne (Or.inr ⟨rfl, rfl⟩)⟩,
    dangling_none hne (Or.inl rfl)⟩
  · exact load_own (B := blk k.centers x.kc ++ (blk k.dists x.kd ++ ((g.self, []) ::
      (g.priors, x.par.priors) :: (g.means, x.par.means) :: (g.covs, x.par.covs) ::
      (g.bounds, x.b) :: (blk g.posts x.q ++ (gs.flatMap gchunk ++ h0.live)))))
      (v.own.of_perm (by simp only [gblocks, hk, initBlocks, chunk]; perm))
  · refine load_none o1 ?_
    intro b hb heq
    have nd := v.own.nodup
    rw [List.map_append, keys_gblocks] at nd
    have hmem : b.1 ∈ (gblocks { g with init := pointTo (some k.self) } x ++
        (gs.flatMap gchunk ++ h0.live)).map Prod.fst := List.mem_map_of_mem hb
    rw [List.map_append, keys_gblocks, heq] at hmem
    rcases List.mem_append.mp hmem with hm | hm
    · have nd1 := (List.nodup_append.mp nd).1
      simp only [GM.pointers, hk, Init.pointers, KM.pointers] at nd1
      refine (List.nodup_append.mp nd1).2.2 k.self ?_ k.self (by simp) rfl
      simpa only [GM.pointers, Init.pointers, pointTo, List.append_nil] using hm
    · exact (List.nodup_append.mp nd).2.2 k.self
        (by simp [GM.pointers, hk, Init.pointers, KM.pointers]) k.self hm rfl

end Verif.Life
