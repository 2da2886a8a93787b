import Verif.Life.KmProps
import Verif.Life.GmmModel

/-! Lemmas about Gaussian mixtures in a heap. -/

namespace Verif.Life

/-- What is in the blocks of a mixture. -/
structure GG where
  par : Par
  b : List ℚ
  q : List ℚ
  kc : List ℚ
  kd : List ℚ

/-- The blocks of the k-means object that a mixture owns. -/
def initBlocks : Init → List ℚ → List ℚ → List Block
  | .mine k, kc, kd => chunk k kc kd
  | _, _, _ => []

/-- The blocks of a mixture. -/
def gblocks (g : GM) (x : GG) : List Block :=
  (g.self, []) :: (g.priors, x.par.priors) :: (g.means, x.par.means) :: (g.covs, x.par.covs) ::
    (g.bounds, x.b) :: (blk g.posts x.q ++ initBlocks g.init x.kc x.kd)

/-- Parameters of the right sizes. -/
structure ParFits (dim num : Nat) (x : Par) : Prop where
  priors : x.priors.length = num
  means : x.means.length = num * dim
  covs : x.covs.length = num * dim

/-- The blocks of a mixture have the sizes that it records. -/
structure GFits (g : GM) (x : GG) : Prop where
  par : ParFits g.dim g.num x.par
  b : x.b.length = g.dim
  some : g.posts.isSome → g.numData * g.num ≤ x.q.length
  none : g.posts = none → g.numData = 0
  init : ∀ k, g.init = .mine k → Fits k x.kc x.kd

theorem dropInit_own {h : Heap} {F : List Block} {i : Init} {kc kd : List ℚ}
    (o : Own h (initBlocks i kc kd ++ F)) : ∃ h', dropInit h i = some h' ∧ Own h' F := by
  cases i with
  | null => exact ⟨h, rfl, o⟩
  | theirs p => exact ⟨h, rfl, o⟩
  | mine k => exact kDelete_own o

theorem gself_load {h : Heap} {F : List Block} {g : GM} {x : GG} (o : Own h (gblocks g x ++ F)) :
    load h g.self = some [] := load_own o

theorem gNew_own {E : Env} {h : Heap} {F : List Block} (o : Own h F) (dim num : Nat)
    (ok : ∀ m, E.ok m = true) :
    ∃ g h' x, gNew E h dim num = some (g, h') ∧ Own h' (gblocks g x ++ F) ∧ GFits g x ∧
      g.init = .null ∧ g.posts = none ∧ g.dim = dim ∧ g.num = num ∧
      x.b = List.replicate dim (1 / 10000) := by
  obtain ⟨h1, p1, v1, e1, hv1, o1⟩ := need_own (E := E) o 0 ok
  obtain rfl := List.length_eq_zero_iff.mp hv1
  obtain ⟨h2, p2, v2, e2, hv2, o2⟩ := need_own (E := E) o1 num ok
  obtain ⟨h3, p3, v3, e3, hv3, o3⟩ := need_own (E := E) o2 (num * dim) ok
  obtain ⟨h4, p4, v4, e4, hv4, o4⟩ := need_own (E := E) o3 (num * dim) ok
  obtain ⟨h5, p5, v5, e5, hv5, o5⟩ := need_own (E := E) o4 dim ok
  obtain ⟨h6, e6, o6⟩ := store_full o5 (List.replicate dim (1 / 10000)) (by simp [hv5])
  refine ⟨⟨p1, ⟨50, 1, 0, .rand, 0⟩, dim, num, 0, p2, p3, p4, p5, none, .null⟩, h6,
    ⟨⟨v2, v3, v4⟩, List.replicate dim (1 / 10000), [], [], []⟩, ?_, ?_,
    ⟨⟨hv2, hv3, hv4⟩, by simp, by simp, fun _ => rfl, by simp⟩, rfl, rfl, rfl, rfl, rfl⟩
  · simp only [gNew, e1, e2, e3, e4, e5, e6, Option.bind_eq_bind, Option.bind_some]
  · refine o6.of_perm ?_
    simp only [gblocks, blk, initBlocks]
    perm

theorem gReset_own {h : Heap} {F : List Block} {g : GM} {x : GG} (o : Own h (gblocks g x ++ F))
    (f : GFits g x) :
    ∃ h', gReset h g = some
        ({ g with posts := none, numData := 0, init := resetInit g.init }, h') ∧
      Own h' (gblocks { g with posts := none, numData := 0, init := resetInit g.init } x ++ F) ∧
      GFits { g with posts := none, numData := 0, init := resetInit g.init } x := by
  have o1 : Own h (blk g.posts x.q ++ (initBlocks g.init x.kc x.kd ++ ((g.self, []) ::
      (g.priors, x.par.priors) :: (g.means, x.par.means) :: (g.covs, x.par.covs) ::
      (g.bounds, x.b) :: F))) := o.of_perm (by unfold gblocks; perm)
  obtain ⟨h1, e1, o2⟩ := freeIf_own o1
  obtain ⟨h2, e2, o3⟩ := dropInit_own o2
  have hn : resetNum g.numData g.posts = 0 := by
    cases hp : g.posts with
    | none => exact f.none hp
    | some p => rfl
  have hi : ∀ kc kd, initBlocks (resetInit g.init) kc kd = [] := by
    intro kc kd; cases g.init <;> rfl
  refine ⟨h2, ?_, ?_, ⟨f.par, f.b, by simp, fun _ => rfl, ?_⟩⟩
  · simp [gReset, gself_load o, e1, e2, hn]
  · refine o3.of_perm ?_
    simp only [gblocks, hi, blk]
    perm
  · intro k hk
    cases hg : g.init <;> rw [hg] at hk <;> cases hk

theorem gDelete_own {h : Heap} {F : List Block} {g : GM} {x : GG} (o : Own h (gblocks g x ++ F)) :
    ∃ h', gDelete h g = some h' ∧ Own h' ((g.bounds, x.b) :: F) := by
  have o1 : Own h ((g.means, x.par.means) :: (g.covs, x.par.covs) :: (g.priors, x.par.priors) ::
      (blk g.posts x.q ++ (initBlocks g.init x.kc x.kd ++ ((g.self, []) ::
      (g.bounds, x.b) :: F)))) := o.of_perm (by unfold gblocks; perm)
  obtain ⟨h1, e1, o2⟩ := free_own o1
  obtain ⟨h2, e2, o3⟩ := free_own o2
  obtain ⟨h3, e3, o4⟩ := free_own o3
  obtain ⟨h4, e4, o5⟩ := freeIf_own o4
  obtain ⟨h5, e5, o6⟩ := dropInit_own o5
  obtain ⟨h6, e6, o7⟩ := free_own o6
  exact ⟨h6, by simp [gDelete, e1, e2, e3, e4, e5, e6], o7⟩

theorem gPrepare_own {E : Env} {h : Heap} {F : List Block} {g : GM} {x : GG} {n : Nat}
    (o : Own h (gblocks g x ++ F)) (f : GFits g x) (hn : 0 < n) (ok : ∀ m, E.ok m = true) :
    ∃ p q h', gPrepare E h g n = some ({ g with posts := some p, numData := n }, h') ∧
      Own h' (gblocks { g with posts := some p, numData := n } { x with q := q } ++ F) ∧
      GFits { g with posts := some p, numData := n } { x with q := q } := by
  by_cases hlt : g.numData < n
  · have o1 : Own h (blk g.posts x.q ++ (initBlocks g.init x.kc x.kd ++ ((g.self, []) ::
        (g.priors, x.par.priors) :: (g.means, x.par.means) :: (g.covs, x.par.covs) ::
        (g.bounds, x.b) :: F))) := o.of_perm (by unfold gblocks; perm)
    obtain ⟨h1, e1, o2⟩ := freeIf_own o1
    obtain ⟨h2, p, v, e2, hv, o3⟩ := need_own (E := E) o2 (n * g.num) ok
    refine ⟨p, v, h2, ?_, ?_, ⟨f.par, f.b, fun _ => hv.ge, by simp, f.init⟩⟩
    · simp [gPrepare, hlt, e1, e2]
    · refine o3.of_perm ?_
      simp only [gblocks, blk]
      perm
  · cases hp : g.posts with
    | none => exact absurd (f.none hp) (by omega)
    | some p =>
      refine ⟨p, x.q, h, ?_, ?_, ⟨f.par, f.b, fun _ => ?_, by simp, f.init⟩⟩
      · rw [gPrepare, if_neg hlt, hp]
      · rw [← hp]; exact o
      · exact le_trans (Nat.mul_le_mul_right _ (not_lt.mp hlt)) (f.some (by simp [hp]))

theorem putPar_own {h : Heap} {F : List Block} {g : GM} {x : GG}
    (o : Own h (gblocks g x ++ F)) (f : GFits g x) (y : Par) (hy : ParFits g.dim g.num y) :
    ∃ h', putPar h g y = some h' ∧ Own h' (gblocks g { x with par := y } ++ F) ∧
      GFits g { x with par := y } := by
  have o1 : Own h ((g.priors, x.par.priors) :: ((g.self, []) :: (g.means, x.par.means) ::
      (g.covs, x.par.covs) :: (g.bounds, x.b) ::
      (blk g.posts x.q ++ (initBlocks g.init x.kc x.kd ++ F)))) :=
    o.of_perm (by unfold gblocks; perm)
  obtain ⟨h1, e1, o2⟩ := store_full o1 y.priors (by rw [hy.priors, f.par.priors])
  have o3 : Own h1 ((g.means, x.par.means) :: ((g.self, []) :: (g.priors, y.priors) ::
      (g.covs, x.par.covs) :: (g.bounds, x.b) ::
      (blk g.posts x.q ++ (initBlocks g.init x.kc x.kd ++ F)))) := o2.of_perm (by perm)
  obtain ⟨h2, e2, o4⟩ := store_full o3 y.means (by rw [hy.means, f.par.means])
  have o5 : Own h2 ((g.covs, x.par.covs) :: ((g.self, []) :: (g.priors, y.priors) ::
      (g.means, y.means) :: (g.bounds, x.b) ::
      (blk g.posts x.q ++ (initBlocks g.init x.kc x.kd ++ F)))) := o4.of_perm (by perm)
  obtain ⟨h3, e3, o6⟩ := store_full o5 y.covs (by rw [hy.covs, f.par.covs])
  refine ⟨h3, by simp [putPar, e1, e2, e3], ?_, ⟨hy, f.b, f.some, f.none, f.init⟩⟩
  refine o6.of_perm ?_
  simp only [gblocks]
  perm

theorem getPar_own {h : Heap} {F : List Block} {g : GM} {x : GG}
    (o : Own h (gblocks g x ++ F)) : getPar h g = some x.par := by
  have h1 : load h g.priors = some x.par.priors :=
    load_own (B := (g.self, []) :: (g.means, x.par.means) ::
      (g.covs, x.par.covs) :: (g.bounds, x.b) ::
      (blk g.posts x.q ++ (initBlocks g.init x.kc x.kd ++ F)))
      (o.of_perm (by unfold gblocks; perm))
  have h2 : load h g.means = some x.par.means :=
    load_own (B := (g.self, []) :: (g.priors, x.par.priors) ::
      (g.covs, x.par.covs) :: (g.bounds, x.b) ::
      (blk g.posts x.q ++ (initBlocks g.init x.kc x.kd ++ F)))
      (o.of_perm (by unfold gblocks; perm))
  have h3 : load h g.covs = some x.par.covs :=
    load_own (B := (g.self, []) :: (g.priors, x.par.priors) ::
      (g.means, x.par.means) :: (g.bounds, x.b) ::
      (blk g.posts x.q ++ (initBlocks g.init x.kc x.kd ++ F)))
      (o.of_perm (by unfold gblocks; perm))
  simp [getPar, h1, h2, h3]

theorem posts_load {h : Heap} {F : List Block} {g : GM} {x : GG} {p : Nat}
    (o : Own h (gblocks g x ++ F)) (hp : g.posts = some p) : load h p = some x.q :=
  load_own (B := (g.self, []) :: (g.priors, x.par.priors) :: (g.means, x.par.means) ::
      (g.covs, x.par.covs) :: (g.bounds, x.b) :: (initBlocks g.init x.kc x.kd ++ F))
      (o.of_perm (by unfold gblocks; rw [hp]; unfold blk; perm))

theorem putPosts_own {h : Heap} {F : List Block} {g : GM} {x : GG} {p : Nat}
    (o : Own h (gblocks g x ++ F)) (f : GFits g x) (hp : g.posts = some p) (v : List ℚ)
    (hv : v.length = g.numData * g.num) :
    ∃ h', putPosts h g v = some h' ∧
      Own h' (gblocks g { x with q := v ++ x.q.drop v.length } ++ F) ∧
      GFits g { x with q := v ++ x.q.drop v.length } := by
  have o1 : Own h ((p, x.q) :: ((g.self, []) :: (g.priors, x.par.priors) ::
      (g.means, x.par.means) ::
      (g.covs, x.par.covs) :: (g.bounds, x.b) :: (initBlocks g.init x.kc x.kd ++ F))) :=
      (o.of_perm (by unfold gblocks; rw [hp]; unfold blk; perm))
  obtain ⟨h1, e1, o2⟩ := store_own o1 v (hv ▸ f.some (by simp [hp]))
  refine ⟨h1, by simp [putPosts, hp, e1], o2.of_perm ?_, ⟨f.par, f.b, fun _ => ?_, f.none, f.init⟩⟩
  · simp only [gblocks, hp, blk]
    perm
  · have := f.some (by simp [hp])
    simp only [List.length_append, List.length_drop, hv]
    omega

theorem gSetInit_own {h : Heap} {F : List Block} {g : GM} {x : GG} (p : Option Nat)
    (o : Own h (gblocks g x ++ F)) (f : GFits g x) :
    ∃ h', gSetInit h g p = some ({ g with init := pointTo p }, h') ∧
      Own h' (gblocks { g with init := pointTo p } x ++ F) ∧
      GFits { g with init := pointTo p } x := by
  have o1 : Own h (initBlocks g.init x.kc x.kd ++ ((g.self, []) ::
        (g.priors, x.par.priors) :: (g.means, x.par.means) :: (g.covs, x.par.covs) ::
        (g.bounds, x.b) :: (blk g.posts x.q ++ F))) := o.of_perm (by unfold gblocks; perm)
  obtain ⟨h1, e1, o2⟩ := dropInit_own o1
  refine ⟨h1, by simp [gSetInit, e1], o2.of_perm ?_, ⟨f.par, f.b, f.some, f.none, ?_⟩⟩
  · have : initBlocks (pointTo p) x.kc x.kd = [] := by cases p <;> rfl
    simp only [gblocks, this]
    perm
  · intro k hk
    cases p <;> cases hk

theorem gSetBounds_own {h : Heap} {F : List Block} {g : GM} {x : GG} (b : List ℚ)
    (o : Own h (gblocks g x ++ F)) (f : GFits g x) (hb : b.length = g.dim) :
    ∃ h', gSetBounds h g b = some h' ∧ Own h' (gblocks g { x with b := b } ++ F) ∧
      GFits g { x with b := b } := by
  have o1 : Own h ((g.bounds, x.b) :: ((g.self, []) ::
        (g.priors, x.par.priors) :: (g.means, x.par.means) :: (g.covs, x.par.covs) ::
        (blk g.posts x.q ++ (initBlocks g.init x.kc x.kd ++ F)))) :=
    o.of_perm (by unfold gblocks; perm)
  obtain ⟨h1, e1, o2⟩ := store_full o1 b (by rw [hb, f.b])
  refine ⟨h1, e1, o2.of_perm ?_, ⟨f.par, hb, f.some, f.none, f.init⟩⟩
  simp only [gblocks]
  perm

/-- The client's objects, the mixture and the rest of the heap. -/
structure GInv (s : GState) (R : List Block) (gs : List Ghost) (x : GG) : Prop where
  objs : s.2.1 = gs.map Prod.fst
  own : Own s.2.2 (gblocks s.1 x ++ (gs.flatMap gchunk ++ R))
  kfits : ∀ g ∈ gs, Fits g.1 g.2.1 g.2.2
  fits : GFits s.1 x
  theirs : ∀ p, s.1.init = .theirs p → ∃ k ∈ s.2.1, k.self = p

/-- The client's objects keep their places. -/
def Same (ks ks' : List KM) : Prop := ks'.map KM.self = ks.map KM.self

theorem Same.mem {ks ks' : List KM} (s : Same ks ks') {p : Nat} (h : ∃ k ∈ ks, k.self = p) :
    ∃ k ∈ ks', k.self = p := by
  obtain ⟨k, hk, e⟩ := h
  have : p ∈ ks'.map KM.self := by rw [s]; exact List.mem_map.mpr ⟨k, hk, e⟩
  exact List.mem_map.mp this

theorem clusterInit_inv {E : Env} (ok : ∀ m, E.ok m = true) {g : GM} {ks : List KM} {h : Heap}
    {R : List Block} {gs : List Ghost} {x : GG} (v : GInv (g, ks, h) R gs x) (reps : List KRep)
    (hr : ∀ r ∈ reps, Shaped g.dim g.num r) (hne : reps ≠ []) :
    ∃ i ks' h' gs' kc kd, clusterInit E h ks g reps = some ({ g with init := i }, ks', h') ∧
      GInv ({ g with init := i }, ks', h') R gs' { x with kc := kc, kd := kd } ∧ Same ks ks' := by
  have fit : ∀ (i : Init) (kc kd : List ℚ), (∀ k, i = .mine k → Fits k kc kd) →
      GFits { g with init := i } { x with kc := kc, kd := kd } := fun i kc kd hk =>
    ⟨v.fits.par, v.fits.b, v.fits.some, v.fits.none, hk⟩
  cases hi : g.init with
  | null =>
    obtain ⟨k, h1, e1, o1, f1, -, -⟩ := kNew_own (E := E) v.own 0 0 ok
    obtain ⟨k', h2, e, c, cs, ds, e2, o2, f2, -⟩ :=
      kCluster_own (E := E) g.dim g.num reps o1 f1 hr hne ok
    refine ⟨.mine k', ks, h2, gs, cs, ds, ?_, ⟨v.objs, o2.of_perm ?_, v.kfits,
      fit _ _ _ (fun k hk => by cases hk; exact f2), by simp⟩, rfl⟩
    · simp [clusterInit, hi, e1, e2]
    · simp only [gblocks, hi, initBlocks]
      perm
  | mine k =>
    have o1 : Own h (chunk k x.kc x.kd ++ ((g.self, []) ::
        (g.priors, x.par.priors) :: (g.means, x.par.means) :: (g.covs, x.par.covs) ::
        (g.bounds, x.b) :: (blk g.posts x.q ++ (gs.flatMap gchunk ++ R)))) :=
      v.own.of_perm (by simp only [gblocks, hi, initBlocks]; perm)
    obtain ⟨k', h2, e, c, cs, ds, e2, o2, f2, -⟩ :=
      kCluster_own (E := E) g.dim g.num reps o1 (v.fits.init k hi) hr hne ok
    refine ⟨.mine k', ks, h2, gs, cs, ds, ?_, ⟨v.objs, o2.of_perm ?_, v.kfits,
      fit _ _ _ (fun k hk => by cases hk; exact f2), by simp⟩, rfl⟩
    · simp [clusterInit, hi, e2]
    · simp only [gblocks, initBlocks]
      perm
  | theirs p =>
    obtain ⟨k0, hk0, hp0⟩ := v.theirs p hi
    have hex : ∃ i, ks.findIdx? (fun k => k.self == p) = some i := by
      cases hf : ks.findIdx? (fun k => k.self == p) with
      | some i => exact ⟨i, rfl⟩
      | none =>
        rw [List.findIdx?_eq_none_iff] at hf
        exact absurd (hf k0 hk0) (by simp [hp0])
    obtain ⟨i, hidx⟩ := hex
    obtain ⟨hlt, hself, -⟩ := List.findIdx?_eq_some_iff_getElem.mp hidx
    have hget : ks[i]? = some ks[i] := List.getElem?_eq_getElem hlt
    have vI : Inv (ks, h) (gblocks g x ++ R) gs :=
      ⟨v.objs, v.own.of_perm (by perm), v.kfits⟩
    obtain ⟨cs, ds, hg, o, f⟩ := vI.get hget
    obtain ⟨k', h2, e, c, cs', ds', e2, o2, f2, hs, -⟩ :=
      kCluster_own (E := E) g.dim g.num reps o f hr hne ok
    have vI' := vI.replace hg o2 f2
    have hsame : Same ks (ks.set i k') := by
      rw [Same, List.map_set, hs]
      have : ks[i].self = (ks.map KM.self)[i]'(by simpa using hlt) := by simp
      rw [this]
      exact List.set_getElem_self _
    refine ⟨.theirs p, ks.set i k', h2, gs.set i (k', cs', ds'), x.kc, x.kd, ?_,
      ⟨vI'.objs, ?_, vI'.fits, ?_, ?_⟩, hsame⟩
    · simp only [clusterInit, hi, hidx, hget, e2, Option.bind_eq_bind, Option.bind_some]
      rw [← hi]
    · rw [← hi]
      exact vI'.own.of_perm (by perm)
    · rw [← hi]; exact v.fits
    · intro p' hp'
      cases hp'
      exact hsame.mem ⟨k0, hk0, hp0⟩

/-- A repetition has data of the right sizes. -/
structure GShaped (dim num n : Nat) (r : GRep) : Prop where
  kreps : ∀ k ∈ r.kreps, Shaped dim num k
  kne : r.kreps ≠ []
  kstart : r.kstart.length = dim * num
  par : ParFits dim num r.par
  posts : r.posts.length = n * num
  em : ∀ y, ParFits dim num (r.em y).1 ∧ (r.em y).2.1.length = n * num

theorem gGiven_inv {g : GM} {ks : List KM} {h : Heap}
    {R : List Block} {gs : List Ghost} {x : GG} (v : GInv (g, ks, h) R gs x) (p : Option Nat)
    (hp : ∀ a ∈ p, ∃ k ∈ ks, k.self = a) :
    ∃ i h', gGiven h g p = some ({ g with init := i }, h') ∧
      GInv ({ g with init := i }, ks, h') R gs x := by
  cases p with
  | none => exact ⟨g.init, h, rfl, v⟩
  | some a =>
    obtain ⟨h1, e1, o1, f1⟩ := gSetInit_own (some a) v.own v.fits
    exact ⟨.theirs a, h1, e1, v.objs, o1, v.kfits, f1, fun p hp' => by cases hp'; exact hp a rfl⟩

theorem gKmeans_inv {E : Env} (ok : ∀ m, E.ok m = true) {g : GM} {ks : List KM} {h : Heap}
    {R : List Block} {gs : List Ghost} {x : GG} (v : GInv (g, ks, h) R gs x) {n : Nat} (hn : 0 < n)
    (p : Option Nat) (hp : ∀ a ∈ p, ∃ k ∈ ks, k.self = a) (r : GRep)
    (hr : GShaped g.dim g.num n r) :
    ∃ i q ks' h' gs' x', gKmeans E h ks g n p r =
        some ({ g with posts := some q, numData := n, init := i }, ks', h') ∧
      GInv ({ g with posts := some q, numData := n, init := i }, ks', h') R gs' x' ∧
      x'.par = r.par ∧ x'.b = x.b ∧ Same ks ks' := by
  obtain ⟨h1, e1, o1, f1⟩ := gReset_own v.own v.fits
  obtain ⟨q, w, h2, e2, o2, f2⟩ := gPrepare_own (E := E) o1 f1 hn ok
  have v2 : GInv ({ g with posts := some q, numData := n, init := resetInit g.init }, ks, h2) R gs
      { x with q := w } := by
    refine ⟨v.objs, o2, v.kfits, f2, fun a ha => v.theirs a ?_⟩
    simp only at ha ⊢
    cases hi : g.init <;> rw [hi] at ha <;> cases ha
    rfl
  obtain ⟨i, h3, e3, v3⟩ := gGiven_inv v2 p hp
  obtain ⟨i', ks', h4, gs', kc, kd, e4, v4, hs⟩ := clusterInit_inv ok v3 r.kreps hr.kreps hr.kne
  obtain ⟨h5, e5, o5, f5⟩ := putPosts_own v4.own v4.fits rfl r.posts hr.posts
  obtain ⟨h6, e6, o6, f6⟩ := putPar_own o5 f5 r.par hr.par
  refine ⟨i', q, ks', h6, gs', _, ?_, ⟨v4.objs, o6, v4.kfits, f6, v4.theirs⟩, rfl, rfl, hs⟩
  simp only [gKmeans, e1, e2, e3, e4, e5, e6, Option.bind_eq_bind, Option.bind_some]

theorem gRand_inv {E : Env} (ok : ∀ m, E.ok m = true) {g : GM} {ks : List KM} {h : Heap}
    {R : List Block} {gs : List Ghost} {x : GG} (v : GInv (g, ks, h) R gs x) {n : Nat} (hn : 0 < n)
    (r : GRep) (hr : GShaped g.dim g.num n r) :
    ∃ i q h' x', gRand E h g n r =
        some ({ g with posts := some q, numData := n, init := i }, h') ∧
      GInv ({ g with posts := some q, numData := n, init := i }, ks, h') R gs x' ∧
      x'.par = r.par ∧ x'.b = x.b := by
  obtain ⟨h1, e1, o1, f1⟩ := gReset_own v.own v.fits
  obtain ⟨q, w, h2, e2, o2, f2⟩ := gPrepare_own (E := E) o1 f1 hn ok
  obtain ⟨k, h3, e3, o3, f3, -, -⟩ := kNew_own (E := E) o2 0 0 ok
  obtain ⟨p, h4, e4, o4⟩ := kSet_own (E := E) o3 g.dim g.num r.kstart hr.kstart ok
  have o4' := o4.of_perm (B' := gblocks { g with posts := some q, numData := n, init := resetInit g.init }
      { x with q := w } ++ (chunk { k with dimension := g.dim, numCenters := g.num, centers := some p, dists := none } r.kstart [] ++
      (gs.flatMap gchunk ++ R))) (by simp only [chunk, blk]; perm)
  obtain ⟨h5, e5, o5, f5⟩ := putPar_own o4' f2 r.par hr.par
  obtain ⟨h6, e6, o6⟩ := kDelete_own (o5.of_perm (B' :=
    chunk { k with dimension := g.dim, numCenters := g.num, centers := some p, dists := none } r.kstart [] ++ (gblocks { g with posts := some q, numData := n, init := resetInit g.init }
      { x with q := w, par := r.par } ++ (gs.flatMap gchunk ++ R))) (by perm))
  refine ⟨resetInit g.init, q, h6, _, ?_, ⟨v.objs, o6, v.kfits, f5, fun a ha => v.theirs a ?_⟩,
    rfl, rfl⟩
  · simp only [gRand, e1, e2, e3, e4, e5, e6, Option.bind_eq_bind, Option.bind_some]
  · simp only at ha ⊢
    cases hi : g.init <;> rw [hi] at ha <;> cases ha
    rfl

theorem gEm_inv {E : Env} (ok : ∀ m, E.ok m = true) {g : GM} {ks : List KM} {h : Heap}
    {R : List Block} {gs : List Ghost} {x : GG} (v : GInv (g, ks, h) R gs x) {n : Nat} (hn : 0 < n)
    (em : Par → Par × List ℚ × ℚ)
    (hr : ∀ y, ParFits g.dim g.num (em y).1 ∧ (em y).2.1.length = n * g.num) :
    ∃ q h' x', gEm E h g n em =
        some ({ g with posts := some q, numData := n }, h', (em x.par).2.2) ∧
      GInv ({ g with posts := some q, numData := n }, ks, h') R gs x' ∧
      x'.par = (em x.par).1 ∧ x'.q.take (n * g.num) = (em x.par).2.1 ∧ x'.b = x.b := by
  obtain ⟨q, w, h2, e2, o2, f2⟩ := gPrepare_own (E := E) v.own v.fits hn ok
  have e3 := getPar_own o2
  obtain ⟨h5, e5, o5, f5⟩ := putPosts_own o2 f2 rfl (em x.par).2.1 (hr _).2
  obtain ⟨h6, e6, o6, f6⟩ := putPar_own o5 f5 (em x.par).1 (hr _).1
  refine ⟨q, h6, _, ?_, ⟨v.objs, o6, v.kfits, f6, v.theirs⟩, rfl, ?_, rfl⟩
  · simp only [gEm, e2, e3, e5, e6, Option.bind_eq_bind, Option.bind_some]
  · simp [← (hr x.par).2]

theorem gStart_inv {E : Env} (ok : ∀ m, E.ok m = true) {g : GM} {ks : List KM} {h : Heap}
    {R : List Block} {gs : List Ghost} {x : GG} (v : GInv (g, ks, h) R gs x) {n : Nat} (hn : 0 < n)
    (r : GRep) (hr : GShaped g.dim g.num n r) :
    ∃ i q m ks' h' gs' x', gStart E h ks g n r =
        some ({ g with posts := q, numData := m, init := i }, ks', h') ∧
      GInv ({ g with posts := q, numData := m, init := i }, ks', h') R gs' x' ∧
      (g.cfg.start ≠ .custom → x'.par = r.par) ∧ (g.cfg.start = .custom → x'.par = x.par) ∧
      x'.b = x.b ∧ Same ks ks' := by
  cases hs : g.cfg.start with
  | kmeans =>
    obtain ⟨i, q, ks', h', gs', x', e, v', hp, hb, hsame⟩ :=
      gKmeans_inv ok v hn none (by simp) r hr
    exact ⟨i, some q, n, ks', h', gs', x', by simp [gStart, hs, e], v', fun _ => hp, by simp, hb,
      hsame⟩
  | rand =>
    obtain ⟨i, q, h', x', e, v', hp, hb⟩ := gRand_inv ok v hn r hr
    exact ⟨i, some q, n, ks, h', gs, x', by simp [gStart, hs, e], v', fun _ => hp, by simp, hb, rfl⟩
  | custom =>
    exact ⟨g.init, g.posts, g.numData, ks, h, gs, x, by simp [gStart, hs], v, by simp,
      fun _ => rfl, rfl, rfl⟩

theorem betterLL_eq (ll : ℚ) (b : Option ℚ) : betterLL ll b = better (-ll) (b.map fun x => -x) := by
  cases b with
  | none => rfl
  | some b => simp [betterLL, better]

/-- The blocks of the best solution. -/
def bestBlocks (b : Best) (y : Par) (q : List ℚ) : List Block :=
  (b.priors, y.priors) :: (b.means, y.means) :: (b.covs, y.covs) :: blk b.posts q

/-- The result of EM as a candidate. -/
def outcome (o : Par × List ℚ × ℚ) : ℚ × (Par × List ℚ) := (-o.2.2, (o.1, o.2.1))

theorem gLoop_inv {E : Env} (ok : ∀ m, E.ok m = true) {R : List Block} {n : Nat} (hn : 0 < n)
    (reps : List GRep) : ∀ (g : GM) (ks : List KM) (h : Heap) (gs : List Ghost) (x : GG)
    (b : Best) (y : Par) (q : List ℚ), (∀ r ∈ reps, GShaped g.dim g.num n r) →
    GInv (g, ks, h) (bestBlocks b y q ++ R) gs x → ParFits g.dim g.num y → b.posts.isSome →
    n * g.num ≤ q.length → (b.ll.isSome → g.numData = n) →
    ∃ g' ks' h' b' gs' x' y' q', gLoop E n reps h ks g b = some (g', ks', h', b') ∧
      GInv (g', ks', h') (bestBlocks b' y' q' ++ R) gs' x' ∧
      ParFits g.dim g.num y' ∧ b'.posts.isSome ∧ n * g.num ≤ q'.length ∧
      (b'.ll.isSome → g'.numData = n) ∧ x'.b = x.b ∧ Same ks ks' ∧
      g'.dim = g.dim ∧ g'.num = g.num ∧ g'.self = g.self ∧ g'.bounds = g.bounds ∧ g'.cfg = g.cfg ∧
      ∃ outs, outs.length = reps.length ∧
        (g.cfg.start ≠ .custom → outs = reps.map fun r => outcome (r.em r.par)) ∧
        (g.cfg.start = .custom → outs.head? = reps.head?.map fun r => outcome (r.em x.par)) ∧
        (b'.ll.map fun l => (-l, (y', q'.take (n * g.num)))) =
          bestOf outs (b.ll.map fun l => (-l, (y, q.take (n * g.num)))) := by
  induction reps with
  | nil =>
    intro g ks h gs x b y q _ v hy hb hq hl
    exact ⟨g, ks, h, b, gs, x, y, q, rfl, v, hy, hb, hq, hl, rfl, rfl, rfl, rfl, rfl, rfl, rfl,
      [], rfl, fun _ => rfl, fun _ => rfl, rfl⟩
  | cons r rs ih =>
    intro g ks h gs x b y q hr v hy hb hq hl
    have hr0 := hr r (List.mem_cons_self ..)
    obtain ⟨i, q1, m1, ks1, h1, gs1, x1, e1, v1, hp1, hc1, hb1, hs1⟩ := gStart_inv ok v hn r hr0
    obtain ⟨q2, h2, x2, e2, v2, hp2, hq2, hb2⟩ := gEm_inv ok v1 hn r.em hr0.em
    simp only at v2 hq2
    have hb2' : x2.b = x.b := hb2.trans hb1
    by_cases hbet : betterLL (r.em x1.par).2.2 b.ll = true
    · -- the new solution becomes the best one
      obtain ⟨bq, hbq⟩ := Option.isSome_iff_exists.mp hb
      have esw : gSwap { g with posts := some q2, numData := n, init := i } b
          (r.em x1.par).2.2 =
          ({ g with posts := b.posts, numData := n, init := i, priors := b.priors, means := b.means, covs := b.covs },
            ⟨g.priors, g.means, g.covs, some q2, some (r.em x1.par).2.2⟩) := by
        simp [gSwap, hbet]
      have v3 : GInv ({ g with posts := b.posts, numData := n, init := i, priors := b.priors, means := b.means, covs := b.covs },
          ks1, h2) (bestBlocks ⟨g.priors, g.means, g.covs, some q2, some (r.em x1.par).2.2⟩ x2.par
            x2.q ++ R) gs1 { x2 with par := y, q := q } := by
        refine ⟨v2.objs, v2.own.of_perm ?_, v2.kfits, ⟨hy, v2.fits.b, fun _ => hq, ?_,
          v2.fits.init⟩, v2.theirs⟩
        · simp only [gblocks, bestBlocks, blk, hbq]
          perm
        · simp [hbq]
      obtain ⟨g', ks', h', b', gs', x', y', q', e4, v4, hy4, hb4, hq4, hl4, hbb4, hs4, d4, n4, s4,
          bo4, c4, outs, ho1, ho2, ho3, ho4⟩ := ih
        { g with posts := b.posts, numData := n, init := i, priors := b.priors, means := b.means, covs := b.covs }
        ks1 h2 gs1 _ _ x2.par x2.q
        (fun r hr' => hr r (List.mem_cons_of_mem _ hr')) v3 v2.fits.par rfl
        (v2.fits.some rfl) (fun _ => rfl)
      refine ⟨g', ks', h', b', gs', x', y', q', ?_, v4, hy4, hb4, hq4, hl4, hbb4.trans hb2', ?_,
        d4, n4, s4, bo4, c4, outcome (r.em x1.par) :: outs, by simp [ho1], ?_, ?_, ?_⟩
      · simp only [gLoop, e1, e2, Option.bind_eq_bind, Option.bind_some, esw]
        exact e4
      · exact hs4.trans hs1
      · intro hst
        rw [ho2 hst, List.map_cons, hp1 hst]
      · intro hst
        rw [List.head?_cons, List.head?_cons, Option.map_some, hc1 hst]
      · rw [ho4, bestOf]
        refine congrArg _ ?_
        have hm : ((b.ll.map fun l => (-l, (y, q.take (n * g.num)))).map Prod.fst) =
            b.ll.map fun l => -l := by cases b.ll <;> rfl
        rw [hm, outcome, ← betterLL_eq, if_pos hbet]
        simp only [Option.map_some, hp2, hq2]
    · have esw : gSwap { g with posts := some q2, numData := n, init := i } b
          (r.em x1.par).2.2 = ({ g with posts := some q2, numData := n, init := i }, b) := by
        simp [gSwap, hbet]
      obtain ⟨g', ks', h', b', gs', x', y', q', e4, v4, hy4, hb4, hq4, hl4, hbb4, hs4, d4, n4, s4,
          bo4, c4, outs, ho1, ho2, ho3, ho4⟩ := ih
        { g with posts := some q2, numData := n, init := i } ks1 h2 gs1 x2 b y q
        (fun r hr' => hr r (List.mem_cons_of_mem _ hr')) v2 hy hb hq (fun _ => rfl)
      refine ⟨g', ks', h', b', gs', x', y', q', ?_, v4, hy4, hb4, hq4, hl4, hbb4.trans hb2', ?_,
        d4, n4, s4, bo4, c4, outcome (r.em x1.par) :: outs, by simp [ho1], ?_, ?_, ?_⟩
      · simp only [gLoop, e1, e2, Option.bind_eq_bind, Option.bind_some, esw]
        exact e4
      · exact hs4.trans hs1
      · intro hst
        rw [ho2 hst, List.map_cons, hp1 hst]
      · intro hst
        rw [List.head?_cons, List.head?_cons, Option.map_some, hc1 hst]
      · rw [ho4, bestOf]
        refine congrArg _ ?_
        have hm : ((b.ll.map fun l => (-l, (y, q.take (n * g.num)))).map Prod.fst) =
            b.ll.map fun l => -l := by cases b.ll <;> rfl
        rw [hm, outcome, ← betterLL_eq, if_neg hbet]

theorem gCluster_inv {E : Env} (ok : ∀ m, E.ok m = true) {g : GM} {ks : List KM} {h : Heap}
    {R : List Block} {gs : List Ghost} {x : GG} (v : GInv (g, ks, h) R gs x) {n : Nat} (hn : 0 < n)
    (reps : List GRep) (hr : ∀ r ∈ reps, GShaped g.dim g.num n r) (hne : reps ≠ []) :
    ∃ g' ks' h' gs' x', gCluster E h ks g n reps = some (g', ks', h') ∧
      GInv (g', ks', h') R gs' x' ∧ x'.b = x.b ∧ Same ks ks' ∧ g'.dim = g.dim ∧ g'.num = g.num ∧
      g'.self = g.self ∧ g'.bounds = g.bounds ∧ g'.numData = n ∧ g'.posts.isSome ∧
      g'.cfg.start = g.cfg.start ∧
      ∃ outs, outs.length = reps.length ∧
        (g.cfg.start ≠ .custom → outs = reps.map fun r => outcome (r.em r.par)) ∧
        (g.cfg.start = .custom → outs.head? = reps.head?.map fun r => outcome (r.em x.par)) ∧
        bestOf outs none = some (-g'.cfg.ll, (x'.par, x'.q.take (n * g.num))) := by
  obtain ⟨h1, p1, v1, e1, hv1, o1⟩ := need_own (E := E) v.own g.num ok
  obtain ⟨h2, p2, v2, e2, hv2, o2⟩ := need_own (E := E) o1 (g.dim * g.num) ok
  obtain ⟨h3, p3, v3, e3, hv3, o3⟩ := need_own (E := E) o2 (g.dim * g.num) ok
  obtain ⟨h4, p4, v4, e4, hv4, o4⟩ := need_own (E := E) o3 (g.num * n) ok
  have w : GInv (g, ks, h4) (bestBlocks ⟨p1, p2, p3, some p4, none⟩ ⟨v1, v2, v3⟩ v4 ++ R) gs x := by
    refine ⟨v.objs, o4.of_perm ?_, v.kfits, v.fits, v.theirs⟩
    simp only [bestBlocks, blk]
    perm
  obtain ⟨g', ks', h5, b', gs', x', y', q', e5, w5, hy5, hb5, hq5, hl5, hbb5, hs5, d5, n5, s5,
    bo5, c5, outs, ho1, ho2, ho3, ho4⟩ := gLoop_inv ok hn reps g ks h4 gs x _ ⟨v1, v2, v3⟩ v4 hr w
      ⟨hv1, by rw [hv2, Nat.mul_comm], by rw [hv3, Nat.mul_comm]⟩ rfl
      (by rw [hv4, Nat.mul_comm]) (by simp)
  have hsome : b'.ll.isSome := by
    have := bestOf_isSome outs none (Or.inr (by
      intro h0
      rw [h0] at ho1
      exact hne (List.length_eq_zero_iff.mp ho1.symm)))
    simp only [Option.map_none] at ho4
    rw [← ho4] at this
    simpa using this
  obtain ⟨l, hll⟩ := Option.isSome_iff_exists.mp hsome
  obtain ⟨bq, hbq⟩ := Option.isSome_iff_exists.mp hb5
  have o5 : Own h5 ((g'.priors, x'.par.priors) :: (g'.means, x'.par.means) ::
      (g'.covs, x'.par.covs) :: (blk g'.posts x'.q ++ ((g'.self, []) :: (g'.bounds, x'.b) ::
      (initBlocks g'.init x'.kc x'.kd ++ (gs'.flatMap gchunk ++ (bestBlocks b' y' q' ++ R)))))) :=
    w5.own.of_perm (by simp only [gblocks]; perm)
  obtain ⟨h6, e6, o6⟩ := free_own o5
  obtain ⟨h7, e7, o7⟩ := free_own o6
  obtain ⟨h8, e8, o8⟩ := free_own o7
  obtain ⟨h9, e9, o9⟩ := freeIf_own o8
  refine ⟨{ g' with priors := b'.priors, means := b'.means, covs := b'.covs, posts := b'.posts, cfg := { g'.cfg with ll := b'.ll.getD g'.cfg.ll } },
    ks', h9, gs', { x' with par := y', q := q' }, ?_, ⟨w5.objs, o9.of_perm ?_, w5.kfits, ?_, w5.theirs⟩,
    hbb5, hs5, d5, n5, s5, bo5, hl5 hsome, hb5, by simp [c5], outs, ho1, ho2, ho3, ?_⟩
  · simp only [gCluster, gself_load v.own, e1, e2, e3, e4, e5, e6, e7, e8, e9,
      Option.bind_eq_bind, Option.bind_some]
  · simp only [gblocks, bestBlocks]
    perm
  · refine ⟨by simpa only [d5, n5] using hy5, by simpa only [d5] using w5.fits.b, fun _ => ?_, ?_,
      w5.fits.init⟩
    · simp only [hl5 hsome, n5]
      exact hq5
    · simp [hbq]
  · simp only [Option.map_none] at ho4
    rw [← ho4, hll]
    rfl

end Verif.Life
