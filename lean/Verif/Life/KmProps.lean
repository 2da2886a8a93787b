import Mathlib.Tactic.NormNum
import Verif.Life.KmLemmas

/-!
# The life of k-means objects

A client creates, copies, resets, trains and deletes any number of k-means
objects in any order.
-/

namespace Verif.Life

/-! ## Specification -/

/-- A heap in which no block appears twice and the addresses to come are
unused. -/
structure Heap.Good (h : Heap) : Prop where
  nodup : (h.live.map Prod.fst).Nodup
  lt : ∀ b ∈ h.live, b.1 < h.next

/-- The pointers that an object holds. -/
def KM.pointers (k : KM) : List Nat := k.self :: (k.centers.toList ++ k.dists.toList)

/-- What the documentation asks of each call: the object exists, and the arrays
have the sizes that go with the numbers given.  Refining needs centers. -/
def KOp.Legal (ks : List KM) : KOp → Prop
  | .new _ _ => True
  | .copy i _ => i < ks.length
  | .reset i => i < ks.length
  | .set i d n cs => i < ks.length ∧ cs.length = d * n
  | .refine i cs ds => ∃ k, ks[i]? = some k ∧ k.centers.isSome ∧
      cs.length = k.dimension * k.numCenters ∧
      ∀ v ∈ ds, v.length = k.numCenters * k.numCenters
  | .cluster i d n reps => i < ks.length ∧ reps ≠ [] ∧ ∀ r ∈ reps,
      r.start.length = d * n ∧ r.result.length = d * n ∧ ∀ v ∈ r.dists, v.length = n * n
  | .delete i => i < ks.length

/-- Every call of a history is legal in the state in which it is made. -/
def Legal (E : Env) : List KOp → List KM × Heap → Prop
  | [], _ => True
  | op :: ops, s => op.Legal s.1 ∧ ∀ s', kStep E s op = some s' → Legal E ops s'

/-! ## Proofs -/

/-- An object together with what is in its blocks. -/
abbrev Ghost := KM × List ℚ × List ℚ

/-- The blocks of an object with their contents. -/
def gchunk (g : Ghost) : List Block := chunk g.1 g.2.1 g.2.2

/-- The state of a client in a heap with other blocks `R`. -/
structure Inv (s : List KM × Heap) (R : List Block) (gs : List Ghost) : Prop where
  objs : s.1 = gs.map Prod.fst
  own : Own s.2 (gs.flatMap gchunk ++ R)
  fits : ∀ g ∈ gs, Fits g.1 g.2.1 g.2.2

theorem Inv.get {s : List KM × Heap} {R : List Block} {gs : List Ghost} (v : Inv s R gs) {i : Nat}
    {k : KM} (hk : s.1[i]? = some k) : ∃ cs ds, gs[i]? = some (k, cs, ds) ∧
      Own s.2 (chunk k cs ds ++ ((gs.eraseIdx i).flatMap gchunk ++ R)) ∧ Fits k cs ds := by
  rw [v.objs, List.getElem?_map] at hk
  obtain ⟨⟨k', cs, ds⟩, hg, e⟩ := Option.map_eq_some_iff.mp hk
  simp only at e
  subst e
  refine ⟨cs, ds, hg, v.own.of_perm ?_, v.fits _ (List.mem_of_getElem? hg)⟩
  rw [← List.append_assoc]
  exact (flatMap_front gchunk gs i _ hg).append_right _

theorem Inv.replace {s : List KM × Heap} {R : List Block} {gs : List Ghost} (v : Inv s R gs)
    {i : Nat} {g : Ghost} (hg : gs[i]? = some g) {k' : KM} {cs ds : List ℚ} {h' : Heap}
    (o : Own h' (chunk k' cs ds ++ ((gs.eraseIdx i).flatMap gchunk ++ R))) (f : Fits k' cs ds) :
    Inv (putBack s.1 i (k', h')) R (gs.set i (k', cs, ds)) := by
  have hi : i < gs.length := (List.getElem?_eq_some_iff.mp hg).1
  refine ⟨?_, o.of_perm ?_, ?_⟩
  · rw [putBack, v.objs, List.map_set]
  · rw [← List.append_assoc]
    exact ((set_front gchunk gs i (k', cs, ds) hi).append_right _).symm
  · intro x hx
    rcases List.mem_or_eq_of_mem_set hx with h | h
    · exact v.fits x h
    · subst h; exact f

theorem Inv.add {s : List KM × Heap} {R : List Block} {gs : List Ghost} (v : Inv s R gs)
    {k' : KM} {cs ds : List ℚ} {h' : Heap}
    (o : Own h' (chunk k' cs ds ++ (gs.flatMap gchunk ++ R))) (f : Fits k' cs ds) :
    Inv (s.1 ++ [k'], h') R (gs ++ [(k', cs, ds)]) := by
  refine ⟨by simp [v.objs], o.of_perm ?_, ?_⟩
  · rw [List.flatMap_append]
    have : [(k', cs, ds)].flatMap gchunk = chunk k' cs ds := by simp [gchunk]
    rw [this]
    perm
  · intro x hx
    rcases List.mem_append.mp hx with h | h
    · exact v.fits x h
    · rw [List.mem_singleton] at h; subst h; exact f

theorem get_of_lt {ks : List KM} {i : Nat} (h : i < ks.length) : ∃ k, ks[i]? = some k :=
  ⟨ks[i], List.getElem?_eq_getElem h⟩

theorem step_inv {E : Env} (ok : ∀ m, E.ok m = true) {s : List KM × Heap} {R : List Block}
    {gs : List Ghost} (v : Inv s R gs) (op : KOp) (hl : op.Legal s.1) :
    ∃ s' gs', kStep E s op = some s' ∧ Inv s' R gs' := by
  cases op with
  | new t d =>
    obtain ⟨k, h', e, o, f, -, -⟩ := kNew_own (E := E) v.own t d ok
    exact ⟨_, _, by simp [kStep, e], v.add o f⟩
  | copy i old =>
    obtain ⟨k, hk⟩ := get_of_lt hl
    obtain ⟨cs, ds, hg, o, f⟩ := v.get hk
    obtain ⟨k', h', e, o', f', -⟩ := kCopy_own (E := E) old o f ok
    refine ⟨(s.1 ++ [k'], h'), _, by simp [kStep, hk, e], v.add (o'.of_perm ?_) f'⟩
    refine List.Perm.append_left _ ?_
    rw [← List.append_assoc]
    exact (flatMap_front gchunk gs i _ hg).symm.append_right _
  | reset i =>
    obtain ⟨k, hk⟩ := get_of_lt hl
    obtain ⟨cs, ds, hg, o, f⟩ := v.get hk
    obtain ⟨h', e, o'⟩ := kReset_own o
    refine ⟨_, _, by simp [kStep, hk, e]; rfl, v.replace (cs := []) (ds := []) hg o' ⟨?_, ?_⟩⟩
    · simp
    · simp
  | set i d n cs' =>
    obtain ⟨k, hk⟩ := get_of_lt hl.1
    obtain ⟨cs, ds, hg, o, f⟩ := v.get hk
    obtain ⟨p, h', e, o'⟩ := kSet_own (E := E) o d n cs' hl.2 ok
    exact ⟨_, _, by simp [kStep, hk, e]; rfl, v.replace (cs := cs') (ds := []) hg o'
      ⟨fun _ => hl.2, by simp⟩⟩
  | refine i cs' ds' =>
    obtain ⟨k, hk, hc, h1, h2⟩ := hl
    obtain ⟨cs, ds, hg, o, f⟩ := v.get hk
    obtain ⟨q, h', e, o', f'⟩ := kRefine_own (E := E) o f cs' ds' hc h1 h2 ok
    exact ⟨_, _, by simp [kStep, hk, e], v.replace hg o' f'⟩
  | cluster i d n reps =>
    obtain ⟨k, hk⟩ := get_of_lt hl.1
    obtain ⟨cs, ds, hg, o, f⟩ := v.get hk
    obtain ⟨k', h', en, c, cs', ds', e, o', f', -⟩ := kCluster_own (E := E) d n reps o f
      (fun r hr => ⟨(hl.2.2 r hr).1, (hl.2.2 r hr).2.1, (hl.2.2 r hr).2.2⟩) hl.2.1 ok
    exact ⟨putBack s.1 i (k', h'), _, by simp [kStep, hk, e], v.replace hg o' f'⟩
  | delete i =>
    obtain ⟨k, hk⟩ := get_of_lt hl
    obtain ⟨cs, ds, hg, o, f⟩ := v.get hk
    obtain ⟨h', e, o'⟩ := kDelete_own o
    refine ⟨(s.1.eraseIdx i, h'), gs.eraseIdx i, by simp [kStep, hk, e], ?_, o', ?_⟩
    · rw [v.objs, List.eraseIdx_map]
    · exact fun x hx => v.fits x (List.mem_of_mem_eraseIdx hx)

theorem run_inv {E : Env} (ok : ∀ m, E.ok m = true) {R : List Block} (ops : List KOp) :
    ∀ (s : List KM × Heap) (gs : List Ghost), Inv s R gs → Legal E ops s →
      ∃ s' gs', kRun E ops s = some s' ∧ Inv s' R gs' := by
  induction ops with
  | nil => exact fun s gs v _ => ⟨s, gs, rfl, v⟩
  | cons op ops ih =>
    intro s gs v hl
    obtain ⟨s1, gs1, e1, v1⟩ := step_inv ok v op hl.1
    obtain ⟨s2, gs2, e2, v2⟩ := ih s1 gs1 v1 (hl.2 s1 e1)
    exact ⟨s2, gs2, by simp [kRun, e1, e2], v2⟩

theorem start_inv {h0 : Heap} (g : h0.Good) : Inv ([], h0) h0.live [] :=
  ⟨rfl, ⟨.refl _, g.nodup, g.lt⟩, by simp⟩

theorem keys_chunk (k : KM) (cs ds : List ℚ) : (chunk k cs ds).map Prod.fst = k.pointers := by
  unfold chunk KM.pointers
  cases k.centers <;> cases k.dists <;> rfl

theorem keys_ghosts (gs : List Ghost) :
    (gs.flatMap gchunk).map Prod.fst = (gs.map Prod.fst).flatMap KM.pointers := by
  induction gs with
  | nil => rfl
  | cons g gs ih => simp only [List.flatMap_cons, List.map_append, List.map_cons, ih, gchunk,
      keys_chunk]

/-- A state that a client reaches by a legal history. -/
def Reached (E : Env) (h0 : Heap) (s : List KM × Heap) : Prop :=
  ∃ ops, Legal E ops ([], h0) ∧ kRun E ops ([], h0) = some s

theorem Reached.inv {E : Env} (ok : ∀ m, E.ok m = true) {h0 : Heap} (g : h0.Good)
    {s : List KM × Heap} (r : Reached E h0 s) : ∃ gs, Inv s h0.live gs := by
  obtain ⟨ops, hl, e⟩ := r
  obtain ⟨s', gs, e', v⟩ := run_inv ok ops _ _ (start_inv g) hl
  rw [e] at e'
  cases e'
  exact ⟨gs, v⟩

/-! ## Theorems -/

/-- A history of legal calls never touches memory that is not the client's: no
block is freed twice, read or written after it is freed, or written past its
end.  The live blocks are at each moment exactly those of the objects the client
holds, on top of those of the rest of the program, whose contents do not change.
Once every object is deleted, all the memory has been given back. -/
theorem kmeans_history (E : Env) (ok : ∀ m, E.ok m = true) (h0 : Heap) (g : h0.Good)
    (ops : List KOp) (hl : Legal E ops ([], h0)) :
    ∃ ks h, kRun E ops ([], h0) = some (ks, h) ∧
      (h.live.map Prod.fst).Perm (ks.flatMap KM.pointers ++ h0.live.map Prod.fst) ∧
      (h.live.map Prod.fst).Nodup ∧
      (∀ b ∈ h0.live, b ∈ h.live) ∧
      (ks = [] → h.live.Perm h0.live) := by
  obtain ⟨⟨ks, h⟩, gs, e, v⟩ := run_inv ok ops _ _ (start_inv g) hl
  refine ⟨ks, h, e, ?_, ?_, ?_, ?_⟩
  · have := v.own.perm.map Prod.fst
    rw [List.map_append, keys_ghosts, ← v.objs] at this
    exact this
  · exact (v.own.perm.map _).nodup_iff.mpr v.own.nodup
  · intro b hb
    exact v.own.perm.mem_iff.mpr (List.mem_append_right _ hb)
  · intro hk
    have hg : gs = [] := by
      have := v.objs
      simp only at this
      rw [hk] at this
      exact List.map_eq_nil_iff.mp this.symm
    have := v.own.perm
    rw [hg] at this
    exact this

/-- Clustering leaves in the object the centers of the first repetition of least
energy and returns that energy; every block that is not the object's keeps its
contents. -/
theorem cluster_keeps_best (E : Env) (ok : ∀ m, E.ok m = true) (h0 : Heap) (g : h0.Good)
    (ks : List KM) (h : Heap) (r : Reached E h0 (ks, h)) (i : Nat) (k : KM)
    (hk : ks[i]? = some k) (d n : Nat) (reps : List KRep)
    (hl : (KOp.cluster i d n reps).Legal ks) :
    ∃ k' h' e c, kCluster E h k d n reps = some (k', h', some e) ∧
      k'.dimension = d ∧ k'.numCenters = n ∧ k'.cfg = k.cfg ∧ k'.centers = some c ∧
      (∃ j, ∃ hj : j < reps.length, reps[j].energy = e ∧ load h' c = some reps[j].result ∧
        (∀ r ∈ reps, e ≤ r.energy) ∧ ∀ a, ∀ ha : a < j, e < (reps[a]'(ha.trans hj)).energy) ∧
      ∀ b ∈ h.live, b.1 ∉ k.pointers → b ∈ h'.live := by
  obtain ⟨gs, v⟩ := r.inv ok g
  obtain ⟨cs, ds, hg, o, f⟩ := v.get hk
  obtain ⟨k', h', e, c, cs', ds', eq, o', f', -, hcfg, hd, hn, hc, hbest⟩ :=
    kCluster_own (E := E) d n reps o f
      (fun r hr => ⟨(hl.2.2 r hr).1, (hl.2.2 r hr).2.1, (hl.2.2 r hr).2.2⟩) hl.2.1 ok
  refine ⟨k', h', e, c, eq, hd, hn, hcfg, hc, ?_, ?_⟩
  · obtain ⟨j, hj, h2, h4, h5⟩ := bestOf_first _ _ hbest
    simp only [outcomes, List.getElem_map, Prod.mk.injEq] at h2
    refine ⟨j, by simpa [outcomes] using hj, h2.1, ?_, ?_, ?_⟩
    · rw [h2.2]
      refine load_own (B := (k'.self, []) :: (blk k'.dists ds' ++
        ((gs.eraseIdx i).flatMap gchunk ++ h0.live))) (o'.of_perm ?_)
      unfold chunk
      rw [hc]
      have : blk (some c) cs' = [(c, cs')] := rfl
      rw [this]; perm
    · intro x hx
      exact h4 (x.energy, x.result) (List.mem_map.mpr ⟨x, hx, rfl⟩)
    · intro a ha
      have := h5 a ha
      simpa only [outcomes, List.getElem_map] using this
  · intro b hb hp
    rcases List.mem_append.mp (o.perm.mem_iff.mp hb) with hm | hm
    · exact absurd (keys_chunk k cs ds ▸ List.mem_map_of_mem hm) hp
    · exact o'.perm.mem_iff.mpr (List.mem_append_right _ hm)

/-- An allocator that never fails. -/
def allOk : Env := ⟨fun _ => true, fun _ _ => 0⟩

/-- A history that creates an object, clusters twice, copies it and deletes both
objects meets the hypotheses. -/
def exampleOps : List KOp :=
  [.new 1 1, .cluster 0 1 1 [⟨[0], [1], some [0], 2⟩, ⟨[5], [6], none, 1⟩],
    .copy 0 ⟨0, 0, 0, 0, 0, 0, 0, 0, 7, 0, 0⟩, .delete 0, .delete 0]

theorem putBack_length (ks : List KM) (i : Nat) (r : KM × Heap) :
    (putBack ks i r).1.length = ks.length := by simp [putBack]

theorem new_length {E : Env} {s s' : List KM × Heap} {t d : Nat}
    (e : kStep E s (.new t d) = some s') : s'.1.length = s.1.length + 1 := by
  simp only [kStep, Option.bind_eq_bind, Option.bind_eq_some_iff, Option.some.injEq] at e
  obtain ⟨a, -, rfl⟩ := e
  simp

theorem copy_length {E : Env} {s s' : List KM × Heap} {i : Nat} {old : KCfg}
    (e : kStep E s (.copy i old) = some s') : s'.1.length = s.1.length + 1 := by
  simp only [kStep, Option.bind_eq_bind, Option.bind_eq_some_iff, Option.some.injEq] at e
  obtain ⟨_, -, a, -, rfl⟩ := e
  simp

theorem cluster_length {E : Env} {s s' : List KM × Heap} {i d n : Nat} {reps : List KRep}
    (e : kStep E s (.cluster i d n reps) = some s') : s'.1.length = s.1.length := by
  simp only [kStep, Option.bind_eq_bind, Option.bind_eq_some_iff, Option.some.injEq] at e
  obtain ⟨_, -, a, -, rfl⟩ := e
  exact putBack_length _ _ _

theorem delete_length {E : Env} {s s' : List KM × Heap} {i : Nat}
    (e : kStep E s (.delete i) = some s') : s.1.length ≤ s'.1.length + 1 := by
  simp only [kStep, Option.bind_eq_bind, Option.bind_eq_some_iff, Option.some.injEq] at e
  obtain ⟨_, -, a, -, rfl⟩ := e
  simp only [List.length_eraseIdx]
  split <;> omega

example : Legal allOk exampleOps ([], ⟨[(0, [3])], 1⟩) ∧ Heap.Good ⟨[(0, [3])], 1⟩ := by
  refine ⟨⟨trivial, fun s1 e1 => ?_⟩, by simp, by simp⟩
  have l1 := new_length e1
  refine ⟨⟨by simp [l1], by simp, by simp⟩, fun s2 e2 => ?_⟩
  have l2 := cluster_length e2
  refine ⟨?_, fun s3 e3 => ?_⟩
  · show 0 < s2.1.length
    omega
  have l3 := copy_length e3
  simp only [List.length_nil] at l1
  refine ⟨?_, fun s4 e4 => ?_⟩
  · show 0 < s3.1.length
    omega
  have l4 := delete_length e4
  refine ⟨?_, fun _ _ => trivial⟩
  show 0 < s4.1.length
  omega

/-- What a copy ought to be: the same settings, and the same centers and
distances. -/
def CopyClaim : Prop :=
  ∀ (E : Env), (∀ m, E.ok m = true) → ∀ (h0 : Heap), h0.Good → ∀ (ks : List KM) (h : Heap),
    Reached E h0 (ks, h) → ∀ (i : Nat) (k : KM), ks[i]? = some k → ∀ (old : KCfg),
    ∃ k' h', kCopy E old h k = some (k', h') ∧ k'.cfg = k.cfg

/-- A copy has the algorithm, distance, data type, verbosity, numbers of
iterations, repetitions, trees and comparisons, the dimensions, and the contents
of the centers and of their distances of the original; it shares no block with
any object, and the original is untouched.  Missing, since it fails: the
initialisation method, the least energy variation and the energy. -/
theorem copy_partial (E : Env) (ok : ∀ m, E.ok m = true) (h0 : Heap) (g : h0.Good)
    (ks : List KM) (h : Heap) (r : Reached E h0 (ks, h)) (i : Nat) (k : KM)
    (hk : ks[i]? = some k) (old : KCfg) :
    ∃ k' h', kCopy E old h k = some (k', h') ∧
      k'.cfg.algorithm = k.cfg.algorithm ∧ k'.cfg.distance = k.cfg.distance ∧
      k'.cfg.dataType = k.cfg.dataType ∧ k'.cfg.verbosity = k.cfg.verbosity ∧
      k'.cfg.maxNumIterations = k.cfg.maxNumIterations ∧
      k'.cfg.numRepetitions = k.cfg.numRepetitions ∧ k'.cfg.numTrees = k.cfg.numTrees ∧
      k'.cfg.maxNumComparisons = k.cfg.maxNumComparisons ∧
      k'.dimension = k.dimension ∧ k'.numCenters = k.numCenters ∧
      k'.centers.map (load h') = k.centers.map (load h) ∧
      k'.dists.map (load h') = k.dists.map (load h) ∧
      (∀ p ∈ k'.pointers, p ∉ h.live.map Prod.fst) ∧ (∀ b ∈ h.live, b ∈ h'.live) ∧
      k'.cfg.initialization = old.initialization ∧
      k'.cfg.minEnergyVariation = old.minEnergyVariation ∧ k'.cfg.energy = old.energy := by
  obtain ⟨gs, v⟩ := r.inv ok g
  obtain ⟨cs, ds, hg, o, f⟩ := v.get hk
  obtain ⟨k', h', e, o', f', hd, hn, hc, hq, hcfg⟩ := kCopy_own (E := E) old o f ok
  have hload : ∀ (h : Heap) (a : KM) (B : List Block), Own h (chunk a cs ds ++ B) →
      a.centers.map (load h) = a.centers.map (fun _ => some cs) ∧
      a.dists.map (load h) = a.dists.map (fun _ => some ds) := by
    intro h a B oo
    constructor
    · cases hca : a.centers with
      | none => rfl
      | some p =>
        simp only [Option.map_some, Option.some.injEq]
        refine load_own (B := (a.self, []) :: (blk a.dists ds ++ B)) (oo.of_perm ?_)
        unfold chunk; rw [hca]
        have : blk (some p) cs = [(p, cs)] := rfl
        rw [this]; perm
    · cases hca : a.dists with
      | none => rfl
      | some p =>
        simp only [Option.map_some, Option.some.injEq]
        refine load_own (B := (a.self, []) :: (blk a.centers cs ++ B)) (oo.of_perm ?_)
        unfold chunk; rw [hca]
        have : blk (some p) ds = [(p, ds)] := rfl
        rw [this]; perm
  have hsame : ∀ {a b : Option Nat} (w : List ℚ), a.isSome = b.isSome →
      a.map (fun _ => some w) = b.map (fun _ => some w) := by
    intro a b w hab
    cases a <;> cases b <;> simp_all
  refine ⟨k', h', e, by rw [hcfg], by rw [hcfg], by rw [hcfg], by rw [hcfg], by rw [hcfg],
    by rw [hcfg], by rw [hcfg], by rw [hcfg], hd, hn, ?_, ?_, ?_, ?_, by rw [hcfg], by rw [hcfg],
    by rw [hcfg]⟩
  · rw [(hload h' k' _ o').1, (hload h k _ o).1, hsame cs hc]
  · rw [(hload h' k' _ o').2, (hload h k _ o).2, hsame ds hq]
  · intro p hp hm
    have nd := o'.nodup
    rw [List.map_append, keys_chunk] at nd
    refine (List.nodup_append.mp nd).2.2 p hp p ?_ rfl
    exact ((o.perm.map Prod.fst).mem_iff.mp hm)
  · intro b hb
    exact o'.perm.mem_iff.mpr (List.mem_append_right _ (o.perm.mem_iff.mp hb))

/-- The copy of an object keeps in its initialisation method whatever was in the
memory, so it need not be the original's. -/
theorem copy_claim_false : ¬ CopyClaim := by
  intro hc
  obtain ⟨k', h', e, hcfg⟩ := hc allOk (fun _ => rfl) ⟨[], 0⟩ ⟨List.nodup_nil, by simp⟩
    [⟨0, ⟨0, 1, 1, 0, 100, 1, 3, 100, 0, 1 / 10000, 0⟩, 0, 0, none, none⟩] ⟨[(0, [])], 1⟩
    ⟨[.new 1 1], ⟨trivial, fun _ _ => trivial⟩, rfl⟩ 0 _ rfl
    ⟨0, 0, 0, 0, 0, 0, 0, 0, 7, 0, 0⟩
  have hi := congrArg KCfg.initialization hcfg
  have e2 : kCopy allOk ⟨0, 0, 0, 0, 0, 0, 0, 0, 7, 0, 0⟩ ⟨[(0, [])], 1⟩
      ⟨0, ⟨0, 1, 1, 0, 100, 1, 3, 100, 0, 1 / 10000, 0⟩, 0, 0, none, none⟩ =
      some (⟨1, ⟨0, 1, 1, 0, 100, 1, 3, 100, 7, 0, 0⟩, 0, 0, none, none⟩, ⟨[(1, []), (0, [])], 2⟩) := by
    rfl
  rw [e2] at e
  cases e
  cases hi

end Verif.Life
