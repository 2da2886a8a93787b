import Verif.Life.HeapProps

/-! Lemmas about k-means objects in a heap. -/

namespace Verif.Life

/-- The block behind a pointer that may be NULL. -/
def blk : Option Nat → List ℚ → List Block
  | none, _ => []
  | some p, v => [(p, v)]

/-- The blocks of a k-means object whose centers are `cs` and whose distances
are `ds`. -/
def chunk (k : KM) (cs ds : List ℚ) : List Block :=
  (k.self, []) :: (blk k.centers cs ++ blk k.dists ds)

/-- The blocks have the sizes that the object records. -/
structure Fits (k : KM) (cs ds : List ℚ) : Prop where
  centers : k.centers.isSome → cs.length = k.dimension * k.numCenters
  dists : k.dists.isSome → ds.length = k.numCenters * k.numCenters

theorem freeIf_own {h : Heap} {R : List Block} {p : Option Nat} {v : List ℚ}
    (o : Own h (blk p v ++ R)) : ∃ h', freeIf h p = some h' ∧ Own h' R := by
  cases p with
  | none => exact ⟨h, rfl, o⟩
  | some p => exact free_own o

theorem self_load {h : Heap} {R : List Block} {k : KM} {cs ds : List ℚ}
    (o : Own h (chunk k cs ds ++ R)) : load h k.self = some [] := load_own o

theorem kNew_own {E : Env} {h : Heap} {R : List Block} (o : Own h R) (t d : Nat)
    (ok : ∀ m, E.ok m = true) :
    ∃ k h', kNew E h t d = some (k, h') ∧ Own h' (chunk k [] [] ++ R) ∧ Fits k [] [] ∧
      k.centers = none ∧ k.dists = none := by
  obtain ⟨h', p, v, e, hv, o'⟩ := need_own (E := E) o 0 ok
  obtain rfl := List.length_eq_zero_iff.mp hv
  exact ⟨_, h', by simp [kNew, e]; rfl, by simpa [chunk, blk] using o', ⟨by simp, by simp⟩, rfl, rfl⟩

theorem kReset_own {h : Heap} {R : List Block} {k : KM} {cs ds : List ℚ}
    (o : Own h (chunk k cs ds ++ R)) :
    ∃ h', kReset h k = some
      ({ k with dimension := 0, numCenters := 0, centers := none, dists := none }, h') ∧ Own h' ((k.self, []) :: R) := by
  have o1 : Own h (blk k.centers cs ++ (blk k.dists ds ++ (k.self, []) :: R)) :=
    o.of_perm (by unfold chunk; perm)
  obtain ⟨h1, e1, o2⟩ := freeIf_own o1
  obtain ⟨h2, e2, o3⟩ := freeIf_own o2
  refine ⟨h2, ?_, o3⟩
  simp [kReset, self_load o, e1, e2]

theorem kDelete_own {h : Heap} {R : List Block} {k : KM} {cs ds : List ℚ}
    (o : Own h (chunk k cs ds ++ R)) :
    ∃ h', kDelete h k = some h' ∧ Own h' R := by
  obtain ⟨h1, e1, o1⟩ := kReset_own o
  obtain ⟨h2, e2, o2⟩ := free_own o1
  exact ⟨h2, by simp [kDelete, e1, e2], o2⟩

theorem kSet_own {E : Env} {h : Heap} {R : List Block} {k : KM} {cs ds : List ℚ}
    (o : Own h (chunk k cs ds ++ R)) (d n : Nat) (new : List ℚ) (hl : new.length = d * n)
    (ok : ∀ m, E.ok m = true) :
    ∃ p h', kSet E h k d n new = some
      ({ k with dimension := d, numCenters := n, centers := some p, dists := none }, h') ∧
      Own h' ((k.self, []) :: (p, new) :: R) := by
  obtain ⟨h1, e1, o1⟩ := kReset_own o
  obtain ⟨h2, p, v, e2, hv, o2⟩ := need_own (E := E) o1 (d * n) ok
  obtain ⟨h3, e3, o3⟩ := store_full o2 new (by rw [hl, hv])
  exact ⟨p, h3, by simp [kSet, e1, e2, e3], o3.of_perm (by perm)⟩

/-- The distances that an object holds after a refinement. -/
def newDists (old : List ℚ) : Option (List ℚ) → List ℚ
  | none => old
  | some ds => ds

theorem kElkan_own {E : Env} {h : Heap} {R : List Block} {k : KM} {ds : List ℚ}
    (o : Own h (blk k.dists ds ++ R)) (new : Option (List ℚ))
    (hd : k.dists.isSome → ds.length = k.numCenters * k.numCenters)
    (hn : ∀ v ∈ new, v.length = k.numCenters * k.numCenters)
    (ok : ∀ m, E.ok m = true) :
    ∃ q h', kElkan E h k new = some ({ k with dists := q }, h') ∧
      Own h' (blk q (newDists ds new) ++ R) ∧
      (q.isSome → (newDists ds new).length = k.numCenters * k.numCenters) := by
  cases new with
  | none => exact ⟨k.dists, h, rfl, o, hd⟩
  | some v =>
    have hv := hn v rfl
    cases hk : k.dists with
    | some p =>
      rw [hk] at o
      obtain ⟨h1, e1, o1⟩ := store_full (p := p) (w := ds) o v (by rw [hv, hd (by simp [hk])])
      exact ⟨some p, h1, by simp [kElkan, kUpdateDists, kDists, hk, e1], o1, fun _ => hv⟩
    | none =>
      rw [hk] at o
      obtain ⟨h1, p, w, e1, hw, o1⟩ :=
        need_own (E := E) o (k.numCenters * k.numCenters) ok
      obtain ⟨h2, e2, o2⟩ := store_full o1 v (by rw [hv, hw])
      exact ⟨some p, h2, by simp [kElkan, kUpdateDists, kDists, hk, e1, e2], o2, fun _ => hv⟩

theorem kRefine_own {E : Env} {h : Heap} {R : List Block} {k : KM} {cs ds : List ℚ}
    (o : Own h (chunk k cs ds ++ R)) (f : Fits k cs ds) (new : List ℚ) (nds : Option (List ℚ))
    (hc : k.centers.isSome) (hl : new.length = k.dimension * k.numCenters)
    (hn : ∀ v ∈ nds, v.length = k.numCenters * k.numCenters)
    (ok : ∀ m, E.ok m = true) :
    ∃ q h', kRefine E h k new nds = some ({ k with dists := q }, h') ∧
      Own h' (chunk { k with dists := q } new (newDists ds nds) ++ R) ∧
      Fits { k with dists := q } new (newDists ds nds) := by
  obtain ⟨p, hp⟩ := Option.isSome_iff_exists.mp hc
  have o1 : Own h ((p, cs) :: (blk k.dists ds ++ (k.self, []) :: R)) :=
    o.of_perm (by unfold chunk; rw [hp]; unfold blk; perm)
  obtain ⟨h1, e1, o2⟩ := store_full o1 new (by rw [hl, f.centers hc])
  have o3 : Own h1 (blk k.dists ds ++ ((k.self, []) :: (p, new) :: R)) :=
    o2.of_perm (by perm)
  obtain ⟨q, h2, e2, o4, hq⟩ := kElkan_own (E := E) o3 nds f.dists hn ok
  refine ⟨q, h2, ?_, ?_, ⟨fun _ => hl, hq⟩⟩
  · simp [kRefine, self_load o, hp, e1, e2]
  · refine o4.of_perm ?_
    simp only [chunk, hp]
    have : blk (some p) new = [(p, new)] := rfl
    rw [this]
    perm

theorem dup_own {E : Env} {h : Heap} {R : List Block} {p : Option Nat} {v : List ℚ} (n : Nat)
    (o : Own h (blk p v ++ R)) (hv : p.isSome → v.length = n) (ok : ∀ m, E.ok m = true) :
    ∃ q h', dup E h n p = some (q, h') ∧ q.isSome = p.isSome ∧
      Own h' (blk q v ++ (blk p v ++ R)) := by
  cases p with
  | none => exact ⟨none, h, rfl, rfl, o⟩
  | some p =>
    have hv := hv rfl
    obtain ⟨h1, q, w, e1, hw, o1⟩ := need_own (E := E) o n ok
    have o2 : Own h1 ((p, v) :: (q, w) :: R) := o1.of_perm (by unfold blk; perm)
    obtain ⟨h2, e2, o3⟩ := store_full o1 v (by rw [hv, hw])
    refine ⟨some q, h2, ?_, rfl, o3⟩
    simp only [dup, e1, Option.bind_eq_bind, Option.bind_some, memcpy, load_own o2, hv, le_refl,
      if_true]
    rw [List.take_of_length_le hv.le, e2]
    rfl

/-! ## Clustering -/

/-- The blocks of the best centers. -/
theorem kSwap_own {E : Env} {h : Heap} {R : List Block} {k : KM} {cs ds bs : List ℚ} {p : Nat}
    {best : Option Nat} (bestE : Option ℚ) (e : ℚ)
    (hp : k.centers = some p)
    (o : Own h (chunk k cs ds ++ (blk best bs ++ R))) (f : Fits k cs ds)
    (hb : best.isSome → bs.length = k.dimension * k.numCenters)
    (hbe : best.isSome = bestE.isSome)
    (ok : ∀ m, E.ok m = true) :
    ∃ c h' best' bestE' cs' bs', kSwap E h k e best bestE =
        some ({ k with centers := some c }, h', best', bestE') ∧
      Own h' (chunk { k with centers := some c } cs' ds ++ (blk best' bs' ++ R)) ∧
      Fits { k with centers := some c } cs' ds ∧
      (best'.isSome ∧ bs'.length = k.dimension * k.numCenters) ∧
      bestE' = some (if better e bestE then e else bestE.getD 0) ∧
      bs' = if better e bestE then cs else bs := by
  have hcs := f.centers (by simp [hp])
  by_cases hbet : better e bestE = true
  · cases best with
    | some b =>
      refine ⟨b, h, some p, some e, bs, cs, ?_, ?_, ⟨fun _ => hb rfl, f.dists⟩, ⟨rfl, hcs⟩,
        by simp [hbet], by simp [hbet]⟩
      · simp [kSwap, hbet, kBest, hp]
      · refine o.of_perm ?_
        simp only [chunk, hp, blk]
        perm
    | none =>
      obtain ⟨h1, q, w, e1, hw, o1⟩ := need_own (E := E) o (k.dimension * k.numCenters) ok
      refine ⟨q, h1, some p, some e, w, cs, ?_, ?_, ⟨fun _ => hw, f.dists⟩, ⟨rfl, hcs⟩,
        by simp [hbet], by simp [hbet]⟩
      · simp [kSwap, hbet, kBest, hp, e1]
      · refine o1.of_perm ?_
        simp only [chunk, hp, blk]
        perm
  · have hbet' : better e bestE = false := by simpa using hbet
    cases bestE with
    | none => exact absurd rfl hbet
    | some be =>
      refine ⟨p, h, best, some be, cs, bs, ?_, ?_, ?_, ⟨by simpa using hbe, hb (by simpa using hbe)⟩,
        by simp [hbet'], by simp [hbet']⟩
      · simp [kSwap, hbet', ← hp]
      · rw [← hp]; exact o
      · rw [← hp]; exact f

/-- The least energy and what goes with it, starting from a best one so far. -/
def bestOf {β : Type} : List (ℚ × β) → Option (ℚ × β) → Option (ℚ × β)
  | [], b => b
  | r :: rs, b => bestOf rs (if better r.1 (b.map Prod.fst) then some r else b)

/-- The energy and the centers of each repetition. -/
def outcomes (reps : List KRep) : List (ℚ × List ℚ) := reps.map fun r => (r.energy, r.result)

/-- The repetition has data of the right sizes. -/
structure Shaped (d n : Nat) (r : KRep) : Prop where
  start : r.start.length = d * n
  result : r.result.length = d * n
  dists : ∀ v ∈ r.dists, v.length = n * n

theorem kLoop_own {E : Env} {R : List Block} (d n : Nat) (ok : ∀ m, E.ok m = true)
    (reps : List KRep) : ∀ (h : Heap) (k : KM) (cs ds bs : List ℚ) (best : Option Nat)
    (bestE : Option ℚ), (∀ r ∈ reps, Shaped d n r) →
    Own h (chunk k cs ds ++ (blk best bs ++ R)) → Fits k cs ds →
    (best.isSome → bs.length = d * n) → best.isSome = bestE.isSome →
    (best.isSome → k.dimension = d ∧ k.numCenters = n) →
    ∃ k' h' best' bestE' cs' ds' bs', kLoop E d n reps h k best bestE =
        some (k', h', best', bestE') ∧
      Own h' (chunk k' cs' ds' ++ (blk best' bs' ++ R)) ∧ Fits k' cs' ds' ∧
      k'.self = k.self ∧ k'.cfg = k.cfg ∧
      (best'.isSome → bs'.length = d * n ∧ k'.dimension = d ∧ k'.numCenters = n) ∧
      best'.isSome = bestE'.isSome ∧
      bestE'.map (fun e => (e, bs')) = bestOf (outcomes reps) (bestE.map fun e => (e, bs)) := by
  induction reps with
  | nil =>
    intro h k cs ds bs best bestE _ o f hb hbe hk
    exact ⟨k, h, best, bestE, cs, ds, bs, rfl, o, f, rfl, rfl,
      fun hs => ⟨hb hs, hk hs⟩, hbe, rfl⟩
  | cons r rs ih =>
    intro h k cs ds bs best bestE hr o f hb hbe hk
    obtain ⟨hrs, hrr, hrd⟩ := hr r (List.mem_cons_self ..)
    obtain ⟨p, h1, e1, o1⟩ := kSet_own (E := E) o d n r.start hrs ok
    have o1' : Own h1 (chunk
        { k with dimension := d, numCenters := n, centers := some p, dists := none }
        r.start [] ++ (blk best bs ++ R)) := o1
    obtain ⟨q, h2, e2, o2, f2⟩ := kRefine_own (E := E) o1'
      ⟨fun _ => hrs, by simp⟩ r.result r.dists rfl hrr hrd ok
    obtain ⟨c, h3, best', bestE', cs', bs', e3, o3, f3, hb', hE, hB⟩ :=
      kSwap_own (E := E) bestE r.energy rfl o2 f2 hb hbe ok
    obtain ⟨k', h4, b4, bE4, cs4, ds4, bs4, e4, o4, f4, s4, g4, hb4, hbe4, hbest⟩ :=
      ih h3 _ cs' _ bs' best' bestE' (fun x hx => hr x (List.mem_cons_of_mem _ hx)) o3 f3
        (fun _ => hb'.2) (by rw [hE, hb'.1]; rfl) (fun _ => ⟨rfl, rfl⟩)
    refine ⟨k', h4, b4, bE4, cs4, ds4, bs4, ?_, o4, f4, s4, g4, hb4, hbe4, ?_⟩
    · simp only [kLoop, e1, e2, e3, Option.bind_eq_bind, Option.bind_some]
      exact e4
    · rw [hbest, show outcomes (r :: rs) = (r.energy, r.result) :: outcomes rs from rfl, bestOf]
      refine congrArg _ ?_
      have hm : (bestE.map fun e => (e, bs)).map Prod.fst = bestE := by
        cases bestE <;> rfl
      rw [hm, hE, hB]
      by_cases hbet : better r.energy bestE = true
      · simp [hbet]
      · cases bestE with
        | none => exact absurd rfl hbet
        | some be => simp [hbet]

theorem bestOf_isSome {β : Type} (reps : List (ℚ × β)) :
    ∀ b, (b.isSome ∨ reps ≠ []) → (bestOf reps b).isSome := by
  induction reps with
  | nil => intro b hb; simpa [bestOf] using hb
  | cons r rs ih =>
    intro b _
    refine ih _ (Or.inl ?_)
    cases b with
    | none => rfl
    | some x => by_cases h : better r.1 (some x.1) = true <;> simp [h]

theorem bestOf_spec {β : Type} (reps : List (ℚ × β)) : ∀ (b : Option (ℚ × β)) (x : ℚ × β),
    bestOf reps b = some x →
    (b = some x ∧ ∀ r ∈ reps, x.1 ≤ r.1) ∨
    ((∀ y ∈ b, x.1 < y.1) ∧ ∃ j, ∃ hj : j < reps.length, reps[j] = x ∧
      (∀ r ∈ reps, x.1 ≤ r.1) ∧ ∀ i, ∀ hi : i < j, x.1 < (reps[i]'(hi.trans hj)).1) := by
  induction reps with
  | nil => intro b x hb; exact Or.inl ⟨hb, by simp⟩
  | cons r rs ih =>
    intro b x hb
    rw [bestOf] at hb
    by_cases hbet : better r.1 (b.map Prod.fst) = true
    · rw [if_pos hbet] at hb
      have hlt : ∀ y ∈ b, r.1 < y.1 := by
        intro y hy
        cases b with
        | none => cases hy
        | some z => cases hy; simpa [better] using hbet
      rcases ih _ x hb with ⟨h1, h2⟩ | ⟨h1, j, hj, h2, h4, h5⟩
      · cases h1
        refine Or.inr ⟨hlt, 0, by simp, rfl, ?_, by simp⟩
        intro y hy
        rcases List.mem_cons.mp hy with h | h
        · subst h; exact le_refl _
        · exact h2 y h
      · have hr := h1 r rfl
        refine Or.inr ⟨fun y hy => hr.trans (hlt y hy), j + 1, by simpa using hj, h2, ?_, ?_⟩
        · intro y hy
          rcases List.mem_cons.mp hy with h | h
          · subst h; exact hr.le
          · exact h4 y h
        · intro i hi
          cases i with
          | zero => exact hr
          | succ i => exact h5 i (by omega)
    · rw [if_neg hbet] at hb
      cases b with
      | none => exact absurd rfl hbet
      | some y =>
        have hle : y.1 ≤ r.1 := by
          have : ¬ r.1 < y.1 := by simpa [better] using hbet
          exact not_lt.mp this
        rcases ih _ x hb with ⟨h1, h2⟩ | ⟨h1, j, hj, h2, h4, h5⟩
        · refine Or.inl ⟨h1, ?_⟩
          intro z hz
          cases h1
          rcases List.mem_cons.mp hz with h | h
          · subst h; exact hle
          · exact h2 z h
        · have hy := h1 y rfl
          refine Or.inr ⟨h1, j + 1, by simpa using hj, h2, ?_, ?_⟩
          · intro z hz
            rcases List.mem_cons.mp hz with h | h
            · subst h; exact (hy.trans_le hle).le
            · exact h4 z h
          · intro i hi
            cases i with
            | zero => exact hy.trans_le hle
            | succ i => exact h5 i (by omega)

/-- The first element of least energy. -/
theorem bestOf_first {β : Type} (reps : List (ℚ × β)) (x : ℚ × β) (h : bestOf reps none = some x) :
    ∃ j, ∃ hj : j < reps.length, reps[j] = x ∧ (∀ r ∈ reps, x.1 ≤ r.1) ∧
      ∀ i, ∀ hi : i < j, x.1 < (reps[i]'(hi.trans hj)).1 := by
  rcases bestOf_spec reps none x h with ⟨h1, -⟩ | ⟨-, h2⟩
  · cases h1
  · exact h2

theorem kCluster_own {E : Env} {h : Heap} {R : List Block} {k : KM} {cs ds : List ℚ} (d n : Nat)
    (reps : List KRep) (o : Own h (chunk k cs ds ++ R)) (f : Fits k cs ds)
    (hr : ∀ r ∈ reps, Shaped d n r) (hne : reps ≠ []) (ok : ∀ m, E.ok m = true) :
    ∃ k' h' e c cs' ds', kCluster E h k d n reps = some (k', h', some e) ∧
      Own h' (chunk k' cs' ds' ++ R) ∧ Fits k' cs' ds' ∧ k'.self = k.self ∧ k'.cfg = k.cfg ∧
      k'.dimension = d ∧ k'.numCenters = n ∧ k'.centers = some c ∧
      bestOf (outcomes reps) none = some (e, cs') := by
  obtain ⟨k1, h1, best, bestE, cs1, ds1, bs, e1, o1, f1, s1, g1, hb, hbe, hbest⟩ :=
    kLoop_own (E := E) (R := R) d n ok reps h k cs ds [] none none hr o f (by simp) rfl (by simp)
  have hsome : bestE.isSome := by
    have := bestOf_isSome (outcomes reps) none (Or.inr (by simpa [outcomes] using hne))
    simp only [Option.map_none] at hbest
    rw [← hbest] at this
    simpa using this
  obtain ⟨e, he⟩ := Option.isSome_iff_exists.mp hsome
  subst he
  obtain ⟨b, hb'⟩ := Option.isSome_iff_exists.mp (hbe.trans rfl)
  subst hb'
  have o2 : Own h1 (blk k1.centers cs1 ++
      ((k1.self, []) :: (blk k1.dists ds1 ++ (b, bs) :: R))) :=
    o1.of_perm (by unfold chunk; have : blk (some b) bs = [(b, bs)] := rfl; rw [this]; perm)
  obtain ⟨h2, e2, o3⟩ := freeIf_own o2
  obtain ⟨hl, hd, hn⟩ := hb rfl
  refine ⟨{ k1 with centers := some b }, h2, e, b, bs, ds1, ?_, ?_, ⟨?_, f1.dists⟩, s1, g1, hd, hn,
    rfl, hbest.symm⟩
  · simp [kCluster, self_load o, e1, e2]
  · refine o3.of_perm ?_
    simp only [chunk]
    have : blk (some b) bs = [(b, bs)] := rfl
    rw [this]; perm
  · intro _
    rw [hl, hd, hn]

theorem kCopy_own {E : Env} {h : Heap} {R : List Block} {k : KM} {cs ds : List ℚ} (old : KCfg)
    (o : Own h (chunk k cs ds ++ R)) (f : Fits k cs ds) (ok : ∀ m, E.ok m = true) :
    ∃ k' h', kCopy E old h k = some (k', h') ∧
      Own h' (chunk k' cs ds ++ (chunk k cs ds ++ R)) ∧ Fits k' cs ds ∧
      k'.dimension = k.dimension ∧ k'.numCenters = k.numCenters ∧
      k'.centers.isSome = k.centers.isSome ∧ k'.dists.isSome = k.dists.isSome ∧
      k'.cfg = { old with
        algorithm := k.cfg.algorithm
        distance := k.cfg.distance
        dataType := k.cfg.dataType
        verbosity := k.cfg.verbosity
        maxNumIterations := k.cfg.maxNumIterations
        numRepetitions := k.cfg.numRepetitions
        numTrees := k.cfg.numTrees
        maxNumComparisons := k.cfg.maxNumComparisons } := by
  obtain ⟨h1, p, v, e1, hv, o1⟩ := need_own (E := E) o 0 ok
  obtain rfl := List.length_eq_zero_iff.mp hv
  have o2 : Own h1 (blk k.centers cs ++ ((p, []) :: (k.self, []) :: (blk k.dists ds ++ R))) :=
    o1.of_perm (by unfold chunk; perm)
  obtain ⟨q, h2, e2, hq, o3⟩ := dup_own (E := E) (k.dimension * k.numCenters) o2 f.centers ok
  have o4 : Own h2 (blk k.dists ds ++ (blk q cs ++ (blk k.centers cs ++
      ((p, []) :: (k.self, []) :: R)))) := o3.of_perm (by perm)
  obtain ⟨q', h3, e3, hq', o5⟩ := dup_own (E := E) (k.numCenters * k.numCenters) o4 f.dists ok
  refine ⟨⟨p, _, k.dimension, k.numCenters, q, q'⟩, h3,
    by simp only [kCopy, self_load o, e1, e2, e3, Option.bind_eq_bind, Option.bind_some], ?_, ⟨?_, ?_⟩, rfl, rfl, hq, hq', rfl⟩
  · refine o5.of_perm ?_
    simp only [chunk]
    perm
  · intro hs; exact f.centers (by rw [← hq]; exact hs)
  · intro hs; exact f.dists (by rw [← hq']; exact hs)

end Verif.Life
