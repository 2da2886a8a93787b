import Verif.Kmeans.AnnModel
import Verif.Kmeans.LloydProps
import Verif.KdTree.BatchProps
import Verif.KdTree.StatProps
import Mathlib.Data.List.Sort

/-!
# k-means with approximate nearest neighbours: properties (C185, C186)
-/

set_option linter.unusedSectionVars false

namespace Verif.Kmeans

open Verif.KdTree (Forest Searcher Neighbor SearchState BuiltTree)

variable {K ρ : Type} [Field K] [LinearOrder K] [IsStrictOrderedRing K]
variable {m : Metric} {dim nC N numTrees mc : Nat} {data centers : List K}

/-! ## Specification -/

/-- The construction of the forest succeeds for all centres and yields trees that hold them. -/
def BuildOk (dim nC numTrees : Nat) (build : ρ → List K → Option ((List (KdTree.Tree K) × Nat) × ρ)) : Prop :=
  ∀ (rng : ρ) (centers : List K), centers.length = nC * dim → ∃ trees rng', build rng centers = some ((trees, (trees.map KdTree.Tree.numUsedNodes).sum), rng') ∧
    trees.length = numTrees ∧ ∀ t ∈ trees, BuiltTree dim centers nC t

/-- An order of the iterations: each point is processed once, by one of the threads. -/
def IsSchedule (T N : Nat) (order : List (Nat × Nat)) : Prop :=
  (order.map Prod.snd).Perm (List.range N) ∧ ∀ p ∈ order, p.1 < T

/-- Keep the old centre unless the new one is closer. -/
def better (m : Metric) (dim : Nat) (data centers : List K) (old new : Nat → Nat) (x : Nat) : Nat :=
  if pc m dim data centers x (new x) < pc m dim data centers x (old x) then new x else old x

/-! ## One iteration -/

/-- What a query for one neighbour finds: a centre with its distance, which does not depend on the searcher. -/
theorem query_one {F : Forest K} (hF : F.Built) {v : List K} (hv : v.length = F.dim) :
    ∃ c < F.numData, (F.distFn = KdTree.distL2 → F.maxComparisons = 0 → ∀ c' < F.numData, KdTree.ptDist F v c ≤ KdTree.ptDist F v c') ∧
      ∀ S : Searcher K, S.Ok F → ∀ nb : List (Neighbor K), nb.length = 1 →
        ∃ S' nc, KdTree.query F S nb 1 v = some (S', [{ index := (c : Int), distance := some (KdTree.ptDist F v c) }], nc) ∧ S'.Ok F := by
  have hS0 := KdTree.newSearcher_ok F (List.replicate F.maxNumNodes { tree := 0, nodeIndex := 0, lowerBound := 0 }) (by simp)
  obtain ⟨S0, pts, out, nc, h1, h2, h3, ⟨h4, h5⟩, h6, h7⟩ := KdTree.query_spec F hF _ hS0 1 (by omega) v hv [KdTree.missing] rfl
  have hl : pts.length = 1 := by omega
  obtain ⟨c, rfl⟩ := List.length_eq_one_iff.1 hl
  refine ⟨c, h3.2.2.2.1 c (by simp), fun e1 e2 c' hc' => ?_, fun S hS nb hb => ?_⟩
  · have := (h7 (KdTree.exact_L2 F hF v hv e1 e2)).2 c' hc'
    rcases this with h | h
    · rw [List.mem_singleton.1 h]
    · exact h c (by simp)
  · obtain ⟨S', pts', out', nc', g1, g2, g3, g4, g5, g6⟩ := KdTree.query_spec F hF S hS 1 (by omega) v hv nb hb
    have hag := KdTree.query_agree F hF S _ hS hS0 1 (by omega) nb [KdTree.missing] hb rfl v hv
    rw [g1, h1] at hag
    simp only [Option.map_some, Option.some.injEq, Prod.mk.injEq] at hag
    refine ⟨S', nc', ?_, g2⟩
    rw [g1]
    have : out = [KdTree.nbOf F v c] := by rw [h3.1]; simp
    rw [hag.1, this]
    rfl

/-- A thread of a forest. -/
def ThreadsOk (F : Forest K) (T : Nat) (ths : List (AnnThread K)) : Prop :=
  ths.length = T ∧ ∀ th ∈ ths, th.searcher.Ok F ∧ th.nb.length = 1

theorem annThreads_ok (F : Forest K) (blks : List (List (SearchState K) × Neighbor K)) : ThreadsOk F blks.length (annThreads F blks) := by
  refine ⟨by simp [annThreads], fun th hth => ?_⟩
  obtain ⟨b, hb, rfl⟩ := List.mem_map.1 hth
  refine ⟨KdTree.newSearcher_ok F _ ?_, rfl⟩
  simp
  omega

/-- The forest of the centres. -/
structure IsForest (m : Metric) (dim nC mc : Nat) (centers : List K) (F : Forest K) : Prop where
  built : F.Built
  dim_eq : F.dim = dim
  data_eq : F.data = centers
  num_eq : F.numData = nC
  dist_eq : F.distFn = m.dist
  mc_eq : F.maxComparisons = mc

/-- What the iterations find. -/
structure Finds (m : Metric) (dim nC N mc : Nat) (data centers : List K) (g : Nat → Nat) : Prop where
  lt : ∀ x < N, g x < nC
  nearest : m = .l2 → mc = 0 → ∀ x < N, Nearest m dim nC data centers x (g x)

theorem exists_finds {F : Forest K} (hF : IsForest m dim nC mc centers F) (hd : data.length = N * dim) :
    ∃ g : Nat → Nat, Finds m dim nC N mc data centers g ∧ ∀ x < N, ∀ S : Searcher K, S.Ok F → ∀ nb : List (Neighbor K), nb.length = 1 →
      ∃ S' nc, KdTree.query F S nb 1 (AllPairs.vec data dim x) = some (S', [{ index := (g x : Int), distance := some (pc m dim data centers x (g x)) }], nc) ∧ S'.Ok F := by
  have hc : centers.length = nC * dim := by
    have := hF.built.data
    rw [hF.data_eq, hF.num_eq, hF.dim_eq] at this
    exact this
  have hpt : ∀ x < N, ∀ c < nC, KdTree.ptDist F (AllPairs.vec data dim x) c = pc m dim data centers x c := by
    intro x hx c hcc
    unfold KdTree.ptDist pc
    rw [hF.dist_eq, hF.data_eq, hF.dim_eq, dist_vec hd hx hc hcc]
  have key : ∀ x : Nat, ∃ c : Nat, x < N → (c < nC ∧ (m = .l2 → mc = 0 → Nearest m dim nC data centers x c) ∧
      ∀ S : Searcher K, S.Ok F → ∀ nb : List (Neighbor K), nb.length = 1 →
        ∃ S' nc, KdTree.query F S nb 1 (AllPairs.vec data dim x) = some (S', [{ index := (c : Int), distance := some (pc m dim data centers x c) }], nc) ∧ S'.Ok F) := by
    intro x
    by_cases hx : x < N
    · obtain ⟨c, h1, h2, h3⟩ := query_one hF.built (v := AllPairs.vec data dim x) (by rw [vec_comp hd hx]; simp [hF.dim_eq])
      rw [hF.num_eq] at h1 h2
      refine ⟨c, fun _ => ⟨h1, fun e1 e2 => ⟨h1, fun c' hc' => ?_⟩, fun S hS nb hb => ?_⟩⟩
      · have := h2 (by rw [hF.dist_eq, e1]; rfl) (by rw [hF.mc_eq, e2]) c' hc'
        rwa [hpt x hx c h1, hpt x hx c' hc'] at this
      · obtain ⟨S', nc, e1, e2⟩ := h3 S hS nb hb
        rw [hpt x hx c h1] at e1
        exact ⟨S', nc, e1, e2⟩
    · exact ⟨0, fun h => absurd h hx⟩
  choose g hg using key
  exact ⟨g, ⟨fun x hx => (hg x hx).1, fun e1 e2 x hx => (hg x hx).2.1 e1 e2⟩, fun x hx => (hg x hx).2.2⟩

/-- The index of a centre survives the conversion to 32 bits. -/
theorem index_u32 {c : Nat} (h : c < nC) (h32 : nC ≤ 2 ^ 32) : (((c : Int) % 2 ^ 32).toNat) = c := by
  rw [Int.emod_eq_of_lt (by omega) (by omega)]
  simp

/-- What an iteration asks of the forest. -/
def Answers (m : Metric) (dim N : Nat) (data centers : List K) (F : Forest K) (g : Nat → Nat) : Prop :=
  ∀ x < N, ∀ S : Searcher K, S.Ok F → ∀ nb : List (Neighbor K), nb.length = 1 →
    ∃ S' nc, KdTree.query F S nb 1 (AllPairs.vec data dim x) = some (S', [{ index := (g x : Int), distance := some (pc m dim data centers x (g x)) }], nc) ∧ S'.Ok F

theorem annStep_eq {F : Forest K} (hd : data.length = N * dim) {g : Nat → Nat} (hq : Answers m dim N data centers F g)
    {T : Nat} {s : Ann K} (hs : ThreadsOk F T s.threads) (update : Bool) {t x : Nat} (ht : t < T) (hx : x < N) :
    ∃ ths', ThreadsOk F T ths' ∧ annStep F m dim centers data update s (t, x) =
      (annAssign m dim centers (AllPairs.vec data dim x) update x { index := (g x : Int), distance := some (pc m dim data centers x (g x)) } s.asgn s.dists).bind
        fun o => some { threads := ths', asgn := o.1, dists := o.2 } := by
  obtain ⟨h1, h2⟩ := hs
  have htl : t < s.threads.length := by omega
  obtain ⟨k1, k2⟩ := h2 _ (List.getElem_mem htl)
  obtain ⟨S', nc, q1, q2⟩ := hq x hx _ k1 _ k2
  have hslice : AllPairs.slice data ((x * dim : Nat) : Int) dim = some (AllPairs.vec data dim x) := AllPairs.slice_vec hd hx rfl
  refine ⟨s.threads.set t { searcher := S', nb := [{ index := (g x : Int), distance := some (pc m dim data centers x (g x)) }] },
    ⟨by simpa using h1, fun th hth => ?_⟩, ?_⟩
  · rcases List.mem_or_eq_of_mem_set hth with c | c
    · exact h2 th c
    · rw [c]; exact ⟨q2, rfl⟩
  · unfold annStep
    dsimp only
    rw [rd_of_lt htl, hslice]
    dsimp only [Option.bind_eq_bind, Option.bind_some]
    rw [q1]
    dsimp only [Option.bind_eq_bind, Option.bind_some]
    rw [wr_of_lt htl]
    rfl

/-- The centre after an iteration. -/
def annAfter (m : Metric) (dim : Nat) (data centers : List K) (update : Bool) (old new : Nat → Nat) (x : Nat) : Nat :=
  if update then better m dim data centers old new x else new x

theorem annAssign_null {g : Nat → Nat} (hg : Finds m dim nC N mc data centers g) (h32 : nC ≤ 2 ^ 32) (v : List K) (update : Bool) {x : Nat} (hx : x < N)
    {asgn : List Nat} {a : Nat → Nat} (ha : Arr asgn N a) (d : Option K) :
    ∃ as', annAssign m dim centers v update x { index := (g x : Int), distance := d } asgn none = some (as', none) ∧ Arr as' N (upd1 a x (g x)) := by
  obtain ⟨as1, w1, w2⟩ := ha.wr hx (g x)
  refine ⟨as1, ?_, w2⟩
  unfold annAssign
  dsimp only
  rw [index_u32 (hg.lt x hx) h32, w1]
  rfl

theorem annAssign_dist (hc : centers.length = nC * dim) (hd : data.length = N * dim) {g : Nat → Nat} (hg : Finds m dim nC N mc data centers g) (h32 : nC ≤ 2 ^ 32)
    (update : Bool) {x : Nat} (hx : x < N) {asgn : List Nat} {a : Nat → Nat} (ha : Arr asgn N a) (hu : update = true → a x < nC)
    {ds : List K} {e : Nat → K} (he : Arr ds N e) :
    ∃ as' ds', annAssign m dim centers (AllPairs.vec data dim x) update x { index := (g x : Int), distance := some (pc m dim data centers x (g x)) } asgn (some ds) =
        some (as', some ds') ∧ Arr as' N (upd1 a x (annAfter m dim data centers update a g x)) ∧
      Arr ds' N (upd1 e x (pc m dim data centers x (annAfter m dim data centers update a g x))) := by
  obtain ⟨as1, w1, w2⟩ := ha.wr hx (g x)
  obtain ⟨ds1, v1, v2⟩ := he.wr hx (pc m dim data centers x (g x))
  have hst : annStore asgn ds x { index := (g x : Int), distance := some (pc m dim data centers x (g x)) } = some (as1, ds1) := by
    unfold annStore
    dsimp only [Option.bind_eq_bind, Option.bind_some]
    rw [v1]
    dsimp only [Option.bind_eq_bind, Option.bind_some]
    rw [index_u32 (hg.lt x hx) h32, w1]
    rfl
  unfold annAssign annAfter
  dsimp only
  cases update with
  | false =>
    rw [if_neg (by simp), hst]
    exact ⟨as1, ds1, rfl, by simpa using w2, by simpa using v2⟩
  | true =>
    have hax := hu rfl
    have hslice : AllPairs.slice centers ((a x * dim : Nat) : Int) dim = some (AllPairs.vec centers dim (a x)) := AllPairs.slice_vec hc hax rfl
    rw [if_pos rfl, ha.rd hx]
    dsimp only [Option.bind_eq_bind, Option.bind_some]
    rw [hslice]
    dsimp only [Option.bind_eq_bind, Option.bind_some]
    rw [show m.dist (AllPairs.vec data dim x) (AllPairs.vec centers dim (a x)) = pc m dim data centers x (a x) from dist_vec hd hx hc hax]
    simp only [if_true]
    unfold better
    by_cases hb : pc m dim data centers x (g x) < pc m dim data centers x (a x)
    · rw [if_pos (show worse (pc m dim data centers x (a x)) (some (pc m dim data centers x (g x))) = true from decide_eq_true hb), hst, if_pos hb]
      exact ⟨as1, ds1, rfl, w2, v2⟩
    · rw [if_neg (show ¬ worse (pc m dim data centers x (a x)) (some (pc m dim data centers x (g x))) = true from fun h => hb (of_decide_eq_true h)), if_neg hb]
      obtain ⟨ds2, u1, u2⟩ := he.wr hx (pc m dim data centers x (a x))
      rw [u1]
      refine ⟨asgn, ds2, rfl, ha.congr fun i _ => ?_, u2⟩
      unfold upd1
      split
      · next h => rw [h]
      · rfl

/-! ## All the iterations -/

theorem fold_null {F : Forest K} (hd : data.length = N * dim) (h32 : nC ≤ 2 ^ 32) {g : Nat → Nat}
    (hg : Finds m dim nC N mc data centers g) (hq : Answers m dim N data centers F g) {T : Nat} (update : Bool) (order : List (Nat × Nat)) :
    (∀ p ∈ order, p.1 < T ∧ p.2 < N) → ∀ (s : Ann K) (a : Nat → Nat), ThreadsOk F T s.threads → Arr s.asgn N a → s.dists = none →
      ∃ s' b, order.foldlM (annStep F m dim centers data update) s = some s' ∧ s'.dists = none ∧ Arr s'.asgn N b ∧
        ∀ x < N, b x = if x ∈ order.map Prod.snd then g x else a x := by
  induction order with
  | nil => intro _ s a _ h2 h3; exact ⟨s, a, rfl, h3, h2, by simp⟩
  | cons p order ih =>
    intro ho s a h1 h2 h3
    obtain ⟨t, x⟩ := p
    obtain ⟨ht, hx⟩ := ho (t, x) (by simp)
    obtain ⟨ths, k1, k2⟩ := annStep_eq (m := m) (centers := centers) hd hq h1 update ht hx
    obtain ⟨as', e1, e2⟩ := annAssign_null hg h32 (AllPairs.vec data dim x) update hx h2 (some (pc m dim data centers x (g x)))
    rw [h3, e1] at k2
    obtain ⟨s', b, i1, i2, i3, i4⟩ := ih (fun p hp => ho p (by simp [hp])) { threads := ths, asgn := as', dists := none } _ k1 e2 rfl
    refine ⟨s', b, ?_, i2, i3, fun y hy => ?_⟩
    · rw [List.foldlM_cons, k2]
      exact i1
    · rw [i4 y hy]
      unfold upd1
      by_cases c1 : y ∈ order.map Prod.snd
      · rw [if_pos c1, if_pos (by simp only [List.map_cons, List.mem_cons]; exact Or.inr c1)]
      · rw [if_neg c1]
        by_cases c2 : y = x
        · rw [if_pos c2, if_pos (by simp [c2]), c2]
        · rw [if_neg c2, if_neg (by simp only [List.map_cons, List.mem_cons]; rintro (h | h); exact c2 h; exact c1 h)]

theorem fold_dist {F : Forest K} (hc : centers.length = nC * dim) (hd : data.length = N * dim) (h32 : nC ≤ 2 ^ 32) {g : Nat → Nat}
    (hg : Finds m dim nC N mc data centers g) (hq : Answers m dim N data centers F g) {T : Nat} (update : Bool) (order : List (Nat × Nat)) :
    (∀ p ∈ order, p.1 < T ∧ p.2 < N) → (order.map Prod.snd).Nodup →
    ∀ (s : Ann K) (a : Nat → Nat) (ds : List K) (e : Nat → K), ThreadsOk F T s.threads → Arr s.asgn N a →
      (update = true → ∀ x < N, a x < nC) → s.dists = some ds → Arr ds N e →
      ∃ s' b ds' e', order.foldlM (annStep F m dim centers data update) s = some s' ∧ s'.dists = some ds' ∧ Arr s'.asgn N b ∧ Arr ds' N e' ∧
        ∀ x < N, (x ∈ order.map Prod.snd → b x = annAfter m dim data centers update a g x ∧ e' x = pc m dim data centers x (b x)) ∧
          (x ∉ order.map Prod.snd → b x = a x ∧ e' x = e x) := by
  induction order with
  | nil => intro _ _ s a ds e _ h2 _ h3 h4; exact ⟨s, a, ds, e, rfl, h3, h2, h4, by simp⟩
  | cons p order ih =>
    intro ho hn s a ds e h1 h2 hu h3 h4
    obtain ⟨t, x⟩ := p
    obtain ⟨ht, hx⟩ := ho (t, x) (by simp)
    obtain ⟨ths, k1, k2⟩ := annStep_eq (m := m) (centers := centers) hd hq h1 update ht hx
    obtain ⟨as', ds1, e1, e2, e3⟩ := annAssign_dist hc hd hg h32 update hx h2 (fun h => hu h x hx) h4
    rw [h3, e1] at k2
    have hlt : update = true → ∀ y < N, upd1 a x (annAfter m dim data centers update a g x) y < nC := by
      intro h y hy
      unfold upd1 annAfter better
      split
      · split
        · exact hg.lt x hx
        · exact hu h x hx
      · exact hu h y hy
    rw [List.map_cons, List.nodup_cons] at hn
    obtain ⟨s', b, ds', e', i1, i2, i3, i4, i5⟩ := ih (fun p hp => ho p (by simp [hp])) hn.2 { threads := ths, asgn := as', dists := some ds1 } _ ds1 _ k1 e2 hlt rfl e3
    refine ⟨s', b, ds', e', ?_, i2, i3, i4, fun y hy => ?_⟩
    · rw [List.foldlM_cons, k2]
      exact i1
    · obtain ⟨j1, j2⟩ := i5 y hy
      have hne : y ∈ order.map Prod.snd → y ≠ x := by
        rintro h rfl
        exact hn.1 h
      refine ⟨fun hm => ?_, fun hm => ?_⟩
      · by_cases c1 : y ∈ order.map Prod.snd
        · obtain ⟨l1, l2⟩ := j1 c1
          refine ⟨?_, l2⟩
          rw [l1]
          unfold annAfter better upd1
          rw [if_neg (hne c1)]
        · have : y = x := by
            simp only [List.map_cons, List.mem_cons] at hm
            rcases hm with h | h
            · exact h
            · exact absurd h c1
          subst this
          obtain ⟨l1, l2⟩ := j2 c1
          rw [l1, l2]
          simp [upd1]
      · simp only [List.map_cons, List.mem_cons, not_or] at hm
        obtain ⟨l1, l2⟩ := j2 hm.2
        rw [l1, l2]
        simp [upd1, hm.1]

theorem IsSchedule.mem {T : Nat} {order : List (Nat × Nat)} (h : IsSchedule T N order) : ∀ p ∈ order, p.1 < T ∧ p.2 < N := by
  intro p hp
  refine ⟨h.2 p hp, ?_⟩
  have := h.1.mem_iff.1 (List.mem_map_of_mem (f := Prod.snd) hp)
  simpa using this

theorem IsSchedule.all {T : Nat} {order : List (Nat × Nat)} (h : IsSchedule T N order) {x : Nat} (hx : x < N) : x ∈ order.map Prod.snd :=
  h.1.mem_iff.2 (by simpa using hx)

theorem annForest_spec {build : ρ → List K → Option ((List (KdTree.Tree K) × Nat) × ρ)} (hb : BuildOk dim nC numTrees build) (hdim : 0 < dim) (hT : 0 < numTrees)
    (m : Metric) (mc : Nat) (hc : centers.length = nC * dim) (rng : ρ) :
    ∃ F rng', annForest build m dim nC numTrees mc centers rng = some (F, rng') ∧ IsForest m dim nC mc centers F := by
  obtain ⟨trees, rng', h1, h2, h3⟩ := hb rng centers hc
  unfold annForest assert'
  rw [if_pos (decide_eq_true (by omega)), if_pos (decide_eq_true (by omega))]
  dsimp only [Option.bind_eq_bind, Option.bind_some]
  rw [h1]
  refine ⟨_, rng', rfl, ⟨⟨hdim, hc, ?_, h3, rfl⟩, rfl, rfl, rfl, rfl, rfl⟩⟩
  intro h
  simp only at h
  rw [h] at h2
  simp at h2
  omega

/-- **C185.** Quantization with approximate nearest neighbours, for any construction of the forest, limit on the comparisons, number of threads and schedule: no undefined behaviour, and the
result does not depend on the threads.  There are centres `g`, one for each point, such that the point is assigned to `g` or, with `update`, to the better of `g` and the old centre; the distance is
that of the centre.  Without a limit, and with the Euclidean distance, the centres `g` are nearest.  If no distances are requested, all the points are assigned to `g` even with `update`. -/
theorem quantizeAnn_correct {build : ρ → List K → Option ((List (KdTree.Tree K) × Nat) × ρ)} (hb : BuildOk dim nC numTrees build) (hdim : 0 < dim) (hT : 0 < numTrees) (h32 : nC ≤ 2 ^ 32)
    (m : Metric) (mc : Nat) (hd : data.length = N * dim) (hc : centers.length = nC * dim) (rng : ρ) :
    ∃ (g : Nat → Nat) (rng' : ρ), (∀ x < N, g x < nC) ∧ (m = .l2 → mc = 0 → ∀ x < N, Nearest m dim nC data centers x (g x)) ∧
      ∀ (blks : List (List (SearchState K) × Neighbor K)) (order : List (Nat × Nat)), IsSchedule blks.length N order →
      ∀ (asgn : List Nat) (a : Nat → Nat), Arr asgn N a →
        (∀ update : Bool, ∃ asgn', quantizeAnn build m dim nC numTrees mc centers data update blks order asgn none rng = some ((asgn', none), rng') ∧ Arr asgn' N g) ∧
        ∀ dists : List K, dists.length = N →
          (∃ asgn' dists', quantizeAnn build m dim nC numTrees mc centers data false blks order asgn (some dists) rng = some ((asgn', some dists'), rng') ∧
            Arr asgn' N g ∧ Arr dists' N (fun x => pc m dim data centers x (g x))) ∧
          ((∀ x < N, a x < nC) → ∃ asgn' dists', quantizeAnn build m dim nC numTrees mc centers data true blks order asgn (some dists) rng = some ((asgn', some dists'), rng') ∧
            Arr asgn' N (better m dim data centers a g) ∧ Arr dists' N (fun x => pc m dim data centers x (better m dim data centers a g x))) := by
  obtain ⟨F, rng', f1, f2⟩ := annForest_spec hb hdim hT m mc hc rng
  obtain ⟨g, g1, g2⟩ := exists_finds f2 hd
  refine ⟨g, rng', g1.lt, g1.nearest, fun blks order ho asgn a ha => ⟨fun update => ?_, fun dists hl => ?_⟩⟩
  · obtain ⟨s', b, h1, h2, h3, h4⟩ := fold_null hd h32 g1 g2 update order ho.mem { threads := annThreads F blks, asgn := asgn, dists := none } a (annThreads_ok F blks) ha rfl
    unfold quantizeAnn
    rw [f1]
    dsimp only [Option.bind_eq_bind, Option.bind_some]
    rw [h1]
    dsimp only [Option.bind_eq_bind, Option.bind_some]
    rw [h2]
    exact ⟨_, rfl, h3.congr fun x hx => by rw [h4 x hx, if_pos (ho.all hx)]⟩
  · have key : ∀ update : Bool, (update = true → ∀ x < N, a x < nC) →
        ∃ asgn' dists', quantizeAnn build m dim nC numTrees mc centers data update blks order asgn (some dists) rng = some ((asgn', some dists'), rng') ∧
          Arr asgn' N (annAfter m dim data centers update a g) ∧ Arr dists' N (fun x => pc m dim data centers x (annAfter m dim data centers update a g x)) := by
      intro update hu
      obtain ⟨s', b, ds', e', h1, h2, h3, h4, h5⟩ := fold_dist hc hd h32 g1 g2 update order ho.mem (ho.1.symm.nodup (List.nodup_range))
        { threads := annThreads F blks, asgn := asgn, dists := some dists } a dists _ (annThreads_ok F blks) ha hu rfl (Arr.of_len' hl 0)
      unfold quantizeAnn
      rw [f1]
      dsimp only [Option.bind_eq_bind, Option.bind_some]
      rw [h1]
      dsimp only [Option.bind_eq_bind, Option.bind_some]
      rw [h2]
      refine ⟨_, _, rfl, h3.congr fun x hx => ((h5 x hx).1 (ho.all hx)).1, h4.congr fun x hx => ?_⟩
      obtain ⟨l1, l2⟩ := (h5 x hx).1 (ho.all hx)
      rw [l2, l1]
    exact ⟨key false (by simp), fun h => key true (fun _ => h)⟩

/-! ## Refinement -/

theorem arr_eq {α : Type} {l : List α} {f : Nat → α} (h : Arr l N f) : l = (List.range N).map f := by
  apply List.ext_getElem?
  intro i
  by_cases hi : i < N
  · rw [h.get i hi]; simp [hi]
  · rw [List.getElem?_eq_none (by rw [h.len]; omega), List.getElem?_eq_none (by simp; omega)]

theorem arr_map {α : Type} (N : Nat) (f : Nat → α) : Arr ((List.range N).map f) N f := ⟨by simp, fun i hi => by simp [hi]⟩

/-- The assignment of one iteration. -/
theorem quantizeAnn_iter {build : ρ → List K → Option ((List (KdTree.Tree K) × Nat) × ρ)} (hb : BuildOk dim nC numTrees build) (hdim : 0 < dim) (hT : 0 < numTrees) (h32 : nC ≤ 2 ^ 32)
    (m : Metric) (mc : Nat) (hd : data.length = N * dim) (hc : centers.length = nC * dim) (rng : ρ) (it : Nat) (a : Nat → Nat) (ha : 0 < it → ∀ x < N, a x < nC) :
    ∃ (f : Nat → Nat) (rng' : ρ), (∀ x < N, f x < nC) ∧ (m = .l2 → mc = 0 → ∀ x < N, Nearest m dim nC data centers x (f x)) ∧
      (0 < it → ∀ x < N, pc m dim data centers x (f x) ≤ pc m dim data centers x (a x)) ∧
      ∀ (blks : List (List (SearchState K) × Neighbor K)) (order : List (Nat × Nat)), IsSchedule blks.length N order →
      ∀ (asgn : List Nat) (dists : List K), asgn.length = N → dists.length = N → (0 < it → Arr asgn N a) →
        quantizeAnn build m dim nC numTrees mc centers data (decide (it > 0)) blks order asgn (some dists) rng =
          some (((List.range N).map f, some ((List.range N).map fun x => pc m dim data centers x (f x))), rng') := by
  obtain ⟨g, rng', h1, h2, h3⟩ := quantizeAnn_correct hb hdim hT h32 m mc hd hc rng
  by_cases hit : 0 < it
  · refine ⟨better m dim data centers a g, rng', fun x hx => ?_, fun e1 e2 x hx => ?_, fun _ x hx => ?_, fun blks order ho asgn dists ha' hl hA => ?_⟩
    · unfold better
      split
      · exact h1 x hx
      · exact ha hit x hx
    · unfold better
      split
      · exact h2 e1 e2 x hx
      · next hn => exact ⟨ha hit x hx, fun c' hc' => le_trans (not_lt.1 hn) ((h2 e1 e2 x hx).2 c' hc')⟩
    · unfold better
      split
      · next hn => exact le_of_lt hn
      · exact le_refl _
    · obtain ⟨asgn', dists', k1, k2, k3⟩ := ((h3 blks order ho asgn a (hA hit)).2 dists hl).2 (ha hit)
      rw [decide_eq_true hit, k1, arr_eq k2, arr_eq k3]
  · refine ⟨g, rng', h1, h2, fun h => absurd h hit, fun blks order ho asgn dists ha' hl _ => ?_⟩
    obtain ⟨asgn', dists', k1, k2, k3⟩ := ((h3 blks order ho asgn _ (Arr.of_len' ha' 0)).2 dists hl).1
    rw [decide_eq_false hit, k1, arr_eq k2, arr_eq k3]

theorem annLoop_correct {u : ρ → Nat → Nat × ρ} (hu : ∀ r n, 0 < n → (u r n).1 < n) (hC : 0 < nC) (hCN : nC ≤ N)
    (hdim : 0 < dim) (hT : 0 < numTrees) (h32 : nC ≤ 2 ^ 32) (hd : data.length = N * dim) (mc : Nat) (minVar : K) {perms : List (List Nat)}
    (hp : m = .l1 → sortData data dim N dim = some perms) {build : Nat → ρ → List K → Option ((List (KdTree.Tree K) × Nat) × ρ)}
    (hb : ∀ it, BuildOk dim nC numTrees (build it)) :
    ∀ (rem it : Nat) (init prev : Option K) (centers : List K) (rng : ρ) (a : Nat → Nat), centers.length = nC * dim →
    (0 < it → (∀ x < N, a x < nC) ∧ ∃ p, prev = some p ∧ cost m dim N data centers a ≤ p) →
    ∃ log e s' b, (∀ blks order asgn dists, (∀ i, IsSchedule (blks i).length N (order i)) → asgn.length = N → dists.length = N → (0 < it → Arr asgn N a) →
        annLoop { build := build, blks := blks, order := order } u m dim nC N numTrees mc data perms minVar it rem init prev
          { centers := centers, asgn := asgn, dists := dists, rng := rng } = some (log, e, s')) ∧
      s'.centers.length = nC * dim ∧ Arr s'.asgn N b ∧ (∀ x < N, b x < nC) ∧ Arr s'.dists N (fun x => pc m dim data s'.centers x (b x)) ∧
      e = cost m dim N data s'.centers b ∧ (m = .l2 → mc = 0 → ∀ x < N, Nearest m dim nC data s'.centers x (b x)) ∧
      log.getLast? = some e ∧ log.length ≤ rem + 1 ∧ log.Pairwise (fun p q => q ≤ p) ∧
      (∃ e0, log.head? = some e0 ∧ (0 < it → ∀ p, prev = some p → e0 ≤ p) ∧ (∃ a0, (∀ x < N, a0 x < nC) ∧ e0 = cost m dim N data centers a0) ∧
        (m = .l2 → mc = 0 → IsEnergy m dim nC N data centers e0)) ∧
      (log.length ≤ rem → ∃ i p, init.or log.head? = some i ∧ log.dropLast.getLast?.or prev = some p ∧
        (e = p ∨ (p - e) / (i - e) < minVar)) := by
  intro rem
  induction rem with
  | zero =>
    intro it init prev centers rng a hc ha
    obtain ⟨f, rng', h1, h2, h3, h4⟩ := quantizeAnn_iter (hb it) hdim hT h32 m mc hd hc rng it a (fun h => (ha h).1)
    refine ⟨[cost m dim N data centers f], cost m dim N data centers f,
      { centers := centers, asgn := (List.range N).map f, dists := (List.range N).map fun x => pc m dim data centers x (f x), rng := rng' }, f,
      fun blks order asgn dists ho hl1 hl2 hA => ?_, hc, arr_map N f, h1, arr_map N _, rfl, h2, rfl, by simp, by simp,
      ⟨_, rfl, fun h p hpp => ?_, ⟨f, h1, rfl⟩, fun e1 e2 => ⟨f, h2 e1 e2, rfl⟩⟩, by simp⟩
    · unfold annLoop
      dsimp only
      rw [h4 (blks it) (order it) (ho it) asgn dists hl1 hl2 hA]
      dsimp only [Option.bind_eq_bind, Option.bind_some]
      rw [energy_spec (arr_map N _)]
      rfl
    · obtain ⟨-, p', j1, j2⟩ := ha h
      rw [j1] at hpp
      cases hpp
      exact le_trans (Finset.sum_le_sum fun x hx => h3 h x (by simpa using hx)) j2
  | succ rem ih =>
    intro it init prev centers rng a hc ha
    obtain ⟨f, rng', h1, h2, h3, h4⟩ := quantizeAnn_iter (hb it) hdim hT h32 m mc hd hc rng it a (fun h => (ha h).1)
    obtain ⟨e, he⟩ : ∃ e, e = cost m dim N data centers f := ⟨_, rfl⟩
    have hle : 0 < it → ∀ p, prev = some p → e ≤ p := by
      intro h p hpp
      obtain ⟨-, p', j1, j2⟩ := ha h
      rw [j1] at hpp
      cases hpp
      rw [he]
      exact le_trans (Finset.sum_le_sum fun x hx => h3 h x (by simpa using hx)) j2
    have hen : energy N ((List.range N).map fun x => pc m dim data centers x (f x)) = some e := by
      rw [energy_spec (arr_map N _), he]
      rfl
    by_cases hstop : lloydStop minVar init prev e = true
    · refine ⟨[e], e, { centers := centers, asgn := (List.range N).map f, dists := (List.range N).map fun x => pc m dim data centers x (f x), rng := rng' }, f,
        fun blks order asgn dists ho hl1 hl2 hA => ?_, hc, arr_map N f, h1, arr_map N _, he, h2, rfl, by simp, by simp,
        ⟨_, rfl, hle, ⟨f, h1, he⟩, fun e1 e2 => ⟨f, h2 e1 e2, he⟩⟩, fun _ => ?_⟩
      · unfold annLoop
        dsimp only
        rw [h4 (blks it) (order it) (ho it) asgn dists hl1 hl2 hA]
        dsimp only [Option.bind_eq_bind, Option.bind_some]
        rw [hen]
        dsimp only [Option.bind_eq_bind, Option.bind_some]
        rw [if_pos hstop]
      · unfold lloydStop at hstop
        cases init <;> cases prev <;> simp at hstop
        exact ⟨_, _, rfl, rfl, hstop⟩
    · obtain ⟨s1, g1, g2, g3, g4, _⟩ := lloydUpdate_correct (m := m) hu (by omega) hCN hd hp
        (s := { centers := centers, q := { asgn := (List.range N).map f, dists := (List.range N).map fun x => pc m dim data centers x (f x), tmp := [] }, rng := rng' })
        (arr_map N f) h1 hc
      obtain ⟨log, e', s', b, i1, i2, i3, i4, i5, i6, i7, i8, i9, i10, ⟨e0, j1, j2, j3, j4⟩, i12⟩ := ih (it + 1) (init.or (some e)) (some e) s1.centers s1.rng f g2
        (fun _ => ⟨h1, e, rfl, by rw [he]; exact g4⟩)
      refine ⟨e :: log, e', s', b, fun blks order asgn dists ho hl1 hl2 hA => ?_, i2, i3, i4, i5, i6, i7, ?_, by simp; omega, ?_,
        ⟨e, rfl, hle, ⟨f, h1, he⟩, fun e1 e2 => ⟨f, h2 e1 e2, he⟩⟩, fun hl => ?_⟩
      · unfold annLoop
        dsimp only
        rw [h4 (blks it) (order it) (ho it) asgn dists hl1 hl2 hA]
        dsimp only [Option.bind_eq_bind, Option.bind_some]
        rw [hen]
        dsimp only [Option.bind_eq_bind, Option.bind_some]
        rw [if_neg hstop]
        unfold annUpdate
        dsimp only [Option.bind_eq_bind, Option.bind_some]
        rw [g1]
        dsimp only [Option.bind_eq_bind, Option.bind_some]
        rw [i1 blks order _ _ ho (by simp) (by simp) (fun _ => arr_map N f)]
        rfl
      · cases log with
        | nil => simp at i8
        | cons y l => simpa using i8
      · rw [List.pairwise_cons]
        refine ⟨fun y hy => ?_, i10⟩
        have h0 : e0 ≤ e := j2 (by omega) e rfl
        cases log with
        | nil => simp at hy
        | cons z l =>
          simp only [List.head?_cons, Option.some.injEq] at j1
          subst j1
          rcases List.mem_cons.mp hy with rfl | hy
          · exact h0
          · exact le_trans ((List.pairwise_cons.mp i10).1 y hy) h0
      · simp at hl
        obtain ⟨i, p, k1, k2, k3⟩ := i12 hl
        refine ⟨i, p, ?_, ?_, k3⟩
        · cases init <;> simpa using k1
        · cases log with
          | nil => simp at j1
          | cons z l =>
            cases l with
            | nil => simpa using k2
            | cons w l =>
              rw [List.dropLast_cons_cons, List.getLast?_cons] at k2 ⊢
              rw [List.dropLast_cons_cons]
              rw [List.getLast?_cons] at *
              simpa [List.dropLast] using k2

/-- **C186.** k-means with approximate nearest neighbours, with at least one centre and no more centres than points, for any construction of the forests, any limit on the comparisons and any schedule
of the threads: no undefined behaviour; the result does not depend on the schedule nor on the contents of the blocks; the energies of the successive iterations never increase, even if the search is
not exact; the value returned is the cost of the final assignment; there are at most `maxNumIterations + 1` iterations, and fewer only if the energy did not change or changed little.  With the
Euclidean distance and no limit the value returned is the k-means energy of the final centres, at most that of the initial ones. -/
theorem ann_correct {u : ρ → Nat → Nat × ρ} (hu : ∀ r n, 0 < n → (u r n).1 < n) (hC : 0 < nC) (hCN : nC ≤ N)
    (hdim : 0 < dim) (hT : 0 < numTrees) (h32 : nC ≤ 2 ^ 32) (hd : data.length = N * dim) (mc : Nat) (minVar : K) (maxIt : Nat)
    {build : Nat → ρ → List K → Option ((List (KdTree.Tree K) × Nat) × ρ)} (hb : ∀ it, BuildOk dim nC numTrees (build it)) (hc : centers.length = nC * dim) (rng : ρ) :
    ∃ log e s' b, (∀ blks order asgn dists, (∀ i, IsSchedule (blks i).length N (order i)) → asgn.length = N → dists.length = N →
        ann { build := build, blks := blks, order := order } u m dim nC N numTrees mc data minVar maxIt
          { centers := centers, asgn := asgn, dists := dists, rng := rng } = some (log, e, s')) ∧
      s'.centers.length = nC * dim ∧ Arr s'.asgn N b ∧ (∀ x < N, b x < nC) ∧ e = cost m dim N data s'.centers b ∧
      log.Pairwise (fun p q => q ≤ p) ∧ log.getLast? = some e ∧
      (∃ e0 a0, log.head? = some e0 ∧ (∀ x < N, a0 x < nC) ∧ e0 = cost m dim N data centers a0 ∧ e ≤ e0 ∧
        (m = .l2 → mc = 0 → IsEnergy m dim nC N data centers e0 ∧ IsEnergy m dim nC N data s'.centers e)) ∧
      log.length ≤ maxIt + 1 ∧
      (log.length ≤ maxIt → ∃ e0 p, log.head? = some e0 ∧ log.dropLast.getLast? = some p ∧
        (e = p ∨ (p - e) / (e0 - e) < minVar)) := by
  have : ∃ perms, (match m with | .l1 => sortData data dim N dim | .l2 => some []) = some perms ∧
      (m = .l1 → sortData data dim N dim = some perms) := by
    cases m
    · obtain ⟨perms, e1, _, _⟩ := sortData_spec (by omega : 0 < N) data dim dim
      exact ⟨perms, e1, fun _ => e1⟩
    · exact ⟨[], rfl, by simp⟩
  obtain ⟨perms, h1, h2⟩ := this
  obtain ⟨log, e, s', b, i1, i2, i3, i4, i5, i6, i7, i8, i9, i10, ⟨e0, j1, j2, ⟨a0, j3, j3'⟩, j4⟩, i12⟩ :=
    annLoop_correct (m := m) hu hC hCN hdim hT h32 hd mc minVar h2 hb maxIt 0 none none centers rng (fun _ => 0) hc (fun h => absurd h (by omega))
  refine ⟨log, e, s', b, fun blks order asgn dists ho hl1 hl2 => ?_, i2, i3, i4, i6, i10, i8, ⟨e0, a0, j1, j3, j3', ?_, fun e1 e2 => ⟨j4 e1 e2, b, i7 e1 e2, i6⟩⟩, i9, fun hl => ?_⟩
  · unfold ann
    cases m <;> simp only at h1 <;> simp only [Option.bind_eq_bind, h1, Option.bind_some] <;>
      exact i1 blks order asgn dists ho hl1 hl2 (fun h => absurd h (by omega))
  · cases log with
    | nil => simp at j1
    | cons y l =>
      simp only [List.head?_cons, Option.some.injEq] at j1
      subst j1
      cases l with
      | nil => simp at i8; exact le_of_eq i8.symm
      | cons z l =>
        have : e ∈ z :: l := List.mem_of_getLast? (by simpa using i8)
        exact (List.pairwise_cons.mp i10).1 e this
  · obtain ⟨i, p, k1, k2, k3⟩ := i12 hl
    exact ⟨i, p, by simpa using k1, by simpa using k2, k3⟩

/-! ## The construction of the library -/

/-- The construction of `vl_kdforest_build` meets the requirement, for every stream of random numbers, contents of the memory and correct `qsort`. -/
theorem annBuild_ok (rand : Nat → Nat) {sort : List (KdTree.Entry K) → List (KdTree.Entry K)} (hsort : KdTree.SortOk sort) (hC : 0 < nC) (hdim : 0 < dim) (h32 : nC ≤ 2 ^ 32)
    {blks : List (List (KdTree.Node K) × List (KdTree.Entry K))} (hb : ∀ blk ∈ blks, blk.1.length = 2 * nC - 1 ∧ blk.2.length = nC) (hl : blks.length = numTrees) (hT : 0 < numTrees)
    {heapArr : List (KdTree.SplitDim K)} (hh : heapArr.length = 5) :
    BuildOk dim nC numTrees (annBuild rand sort dim nC blks heapArr) := by
  intro pos centers hc
  obtain ⟨s', trees, M, h1, h2, h3, h4⟩ := KdTree.forestBuild_exact dim nC centers rand .median sort hC hdim hc hsort (by omega) blks hb
    (by intro h; rw [h] at hl; simp at hl; omega) pos heapArr hh
  refine ⟨trees, s'.pos, ?_, by omega, h3⟩
  unfold annBuild
  rw [h1, h4]
  rfl

/-! ## Updates without distances

The documentation of `vl_kmeans_quantize_ann`, vl/kmeans.c:1937-1940, says that with `update` an assignment is updated only if the procedure finds a better one.  The code only does so if the
distances are requested too. -/

/-- With `update` an assignment only changes if the new one is better, whether distances are requested or not. -/
def UpdateClaim : Prop :=
  ∀ (dim nC N numTrees mc : Nat) (m : Metric) (data centers : List ℚ) (build : Nat → List ℚ → Option ((List (KdTree.Tree ℚ) × Nat) × Nat)), BuildOk dim nC numTrees build → 0 < dim → 0 < numTrees →
    nC ≤ 2 ^ 32 → data.length = N * dim → centers.length = nC * dim → ∀ (blks : List (List (SearchState ℚ) × Neighbor ℚ)) (order : List (Nat × Nat)), IsSchedule blks.length N order →
    ∀ (asgn asgn' : List Nat) (a a' : Nat → Nat) (dists dists' : Option (List ℚ)) (rng rng' : Nat), Arr asgn N a → (∀ x < N, a x < nC) →
      quantizeAnn build m dim nC numTrees mc centers data true blks order asgn dists rng = some ((asgn', dists'), rng') → Arr asgn' N a' →
      ∀ x < N, a' x = a x ∨ pc m dim data centers x (a' x) < pc m dim data centers x (a x)

/-- An insertion sort, as an example of `qsort`. -/
def exSort (l : List (KdTree.Entry ℚ)) : List (KdTree.Entry ℚ) := l.insertionSort (fun x y => x.value ≤ y.value)

theorem exSort_ok : KdTree.SortOk exSort := by
  intro l
  have : Std.Total (fun x y : KdTree.Entry ℚ => x.value ≤ y.value) := ⟨fun x y => le_total _ _⟩
  have : IsTrans (KdTree.Entry ℚ) (fun x y => x.value ≤ y.value) := ⟨fun x y z => le_trans⟩
  exact ⟨List.perm_insertionSort _ l, List.pairwise_insertionSort _ l⟩

/-- A forest of one tree. -/
def exBuild (nC : Nat) : Nat → List ℚ → Option ((List (KdTree.Tree ℚ) × Nat) × Nat) :=
  annBuild (fun _ => 7) exSort 1 nC
    [(List.replicate (2 * nC - 1) { parent := 0, lowerChild := 0, upperChild := 0, splitDimension := 0, splitThreshold := 0, lowerBound := none, upperBound := none },
      List.replicate nC { index := 0, value := 0 })] (List.replicate 5 { dimension := 0, mean := 0, variance := 0 })

theorem exBuild_ok {nC : Nat} (h : 0 < nC) (h32 : nC ≤ 2 ^ 32) : BuildOk 1 nC 1 (exBuild nC) :=
  annBuild_ok _ exSort_ok h (by omega) h32 (by simp) (numTrees := 1) rfl (by omega) (by simp)

/-- With one comparison, the point 1 moves from the centre 0 to the centre 10. -/
theorem exWorse : quantizeAnn (exBuild 2) .l2 1 2 1 1 [0, 10] [1] true [([], { index := 0, distance := none })] [(0, 0)] [0] none 0 = some (([1], none), 1) := by
  decide +kernel

/-- **C185, refuted for updates without distances.** -/
theorem update_claim_false : ¬ UpdateClaim := by
  intro h
  have := h 1 2 1 1 1 .l2 [1] [0, 10] (exBuild 2) (exBuild_ok (by omega) (by omega)) (by omega) (by omega) (by omega) rfl rfl [([], { index := 0, distance := none })] [(0, 0)]
    ⟨by decide, by simp⟩ [0] [1] (fun _ => 0) (fun _ => 1) none none 0 1 ⟨rfl, by simp⟩ (by simp) exWorse ⟨rfl, by simp⟩ 0 (by omega)
  revert this
  decide +kernel

/-- With the distances the assignment is kept. -/
example : quantizeAnn (exBuild 2) .l2 1 2 1 1 [0, 10] [1] true [([], { index := 0, distance := none })] [(0, 0)] [0] (some [5]) 0 = some (([0], some [1]), 1) := by
  decide +kernel

/-- Two threads and four points in some order; without a limit all the points are assigned to nearest centres. -/
example : IsSchedule 2 4 [(1, 2), (0, 0), (1, 3), (0, 1)] ∧
    (quantizeAnn (exBuild 3) .l2 1 3 1 0 [0, 10, 4] [1, 9, 5, 3] false [([], { index := 0, distance := none }), ([], { index := 3, distance := none })] [(1, 2), (0, 0), (1, 3), (0, 1)]
      [7, 7, 7, 7] (some [9, 9, 9, 9]) 0).map (fun r => r.1) = some ([0, 1, 2, 2], some [1, 1, 1, 1]) := by
  refine ⟨⟨by decide, by decide⟩, by decide +kernel⟩

/-- A run of the refinement with one comparison per query: the energies decrease to that of an assignment that is not nearest. -/
example : (ann { build := fun _ => exBuild 2, blks := fun _ => [([], { index := 0, distance := none })], order := fun _ => [(0, 0), (0, 1), (0, 2)] } (fun r _ => (0, r)) .l2 1 2 3 1 1 [1, 2, 9] 0 5
    { centers := [0, 10], asgn := [0, 0, 0], dists := [0, 0, 0], rng := 0 }).map (fun r => (r.1, r.2.1, r.2.2.centers, r.2.2.asgn)) = some ([146, 29, 49 / 2, 49 / 2], 49 / 2, [1, 11 / 2], [0, 1, 1]) := by
  decide +kernel

end Verif.Kmeans
