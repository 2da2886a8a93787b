import Verif.KdTree.SearchLemmas
import Verif.KdTree.StatProps
import Mathlib.Algebra.Order.Ring.Rat
import Mathlib.Algebra.Field.Rat

/-! # C24: kd-tree queries -/

namespace Verif.KdTree

open Heap

variable {K : Type} [Field K] [LinearOrder K]

/-- The loop that fills the search heap with the roots of the trees. -/
theorem initHeap {F : Forest K} (hF : F.Built) (q : List K) (arr : List (SearchState K)) (ha : arr.length = F.maxNumNodes) :
    ∃ h L, iter F.trees.length
        (fun ti h => Heap.step cmpSearch h (.push { tree := ti, nodeIndex := 0, lowerBound := (0 : K) })) ⟨arr, 0⟩ = some h ∧
      HI F q h L ∧ budget L = F.maxNumNodes ∧ ∀ p < F.numData, InL L p := by
  obtain ⟨h, e1, L, h1, h2, h3⟩ := iter_inv (n := F.trees.length)
    (f := fun ti h => Heap.step cmpSearch h (.push { tree := ti, nodeIndex := 0, lowerBound := (0 : K) })) (s := ⟨arr, 0⟩)
    (fun j (h : Heap.State (SearchState K)) => ∃ L, HI F q h L ∧ budget L = ((F.trees.take j).map Tree.numUsedNodes).sum ∧
      (0 < j → ∀ p < F.numData, InL L p))
    ⟨[], ⟨empty_valid _ _, ha, by simp [State.content]⟩, by simp [budget], by omega⟩
    (by
      intro j hj h ⟨L, h1, h2, h3⟩
      obtain ⟨sh, b1, b2, b3, b4, b5, b6, b7⟩ := hF.built F.trees[j] (List.getElem_mem hj)
      have hpts : ∀ p, p ∈ ptsIn F.trees[j].dataIndex 0 F.numData ↔ p < F.numData := fun p => by
        rw [b3.mem_iff, List.mem_range]
      have hsum : ((F.trees.take (j + 1)).map Tree.numUsedNodes).sum =
          ((F.trees.take j).map Tree.numUsedNodes).sum + F.trees[j].numUsedNodes := by
        rw [List.take_add_one, List.getElem?_eq_getElem hj, List.map_append, List.sum_append]; simp only [Option.toList_some, List.map_cons, List.map_nil, List.sum_singleton]
      have hle : ((F.trees.take (j + 1)).map Tree.numUsedNodes).sum ≤ F.maxNumNodes := by
        rw [hF.nodes, ← List.take_append_drop (j + 1) F.trees, List.map_append, List.sum_append, List.take_append_drop]
        omega
      have hpos := sh.size_pos
      obtain ⟨h', L', c1, c2, c3⟩ := push_HI h1 (x := { tree := j, nodeIndex := 0, lowerBound := (0 : K) })
        (l := (sh, ptsIn F.trees[j].dataIndex 0 F.numData))
        ⟨F.trees[j], 0, F.numData, fun _ => none, fun _ => none, List.getElem?_eq_getElem hj, b1, b7, by omega, rfl,
          fun p hp => ⟨(hpts p).1 hp, fun d _ => ⟨by simp, by simp⟩⟩, (boxDist_unbounded _ _).symm⟩ (by omega)
      refine ⟨h', c1, L', c2, ?_, ?_⟩
      · rw [budget_perm c3, budget_cons, hsum, h2]; simp only; omega
      · intro _ p hp
        rw [InL_perm c3]
        exact ⟨_, List.mem_cons_self .., (hpts p).2 hp⟩)
  refine ⟨h, L, e1, h1, ?_, h3 (List.length_pos_iff.2 hF.ne)⟩
  rw [h2, List.take_length, hF.nodes]

omit [Field K] [LinearOrder K] in
theorem fillMissing_spec {k : Nat} {nb : Heap.State (Neighbor K)} (hl : nb.arr.length = k) (hs : nb.size ≤ k) :
    ∃ a, fillMissing k nb = some a ∧ a.take nb.size = nb.content ∧ a.drop nb.size = List.replicate (k - nb.size) missing := by
  unfold fillMissing
  obtain ⟨a, e1, h1, h2⟩ := iter_inv (n := k - nb.size)
    (f := fun i a => wr a (nb.size + i) { index := -1, distance := none }) (s := nb.arr)
    (fun i (a : List (Neighbor K)) => a.length = k ∧
      ∀ j, a[j]? = if nb.size ≤ j ∧ j < nb.size + i then some missing else nb.arr[j]?)
    ⟨hl, fun j => by rw [if_neg (by omega)]⟩
    (by
      intro i hi a ⟨h1, h2⟩
      refine ⟨_, wr_of_lt (by omega) _, by simp [h1], fun j => ?_⟩
      by_cases c : nb.size + i = j
      · rw [← c, List.getElem?_set_self (by omega), if_pos (by omega)]; rfl
      · rw [List.getElem?_set_ne c, h2]
        by_cases d : nb.size ≤ j ∧ j < nb.size + i
        · rw [if_pos d, if_pos (by omega)]
        · rw [if_neg d, if_neg (by omega)])
  refine ⟨a, e1, ?_, ?_⟩
  · apply List.ext_getElem?
    intro j
    unfold State.content
    rw [List.getElem?_take, List.getElem?_take]
    split
    · rw [h2, if_neg (by omega)]
    · rfl
  · apply List.ext_getElem?
    intro j
    rw [List.getElem?_drop, List.getElem?_replicate]
    split
    · rw [h2, if_pos (by omega)]
    · rw [List.getElem?_eq_none (by omega)]

variable [IsStrictOrderedRing K]

/-- Everything about a query: it does not fail, it leaves the searcher usable, it returns distinct data points with their distances
in order, it respects the limit on comparisons, and it returns nearest neighbours if the search is exact. -/
theorem query_spec (F : Forest K) (hF : F.Built) (S : Searcher K) (hS : S.Ok F) (k : Nat) (hk : 0 < k) (q : List K)
    (hq : q.length = F.dim) (nbBlk : List (Neighbor K)) (hb : nbBlk.length = k) :
    ∃ S' pts out nc, query F S nbBlk k q = some (S', out, nc) ∧ S'.Ok F ∧ Answer F q k pts out ∧ (pts.length = min k nc ∧ 1 ≤ nc) ∧
      (F.maxComparisons ≠ 0 → nc ≤ F.maxComparisons) ∧ (Exact F q → Nearest F q k pts) := by
  unfold query assert'
  rw [if_pos (by simpa using hk)]
  simp only [Option.bind_eq_bind, Option.bind_some]
  obtain ⟨h, L, e1, a1, a2, a3⟩ := initHeap hF q S.heapArray hS.heap
  rw [e1]
  simp only [Option.bind_some]
  obtain ⟨s, e2, b1, b2, b3, b4, b5⟩ := mainLoop_spec (id := S.searchId + 1) hk hF.dim hF.data hq (F.maxNumNodes + 1)
    { heap := h, nb := ⟨nbBlk, 0⟩, book := S.book, numComparisons := 0 } L (by omega) (by omega)
    ⟨⟨empty_valid _ _, hb, hS.book, fun v hv => Nat.le_succ_of_le (hS.ids v hv),
        by simp [State.content], by simp [State.content], fun p hp hp' => by
        have := hS.ids _ (List.mem_of_getElem? hp')
        omega⟩, fun _ => Nat.zero_le _, by simp⟩ a1
  rw [e2]
  simp only [Option.bind_some]
  have hsz : s.nb.size ≤ k := by
    have := b1.ni.valid.1
    rw [b1.ni.len] at this
    exact this
  obtain ⟨a, e3, c1, c2⟩ := fillMissing_spec b1.ni.len hsz
  rw [e3]
  simp only [Option.bind_some]
  have hal : s.nb.size ≤ a.length := by
    have := congrArg List.length c1
    rw [List.length_take, State.content, List.length_take, b1.ni.len] at this
    omega
  obtain ⟨a', e4, d1, d2, d3⟩ := popAll_sorts threeWay_cmpNeighbor a s.nb.size hal (by rw [c1]; exact b1.ni.valid.2)
  rw [e4]
  simp only [Option.bind_some]
  rw [c1] at d1
  have hlen : (a'.take s.nb.size).length = s.nb.size := by
    rw [d1.length_eq, State.content, List.length_take, b1.ni.len]; omega
  have hentry : ∀ y ∈ a'.take s.nb.size, ∃ p < F.numData, y = nbOf F q p := fun y hy => by
    obtain ⟨p, h1, h2, -⟩ := b1.ni.mem y (d1.mem_iff.1 hy)
    exact ⟨p, h1, h2⟩
  have hmap : ((a'.take s.nb.size).map (fun y => y.index.toNat)).map (nbOf F q) = a'.take s.nb.size := by
    rw [List.map_map]
    conv_rhs => rw [← List.map_id (a'.take s.nb.size)]
    apply List.map_congr_left
    intro y hy
    obtain ⟨p, _, rfl⟩ := hentry y hy
    simp [nbOf]
  generalize hpts : (a'.take s.nb.size).map (fun y => y.index.toNat) = pts at hmap
  have hplen : pts.length = s.nb.size := by rw [← hpts, List.length_map, hlen]
  have hpn : ∀ p ∈ pts, p < F.numData := by
    intro p hp
    rw [← hpts, List.mem_map] at hp
    obtain ⟨y, hy, rfl⟩ := hp
    obtain ⟨p, h1, rfl⟩ := hentry y hy
    simpa [nbOf] using h1
  have hnd : pts.Nodup := by
    have : (pts.map (nbOf F q)).Nodup := by rw [hmap, d1.nodup_iff]; exact b1.ni.nodup
    exact List.Nodup.of_map _ this
  have hmem : ∀ p, nbOf F q p ∈ s.nb.content ↔ p ∈ pts := by
    intro p
    rw [← d1.mem_iff, ← hmap, List.mem_map]
    constructor
    · rintro ⟨p', h1, h2⟩
      rw [← nbOf_inj h2]; exact h1
    · intro h
      exact ⟨p, h, rfl⟩
  have hple : pts.length ≤ F.numData := by
    have := (List.subperm_of_subset hnd (l₂ := List.range F.numData) (fun p hp => List.mem_range.2 (hpn p hp))).length_le
    simpa using this
  refine ⟨_, pts, _, _, rfl, ⟨b2, b1.ni.blen, ?_⟩, ⟨?_, by omega, hnd, hpn, ?_⟩, ?_, b1.cmps, ?_⟩
  · exact b1.ni.ids
  · rw [hplen, hmap, ← c2, ← d3, List.take_append_drop]
  · rw [List.pairwise_reverse, ← hmap, List.pairwise_map] at d2
    exact d2.imp (fun h => by simpa [nbOf] using cmpNeighbor_le h)
  · refine ⟨by rw [hplen]; exact b1.cnt, b5 (Or.inr ?_)⟩
    rintro rfl
    have := a1.size
    have hb0 : budget [] = F.maxNumNodes := a2
    have : 0 < F.maxNumNodes := by
      obtain ⟨t, ht⟩ := List.exists_mem_of_ne_nil _ hF.ne
      obtain ⟨sh, -, -, -, b4, -⟩ := hF.built t ht
      have hp := sh.size_pos
      rw [hF.nodes]
      have := List.single_le_sum (l := F.trees.map Tree.numUsedNodes) (fun _ _ => Nat.zero_le _) _ (List.mem_map_of_mem ht)
      omega
    simp [budget] at hb0
    omega
  · intro hE
    have hset : ∀ p < F.numData, Settled F q k s.nb p := fun p hp => b4 hE p (a3 p hp)
    constructor
    · by_cases c : s.nb.size = k
      · omega
      · have : F.numData ≤ pts.length := by
          have := (List.subperm_of_subset (List.nodup_range (n := F.numData)) (l₂ := pts) (fun p hp => by
            rcases hset p (List.mem_range.1 hp) with h | h
            · exact (hmem p).1 h
            · exact absurd h.1 c)).length_le
          simpa using this
        omega
    · intro p hp
      rcases hset p hp with h | ⟨-, h⟩
      · exact Or.inl ((hmem p).1 h)
      · exact Or.inr (fun p' hp' => h _ ((hmem p').2 hp'))

/-- With the squared Euclidean distance and no limit on the comparisons the search is exact. -/
theorem exact_L2 (F : Forest K) (hF : F.Built) (q : List K) (hq : q.length = F.dim) (hdist : F.distFn = distL2)
    (hmax : F.maxComparisons = 0) : Exact F q := by
  refine ⟨hmax, fun p lo hi hp hbox => (boxDist_le F.dim q F.data p lo hi hbox).trans (le_of_eq ?_)⟩
  have hle : p * F.dim + F.dim ≤ F.data.length := by
    rw [hF.data, ← Nat.succ_mul]
    exact Nat.mul_le_mul_right _ hp
  have hlen : (AllPairs.vec F.data F.dim p).length = F.dim := by
    simp only [AllPairs.vec, List.length_take, List.length_drop]; omega
  unfold ptDist
  rw [hdist, distL2_eq _ _ (by rw [hlen, hq]), hq]
  apply Finset.sum_congr rfl
  intro d hd
  have hd := Finset.mem_range.1 hd
  have : (AllPairs.vec F.data F.dim p).getD d 0 = coord F.dim F.data p d := by
    simp only [AllPairs.vec, coord, List.getD_eq_getElem?_getD]
    rw [List.getElem?_take, if_pos hd, List.getElem?_drop]
  rw [this]

/-- C24: with the squared Euclidean distance and an unlimited number of comparisons a query returns the `k` nearest data points with
their distances, by non-decreasing distance, and missing entries if there are fewer than `k` points; the searcher remains usable. -/
theorem query_nearest (F : Forest K) (hF : F.Built) (hdist : F.distFn = distL2) (hmax : F.maxComparisons = 0)
    (S : Searcher K) (hS : S.Ok F) (k : Nat) (hk : 0 < k) (q : List K) (hq : q.length = F.dim)
    (nbBlk : List (Neighbor K)) (hb : nbBlk.length = k) :
    ∃ S' pts out nc, query F S nbBlk k q = some (S', out, nc) ∧ S'.Ok F ∧ Answer F q k pts out ∧ Nearest F q k pts := by
  obtain ⟨S', pts, out, nc, h1, h2, h3, -, -, h4⟩ := query_spec F hF S hS k hk q hq nbBlk hb
  exact ⟨S', pts, out, nc, h1, h2, h3, h4 (exact_L2 F hF q hq hdist hmax)⟩

/-- C24: for any distance and any limit, a query returns distinct data points with their true distances, by non-decreasing distance,
and makes no more comparisons than allowed; it always returns at least one point, and as many as it made comparisons up to `k`. -/
theorem query_sound (F : Forest K) (hF : F.Built) (S : Searcher K) (hS : S.Ok F) (k : Nat) (hk : 0 < k) (q : List K)
    (hq : q.length = F.dim) (nbBlk : List (Neighbor K)) (hb : nbBlk.length = k) :
    ∃ S' pts out nc, query F S nbBlk k q = some (S', out, nc) ∧ S'.Ok F ∧ Answer F q k pts out ∧ pts.length = min k nc ∧ 1 ≤ nc ∧
      (F.maxComparisons ≠ 0 → nc ≤ F.maxComparisons) := by
  obtain ⟨S', pts, out, nc, h1, h2, h3, ⟨h4, h4'⟩, h5, -⟩ := query_spec F hF S hS k hk q hq nbBlk hb
  exact ⟨S', pts, out, nc, h1, h2, h3, h4, h4', h5⟩

/-- C24: build a forest of any number of trees, then query it with a new searcher. -/
theorem build_query_nearest (dim n : Nat) (data : List K) (rand : Nat → Nat) (method : Method)
    (sort : List (Entry K) → List (Entry K)) (hn : 1 ≤ n) (hd : 0 < dim) (hdata : data.length = n * dim) (hsort : SortOk sort)
    (h64 : n < 2 ^ 64) (blks : List (List (Node K) × List (Entry K)))
    (hb : ∀ blk ∈ blks, blk.1.length = 2 * n - 1 ∧ blk.2.length = n) (hb1 : blks ≠ []) (pos : Nat) (heapArr : List (SplitDim K))
    (hh : heapArr.length = 5) (k : Nat) (hk : 0 < k) (q : List K) (hq : q.length = dim) :
    ∃ s' trees N,
      forestBuild { dim := dim, data := data, method := method, choose := chooseSplit dim data rand (min blks.length 5), sort := sort }
        n blks { pos := pos, heapArr := heapArr } = some (s', trees, N) ∧
      ∀ (F : Forest K), F = { dim := dim, data := data, numData := n, trees := trees, distFn := distL2, maxComparisons := 0, maxNumNodes := N } →
        ∀ (blk : List (SearchState K)) (nbBlk : List (Neighbor K)), blk.length = N → nbBlk.length = k →
          ∃ S' pts out nc, query F (newSearcher F blk) nbBlk k q = some (S', out, nc) ∧ Answer F q k pts out ∧ Nearest F q k pts := by
  obtain ⟨s', trees, N, h1, h2, h3, h4⟩ := forestBuild_exact dim n data rand method sort hn hd hdata hsort h64 blks hb hb1 pos heapArr hh
  refine ⟨s', trees, N, h1, ?_⟩
  intro F hF blk nbBlk hblk hnb
  have hbuilt : F.Built := by
    subst hF
    refine ⟨hd, hdata, ?_, h3, h4⟩
    simp only
    intro h
    rw [h] at h2
    exact hb1 (List.length_eq_zero_iff.1 h2.symm)
  have hS : (newSearcher F blk).Ok F := by
    subst hF
    exact ⟨hblk, by simp [newSearcher], by simp [newSearcher]⟩
  obtain ⟨S', pts, out, nc, g1, -, g2, g3⟩ := query_nearest F hbuilt (by subst hF; rfl) (by subst hF; rfl) _ hS k hk q (by subst hF; exact hq)
    nbBlk hnb
  exact ⟨S', pts, out, nc, g1, g2, g3⟩

/-! ### The L1 distance -/

/-- What C24 would claim for the L1 distance. -/
def L1Claim : Prop :=
  ∀ (F : Forest ℚ), F.Built → F.distFn = distL1 → F.maxComparisons = 0 → ∀ (S : Searcher ℚ), S.Ok F → ∀ (k : Nat), 0 < k →
    ∀ (q : List ℚ), q.length = F.dim → ∀ (nbBlk : List (Neighbor ℚ)), nbBlk.length = k →
      ∃ S' pts out nc, query F S nbBlk k q = some (S', out, nc) ∧ Answer F q k pts out ∧ Nearest F q k pts

/-- The tree of the two points 0 and 3 of the line, cut at 0. -/
def l1Tree : Tree ℚ where
  nodes := [{ parent := 0, lowerChild := 1, upperChild := 2, splitDimension := 0, splitThreshold := 0, lowerBound := none, upperBound := none },
    { parent := 0, lowerChild := -1, upperChild := -2, splitDimension := 0, splitThreshold := 0, lowerBound := none, upperBound := none },
    { parent := 0, lowerChild := -2, upperChild := -3, splitDimension := 0, splitThreshold := 0, lowerBound := none, upperBound := none }]
  numUsedNodes := 3
  dataIndex := [{ index := 0, value := 0 }, { index := 1, value := 3 }]
  depth := 2

/-- The forest of this tree, for the given distance. -/
def lineForest (dist : List ℚ → List ℚ → ℚ) : Forest ℚ :=
  { dim := 1, data := [0, 3], numData := 2, trees := [l1Tree], distFn := dist, maxComparisons := 0, maxNumNodes := 3 }

theorem lineForest_built (dist : List ℚ → List ℚ → ℚ) : (lineForest dist).Built := by
  refine ⟨by simp [lineForest], by simp [lineForest], by simp [lineForest], ?_, by simp [lineForest, l1Tree]⟩
  intro t ht
  simp only [lineForest, List.mem_singleton] at ht
  subst ht
  simp only [lineForest]
  refine ⟨.node .leaf .leaf, ?_, by decide, by decide, by decide, by decide, by decide, ?_⟩
  · refine ⟨_, 1, 1, 2, rfl, rfl, rfl, rfl, rfl, by decide, ?_, ?_, ⟨_, rfl, rfl, rfl, rfl, by decide⟩, ⟨_, rfl, rfl, rfl, rfl, by decide⟩⟩
    · decide +kernel
    · decide +kernel
  · exact ⟨_, rfl, rfl, rfl, trivial, trivial⟩

/-- A new searcher of this forest. -/
def lineSearcher : Searcher ℚ := { heapArray := List.replicate 3 ⟨0, 0, 0⟩, book := [0, 0], searchId := 0 }

theorem lineSearcher_ok (dist : List ℚ → List ℚ → ℚ) : lineSearcher.Ok (lineForest dist) :=
  ⟨rfl, rfl, by simp [lineSearcher]⟩

/-- The concrete case of the theorems: the squared Euclidean distance, on which the query answers correctly. -/
example : ((query (lineForest distL2) lineSearcher [missing, missing, missing] 3 [7/5]).map (fun r => r.2)) =
    some ([{ index := 0, distance := some (49/25 : ℚ) }, { index := 1, distance := some (64/25) }, missing], 2) := by
  decide +kernel

/-- For the L1 distance the query 7/5 returns the point 3, at distance 8/5, although the point 0 is at distance 7/5: the lower bound
computed for the other half line is the square 49/25 of the distance. -/
theorem l1_wrong : ((query (lineForest distL1) lineSearcher [missing] 1 [7/5]).map (fun r => r.2.1)) =
    some [{ index := 1, distance := some (8/5) }] := by
  decide +kernel

/-- C24 does not hold for the L1 distance, which the library offers for kd-trees. -/
theorem l1_claim_false : ¬ L1Claim := by
  intro h
  obtain ⟨S', pts, out, nc, h1, ⟨h2, -⟩, h3, h4⟩ := h (lineForest distL1) (lineForest_built _) rfl rfl lineSearcher
    (lineSearcher_ok _) 1 (by decide) [7/5] rfl [missing] rfl
  have hw := l1_wrong
  rw [h1] at hw
  simp only [Option.map_some, Option.some.injEq] at hw
  rw [hw] at h2
  have hlen : pts.length = 1 := h3
  obtain ⟨p, rfl⟩ := List.length_eq_one_iff.1 hlen
  have hp : p = 1 := by
    have := congrArg (fun l => l.head?.map Neighbor.index) h2
    simp [nbOf] at this
    omega
  subst hp
  have := h4 0 (by decide)
  revert this
  decide +kernel

end Verif.KdTree
