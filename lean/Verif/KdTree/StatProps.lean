import Verif.KdTree.BoundProps
import Mathlib.Algebra.Order.Field.Basic
import Mathlib.Algebra.Order.BigOperators.Group.List
import Mathlib.Algebra.Order.Ring.Rat
import Mathlib.Algebra.Field.Rat
import Mathlib.Tactic.FieldSimp
import Mathlib.Data.List.Sort

/-! # C23, continued: the exact statistics, a concrete forest, and the failure of the mean fallback -/

namespace Verif.KdTree

variable {K σ : Type} [Field K] [LinearOrder K] [IsStrictOrderedRing K]

omit [Field K] [IsStrictOrderedRing K] in
theorem threeWay_cmpVar : ThreeWay (cmpVar (K := K)) := by
  constructor
  · intro a b
    unfold cmpVar
    rcases lt_trichotomy a.variance b.variance with h | h | h
    · simp [h, not_lt_of_gt h]
    · simp [h]
    · simp [h, not_lt_of_gt h]
  · intro a b c
    unfold cmpVar
    rcases lt_trichotomy a.variance b.variance with h | h | h <;> rcases lt_trichotomy b.variance c.variance with g | g | g
    · simp [h, g, h.trans g]
    · simp [← g, h]
    · simp [g, not_lt_of_gt g]
    · simp [h, g]
    · simp [h, g]
    · simp [g, not_lt_of_gt g]
    · simp [h, not_lt_of_gt h]
    · simp [h, not_lt_of_gt h]
    · simp [h, not_lt_of_gt h]

/-- Some number of a list does not exceed the average. -/
theorem exists_le_average {α : Type} (l : List α) (f : α → K) (h : l ≠ []) : ∃ a ∈ l, f a ≤ (l.map f).sum / (l.length : K) := by
  by_contra hc
  have hc' : ∀ a ∈ l, (l.map f).sum / (l.length : K) < f a := by
    intro a ha
    by_contra h2
    exact hc ⟨a, ha, not_lt.1 h2⟩
  set M := (l.map f).sum / (l.length : K) with hM
  have hlen : (0 : K) < (l.length : K) := by
    have : 0 < l.length := List.length_pos_iff.2 h
    exact_mod_cast this
  have h1 : (l.map (fun _ => M)).sum < (l.map f).sum := List.sum_lt_sum_of_ne_nil h _ _ hc'
  have h2 : (l.map (fun _ => M)).sum = (l.length : K) * M := by simp
  have h3 : (l.length : K) * M = (l.map f).sum := by rw [hM]; field_simp
  rw [h2, h3] at h1
  exact lt_irrefl _ h1

/-- What is known of the dimensions kept in the heap. -/
def GoodDim (dim : Nat) (data : List K) (pts : List Nat) (sd : SplitDim K) : Prop :=
  sd.dimension < dim ∧ ∃ p ∈ pts, coord dim data p sd.dimension ≤ sd.mean

theorem dimStep_spec {dim n : Nat} {data : List K} (rand : Nat → Nat) {shs : Nat} {idx : List (Entry K)} {b e d : Nat}
    (hd : d < dim) (hdata : data.length = n * dim) (hbe : b + 2 ≤ e) (he : e ≤ idx.length) (hp : ∀ p ∈ ptsIn idx b e, p < n)
    (h1 : 1 ≤ shs) (s : Nat × Heap.State (SplitDim K)) (hv : s.2.Valid cmpVar) (hl : shs ≤ s.2.arr.length) (hs : s.2.size ≤ shs)
    (hg : ∀ x ∈ s.2.content, GoodDim dim data (ptsIn idx b e) x) :
    ∃ s', dimStep dim data rand shs idx b e d s = some s' ∧ s'.2.Valid cmpVar ∧ s'.2.arr.length = s.2.arr.length ∧
      s'.2.size ≤ shs ∧ ∀ x ∈ s'.2.content, GoodDim dim data (ptsIn idx b e) x := by
  unfold dimStep
  simp only
  set useAll : Bool := decide (e - b ≤ 1024) with hu
  set ns : Nat := if useAll = true then e - b else 1024 with hns
  have hns0 : 0 < ns := by rw [hns]; split <;> omega
  have hnsle : ns ≤ e - b := by
    rw [hns]
    split
    · omega
    · rename_i hc; simp [hu] at hc; omega
  obtain ⟨r, e1, L, r1, r2, r3⟩ := iter_inv (n := ns) (f := sampleStep dim data rand idx b d useAll)
    (s := { pos := s.1, mean := 0, secondMoment := 0 })
    (fun i r => ∃ L : List Nat, L.length = i ∧ (∀ p ∈ L, p ∈ ptsIn idx b e) ∧ r.mean = (L.map (fun p => coord dim data p d)).sum)
    ⟨[], rfl, by simp, by simp⟩
    (by
      intro i hi r ⟨L, l1, l2, l3⟩
      set si := (if useAll = true then i else rand r.pos % 1024) + b with hsi
      have hsb : b ≤ si := by omega
      have hse : si < e := by
        rw [hsi]
        split
        · rename_i hc
          rw [hns, if_pos hc] at hi
          omega
        · rename_i hc
          have : rand r.pos % 1024 < 1024 := Nat.mod_lt _ (by omega)
          simp [hu] at hc
          omega
      have hlt : si < idx.length := by omega
      have hm : (idx[si]).index ∈ ptsIn idx b e := mem_ptsIn.2 ⟨si, idx[si], hsb, hse, List.getElem?_eq_getElem hlt, rfl⟩
      have hn := hp _ hm
      have ha : (idx[si]).index * dim + d < data.length := by
        rw [hdata]
        calc (idx[si]).index * dim + d < (idx[si]).index * dim + dim := by omega
          _ = ((idx[si]).index + 1) * dim := by ring
          _ ≤ n * dim := Nat.mul_le_mul_right _ hn
      refine ⟨{ pos := if useAll = true then r.pos else r.pos + 1, mean := r.mean + data[(idx[si]).index * dim + d],
                secondMoment := r.secondMoment + data[(idx[si]).index * dim + d] * data[(idx[si]).index * dim + d] },
        ?_, L ++ [(idx[si]).index], by simp [l1], ?_, ?_⟩
      · unfold sampleStep
        simp only [Option.bind_eq_bind]
        rw [← hsi, rd_of_lt hlt]
        simp only [Option.bind_some]
        rw [rd_of_lt ha]
        rfl
      · intro p hp
        rcases List.mem_append.1 hp with h | h
        · exact l2 p h
        · simp only [List.mem_singleton] at h; subst h; exact hm
      · simp [l3, coord, List.getD_eq_getElem?_getD, ha])
  rw [e1]
  simp only [Option.bind_eq_bind, Option.bind_some]
  set mean := r.mean / (ns : K) with hmean
  split
  · exact ⟨_, rfl, hv, rfl, hs, hg⟩
  · have hitem : GoodDim dim data (ptsIn idx b e)
        { dimension := d, mean := mean, variance := r.secondMoment / (ns : K) - mean * mean } := by
      refine ⟨hd, ?_⟩
      obtain ⟨p, hp1, hp2⟩ := exists_le_average L (fun p => coord dim data p d) (by
        intro h0; rw [h0] at r1; simp at r1; omega)
      refine ⟨p, r2 p hp1, ?_⟩
      simp only [hmean]
      rw [r3, ← r1]
      exact hp2
    set item : SplitDim K := { dimension := d, mean := mean, variance := r.secondMoment / (ns : K) - mean * mean } with hit
    by_cases hsz : s.2.size < shs
    · rw [if_pos hsz]
      obtain ⟨h', a1, a2, ⟨a3, a4⟩, a5, -⟩ := Heap.step_correct threeWay_cmpVar s.2 (.push item) hv (by simp only [Heap.Legal]; omega)
      rw [a1]
      refine ⟨(r.pos, h'), rfl, a2, a5, by simp only; omega, ?_⟩
      intro x hx
      have := a4.subset hx
      rcases List.mem_cons.1 this with h | h
      · rw [h]; exact hitem
      · exact hg x h
    · rw [if_neg hsz]
      rw [rd_of_lt (by omega)]
      simp only [Option.bind_some]
      split
      · obtain ⟨h', a1, a2, ⟨a3, a4⟩, a5, -⟩ := Heap.step_correct threeWay_cmpVar s.2 (.update 0 item) hv
          (by simp only [Heap.Legal]; omega)
        rw [a1]
        refine ⟨(r.pos, h'), rfl, a2, a5, by simp only; omega, ?_⟩
        intro x hx
        have := a4.subset hx
        rcases List.mem_or_eq_of_mem_set this with h | h
        · exact hg x h
        · rw [h]; exact hitem
      · exact ⟨_, rfl, hv, rfl, hs, hg⟩

/-- The exact statistics satisfy the requirements, for every stream of random numbers. -/
theorem chooseSplit_ok (dim n : Nat) (data : List K) (rand : Nat → Nat) (shs : Nat) (method : Method)
    (sort : List (Entry K) → List (Entry K)) (hdata : data.length = n * dim) (h1 : 1 ≤ shs) :
    ChooserOk { dim := dim, data := data, method := method, choose := chooseSplit dim data rand shs, sort := sort } n
      (fun s => shs ≤ s.heapArr.length) := by
  intro s idx b e hinv hbe he hp
  obtain ⟨r, e1, r1, r2, r3, r4⟩ := iter_inv (n := dim) (f := fun d => dimStep dim data rand shs idx b e d)
    (s := (s.pos, (⟨s.heapArr, 0⟩ : Heap.State (SplitDim K))))
    (fun _ r => r.2.Valid cmpVar ∧ shs ≤ r.2.arr.length ∧ r.2.size ≤ shs ∧ ∀ x ∈ r.2.content, GoodDim dim data (ptsIn idx b e) x)
    ⟨Heap.empty_valid _ _, hinv, by simp, by simp [Heap.State.content]⟩
    (by
      intro d hd r ⟨r1, r2, r3, r4⟩
      obtain ⟨s', a1, a2, a3, a4, a5⟩ := dimStep_spec rand hd hdata hbe he hp h1 r r1 r2 r3 r4
      exact ⟨s', a1, a2, by omega, a4, a5⟩)
  simp only [chooseSplit]
  rw [e1]
  simp only [Option.bind_eq_bind, Option.bind_some]
  by_cases h0 : r.2.size = 0
  · rw [if_pos h0]
    exact ⟨none, _, rfl, r2, by simp⟩
  · rw [if_neg h0]
    have hmod : rand r.1 % min shs r.2.size < min shs r.2.size := Nat.mod_lt _ (by omega)
    have hlt : rand r.1 % min shs r.2.size < r.2.arr.length := by omega
    rw [rd_of_lt hlt]
    refine ⟨_, _, rfl, r2, ?_⟩
    intro sp hsp
    cases hsp
    have hmem : r.2.arr[rand r.1 % min shs r.2.size] ∈ r.2.content := by
      rw [Heap.State.content, List.mem_iff_getElem?]
      refine ⟨rand r.1 % min shs r.2.size, ?_⟩
      rw [List.getElem?_take, if_pos (by omega), List.getElem?_eq_getElem hlt]
    obtain ⟨g1, g2⟩ := r4 _ hmem
    exact ⟨g1, fun _ _ => g2⟩

/-- C23 for the library's own statistics: for all data, seeds, numbers of trees and both thresholding methods, and every correct
`qsort`, the construction succeeds within the allocated memory and every tree partitions the data. -/
theorem forestBuild_exact (dim n : Nat) (data : List K) (rand : Nat → Nat) (method : Method) (sort : List (Entry K) → List (Entry K))
    (hn : 1 ≤ n) (hd : 0 < dim) (hdata : data.length = n * dim) (hsort : SortOk sort) (h64 : n < 2 ^ 64)
    (blks : List (List (Node K) × List (Entry K))) (hb : ∀ blk ∈ blks, blk.1.length = 2 * n - 1 ∧ blk.2.length = n)
    (hb1 : blks ≠ []) (pos : Nat) (heapArr : List (SplitDim K)) (hh : heapArr.length = 5) :
    ∃ s' trees N,
      forestBuild { dim := dim, data := data, method := method, choose := chooseSplit dim data rand (min blks.length 5), sort := sort }
        n blks { pos := pos, heapArr := heapArr } = some (s', trees, N) ∧
      trees.length = blks.length ∧ (∀ t ∈ trees, BuiltTree dim data n t) ∧ N = (trees.map Tree.numUsedNodes).sum := by
  have : 0 < blks.length := List.length_pos_iff.2 hb1
  exact forestBuild_correct _ hn hd hdata hsort
    (chooseSplit_ok dim n data rand (min blks.length 5) method sort hdata (by omega)) h64 _ (by simp only; omega) blks hb

omit [Field K] [IsStrictOrderedRing K] in
/-- Merge sort satisfies the contract of `qsort`. -/
theorem mergeSort_ok : SortOk (fun l : List (Entry K) => l.mergeSort (fun x y => decide (x.value ≤ y.value))) := by
  intro l
  refine ⟨List.mergeSort_perm _ _, ?_⟩
  have := List.pairwise_mergeSort (le := fun x y : Entry K => decide (x.value ≤ y.value))
    (by intro a b c; simp only [decide_eq_true_eq]; exact le_trans)
    (by intro a b; simp only [Bool.or_eq_true, decide_eq_true_eq]; exact le_total _ _) l
  simpa using this

/-! ### The fallback of the mean thresholding

The comment in vl/kdtree.c:294-299 says that rounding may put the mean below all the points of the range and that the code then
falls back to the median.  This does not work for ranges that begin at entry zero, as `splitIndex` wraps around. -/

/-- The claim of the comment: whatever the value of the mean is, the construction succeeds. -/
def MeanFallbackClaim : Prop :=
  ∀ (mean : ℚ) (nodesBlk : List (Node ℚ)) (idxBlk : List (Entry ℚ)), nodesBlk.length = 3 → idxBlk.length = 2 →
    (buildTree (σ := Unit) { dim := 1, data := [1, 1], method := .mean,
                             choose := fun _ _ _ _ => some (some { dimension := 0, mean := mean }, ()), sort := id }
      2 nodesBlk idxBlk ()).isSome

/-- With a mean below the two points the recursion does not stop until the node buffer is exhausted. -/
theorem meanFallback_claim_false : ¬ MeanFallbackClaim := by
  intro h
  have := h 0 (List.replicate 3 ⟨0, 0, 0, 0, 0, none, none⟩) (List.replicate 2 ⟨0, 0⟩) (by simp) (by simp)
  revert this
  decide +kernel

/-! ### A concrete case -/

/-- The forest of one tree on the points 3, 1, 2 of the line. -/
private def exForest : Option (ChooseState ℚ × List (Tree ℚ) × Nat) :=
  forestBuild { dim := 1, data := [3, 1, 2], method := .median, choose := chooseSplit 1 [3, 1, 2] (fun i => i) 1,
                sort := fun l => l.insertionSort (fun x y => x.value ≤ y.value) }
    3 [(List.replicate 5 ⟨0, 0, 0, 0, 0, none, none⟩, List.replicate 3 ⟨0, 0⟩)] { pos := 0, heapArr := List.replicate 5 ⟨0, 0, 0⟩ }

example : exForest.map (fun r => r.2) =
    some ([{ nodes := [⟨0, 1, 4, 0, 2, none, none⟩, ⟨0, 2, 3, 0, 1, none, some 2⟩, ⟨1, -1, -2, 0, 0, none, some 1⟩,
                       ⟨1, -2, -3, 0, 0, some 1, some 2⟩, ⟨0, -3, -4, 0, 0, some 2, none⟩],
             numUsedNodes := 5, dataIndex := [⟨1, 1⟩, ⟨2, 2⟩, ⟨0, 3⟩], depth := 2 }], 5) := by decide +kernel

end Verif.KdTree
