import Verif.KdTree.BuildLemmas

/-! # C23: the kd-tree partitions the data -/

namespace Verif.KdTree

variable {K σ : Type} [Field K] [LinearOrder K]

theorem Shape.size_pos (sh : Shape) : 1 ≤ sh.size := by cases sh <;> simp only [Shape.size] <;> omega

/-- Effect of building the subtree of node `i` for the range `b ≤ j < e`. -/
structure Post (C : Cfg σ K) (P : List Nat → Prop) (Q : Nat → List Nat → Prop) (t t' : Tree K) (sh : Shape) (i b e : Nat) : Prop where
  len : t'.nodes.length = t.nodes.length
  used : t'.numUsedNodes + 1 = t.numUsedNodes + sh.size
  frame : ∀ j, j ≠ i → j < t.numUsedNodes → t'.nodes[j]? = t.nodes[j]?
  ilen : t'.dataIndex.length = t.dataIndex.length
  iframe : ∀ j, (j < b ∨ e ≤ j) → t'.dataIndex[j]? = t.dataIndex[j]?
  perm : (ptsIn t'.dataIndex b e).Perm (ptsIn t.dataIndex b e)
  size : sh.size + 1 ≤ 2 * (e - b)
  tree : ∀ nodes idx, (∀ j, (j = i ∨ (t.numUsedNodes ≤ j ∧ j < t'.numUsedNodes)) → nodes[j]? = t'.nodes[j]?) →
    (∀ j, b ≤ j → j < e → idx[j]? = t'.dataIndex[j]?) → IsTree C.dim C.data nodes idx sh i b e
  mark : ∀ nodes idx, (∀ j, (j = i ∨ (t.numUsedNodes ≤ j ∧ j < t'.numUsedNodes)) → nodes[j]? = t'.nodes[j]?) →
    (∀ j, b ≤ j → j < e → idx[j]? = t'.dataIndex[j]?) → Marked P Q nodes idx sh i b e

theorem mkLeaf_post (C : Cfg σ K) {P : List Nat → Prop} {Q : Nat → List Nat → Prop} {t : Tree K} {i b e : Nat} {nd : Node K} (dp : Nat) (hnd : t.nodes[i]? = some nd)
    (hsd : nd.splitDimension = 0) (hbe : b < e) (hP : P (ptsIn t.dataIndex b e)) :
    ∃ t', mkLeaf { t with depth := dp } i b e = some t' ∧ Post C P Q t t' .leaf i b e := by
  have hlt : i < t.nodes.length := by rw [List.getElem?_eq_some_iff] at hnd; exact hnd.1
  refine ⟨{ t with nodes := t.nodes.set i { nd with lowerChild := -(b : Int) - 1, upperChild := -(e : Int) - 1 }, depth := dp },
    ?_, ?_⟩
  · unfold mkLeaf
    simp only
    rw [modNode_of _ hnd]
    rfl
  · refine ⟨by simp, by simp [Shape.size], ?_, rfl, fun _ _ => rfl, List.Perm.refl _, by simp only [Shape.size]; omega, ?_, ?_⟩
    · intro j hj _
      simp only
      rw [List.getElem?_set_ne (Ne.symm hj)]
    · intro nodes idx hn _
      refine ⟨{ nd with lowerChild := -(b : Int) - 1, upperChild := -(e : Int) - 1 }, ?_, rfl, rfl, hsd, hbe⟩
      rw [hn i (Or.inl rfl)]
      simp only
      rw [List.getElem?_set_self hlt]
    · intro nodes idx hn hix
      refine ⟨{ nd with lowerChild := -(b : Int) - 1, upperChild := -(e : Int) - 1 }, ?_, rfl, rfl, ?_⟩
      · rw [hn i (Or.inl rfl)]
        simp only
        rw [List.getElem?_set_self hlt]
      · rw [ptsIn_congr hix]
        exact hP

theorem IsTree.lt {dim : Nat} {data : List K} {nodes : List (Node K)} {idx : List (Entry K)} {sh : Shape} {i b e : Nat}
    (h : IsTree dim data nodes idx sh i b e) : b < e := by
  induction sh generalizing i b e with
  | leaf => obtain ⟨_, _, _, _, _, h⟩ := h; exact h
  | node l r ihl ihr =>
    obtain ⟨_, m, c1, c2, _, _, _, _, _, _, _, _, h1, h2⟩ := h
    exact lt_trans (ihl h1) (ihr h2)

theorem buildRec_post (C : Cfg σ K) {n : Nat} {Inv : σ → Prop} (hdim : C.data.length = n * C.dim) (hsort : SortOk C.sort)
    (hch : ChooserOk C n Inv) {P : List Nat → Prop} {Q : Nat → List Nat → Prop} (hmk : ChooserMarks C n Inv P Q) (h64 : n < 2 ^ 64)
    (fuel : Nat) :
    ∀ (s : σ) (t : Tree K) (i b e depth : Nat) (nd : Node K), Inv s → t.nodes[i]? = some nd → nd.splitDimension = 0 →
      i + 1 = t.numUsedNodes → b < e → e - b ≤ fuel → e ≤ n → t.dataIndex.length = n →
      t.numUsedNodes + 2 * (e - b) ≤ t.nodes.length + 2 → (∀ p ∈ ptsIn t.dataIndex b e, p < n) →
      ∃ s' t' sh, buildRec C fuel s t i b e depth = some (s', t') ∧ Inv s' ∧ Post C P Q t t' sh i b e := by
  induction fuel with
  | zero => intro s t i b e depth nd _ _ _ _ hbe hf; omega
  | succ fuel ih =>
    intro s t i b e depth nd hinv hnd hsd hi hbe hf hen hil hroom hpts
    unfold buildRec
    rw [if_neg (by omega)]
    by_cases h1 : e - b ≤ 1
    · rw [if_pos h1]
      obtain ⟨t', e1, e2⟩ := mkLeaf_post C (P := P) (Q := Q) (max t.depth depth) hnd hsd hbe (by
        obtain ⟨p, hp⟩ := List.length_eq_one_iff.1 (show (ptsIn t.dataIndex b e).length = 1 by rw [ptsIn_length (by omega)]; omega)
        rw [hp]
        exact hmk.single p)
      exact ⟨s, t', .leaf, by rw [e1]; rfl, hinv, e2⟩
    rw [if_neg h1]
    obtain ⟨c, s1, c1, c2, c3⟩ := hch s t.dataIndex b e hinv (by omega) (by omega) hpts
    obtain ⟨k1, k2⟩ := hmk.choose s t.dataIndex b e c s1 hinv (by omega) (by omega) hpts c1
    rw [c1]
    simp only [Option.bind_eq_bind, Option.bind_some]
    cases c with
    | none =>
      simp only
      obtain ⟨t', e1, e2⟩ := mkLeaf_post C (P := P) (Q := Q) t.depth hnd hsd hbe (k1 rfl)
      have e1' : mkLeaf t i b e = some t' := e1
      exact ⟨s1, t', .leaf, by rw [e1']; rfl, c2, e2⟩
    | some sp =>
      simp only
      obtain ⟨hsp, hmean⟩ := c3 sp rfl
      have hlt : i < t.nodes.length := by rw [List.getElem?_eq_some_iff] at hnd; exact hnd.1
      obtain ⟨m, thr, idx, m1, m2, e1, l1, f1, p1, q1, q2⟩ :=
        splitNode_spec hdim hsort (by omega) (by omega) (by omega) hpts hsp hnd hmean
      rw [e1]
      simp only [Option.bind_some]
      -- the state after the split
      set nd1 : Node K := { nd with splitDimension := sp.dimension, splitThreshold := thr } with hnd1
      set t1 : Tree K := { t with nodes := t.nodes.set i nd1, dataIndex := idx } with ht1
      obtain ⟨nn, nn0, e2⟩ := nodeNew_spec (t := t1) (p := i) (by simp only [ht1, List.length_set]; omega)
      rw [e2]
      simp only [Option.bind_some]
      have hu1 : t1.numUsedNodes = t.numUsedNodes := rfl
      rw [hu1]
      have g1 : (t1.nodes.set t.numUsedNodes nn)[i]? = some nd1 := by
        rw [List.getElem?_set_ne (by omega)]
        simp only [ht1]
        rw [List.getElem?_set_self hlt]
      rw [modNode_of _ g1]
      simp only [Option.bind_some]
      rw [succ64_lt (show m - 1 + 1 < 2 ^ 64 by omega), show m - 1 + 1 = m by omega]
      set nd2 : Node K := { nd1 with lowerChild := (t.numUsedNodes : Int) } with hnd2
      set t2 : Tree K :=
        { nodes := (t1.nodes.set t.numUsedNodes nn).set i nd2, numUsedNodes := t.numUsedNodes + 1, dataIndex := idx, depth := t.depth }
        with ht2
      have ht2l : t2.nodes.length = t.nodes.length := by simp [ht2, ht1]
      have ht2i : t2.nodes[i]? = some nd2 := by
        simp only [ht2]
        rw [List.getElem?_set_self (by simp [ht1]; exact hlt)]
      have ht2c : t2.nodes[t.numUsedNodes]? = some nn := by
        simp only [ht2]
        rw [List.getElem?_set_ne (by omega), List.getElem?_set_self (by simp [ht1]; omega)]
      have ht2f : ∀ j, j ≠ i → j < t.numUsedNodes → t2.nodes[j]? = t.nodes[j]? := by
        intro j hj hj'
        simp only [ht2, ht1]
        rw [List.getElem?_set_ne (Ne.symm hj), List.getElem?_set_ne (by omega), List.getElem?_set_ne (Ne.symm hj)]
      have hpts1 : ∀ p ∈ ptsIn idx b e, p < n := fun p hp => hpts p (p1.subset hp)
      have happ := ptsIn_append idx (Nat.le_of_lt m1) (Nat.le_of_lt m2)
      obtain ⟨s3, t3, shl, e3, inv3, P3⟩ := ih s1 t2 t.numUsedNodes b m (depth + 1) nn c2 ht2c nn0
        (by simp [ht2]) m1 (by omega) (by omega) (by simp only [ht2]; omega)
        (by rw [ht2l]; simp only [ht2]; omega)
        (fun p hp => hpts1 p (by rw [happ]; exact List.mem_append_left _ hp))
      rw [e3]
      simp only [Option.bind_some]
      have hsz3 := P3.size
      have hused3 := P3.used
      have ht2u : t2.numUsedNodes = t.numUsedNodes + 1 := rfl
      have hlen3 := P3.len
      obtain ⟨nn4, nn40, e4⟩ := nodeNew_spec (t := t3) (p := i) (by omega)
      rw [e4]
      simp only [Option.bind_some]
      have ht3i : t3.nodes[i]? = some nd2 := by rw [P3.frame i (by omega) (by omega), ht2i]
      have g2 : (t3.nodes.set t3.numUsedNodes nn4)[i]? = some nd2 := by
        rw [List.getElem?_set_ne (by omega), ht3i]
      rw [modNode_of _ g2]
      simp only [Option.bind_some]
      set nd4 : Node K := { nd2 with upperChild := (t3.numUsedNodes : Int) } with hnd4
      set t4 : Tree K :=
        { nodes := (t3.nodes.set t3.numUsedNodes nn4).set i nd4, numUsedNodes := t3.numUsedNodes + 1, dataIndex := t3.dataIndex,
          depth := t3.depth } with ht4
      have ht4l : t4.nodes.length = t.nodes.length := by simp [ht4, hlen3, ht2l]
      have ht4i : t4.nodes[i]? = some nd4 := by
        simp only [ht4]
        rw [List.getElem?_set_self (by simp only [List.length_set]; omega)]
      have ht4c : t4.nodes[t3.numUsedNodes]? = some nn4 := by
        simp only [ht4]
        rw [List.getElem?_set_ne (by omega), List.getElem?_set_self (by omega)]
      have ht4f : ∀ j, j ≠ i → j < t3.numUsedNodes → t4.nodes[j]? = t3.nodes[j]? := by
        intro j hj hj'
        simp only [ht4]
        rw [List.getElem?_set_ne (Ne.symm hj), List.getElem?_set_ne (by omega)]
      have hidx3 : ptsIn t3.dataIndex m e = ptsIn idx m e := ptsIn_congr (fun j hj _ => P3.iframe j (Or.inr hj))
      have hil3 : t3.dataIndex.length = n := by rw [P3.ilen]; simp only [ht2]; omega
      obtain ⟨s5, t5, shr, e5, inv5, P5⟩ := ih s3 t4 t3.numUsedNodes m e (depth + 1) nn4 inv3 ht4c nn40
        (by simp [ht4]) m2 (by omega) (by omega) (by simp only [ht4]; omega)
        (by rw [ht4l]; simp only [ht4]; omega)
        (fun p hp => hpts1 p (by
          rw [happ]
          refine List.mem_append_right _ ?_
          rw [← hidx3]
          exact hp))
      rw [e5]
      have ht4u : t4.numUsedNodes = t3.numUsedNodes + 1 := rfl
      have hsz5 := P5.size
      have hused5 := P5.used
      have hpos3 := shl.size_pos
      have hpos5 := shr.size_pos
      have hidx4 : t4.dataIndex = t3.dataIndex := rfl
      have hidx2 : t2.dataIndex = idx := rfl
      have hframe5 : ∀ j, j ≠ i → j < t3.numUsedNodes → t5.nodes[j]? = t3.nodes[j]? := by
        intro j hj hj'
        rw [P5.frame j (by omega) (by omega), ht4f j hj hj']
      have ht5i : t5.nodes[i]? = some nd4 := by rw [P5.frame i (by omega) (by omega), ht4i]
      have hpl : (ptsIn t5.dataIndex b m).Perm (ptsIn idx b m) := by
        have : ptsIn t5.dataIndex b m = ptsIn t3.dataIndex b m := ptsIn_congr (fun j _ hj => P5.iframe j (Or.inl hj))
        rw [this]
        exact P3.perm
      have hpr : (ptsIn t5.dataIndex m e).Perm (ptsIn idx m e) := by
        rw [← hidx3]
        exact P5.perm
      refine ⟨s5, t5, .node shl shr, rfl, inv5, ?_, ?_, ?_, ?_, ?_, ?_, ?_, ?_, ?_⟩
      · rw [P5.len, ht4l]
      · simp only [Shape.size]; omega
      · intro j hj hj'
        rw [hframe5 j hj (by omega), P3.frame j (by omega) (by omega), ht2f j hj hj']
      · rw [P5.ilen, hidx4]; omega
      · intro j hj
        rw [P5.iframe j (by omega), hidx4, P3.iframe j (by omega), hidx2, f1 j hj]
      · rw [ptsIn_append t5.dataIndex (Nat.le_of_lt m1) (Nat.le_of_lt m2)]
        refine List.Perm.trans ?_ p1
        rw [happ]
        exact hpl.append hpr
      · simp only [Shape.size]; omega
      · intro nodes ix hn hix
        have hxl : ptsIn ix b m = ptsIn t5.dataIndex b m := ptsIn_congr (fun j h1 h2 => hix j h1 (by omega))
        have hxr : ptsIn ix m e = ptsIn t5.dataIndex m e := ptsIn_congr (fun j h1 h2 => hix j (by omega) h2)
        refine ⟨nd4, m, t.numUsedNodes, t3.numUsedNodes, ?_, rfl, rfl, by omega, by omega, hsp, ?_, ?_, ?_, ?_⟩
        · rw [hn i (Or.inl rfl), ht5i]
        · intro p hp
          rw [hxl] at hp
          exact q1 p (hpl.subset hp)
        · intro p hp
          rw [hxr] at hp
          exact q2 p (hpr.subset hp)
        · refine P3.tree nodes ix ?_ ?_
          · intro j hj
            rw [hn j (by omega), hframe5 j (by omega) (by omega)]
          · intro j h1 h2
            rw [hix j h1 (by omega), P5.iframe j (Or.inl h2)]
        · refine P5.tree nodes ix ?_ ?_
          · intro j hj
            exact hn j (by omega)
          · intro j h1 h2
            exact hix j (by omega) h2
      · intro nodes ix hn hix
        have hxl : ptsIn ix b m = ptsIn t5.dataIndex b m := ptsIn_congr (fun j h1 h2 => hix j h1 (by omega))
        have hxr : ptsIn ix m e = ptsIn t5.dataIndex m e := ptsIn_congr (fun j h1 h2 => hix j (by omega) h2)
        refine ⟨nd4, m, t.numUsedNodes, t3.numUsedNodes, ?_, rfl, rfl, ?_, ?_, ?_⟩
        · rw [hn i (Or.inl rfl), ht5i]
        · refine hmk.permQ _ _ _ ?_ (k2 sp rfl)
          rw [ptsIn_append ix (Nat.le_of_lt m1) (Nat.le_of_lt m2), hxl, hxr]
          refine p1.symm.trans ?_
          rw [happ]
          exact (hpl.append hpr).symm
        · refine P3.mark nodes ix ?_ ?_
          · intro j hj
            rw [hn j (by omega), hframe5 j (by omega) (by omega)]
          · intro j h1 h2
            rw [hix j h1 (by omega), P5.iframe j (Or.inl h2)]
        · refine P5.mark nodes ix ?_ ?_
          · intro j hj
            exact hn j (by omega)
          · intro j h1 h2
            exact hix j (by omega) h2

omit [Field K] [LinearOrder K] in
/-- Initialisation of the index, vl/kdtree.c:548-550. -/
theorem initIndex (n : Nat) (blk : List (Entry K)) (h : blk.length = n) :
    ∃ idx : List (Entry K), iter n (fun di idx => do
        let en ← rd idx di
        wr idx di { en with index := di }) blk = some idx ∧ idx.length = n ∧ ptsIn idx 0 n = List.range n := by
  obtain ⟨idx, h1, h2, h3⟩ := iter_inv (n := n) (s := blk)
    (f := fun di idx => do
        let en ← rd idx di
        wr idx di { en with index := di })
    (fun j idx => idx.length = n ∧ ∀ k < j, idx[k]?.map Entry.index = some k)
    ⟨h, by omega⟩
    (by
      intro j hj l ⟨hl, hk⟩
      refine ⟨l.set j { l[j] with index := j }, ?_, by simpa using hl, ?_⟩
      · rw [rd_of_lt (by omega)]
        simp only [Option.bind_eq_bind, Option.bind_some]
        rw [wr_of_lt (by omega)]
      · intro k hkj
        rw [List.getElem?_set]
        by_cases c : j = k
        · subst c
          rw [if_pos rfl, if_pos (by omega)]; rfl
        · rw [if_neg c]
          exact hk k (by omega))
  refine ⟨idx, h1, h2, ?_⟩
  apply List.ext_getElem?
  intro j
  rw [ptsIn_getElem?]
  split
  · rename_i hj
    rw [Nat.zero_add, h3 j (by omega), List.getElem?_range (by omega)]
  · rw [List.getElem?_eq_none (by simp; omega)]

/-- What C23 asserts about one tree on `n` points: it fits in the allocated block, its index lists every data point exactly
once, and the root represents the whole index. -/
def GoodTree (dim : Nat) (data : List K) (n : Nat) (t : Tree K) : Prop :=
  ∃ sh : Shape, IsTree dim data t.nodes t.dataIndex sh 0 0 n ∧ t.dataIndex.length = n ∧
    (ptsIn t.dataIndex 0 n).Perm (List.range n) ∧ t.numUsedNodes = sh.size ∧ sh.size ≤ 2 * n - 1 ∧ t.nodes.length = 2 * n - 1

/-- Every statistics satisfies the trivial marks. -/
theorem chooserMarks_true (C : Cfg σ K) (n : Nat) (Inv : σ → Prop) : ChooserMarks C n Inv (fun _ => True) (fun _ _ => True) :=
  ⟨fun _ => trivial, fun _ _ _ _ => trivial, fun _ _ _ _ _ => trivial, fun _ _ _ _ _ _ _ _ _ _ _ => ⟨fun _ => trivial, fun _ _ => trivial⟩⟩

/-- One tree, with what the statistics say about its leaves and its splits. -/
theorem buildTree_marked (C : Cfg σ K) {n : Nat} {Inv : σ → Prop} (hn : 1 ≤ n) (hdim : C.data.length = n * C.dim)
    (hsort : SortOk C.sort) (hch : ChooserOk C n Inv) {P : List Nat → Prop} {Q : Nat → List Nat → Prop}
    (hmk : ChooserMarks C n Inv P Q) (h64 : n < 2 ^ 64) (s : σ) (hs : Inv s) (nodesBlk : List (Node K))
    (idxBlk : List (Entry K)) (h1 : nodesBlk.length = 2 * n - 1) (h2 : idxBlk.length = n) :
    ∃ s' t, buildTree C n nodesBlk idxBlk s = some (s', t) ∧ Inv s' ∧ GoodTree C.dim C.data n t ∧
      ∃ sh, Marked P Q t.nodes t.dataIndex sh 0 0 n := by
  obtain ⟨idx, e1, l1, p1⟩ := initIndex n idxBlk h2
  unfold buildTree
  rw [e1]
  simp only [Option.bind_eq_bind, Option.bind_some]
  obtain ⟨nn, nn0, e2⟩ := nodeNew_spec
    (t := { nodes := nodesBlk, numUsedNodes := 0, dataIndex := idx, depth := 0 }) (p := 0) (by simp only; omega)
  rw [e2]
  simp only [Option.bind_some]
  obtain ⟨s', t', sh, e3, i3, P0⟩ := buildRec_post C hdim hsort hch hmk h64 (2 * n - 1) s
    { nodes := nodesBlk.set 0 nn, numUsedNodes := 0 + 1, dataIndex := idx, depth := 0 } 0 0 n 0 nn hs
    (by simp only; rw [List.getElem?_set_self (by omega)]) nn0 (by simp) (by omega) (by omega) (Nat.le_refl _) l1
    (by simp only [List.length_set]; omega)
    (by simp only; rw [p1]; intro p hp; simpa using hp)
  refine ⟨s', t', e3, i3, ⟨sh, ?_, ?_, ?_, ?_, ?_, ?_⟩, sh, P0.mark _ _ (fun _ _ => rfl) (fun _ _ _ => rfl)⟩
  · exact P0.tree _ _ (fun _ _ => rfl) (fun _ _ _ => rfl)
  · rw [P0.ilen, l1]
  · refine P0.perm.trans ?_
    simp only
    rw [p1]
  · have := P0.used
    simp only at this
    omega
  · have := P0.size
    omega
  · rw [P0.len]; simp [h1]

/-- C23 for one tree, for all data, all thresholding methods, all statistics and all implementations of `qsort`. -/
theorem buildTree_good (C : Cfg σ K) {n : Nat} {Inv : σ → Prop} (hn : 1 ≤ n) (hdim : C.data.length = n * C.dim)
    (hsort : SortOk C.sort) (hch : ChooserOk C n Inv) (h64 : n < 2 ^ 64) (s : σ) (hs : Inv s) (nodesBlk : List (Node K))
    (idxBlk : List (Entry K)) (h1 : nodesBlk.length = 2 * n - 1) (h2 : idxBlk.length = n) :
    ∃ s' t, buildTree C n nodesBlk idxBlk s = some (s', t) ∧ Inv s' ∧ GoodTree C.dim C.data n t := by
  obtain ⟨s', t, e, i, g, -⟩ := buildTree_marked C hn hdim hsort hch (chooserMarks_true C n Inv) h64 s hs nodesBlk idxBlk h1 h2
  exact ⟨s', t, e, i, g⟩

end Verif.KdTree
