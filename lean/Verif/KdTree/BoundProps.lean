import Verif.KdTree.BuildProps
import Verif.Heap.Props

/-! # C23, continued: bounds of the nodes, leaves, forests, and the exact statistics -/

namespace Verif.KdTree

variable {K σ : Type} [Field K] [LinearOrder K]

/-- A node without its bounds. -/
def strip (nd : Node K) : Node K := { nd with lowerBound := none, upperBound := none }

theorem IsTree.strip_congr {dim : Nat} {data : List K} {nodes nodes' : List (Node K)} {idx : List (Entry K)} {sh : Shape} {i b e : Nat}
    (hs : ∀ j : Nat, nodes'[j]?.map strip = nodes[j]?.map strip) (h : IsTree dim data nodes idx sh i b e) :
    IsTree dim data nodes' idx sh i b e := by
  have get : ∀ (j : Nat) (nd : Node K), nodes[j]? = some nd → ∃ nd', nodes'[j]? = some nd' ∧ strip nd' = strip nd := by
    intro j nd hj
    have := hs j
    rw [hj, Option.map_some, Option.map_eq_some_iff] at this
    exact this
  induction sh generalizing i b e with
  | leaf =>
    obtain ⟨nd, h1, h2, h3, h4, h5⟩ := h
    obtain ⟨nd', g1, g2⟩ := get i nd h1
    simp only [strip, Node.mk.injEq] at g2
    exact ⟨nd', g1, by rw [g2.2.1, h2], by rw [g2.2.2.1, h3], by rw [g2.2.2.2.1, h4], h5⟩
  | node l r ihl ihr =>
    obtain ⟨nd, m, c1, c2, h1, h2, h3, h4, h5, h6, h7, h8, h9, h10⟩ := h
    obtain ⟨nd', g1, g2⟩ := get i nd h1
    simp only [strip, Node.mk.injEq] at g2
    refine ⟨nd', m, c1, c2, g1, by rw [g2.2.1, h2], by rw [g2.2.2.1, h3], h4, h5, by rw [g2.2.2.2.1]; exact h6, ?_, ?_, ihl h9, ihr h10⟩
    · rw [g2.2.2.2.1, g2.2.2.2.2.1]; exact h7
    · rw [g2.2.2.2.1, g2.2.2.2.2.1]; exact h8

omit [Field K] [LinearOrder K] in
/-- The array `searchBounds` holds the bounds `lo`, `hi`. -/
def SBRep (dim : Nat) (sb : List (Option K)) (lo hi : Nat → Option K) : Prop :=
  sb.length = 2 * dim ∧ ∀ d < dim, sb[2 * d + 0]? = some (lo d) ∧ sb[2 * d + 1]? = some (hi d)

omit [Field K] [LinearOrder K] in
theorem SBRep.set_hi {dim : Nat} {sb : List (Option K)} {lo hi : Nat → Option K} (h : SBRep dim sb lo hi) {i : Nat} (hi' : i < dim)
    (x : Option K) : SBRep dim (sb.set (2 * i + 1) x) lo (Function.update hi i x) := by
  refine ⟨by simpa using h.1, fun d hd => ?_⟩
  have := h.1
  rw [List.getElem?_set_ne (by omega), (h.2 d hd).1]
  refine ⟨rfl, ?_⟩
  by_cases c : d = i
  · subst c; rw [List.getElem?_set_self (by omega), Function.update_self]
  · rw [List.getElem?_set_ne (by omega), (h.2 d hd).2, Function.update_of_ne c]

omit [Field K] [LinearOrder K] in
theorem SBRep.set_lo {dim : Nat} {sb : List (Option K)} {lo hi : Nat → Option K} (h : SBRep dim sb lo hi) {i : Nat} (hi' : i < dim)
    (x : Option K) : SBRep dim (sb.set (2 * i + 0) x) (Function.update lo i x) hi := by
  refine ⟨by simpa using h.1, fun d hd => ?_⟩
  have := h.1
  rw [List.getElem?_set_ne (by omega : 2 * i + 0 ≠ 2 * d + 1), (h.2 d hd).2]
  refine ⟨?_, rfl⟩
  by_cases c : d = i
  · subst c; rw [List.getElem?_set_self (by omega), Function.update_self]
  · rw [List.getElem?_set_ne (by omega), (h.2 d hd).1, Function.update_of_ne c]

omit [Field K] [LinearOrder K] in
theorem set_back {α : Type} {l : List α} {k : Nat} {x y : α} (h : l[k]? = some x) : (l.set k y).set k x = l := by
  rw [List.set_set]
  rw [List.getElem?_eq_some_iff] at h
  obtain ⟨h1, h2⟩ := h
  rw [← h2]
  exact List.set_getElem_self h1

omit [Field K] [LinearOrder K] in
theorem strip_set {nodes : List (Node K)} {i : Nat} {nd nd' : Node K} (h : nodes[i]? = some nd) (hs : strip nd' = strip nd) (j : Nat) :
    (nodes.set i nd')[j]?.map strip = nodes[j]?.map strip := by
  have hlt : i < nodes.length := by rw [List.getElem?_eq_some_iff] at h; exact h.1
  by_cases c : i = j
  · subst c; rw [List.getElem?_set_self hlt, h, Option.map_some, Option.map_some, hs]
  · rw [List.getElem?_set_ne c]

theorem calcBounds_spec {dim : Nat} {data : List K} {idx : List (Entry K)} (hdim : 0 < dim) (sh : Shape) :
    ∀ (fuel : Nat) (nodes : List (Node K)) (i b e : Nat) (lo hi : Nat → Option K) (sb : List (Option K)),
      IsTree dim data nodes idx sh i b e → sh.size ≤ fuel → SBRep dim sb lo hi →
      ∃ nodes', calcBounds fuel nodes i sb = some (nodes', sb) ∧ nodes'.length = nodes.length ∧
        (∀ j, (j < i ∨ i + sh.size ≤ j) → nodes'[j]? = nodes[j]?) ∧
        (∀ j : Nat, nodes'[j]?.map strip = nodes[j]?.map strip) ∧
        (∀ N : List (Node K), (∀ j, i ≤ j → j < i + sh.size → N[j]? = nodes'[j]?) → Bounded N sh i lo hi) := by
  induction sh with
  | leaf =>
    intro fuel nodes i b e lo hi sb ht hf hsb
    obtain ⟨nd, h1, h2, h3, h4, h5⟩ := ht
    obtain ⟨f, rfl⟩ : ∃ f, fuel = f + 1 := ⟨fuel - 1, by simp [Shape.size] at hf; omega⟩
    have hlt : i < nodes.length := by rw [List.getElem?_eq_some_iff] at h1; exact h1.1
    refine ⟨nodes.set i { nd with lowerBound := lo 0, upperBound := hi 0 }, ?_, by simp, ?_, ?_, ?_⟩
    · unfold calcBounds
      rw [rd_getElem?, h1]
      simp only [Option.bind_eq_bind, Option.bind_some, h4]
      rw [rd_getElem?, (hsb.2 0 hdim).1]
      simp only [Option.bind_some]
      rw [rd_getElem?, (hsb.2 0 hdim).2]
      simp only [Option.bind_some]
      rw [modNode_of _ h1]
      simp only [Option.bind_some]
      rw [if_neg (by omega)]
      simp only [Option.bind_some]
      rw [if_neg (by omega), h4]
    · intro j hj
      simp only [Shape.size] at hj
      rw [List.getElem?_set_ne (by omega)]
    · exact strip_set h1 rfl
    · intro N _
      trivial
  | node l r ihl ihr =>
    intro fuel nodes i b e lo hi sb ht hf hsb
    obtain ⟨nd, m, c1, c2, h1, h2, h3, h4, h5, h6, h7, h8, h9, h10⟩ := ht
    subst h4; subst h5
    simp only [Shape.size] at hf
    obtain ⟨f, rfl⟩ : ∃ f, fuel = f + 1 := ⟨fuel - 1, by omega⟩
    have hlt : i < nodes.length := by rw [List.getElem?_eq_some_iff] at h1; exact h1.1
    set sd := nd.splitDimension with hsd
    set t := nd.splitThreshold with htt
    set nd1 : Node K := { nd with lowerBound := lo sd, upperBound := hi sd } with hnd1
    set nodes1 := nodes.set i nd1 with hn1
    have hstrip1 : ∀ j : Nat, nodes1[j]?.map strip = nodes[j]?.map strip := strip_set h1 rfl
    have hl1 : (2 * sd + 1) < sb.length := by rw [hsb.1]; omega
    have hl0 : (2 * sd + 0) < sb.length := by rw [hsb.1]; omega
    obtain ⟨n2, e2, l2, f2, s2, b2⟩ := ihl f nodes1 (i + 1) b m lo _ _ (h9.strip_congr hstrip1) (by omega) (hsb.set_hi h6 (some t))
    obtain ⟨n3, e3, l3, f3, s3, b3⟩ := ihr f n2 (i + 1 + l.size) m e _ hi _
      ((h10.strip_congr hstrip1).strip_congr s2) (by omega) (hsb.set_lo h6 (some t))
    have hrun : calcBounds (f + 1) nodes i sb = some (n3, sb) := by
      unfold calcBounds
      rw [rd_getElem?, h1]
      simp only [Option.bind_eq_bind, Option.bind_some, ← hsd, ← htt]
      rw [rd_getElem?, (hsb.2 sd h6).1]
      simp only [Option.bind_some]
      rw [rd_getElem?, (hsb.2 sd h6).2]
      simp only [Option.bind_some]
      rw [modNode_of _ h1]
      simp only [Option.bind_some]
      rw [if_pos (by omega), wr_of_lt hl1]
      simp only [Option.bind_some, ← hnd1, ← hn1]
      rw [show nd.lowerChild.toNat = i + 1 by omega, e2]
      simp only [Option.bind_some]
      rw [wr_of_lt (by simpa using hl1), set_back (hsb.2 sd h6).2]
      simp only [Option.bind_some]
      rw [if_pos (by omega), wr_of_lt hl0]
      simp only [Option.bind_some]
      rw [show nd.upperChild.toNat = i + 1 + l.size by omega, e3]
      simp only [Option.bind_some]
      rw [wr_of_lt (by simpa using hl0), set_back (hsb.2 sd h6).1]
      rfl
    have hpl := l.size_pos
    have hpr := r.size_pos
    refine ⟨n3, hrun, ?_, ?_, ?_, ?_⟩
    · rw [l3, l2, hn1]; simp
    · intro j hj
      simp only [Shape.size] at hj
      rw [f3 j (by omega), f2 j (by omega), hn1, List.getElem?_set_ne (by omega)]
    · intro j
      rw [s3, s2, hstrip1]
    · intro N hN
      simp only [Shape.size] at hN
      refine ⟨nd1, ?_, rfl, rfl, ?_, ?_⟩
      · rw [hN i (by omega) (by omega), f3 i (by omega), f2 i (by omega), hn1, List.getElem?_set_self hlt]
      · rw [show nd1.lowerChild.toNat = i + 1 by simp only [hnd1]; omega]
        refine b2 N (fun j h1 h2 => ?_)
        rw [hN j (by omega) (by omega), f3 j (by omega)]
      · rw [show nd1.upperChild.toNat = i + 1 + l.size by simp only [hnd1]; omega]
        exact b3 N (fun j h1 h2 => hN j (by omega) (by omega))

/-- The leaves found by following the child pointers list the points of the range. -/
theorem leafRanges_spec {dim : Nat} {data : List K} {nodes : List (Node K)} {idx : List (Entry K)} (sh : Shape) :
    ∀ (fuel i b e : Nat), IsTree dim data nodes idx sh i b e → sh.size ≤ fuel →
      ∃ L, leafRanges nodes fuel i = some L ∧ (L.map (fun r => ptsIn idx r.1 r.2)).flatten = ptsIn idx b e ∧
        ∀ r ∈ L, b ≤ r.1 ∧ r.1 < r.2 ∧ r.2 ≤ e := by
  induction sh with
  | leaf =>
    intro fuel i b e ht hf
    obtain ⟨nd, h1, h2, h3, h4, h5⟩ := ht
    obtain ⟨f, rfl⟩ : ∃ f, fuel = f + 1 := ⟨fuel - 1, by simp [Shape.size] at hf; omega⟩
    refine ⟨[(b, e)], ?_, by simp, by simp; exact h5⟩
    unfold leafRanges
    rw [h1]
    simp only [Option.bind_eq_bind, Option.bind_some]
    rw [if_pos (by omega), show (-nd.lowerChild - 1).toNat = b by omega, show (-nd.upperChild - 1).toNat = e by omega]
  | node l r ihl ihr =>
    intro fuel i b e ht hf
    obtain ⟨nd, m, c1, c2, h1, h2, h3, h4, h5, h6, h7, h8, h9, h10⟩ := ht
    simp only [Shape.size] at hf
    obtain ⟨f, rfl⟩ : ∃ f, fuel = f + 1 := ⟨fuel - 1, by omega⟩
    obtain ⟨L1, a1, a2, a3⟩ := ihl f c1 b m h9 (by omega)
    obtain ⟨L2, b1, b2, b3⟩ := ihr f c2 m e h10 (by omega)
    have hbm := h9.lt
    have hme := h10.lt
    refine ⟨L1 ++ L2, ?_, ?_, ?_⟩
    · unfold leafRanges
      rw [h1]
      simp only [Option.bind_eq_bind, Option.bind_some]
      rw [if_neg (by omega), show nd.lowerChild.toNat = c1 by omega, show nd.upperChild.toNat = c2 by omega, a1, b1]
      rfl
    · rw [List.map_append, List.flatten_append, a2, b2, ← ptsIn_append idx (by omega) (by omega)]
    · intro x hx
      rcases List.mem_append.1 hx with h | h
      · have := a3 x h; omega
      · have := b3 x h; omega

/-- C23: every point of the data lies in exactly one leaf of the tree, exactly once. -/
theorem GoodTree.leaves {dim : Nat} {data : List K} {n : Nat} {t : Tree K} (h : GoodTree dim data n t) :
    ∃ L, leafRanges t.nodes t.nodes.length 0 = some L ∧ (L.map (fun r => ptsIn t.dataIndex r.1 r.2)).flatten.Perm (List.range n) := by
  obtain ⟨sh, h1, h2, h3, h4, h5, h6⟩ := h
  obtain ⟨L, a1, a2, -⟩ := leafRanges_spec sh t.nodes.length 0 0 n h1 (by omega)
  exact ⟨L, a1, by rw [a2]; exact h3⟩

/-- A built tree: it partitions the data, and its bounds are those of the boxes of the nodes, the root box being unbounded. -/
def BuiltTree (dim : Nat) (data : List K) (n : Nat) (t : Tree K) : Prop :=
  ∃ sh : Shape, IsTree dim data t.nodes t.dataIndex sh 0 0 n ∧ t.dataIndex.length = n ∧
    (ptsIn t.dataIndex 0 n).Perm (List.range n) ∧ t.numUsedNodes = sh.size ∧ sh.size ≤ 2 * n - 1 ∧ sh.size ≤ t.nodes.length ∧
    Bounded t.nodes sh 0 (fun _ => none) (fun _ => none)

theorem boundTree_spec {dim : Nat} {data : List K} {n : Nat} {t : Tree K} (hdim : 0 < dim) (h : GoodTree dim data n t) :
    ∃ t', boundTree dim t = some t' ∧ BuiltTree dim data n t' ∧ t'.numUsedNodes = t.numUsedNodes := by
  obtain ⟨sh, h1, h2, h3, h4, h5, h6⟩ := h
  obtain ⟨nodes', e1, l1, -, s1, b1⟩ := calcBounds_spec (data := data) (idx := t.dataIndex) hdim sh t.nodes.length t.nodes 0 0 n
    (fun _ => none) (fun _ => none) (List.replicate (2 * dim) none) h1 (by omega)
    ⟨by simp, fun d hd => by
      constructor
      · rw [List.getElem?_replicate, if_pos (by omega)]
      · rw [List.getElem?_replicate, if_pos (by omega)]⟩
  refine ⟨{ t with nodes := nodes' }, by unfold boundTree; rw [e1]; rfl,
    ⟨sh, h1.strip_congr s1, h2, h3, h4, h5, by simp only; omega, b1 _ (fun _ _ _ => rfl)⟩, rfl⟩

theorem mapM_spec {α β : Type} {f : α → Option β} {P : β → Prop} (w : α → Nat) (v : β → Nat) (l : List α)
    (h : ∀ a ∈ l, ∃ b, f a = some b ∧ P b ∧ v b = w a) :
    ∃ r, l.mapM f = some r ∧ r.length = l.length ∧ (∀ b ∈ r, P b) ∧ (r.map v).sum = (l.map w).sum := by
  induction l with
  | nil => exact ⟨[], rfl, rfl, by simp, rfl⟩
  | cons a l ih =>
    obtain ⟨b, h1, h2, h3⟩ := h a (by simp)
    obtain ⟨r, g1, g2, g3, g4⟩ := ih (fun x hx => h x (by simp [hx]))
    refine ⟨b :: r, by simp [List.mapM_cons, h1, g1], by simp [g2], ?_, by simp [h3, g4]⟩
    intro x hx
    rcases List.mem_cons.1 hx with rfl | hx
    · exact h2
    · exact g3 x hx

/-- What holds of every tree when it is built, and of every tree after its bounds are computed, holds of the trees of a forest. -/
theorem forestBuild_all (C : Cfg σ K) {n : Nat} {Inv : σ → Prop} (G B : Tree K → Prop) (hn : 1 ≤ n)
    (hG : ∀ s nodesBlk idxBlk, Inv s → nodesBlk.length = 2 * n - 1 → idxBlk.length = n →
      ∃ s' t, buildTree C n nodesBlk idxBlk s = some (s', t) ∧ Inv s' ∧ G t)
    (hB : ∀ t, G t → ∃ t', boundTree C.dim t = some t' ∧ B t' ∧ t'.numUsedNodes = t.numUsedNodes) (s : σ) (hs : Inv s)
    (blks : List (List (Node K) × List (Entry K))) (hb : ∀ blk ∈ blks, blk.1.length = 2 * n - 1 ∧ blk.2.length = n) :
    ∃ s' trees N, forestBuild C n blks s = some (s', trees, N) ∧ trees.length = blks.length ∧
      (∀ t ∈ trees, B t) ∧ N = (trees.map Tree.numUsedNodes).sum := by
  unfold forestBuild assert'
  rw [if_pos (by simpa using hn)]
  simp only [Option.bind_eq_bind, Option.bind_some]
  have key : ∀ (blks : List (List (Node K) × List (Entry K))) (acc : σ × List (Tree K) × Nat),
      (∀ blk ∈ blks, blk.1.length = 2 * n - 1 ∧ blk.2.length = n) → Inv acc.1 → (∀ t ∈ acc.2.1, G t) →
      acc.2.2 = (acc.2.1.map Tree.numUsedNodes).sum →
      ∃ acc', blks.foldlM (fun (acc : σ × List (Tree K) × Nat) blk =>
          (buildTree C n blk.1 blk.2 acc.1).bind fun r => some (r.1, acc.2.1 ++ [r.2], acc.2.2 + r.2.numUsedNodes)) acc = some acc' ∧
        acc'.2.1.length = acc.2.1.length + blks.length ∧
        (∀ t ∈ acc'.2.1, G t) ∧ acc'.2.2 = (acc'.2.1.map Tree.numUsedNodes).sum := by
    intro blks
    induction blks with
    | nil => intro acc _ _ h3 h4; exact ⟨acc, rfl, by simp, h3, h4⟩
    | cons blk blks ih =>
      intro acc hb hi hg hsum
      obtain ⟨b1, b2⟩ := hb blk (by simp)
      obtain ⟨s', t, e1, i1, g1⟩ := hG acc.1 blk.1 blk.2 hi b1 b2
      obtain ⟨acc', e2, l2, g2, n2⟩ := ih (s', acc.2.1 ++ [t], acc.2.2 + t.numUsedNodes) (fun x hx => hb x (by simp [hx])) i1
        (by
          intro x hx
          rcases List.mem_append.1 hx with hx | hx
          · exact hg x hx
          · simp only [List.mem_singleton] at hx; subst hx; exact g1)
        (by simp [hsum])
      refine ⟨acc', ?_, by rw [l2]; simp; omega, g2, n2⟩
      rw [List.foldlM_cons, e1]
      simp only [Option.bind_eq_bind, Option.bind_some]
      exact e2
  obtain ⟨acc', e1, l1, g1, n1⟩ := key blks (s, [], 0) hb hs (by simp) (by simp)
  rw [e1]
  simp only [Option.bind_some]
  obtain ⟨trees, e2, l2, g2, n2⟩ := mapM_spec (P := B) Tree.numUsedNodes Tree.numUsedNodes acc'.2.1
    (fun t ht => hB t (g1 t ht))
  rw [e2]
  refine ⟨acc'.1, trees, acc'.2.2, rfl, ?_, g2, ?_⟩
  · rw [l2, l1]; simp
  · rw [n1, n2]

/-- C23: `vl_kdforest_build` succeeds on every data set and yields trees that partition the data. -/
theorem forestBuild_correct (C : Cfg σ K) {n : Nat} {Inv : σ → Prop} (hn : 1 ≤ n) (hd : 0 < C.dim) (hdim : C.data.length = n * C.dim)
    (hsort : SortOk C.sort) (hch : ChooserOk C n Inv) (h64 : n < 2 ^ 64) (s : σ) (hs : Inv s)
    (blks : List (List (Node K) × List (Entry K))) (hb : ∀ blk ∈ blks, blk.1.length = 2 * n - 1 ∧ blk.2.length = n) :
    ∃ s' trees N, forestBuild C n blks s = some (s', trees, N) ∧ trees.length = blks.length ∧
      (∀ t ∈ trees, BuiltTree C.dim C.data n t) ∧ N = (trees.map Tree.numUsedNodes).sum := by
  exact forestBuild_all C (GoodTree C.dim C.data n) (BuiltTree C.dim C.data n) hn
    (fun s nb ib h h1 h2 => buildTree_good C hn hdim hsort hch h64 s h nb ib h1 h2) (fun t ht => boundTree_spec hd ht) s hs blks hb

end Verif.KdTree
