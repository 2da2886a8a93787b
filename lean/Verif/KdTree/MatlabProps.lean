import Verif.KdTree.MatlabModel
import Verif.KdTree.BatchProps
import Mathlib.Algebra.Field.Rat

/-!
# kd-tree forests as structures of MATLAB: proofs (C183, C184)
-/

namespace Verif.KdTree

open Verif

variable {K : Type}

/-! ## Lists -/

theorem mapM_rd {α : Type} (l : List α) (n : Nat) (h : n ≤ l.length) : (List.range n).mapM (rd l) = some (l.take n) := by
  induction n with
  | zero => rfl
  | succ n ih =>
    rw [List.range_succ, List.mapM_append, ih (by omega)]
    show ((some (l.take n)).bind fun a => ([n].mapM (rd l)).bind fun b => some (a ++ b)) = _
    rw [Option.bind_some]
    have : [n].mapM (rd l) = some [l[n]'(by omega)] := by
      simp only [List.mapM_cons, List.mapM_nil]
      rw [rd_of_lt (show n < l.length by omega)]
      rfl
    rw [this, Option.bind_some, ← List.take_append_getElem (by omega)]

theorem mapE_map {α β γ : Type} (f : α → Option (Option β)) (g : γ → α) (l : List γ) : mapE f (l.map g) = mapE (fun c => f (g c)) l := by
  induction l with
  | nil => rfl
  | cons c l ih => simp only [List.map_cons, mapE, ih]

theorem mapE_range {β : Type} (L : List β) : ∀ (f : Nat → Option (Option β)), (∀ j (h : j < L.length), f j = some (some L[j])) → mapE f (List.range L.length) = some (some L) := by
  induction L with
  | nil => intro f _; rfl
  | cons b L ih =>
    intro f h
    rw [List.length_cons, List.range_succ_eq_map, mapE, h 0 (by simp)]
    dsimp only [Option.bind_eq_bind, Option.bind_some]
    rw [mapE_map, ih (fun c => f (c + 1)) (fun j hj => h (j + 1) (by simpa using hj))]
    rfl

/-- Everything in a node except its parent. -/
def noParent (nd : Node K) : Node K := { nd with parent := 0 }

section
variable [Field K] [LinearOrder K]

omit [Field K] [LinearOrder K] in
theorem get_noParent {nodes nodes' : List (Node K)} {j : Nat} {nd : Node K} (hs : nodes'[j]?.map noParent = nodes[j]?.map noParent) (h : nodes[j]? = some nd) :
    ∃ nd', nodes'[j]? = some nd' ∧ nd'.lowerChild = nd.lowerChild ∧ nd'.upperChild = nd.upperChild ∧ nd'.splitDimension = nd.splitDimension ∧ nd'.splitThreshold = nd.splitThreshold ∧
      nd'.lowerBound = nd.lowerBound ∧ nd'.upperBound = nd.upperBound := by
  rw [h, Option.map_some, Option.map_eq_some_iff] at hs
  obtain ⟨nd', h1, h2⟩ := hs
  refine ⟨nd', h1, ?_⟩
  unfold noParent at h2
  simp only [Node.mk.injEq, true_and] at h2
  exact h2

theorem IsTree.congr {dim : Nat} {data : List K} {nodes nodes' : List (Node K)} {idx idx' : List (Entry K)} (sh : Shape) : ∀ {i b e : Nat},
    (∀ j, i ≤ j → j < i + sh.size → nodes'[j]?.map noParent = nodes[j]?.map noParent) → idx'.map Entry.index = idx.map Entry.index → IsTree dim data nodes idx sh i b e →
    IsTree dim data nodes' idx' sh i b e := by
  have pts : ∀ (l : List (Entry K)) (b e : Nat), ptsIn l b e = ((l.map Entry.index).drop b).take (e - b) := by
    intro l b e; unfold ptsIn; rw [List.map_take, List.map_drop]
  induction sh with
  | leaf =>
    intro i b e hs hi h
    obtain ⟨nd, h1, h2, h3, h4, h5⟩ := h
    obtain ⟨nd', g1, g2, g3, g4, -⟩ := get_noParent (hs i (le_refl _) (by simp [Shape.size])) h1
    exact ⟨nd', g1, by rw [g2, h2], by rw [g3, h3], by rw [g4, h4], h5⟩
  | node l r ihl ihr =>
    intro i b e hs hi h
    obtain ⟨nd, m, c1, c2, h1, h2, h3, h4, h5, h6, h7, h8, h9, h10⟩ := h
    have hsz : (Shape.node l r).size = 1 + l.size + r.size := rfl
    obtain ⟨nd', g1, g2, g3, g4, g5, -⟩ := get_noParent (hs i (le_refl _) (by omega)) h1
    refine ⟨nd', m, c1, c2, g1, by rw [g2, h2], by rw [g3, h3], h4, h5, by rw [g4]; exact h6, ?_, ?_, ?_, ?_⟩
    · intro p hp
      rw [pts, hi, ← pts] at hp
      rw [g4, g5]; exact h7 p hp
    · intro p hp
      rw [pts, hi, ← pts] at hp
      rw [g4, g5]; exact h8 p hp
    · exact ihl (fun j h1 h2 => hs j (by omega) (by omega)) hi h9
    · exact ihr (fun j h1 h2 => hs j (by omega) (by omega)) hi h10

theorem Bounded.congr {dim : Nat} {data : List K} {nodes nodes' : List (Node K)} {idx : List (Entry K)} (sh : Shape) : ∀ {i b e : Nat} {lo hi : Nat → Option K},
    (∀ j, i ≤ j → j < i + sh.size → nodes'[j]?.map noParent = nodes[j]?.map noParent) → IsTree dim data nodes idx sh i b e → Bounded nodes sh i lo hi → Bounded nodes' sh i lo hi := by
  induction sh with
  | leaf => intro i b e lo hi _ _ _; trivial
  | node l r ihl ihr =>
    intro i b e lo hi hs ht h
    obtain ⟨nd, m, c1, c2, h1, h2, h3, h4, h5, h6, h7, h8, h9, h10⟩ := ht
    obtain ⟨nd0, b1, b2, b3, b4, b5⟩ := h
    rw [h1] at b1
    obtain rfl := Option.some.inj b1
    have hsz : (Shape.node l r).size = 1 + l.size + r.size := rfl
    obtain ⟨nd', g1, g2, g3, g4, g5, g6, g7⟩ := get_noParent (hs i (le_refl _) (by omega)) h1
    refine ⟨nd', g1, by rw [g6, g4, b2], by rw [g7, g4, b3], ?_, ?_⟩
    · rw [g2, g4, g5]
      rw [h2, Int.toNat_natCast] at b4 ⊢
      exact ihl (fun j h1 h2 => hs j (by omega) (by omega)) h9 b4
    · rw [g3, g4, g5]
      rw [h3, Int.toNat_natCast] at b5 ⊢
      exact ihr (fun j h1 h2 => hs j (by omega) (by omega)) h10 b5

/-- What the nodes of a tree can be. -/
theorem IsTree.node_ok {dim : Nat} {data : List K} {nodes : List (Node K)} {idx : List (Entry K)} (sh : Shape) : ∀ {i b e : Nat}, IsTree dim data nodes idx sh i b e →
    ∀ j, i ≤ j → j < i + sh.size → ∃ nd, nodes[j]? = some nd ∧
      ((∃ b' e' : Nat, nd.lowerChild = -(b' : Int) - 1 ∧ nd.upperChild = -(e' : Int) - 1 ∧ b' < e' ∧ e' ≤ e ∧ nd.splitDimension = 0) ∨
        ∃ c1 c2 : Nat, nd.lowerChild = c1 ∧ nd.upperChild = c2 ∧ c1 < i + sh.size ∧ c2 < i + sh.size ∧ nd.splitDimension < dim) := by
  induction sh with
  | leaf =>
    intro i b e h j h1 h2
    obtain ⟨nd, g1, g2, g3, g4, g5⟩ := h
    simp only [Shape.size] at h2
    obtain rfl : j = i := by omega
    exact ⟨nd, g1, Or.inl ⟨b, e, g2, g3, g5, le_refl _, g4⟩⟩
  | node l r ihl ihr =>
    intro i b e h j hj1 hj2
    obtain ⟨nd, m, c1, c2, h1, h2, h3, h4, h5, h6, h7, h8, h9, h10⟩ := h
    have hsz : (Shape.node l r).size = 1 + l.size + r.size := rfl
    have hl := Shape.size_pos l
    have hr := Shape.size_pos r
    have hme := h10.lt
    by_cases e0 : j = i
    · subst e0
      exact ⟨nd, h1, Or.inr ⟨c1, c2, h2, h3, by omega, by omega, h6⟩⟩
    · by_cases e1 : j < c2
      · obtain ⟨nd', g1, g2⟩ := ihl h9 j (by omega) (by omega)
        refine ⟨nd', g1, ?_⟩
        rcases g2 with ⟨b', e', a1, a2, a3, a4, a5⟩ | ⟨d1, d2, a1, a2, a3, a4, a5⟩
        · exact Or.inl ⟨b', e', a1, a2, a3, by omega, a5⟩
        · exact Or.inr ⟨d1, d2, a1, a2, by omega, by omega, a5⟩
      · obtain ⟨nd', g1, g2⟩ := ihr h10 j (by omega) (by omega)
        refine ⟨nd', g1, ?_⟩
        rcases g2 with ⟨b', e', a1, a2, a3, a4, a5⟩ | ⟨d1, d2, a1, a2, a3, a4, a5⟩
        · exact Or.inl ⟨b', e', a1, a2, a3, by omega, a5⟩
        · exact Or.inr ⟨d1, d2, a1, a2, by omega, by omega, a5⟩

/-- Specification: the parents of the nodes below node `i` are right. -/
def ParentsOk (nodes : List (Node K)) : Shape → Nat → Prop
  | .leaf, _ => True
  | .node l r, i => ∃ nd, nodes[i]? = some nd ∧ (nodes[nd.lowerChild.toNat]?.map Node.parent) = some i ∧ (nodes[nd.upperChild.toNat]?.map Node.parent) = some i ∧
      ParentsOk nodes l nd.lowerChild.toNat ∧ ParentsOk nodes r nd.upperChild.toNat

omit [Field K] [LinearOrder K] in
theorem set_noParent {nodes : List (Node K)} {c p : Nat} {nd : Node K} (h : nodes[c]? = some nd) (j : Nat) : (nodes.set c { nd with parent := p })[j]?.map noParent = nodes[j]?.map noParent := by
  have hlt : c < nodes.length := by rw [List.getElem?_eq_some_iff] at h; exact h.1
  by_cases e : c = j
  · subst e; rw [List.getElem?_set_self hlt, h]; rfl
  · rw [List.getElem?_set_ne e]

omit [Field K] [LinearOrder K] in
theorem visitChild_of (go : List (Node K) → Nat → Nat → Option (Option (List (Node K) × Nat))) (p c : Nat) (nodes : List (Node K)) (left : Nat) (nd : Node K) (h : nodes[c]? = some nd) :
    visitChild go p c nodes left = go (nodes.set c { nd with parent := p }) c left := by
  have hlt : c < nodes.length := by rw [List.getElem?_eq_some_iff] at h; exact h.1
  have hr : rd nodes c = some nd := by rw [rd_getElem?]; exact h
  unfold visitChild
  rw [if_pos (by omega), Int.toNat_natCast, hr]
  dsimp only [Option.bind_eq_bind, Option.bind_some]
  rw [wr_of_lt hlt]
  rfl

theorem restore_spec {dim : Nat} {data : List K} {idx : List (Entry K)} (sh : Shape) : ∀ (fuel : Nat) (nodes : List (Node K)) (i b e left : Nat),
    IsTree dim data nodes idx sh i b e → sh.size ≤ left → sh.size ≤ fuel →
    ∃ nodes' : List (Node K), restore fuel nodes i left = some (some (nodes', left - sh.size)) ∧ nodes'.length = nodes.length ∧ (∀ j : Nat, nodes'[j]?.map noParent = nodes[j]?.map noParent) ∧
      (∀ j : Nat, (j ≤ i ∨ i + sh.size ≤ j) → nodes'[j]? = nodes[j]?) ∧
      ∀ N : List (Node K), (∀ j : Nat, i ≤ j → j < i + sh.size → N[j]?.map noParent = nodes'[j]?.map noParent) →
        (∀ j : Nat, i < j → j < i + sh.size → N[j]? = nodes'[j]?) → ParentsOk N sh i := by
  induction sh with
  | leaf =>
    intro fuel nodes i b e left h hl hf
    obtain ⟨nd, h1, h2, h3, h4, h5⟩ := h
    simp only [Shape.size] at hl hf
    obtain ⟨f, rfl⟩ : ∃ f, fuel = f + 1 := ⟨fuel - 1, by omega⟩
    refine ⟨nodes, ?_, rfl, fun _ => rfl, fun _ _ => rfl, fun _ _ _ => trivial⟩
    have hr : rd nodes i = some nd := by rw [rd_getElem?]; exact h1
    rw [restore, hr]
    dsimp only [Option.bind_eq_bind, Option.bind_some]
    rw [if_neg (by omega)]
    have v1 : ∀ left, visitChild (restore f) i nd.lowerChild nodes left = some (some (nodes, left)) := fun left => by unfold visitChild; rw [if_neg (by omega)]
    have v2 : ∀ left, visitChild (restore f) i nd.upperChild nodes left = some (some (nodes, left)) := fun left => by unfold visitChild; rw [if_neg (by omega)]
    rw [v1]
    dsimp only [Option.bind_some]
    rw [v2]
    rfl
  | node l r ihl ihr =>
    intro fuel nodes i b e left h hl hf
    obtain ⟨nd, m, c1, c2, h1, h2, h3, h4, h5, h6, h7, h8, h9, h10⟩ := h
    have hsz : (Shape.node l r).size = 1 + l.size + r.size := rfl
    have hlp := Shape.size_pos l
    have hrp := Shape.size_pos r
    obtain ⟨f, rfl⟩ : ∃ f, fuel = f + 1 := ⟨fuel - 1, by omega⟩
    have hr : rd nodes i = some nd := by rw [rd_getElem?]; exact h1
    obtain ⟨n1, g1, -⟩ := h9.node_ok l c1 (le_refl _) (by omega)
    obtain ⟨nodesL, eL, lenL, sL, fL, pL⟩ := ihl f (nodes.set c1 { n1 with parent := i }) c1 b m (left - 1) (h9.congr l (fun j _ _ => set_noParent g1 j) rfl) (by omega) (by omega)
    have sL' : ∀ j, nodesL[j]?.map noParent = nodes[j]?.map noParent := fun j => (sL j).trans (set_noParent g1 j)
    have h10' := h10.congr r (nodes' := nodesL) (fun j _ _ => sL' j) rfl
    obtain ⟨n2, g2, -⟩ := h10'.node_ok r c2 (le_refl _) (by omega)
    obtain ⟨nodesR, eR, lenR, sR, fR, pR⟩ := ihr f (nodesL.set c2 { n2 with parent := i }) c2 m e (left - 1 - l.size) (h10'.congr r (fun j _ _ => set_noParent g2 j) rfl) (by omega) (by omega)
    have sR' : ∀ j, nodesR[j]?.map noParent = nodes[j]?.map noParent := fun j => (sR j).trans ((set_noParent g2 j).trans (sL' j))
    have c1lt : c1 < nodes.length := by rw [List.getElem?_eq_some_iff] at g1; exact g1.1
    have c2lt : c2 < nodesL.length := by rw [List.getElem?_eq_some_iff] at g2; exact g2.1
    have atC1 : nodesR[c1]? = some { n1 with parent := i } := by
      rw [fR c1 (Or.inl (by omega)), List.getElem?_set_ne (by omega), fL c1 (Or.inl (le_refl _)), List.getElem?_set_self c1lt]
    have atC2 : nodesR[c2]? = some { n2 with parent := i } := by
      rw [fR c2 (Or.inl (le_refl _)), List.getElem?_set_self c2lt]
    refine ⟨nodesR, ?_, ?_, sR', ?_, ?_⟩
    · rw [restore, hr]
      dsimp only [Option.bind_eq_bind, Option.bind_some]
      rw [if_neg (by omega), h2, h3, visitChild_of _ _ _ _ _ _ g1, eL]
      dsimp only [Option.bind_some]
      rw [visitChild_of _ _ _ _ _ _ g2, eR]
      congr 3
      omega
    · rw [lenR, List.length_set, lenL, List.length_set]
    · intro j hj
      rw [fR j (by omega), List.getElem?_set_ne (by omega), fL j (by omega), List.getElem?_set_ne (by omega)]
    · intro N hN hN'
      obtain ⟨nd', a1, a2, a3, -⟩ := get_noParent ((hN i (le_refl _) (by omega)).trans (sR' i)) h1
      refine ⟨nd', a1, ?_, ?_, ?_, ?_⟩
      · rw [a2, h2, Int.toNat_natCast, hN' c1 (by omega) (by omega), atC1]; rfl
      · rw [a3, h3, Int.toNat_natCast, hN' c2 (by omega) (by omega), atC2]; rfl
      · rw [a2, h2, Int.toNat_natCast]
        refine pL N (fun j q1 q2 => ?_) (fun j q1 q2 => ?_)
        · rw [hN j (by omega) (by omega), sR j, set_noParent g2 j]
        · rw [hN' j (by omega) (by omega), fR j (Or.inl (by omega)), List.getElem?_set_ne (by omega)]
      · rw [a3, h3, Int.toNat_natCast]
        refine pR N (fun j q1 q2 => ?_) (fun j q1 q2 => ?_)
        · rw [hN j (by omega) (by omega)]
        · rw [hN' j (by omega) (by omega)]

/-! ## One tree -/

/-- What a tree keeps: the used nodes up to the memory that is not used, their contents and the order of the data. -/
def SameTree (t t' : Tree K) : Prop :=
  t'.numUsedNodes = t.numUsedNodes ∧ t'.nodes.length = t.numUsedNodes ∧ t'.dataIndex.map Entry.index = t.dataIndex.map Entry.index ∧
    (∀ j < t.numUsedNodes, ∃ nd nd', t.nodes[j]? = some nd ∧ t'.nodes[j]? = some nd' ∧ nd'.lowerChild = nd.lowerChild ∧ nd'.upperChild = nd.upperChild ∧
      nd'.splitDimension = nd.splitDimension ∧ nd'.splitThreshold = nd.splitThreshold ∧ nd'.lowerBound = nd.lowerBound ∧ nd'.upperBound = nd.upperBound) ∧
    ∃ sh : Shape, sh.size = t.numUsedNodes ∧ ParentsOk t'.nodes sh 0

omit [Field K] [LinearOrder K] in
theorem toInt32_id {x : Int} (h1 : -2 ^ 31 ≤ x) (h2 : x < 2 ^ 31) : toInt32 x = x := by unfold toInt32; omega

omit [Field K] [LinearOrder K] in
theorem toUInt32_id {x : Nat} (h : x < 2 ^ 32) : toUInt32 (x : Int) = x := by unfold toUInt32; omega

omit [Field K] [LinearOrder K] in
theorem toUInt32_succ_pred {x : Nat} (h : x + 1 < 2 ^ 32) : toUInt32 ((toUInt32 ((x : Int) + 1) : Int) - 1) = x := by unfold toUInt32; omega

omit [Field K] [LinearOrder K] in
theorem rd_map_take {α β : Type} (l : List α) (n j : Nat) (f : α → β) (a : α) (hj : j < n) (h : l[j]? = some a) : rd ((l.take n).map f) j = some (f a) := by
  rw [rd_getElem?, List.getElem?_map, List.getElem?_take, if_pos hj, h]; rfl

theorem loadTree_saveTree {dim : Nat} {data : List K} {n : Nat} {t : Tree K} (h : BuiltTree dim data n t) (hn : n < 2 ^ 30) (hdim : 0 < dim) (hd : dim < 2 ^ 32 - 1) (junk : K) :
    ∃ m t', saveTree n t = some m ∧ m.lowerChild.length = t.numUsedNodes ∧ loadTree dim n junk m = some (some t') ∧ SameTree t t' ∧ BuiltTree dim data n t' := by
  obtain ⟨sh, h1, h2, h3, h4, h5, h6, h7⟩ := h
  have hsp := Shape.size_pos sh
  have eN : (List.range t.numUsedNodes).mapM (rd t.nodes) = some (t.nodes.take t.numUsedNodes) := mapM_rd _ _ (by omega)
  have eI : (List.range n).mapM (rd t.dataIndex) = some t.dataIndex := by
    rw [mapM_rd _ _ (by omega), List.take_of_length_le (by omega)]
  obtain ⟨m, hm⟩ : ∃ m : MTree K, m = {
    lowerChild := (t.nodes.take t.numUsedNodes).map fun nd => toInt32 (saveChild nd.lowerChild)
    upperChild := (t.nodes.take t.numUsedNodes).map fun nd => toInt32 (saveChild nd.upperChild)
    splitDimension := (t.nodes.take t.numUsedNodes).map fun nd => toUInt32 (nd.splitDimension + 1)
    splitThreshold := (t.nodes.take t.numUsedNodes).map fun nd => nd.splitThreshold
    lowerBound := (t.nodes.take t.numUsedNodes).map fun nd => nd.lowerBound
    upperBound := (t.nodes.take t.numUsedNodes).map fun nd => nd.upperBound
    dataIndex := t.dataIndex.map fun en => toUInt32 (en.index + 1) } := ⟨_, rfl⟩
  have eS : saveTree n t = some m := by
    unfold saveTree
    rw [eN, eI, hm]
    rfl
  have hlt : (t.nodes.take t.numUsedNodes).length = t.numUsedNodes := by rw [List.length_take]; omega
  have hlen : m.lowerChild.length = t.numUsedNodes := by rw [hm, List.length_map, hlt]
  -- the nodes
  obtain ⟨L, hL⟩ : ∃ L, L = (t.nodes.take t.numUsedNodes).map noParent := ⟨_, rfl⟩
  have hLl : L.length = t.numUsedNodes := by rw [hL, List.length_map, hlt]
  have hLj : ∀ j < t.numUsedNodes, L[j]?.map noParent = t.nodes[j]?.map noParent := by
    intro j hj
    rw [hL, List.getElem?_map, List.getElem?_take, if_pos hj, Option.map_map]
    rfl
  have eL : mapE (loadNode dim n t.numUsedNodes m) (List.range t.numUsedNodes) = some (some L) := by
    have := mapE_range L (loadNode dim n t.numUsedNodes m) (by
      intro j hj
      rw [hLl] at hj
      obtain ⟨nd, g1, g2⟩ := h1.node_ok sh j (Nat.zero_le _) (by omega)
      have gL : L[j]'(by omega) = noParent nd := by
        have : L[j]? = some (noParent nd) := by
          rw [hL, List.getElem?_map, List.getElem?_take, if_pos hj, g1]; rfl
        rw [List.getElem?_eq_some_iff] at this
        exact this.2
      have r1 : rd m.lowerChild j = some (toInt32 (saveChild nd.lowerChild)) := by rw [hm]; exact rd_map_take _ _ _ _ _ hj g1
      have r2 : rd m.upperChild j = some (toInt32 (saveChild nd.upperChild)) := by rw [hm]; exact rd_map_take _ _ _ _ _ hj g1
      have r3 : rd m.splitDimension j = some (toUInt32 (nd.splitDimension + 1)) := by rw [hm]; exact rd_map_take _ _ _ (fun nd : Node K => toUInt32 (nd.splitDimension + 1)) _ hj g1
      have r4 : rd m.splitThreshold j = some nd.splitThreshold := by rw [hm]; exact rd_map_take _ _ _ _ _ hj g1
      have r5 : rd m.lowerBound j = some nd.lowerBound := by rw [hm]; exact rd_map_take _ _ _ _ _ hj g1
      have r6 : rd m.upperBound j = some nd.upperBound := by rw [hm]; exact rd_map_take _ _ _ _ _ hj g1
      have hdd : nd.splitDimension + 1 ≤ dim ∨ (nd.splitDimension = 0 ∧ nd.lowerChild < 0) := by
        rcases g2 with ⟨b', e', a1, a2, a3, a4, a5⟩ | ⟨d1, d2, a1, a2, a3, a4, a5⟩
        · right; exact ⟨a5, by omega⟩
        · left; omega
      have hdd' : nd.splitDimension + 1 ≤ dim := by omega
      have e3 : toUInt32 ((nd.splitDimension : Int) + 1) = nd.splitDimension + 1 := by unfold toUInt32; omega
      have e3' : toUInt32 (((nd.splitDimension + 1 : Nat) : Int) - 1) = nd.splitDimension := by unfold toUInt32; omega
      have cl : ∀ c : Int, -(2 ^ 30 : Int) - 1 ≤ c → c < 2 ^ 31 - 1 → toInt32 (saveChild c) = if c ≥ 0 then c + 1 else c := by
        intro c c1 c2
        unfold saveChild
        rw [toInt32_id (x := c) (by omega) (by omega)]
        split <;> rw [toInt32_id (by omega) (by omega)]
      have hc : (-(n : Int) ≤ nd.lowerChild ∧ nd.lowerChild < t.numUsedNodes) ∧ (-(n : Int) - 1 ≤ nd.upperChild ∧ nd.upperChild < t.numUsedNodes) := by
        rcases g2 with ⟨b', e', a1, a2, a3, a4, a5⟩ | ⟨d1, d2, a1, a2, a3, a4, a5⟩ <;> omega
      clear g2
      have e1 := cl nd.lowerChild (by omega) (by omega)
      have e2 := cl nd.upperChild (by omega) (by omega)
      rw [gL]
      unfold loadNode
      rw [r1, r2, r3, r4, r5, r6, e1, e2, e3]
      dsimp only [Option.bind_eq_bind, Option.bind_some]
      rw [if_neg (by split <;> omega), if_neg (by split <;> omega), if_neg (by omega), e3']
      unfold noParent
      congr 3
      · split <;> split <;> omega
      · split <;> split <;> omega)
    rw [hLl] at this
    exact this
  have hIs : IsTree dim data L t.dataIndex sh 0 0 n := h1.congr sh (fun j _ hj => hLj j (by omega)) rfl
  obtain ⟨N, e1, lN, sN, fN, pN⟩ := restore_spec sh (t.numUsedNodes + 1) L 0 0 n t.numUsedNodes hIs (by omega) (by omega)
  have hidx : ∀ en ∈ t.dataIndex, en.index < n := by
    intro en hen
    have hp : en.index ∈ ptsIn t.dataIndex 0 n := by
      unfold ptsIn
      rw [List.drop_zero, List.take_of_length_le (by omega)]
      exact List.mem_map_of_mem hen
    simpa using h3.mem_iff.1 hp
  obtain ⟨I, hI⟩ : ∃ I, I = m.dataIndex.map fun (di : Nat) => ({ index := toUInt32 ((di : Int) - 1), value := junk } : Entry K) := ⟨_, rfl⟩
  have hI' : I.map Entry.index = t.dataIndex.map Entry.index := by
    rw [hI, hm, List.map_map, List.map_map]
    apply List.map_congr_left
    intro en hen
    have := hidx en hen
    exact toUInt32_succ_pred (by omega)
  have hIl : I.length = n := by
    have := congrArg List.length hI'
    simp only [List.length_map] at this
    omega
  have sN' : ∀ j < t.numUsedNodes, N[j]?.map noParent = t.nodes[j]?.map noParent := fun j hj => (sN j).trans (hLj j hj)
  refine ⟨m, { nodes := N, numUsedNodes := t.numUsedNodes, dataIndex := I, depth := 0 }, eS, hlen, ?_, ⟨rfl, by rw [lN, hLl], hI', ?_, sh, h4.symm, ?_⟩, sh, ?_, hIl, ?_, h4, h5, ?_, ?_⟩
  · unfold loadTree
    dsimp only
    rw [hlen]
    rw [if_neg]
    · rw [eL]
      dsimp only [Option.bind_eq_bind, Option.bind_some]
      rw [e1]
      dsimp only [Option.bind_some]
      rw [if_neg (by omega), hI]
    · rw [hm]
      simp only [List.length_map, hlt]
      omega
  · intro j hj
    obtain ⟨nd, g1, -⟩ := h1.node_ok sh j (Nat.zero_le _) (by omega)
    obtain ⟨nd', g2⟩ := get_noParent (sN' j hj) g1
    exact ⟨nd, nd', g1, g2⟩
  · exact pN N (fun _ _ _ => rfl) (fun _ _ _ => rfl)
  · exact h1.congr sh (fun j _ hj => sN' j (by omega)) hI'
  · unfold ptsIn at h3 ⊢
    rw [List.map_take, List.map_drop, hI', ← List.map_drop, ← List.map_take]
    exact h3
  · simp only; omega
  · exact h7.congr sh (fun j _ hj => sN' j (by omega)) h1

/-! ## The forest -/

omit [Field K] [LinearOrder K] in
theorem mapE_mem {α β : Type} (f : α → Option (Option β)) (R : α → β → Prop) (l : List α) (h : ∀ a ∈ l, ∃ b, f a = some (some b) ∧ R a b) :
    ∃ bs, mapE f l = some (some bs) ∧ List.Forall₂ R l bs := by
  induction l with
  | nil => exact ⟨[], rfl, .nil⟩
  | cons a l ih =>
    obtain ⟨b, h1, h2⟩ := h a (List.mem_cons_self ..)
    obtain ⟨bs, h3, h4⟩ := ih (fun a ha => h a (List.mem_cons_of_mem _ ha))
    refine ⟨b :: bs, ?_, .cons h2 h4⟩
    rw [mapE, h1]
    dsimp only [Option.bind_eq_bind, Option.bind_some]
    rw [h3]
    rfl

theorem loadTrees_saveTrees {dim : Nat} {data : List K} {n : Nat} (hn : n < 2 ^ 30) (hdim : 0 < dim) (hd : dim < 2 ^ 32 - 1) (junk : K) (ts : List (Tree K)) (h : ∀ t ∈ ts, BuiltTree dim data n t) :
    ∃ ms ts', ts.mapM (saveTree n) = some ms ∧ ms.length = ts.length ∧ mapE (loadTree dim n junk) ms = some (some ts') ∧ List.Forall₂ SameTree ts ts' ∧ (∀ t ∈ ts', BuiltTree dim data n t) ∧
      (ms.map fun t => t.lowerChild.length).sum = (ts'.map Tree.numUsedNodes).sum := by
  induction ts with
  | nil => exact ⟨[], [], rfl, rfl, rfl, .nil, by simp, rfl⟩
  | cons t ts ih =>
    obtain ⟨m, t', a1, a2, a3, a4, a5⟩ := loadTree_saveTree (h t (List.mem_cons_self ..)) hn hdim hd junk
    obtain ⟨ms, ts', b1, b2, b3, b4, b5, b6⟩ := ih (fun t ht => h t (List.mem_cons_of_mem _ ht))
    refine ⟨m :: ms, t' :: ts', ?_, by simp [b2], ?_, .cons a4 b4, ?_, ?_⟩
    · rw [List.mapM_cons, a1, b1]; rfl
    · rw [mapE, a3]
      dsimp only [Option.bind_eq_bind, Option.bind_some]
      rw [b3]
      rfl
    · intro x hx
      rcases List.mem_cons.1 hx with rfl | hx
      · exact a5
      · exact b5 x hx
    · simp only [List.map_cons, List.sum_cons]
      rw [b6, a2, a4.1]

/-- C183: a forest that `vl_kdtreebuild` returns and `vl_kdtreequery` receives with the same data is accepted, and is again a forest as left by the construction: same nodes, same order of the data, and the parents, which
the structure does not have, are those of the nodes. -/
theorem forest_roundtrip (F : Forest K) (hF : F.Built) (hn : F.numData < 2 ^ 30) (hd : F.dim < 2 ^ 32 - 1) (dist : List K → List K → K) (maxComparisons : Nat) (junk : K) :
    ∃ m F', saveForest F = some m ∧ loadForest m F.dim F.numData F.data dist maxComparisons junk = some (some F') ∧ F'.Built ∧ F'.dim = F.dim ∧ F'.data = F.data ∧ F'.numData = F.numData ∧
      F'.distFn = dist ∧ F'.maxComparisons = maxComparisons ∧ List.Forall₂ SameTree F.trees F'.trees := by
  obtain ⟨ms, ts', b1, b2, b3, b4, b5, b6⟩ := loadTrees_saveTrees hn hF.dim hd junk F.trees hF.built
  have hne : 0 < F.trees.length := List.length_pos_iff.2 hF.ne
  have hN : 0 < F.numData := by
    obtain ⟨t, ht⟩ := List.exists_mem_of_ne_nil _ hF.ne
    obtain ⟨sh, h1, -⟩ := hF.built t ht
    exact h1.lt
  have hdim := hF.dim
  refine ⟨{ dimension := F.dim, numData := F.numData, trees := ms },
    { dim := F.dim, data := F.data, numData := F.numData, trees := ts', distFn := dist, maxComparisons := maxComparisons, maxNumNodes := (ms.map fun t => t.lowerChild.length).sum },
    by unfold saveForest; rw [b1]; rfl, ?_, ⟨hF.dim, hF.data, ?_, b5, b6⟩, rfl, rfl, rfl, rfl, rfl, b4⟩
  · unfold loadForest
    dsimp only
    rw [if_neg (by omega), b3]
    rfl
  · intro e
    have := b4.length_eq
    rw [show ts' = [] from e] at this
    simp at this
    exact hF.ne this

/-! ## The query -/

variable [IsStrictOrderedRing K]

/-- C183: `vl_kdtreequery` on a forest that `vl_kdtreebuild` returned, with the distance `l2` and no limit on the comparisons: column `qi` of the results has the nearest neighbours of column `qi` of the queries, counted from
one, with their distances; the remaining entries, if any, have the index 0 and the distance NaN.  It holds for every way of dividing the queries among the threads and every schedule. -/
theorem kdtree_matlab_nearest (F : Forest K) (hF : F.Built) (hn : F.numData < 2 ^ 30) (hd : F.dim < 2 ^ 32 - 1) (junk : K) (m : MForest K) (hm : saveForest F = some m) :
    ∃ F', loadForest m F.dim F.numData F.data distL2 0 junk = some (some F') ∧
      ∀ (k Q : Nat) (_ : 0 < k) (queries : List K) (_ : queries.length = Q * F.dim) (assign : List (List Nat)) (_ : assign.flatten.Perm (List.range Q))
        (blks : List (List (SearchState K) × List (Neighbor K))) (_ : blks.length = assign.length) (_ : ∀ b ∈ blks, b.1.length = F'.maxNumNodes ∧ b.2.length = k)
        (out : List (Nat × Option K)) (_ : out.length = Q * k) (sched : List Nat) (_ : ∀ t ∈ sched, t < assign.length),
      ∃ st, runBatch F' k queries sched (startBatch F' assign blks out) = some st ∧
        (st.finished → ∀ qi < Q, ∃ pts : List Nat, pts.length = min k F.numData ∧ pts.Nodup ∧ (∀ p ∈ pts, p < F.numData) ∧
          (∀ p < F.numData, p ∈ pts ∨ ∀ p' ∈ pts, distL2 (AllPairs.vec queries F.dim qi) (AllPairs.vec F.data F.dim p') ≤ distL2 (AllPairs.vec queries F.dim qi) (AllPairs.vec F.data F.dim p)) ∧
          pts.Pairwise (fun p p' => distL2 (AllPairs.vec queries F.dim qi) (AllPairs.vec F.data F.dim p) ≤ distL2 (AllPairs.vec queries F.dim qi) (AllPairs.vec F.data F.dim p')) ∧
          ∀ ni < k, (st.out.map matlabIndex)[qi * k + ni]? =
            some (match pts[ni]? with
              | some p => (p + 1, some (distL2 (AllPairs.vec queries F.dim qi) (AllPairs.vec F.data F.dim p)))
              | none => (0, none))) := by
  obtain ⟨m', F', a1, a2, a3, a4, a5, a6, a7, a8, -⟩ := forest_roundtrip F hF hn hd distL2 0 junk
  rw [hm] at a1
  obtain rfl := Option.some.inj a1
  refine ⟨F', a2, ?_⟩
  intro k Q hk queries hq assign hassign blks hblks hb out ho sched hs
  obtain ⟨st, e1, e2⟩ := batch_schedule_independent F' a3 k Q hk queries (by rw [a4]; exact hq) assign hassign blks hblks hb out ho sched hs
  refine ⟨st, e1, fun hf qi hqi => ?_⟩
  obtain ⟨c1, -, -⟩ := e2 hf
  have hvl : (AllPairs.vec queries F'.dim qi).length = F'.dim := by
    have h1 : (qi + 1) * F'.dim ≤ Q * F'.dim := Nat.mul_le_mul_right _ hqi
    rw [a4] at h1 ⊢
    rw [Nat.succ_mul] at h1
    simp only [AllPairs.vec, List.length_take, List.length_drop]; omega
  obtain ⟨S', pts, o, nc, q1, q2, q3, q4⟩ := query_nearest F' a3 a7 a8 _ (newSearcher_ok F' (List.replicate F'.maxNumNodes { tree := 0, nodeIndex := 0, lowerBound := 0 }) (by simp)) k hk (AllPairs.vec queries F'.dim qi) hvl (List.replicate k missing) (by simp)
  obtain ⟨w1, w2, w3, w4, w5⟩ := q3
  obtain ⟨v1, v2⟩ := q4
  unfold ptDist at v2 w5
  rw [a4, a5, a7] at v2 w5
  rw [a6] at v1 v2 w4
  refine ⟨pts, v1, w3, w4, v2, w5, fun ni hni => ?_⟩
  obtain ⟨l, nc', d1, d2⟩ := c1 qi hqi ni hni
  have hlo : l = o := by
    unfold freshAnswer at d1
    rw [q1] at d1
    exact (congrArg Prod.fst (Option.some.inj d1)).symm
  rw [List.getElem?_map, d2, hlo, w1]
  by_cases hp : ni < pts.length
  · rw [List.getElem?_append_left (by simpa using hp), List.getElem?_map, List.getElem?_eq_getElem hp]
    have hlt := w4 _ (List.getElem_mem hp)
    simp only [Option.map_some, nbOf, cell, matlabIndex, ptDist, a4, a5, a7]
    congr 2
    omega
  · rw [List.getElem?_append_right (by simp; omega), List.getElem?_replicate, if_pos (by simp; omega), List.getElem?_eq_none (show pts.length ≤ ni by omega)]
    simp only [Option.map_some, missing, cell, matlabIndex]
    congr 2

end

/-! ## Structures that `vl_kdtreebuild` did not make -/

/-- The children of the nodes are nodes. -/
def ChildrenOk (nodes : List (Node K)) : Prop := ∀ nd ∈ nodes, nd.lowerChild < nodes.length ∧ nd.upperChild < nodes.length

theorem ChildrenOk.set {nodes : List (Node K)} (h : ChildrenOk nodes) {c : Nat} (hc : c < nodes.length) (p : Nat) : ChildrenOk (nodes.set c { nodes[c] with parent := p }) := by
  intro nd hnd
  rw [List.length_set]
  rcases List.mem_or_eq_of_mem_set hnd with h1 | h1
  · exact h nd h1
  · rw [h1]; exact h nodes[c] (List.getElem_mem hc)

theorem restore_total : ∀ (fuel : Nat) (nodes : List (Node K)) (i left : Nat), ChildrenOk nodes → i < nodes.length → left < fuel →
    ∃ r, restore fuel nodes i left = some r ∧ ∀ x, r = some x → ChildrenOk x.1 ∧ x.1.length = nodes.length ∧ x.2 < left := by
  intro fuel
  induction fuel with
  | zero => intro nodes i left _ _ h; omega
  | succ fuel ih =>
    intro nodes i left hok hi hl
    rw [restore, rd_of_lt hi]
    dsimp only [Option.bind_eq_bind, Option.bind_some]
    by_cases h0 : left = 0
    · rw [if_pos h0]; exact ⟨none, rfl, by simp⟩
    · rw [if_neg h0]
      have visit : ∀ (c : Int) (N : List (Node K)) (left' : Nat), ChildrenOk N → N.length = nodes.length → c < nodes.length → left' < left →
          ∃ r, visitChild (restore fuel) i c N left' = some r ∧ ∀ x, r = some x → ChildrenOk x.1 ∧ x.1.length = nodes.length ∧ x.2 < left := by
        intro c N left' h1 h2 h3 h4
        unfold visitChild
        split
        · have hc : c.toNat < N.length := by omega
          rw [rd_of_lt hc]
          dsimp only [Option.bind_eq_bind, Option.bind_some]
          rw [wr_of_lt hc]
          dsimp only [Option.bind_some]
          obtain ⟨r, g1, g2⟩ := ih (N.set c.toNat { N[c.toNat] with parent := i }) c.toNat left' (h1.set hc i) (by simpa using hc) (by omega)
          refine ⟨r, g1, fun x hx => ?_⟩
          obtain ⟨k1, k2, k3⟩ := g2 x hx
          exact ⟨k1, by rw [k2, List.length_set, h2], by omega⟩
        · exact ⟨_, rfl, fun x hx => by obtain rfl := Option.some.inj hx; exact ⟨h1, h2, h4⟩⟩
      have hnd := hok _ (List.getElem_mem hi)
      obtain ⟨r, e1, e2⟩ := visit nodes[i].lowerChild nodes (left - 1) hok rfl hnd.1 (by omega)
      rw [e1]
      dsimp only [Option.bind_some]
      cases r with
      | none => exact ⟨none, rfl, by simp⟩
      | some x =>
        obtain ⟨k1, k2, k3⟩ := e2 x rfl
        exact visit nodes[i].upperChild x.1 x.2 k1 k2 hnd.2 k3

theorem loadNode_total (dim numData used : Nat) (m : MTree K) (ni : Nat) (h1 : ni < m.lowerChild.length) (h2 : m.upperChild.length = m.lowerChild.length) (h3 : m.splitDimension.length = m.lowerChild.length)
    (h4 : m.splitThreshold.length = m.lowerChild.length) (h5 : m.lowerBound.length = m.lowerChild.length) (h6 : m.upperBound.length = m.lowerChild.length) (hu : 0 < used) :
    ∃ r, loadNode dim numData used m ni = some r ∧ ∀ nd, r = some nd → nd.lowerChild < used ∧ nd.upperChild < used := by
  unfold loadNode
  rw [rd_of_lt h1, rd_of_lt (show ni < m.upperChild.length by omega), rd_of_lt (show ni < m.splitDimension.length by omega), rd_of_lt (show ni < m.splitThreshold.length by omega),
    rd_of_lt (show ni < m.lowerBound.length by omega), rd_of_lt (show ni < m.upperBound.length by omega)]
  dsimp only [Option.bind_eq_bind, Option.bind_some]
  split
  · exact ⟨none, rfl, by simp⟩
  · split
    · exact ⟨none, rfl, by simp⟩
    · split
      · exact ⟨none, rfl, by simp⟩
      · refine ⟨_, rfl, fun nd hnd => ?_⟩
        obtain rfl := Option.some.inj hnd
        dsimp only
        constructor <;> split <;> omega

theorem mapE_total {α β : Type} (f : α → Option (Option β)) (P : β → Prop) (l : List α) (h : ∀ a ∈ l, ∃ r, f a = some r ∧ ∀ b, r = some b → P b) :
    ∃ r, mapE f l = some r ∧ ∀ bs, r = some bs → bs.length = l.length ∧ ∀ b ∈ bs, P b := by
  induction l with
  | nil => exact ⟨_, rfl, fun bs hbs => by obtain rfl := Option.some.inj hbs; simp⟩
  | cons a l ih =>
    obtain ⟨r, h1, h2⟩ := h a (List.mem_cons_self ..)
    obtain ⟨r', h3, h4⟩ := ih (fun a ha => h a (List.mem_cons_of_mem _ ha))
    rw [mapE, h1]
    dsimp only [Option.bind_eq_bind, Option.bind_some]
    cases r with
    | none => exact ⟨none, rfl, by simp⟩
    | some b =>
      dsimp only
      rw [h3]
      cases r' with
      | none => exact ⟨none, rfl, by simp⟩
      | some bs =>
        obtain ⟨g1, g2⟩ := h4 bs rfl
        refine ⟨some (b :: bs), rfl, fun x hx => ?_⟩
        obtain rfl := Option.some.inj hx
        refine ⟨by simp [g1], fun y hy => ?_⟩
        rcases List.mem_cons.1 hy with rfl | hy
        · exact h2 _ rfl
        · exact g2 y hy

/-- C184, the part that holds: the structure of a tree that has at least one node is accepted or refused, whatever it contains, without reading outside the arrays and without endless recursion; if it is accepted, the
children of the nodes are nodes. -/
theorem loadTree_total (dim numData : Nat) (junk : K) (m : MTree K) (h : 0 < m.lowerChild.length) :
    ∃ r, loadTree dim numData junk m = some r ∧ ∀ t, r = some t → t.nodes.length = m.lowerChild.length ∧ t.dataIndex.length = numData ∧
      ∀ nd ∈ t.nodes, nd.lowerChild < t.nodes.length ∧ nd.upperChild < t.nodes.length := by
  unfold loadTree
  dsimp only
  split
  · exact ⟨none, rfl, by simp⟩
  · rename_i hc
    have hc' : m.upperChild.length = m.lowerChild.length ∧ m.splitDimension.length = m.lowerChild.length ∧ m.splitThreshold.length = m.lowerChild.length ∧ m.lowerBound.length = m.lowerChild.length ∧
        m.upperBound.length = m.lowerChild.length ∧ m.dataIndex.length = numData := by omega
    obtain ⟨c1, c2, c3, c4, c5, c6⟩ := hc'
    obtain ⟨r, e1, e2⟩ := mapE_total (loadNode dim numData m.lowerChild.length m) (fun nd => nd.lowerChild < m.lowerChild.length ∧ nd.upperChild < m.lowerChild.length) (List.range m.lowerChild.length)
      (fun ni hni => loadNode_total dim numData _ m ni (by simpa using hni) c1 c2 c3 c4 c5 h)
    rw [e1]
    dsimp only [Option.bind_eq_bind, Option.bind_some]
    cases r with
    | none => exact ⟨none, rfl, by simp⟩
    | some nodes =>
      obtain ⟨g1, g2⟩ := e2 nodes rfl
      rw [List.length_range] at g1
      dsimp only
      obtain ⟨r', f1, f2⟩ := restore_total (m.lowerChild.length + 1) nodes 0 m.lowerChild.length (fun nd hnd => by rw [g1]; exact g2 nd hnd) (by omega) (by omega)
      rw [f1]
      dsimp only [Option.bind_some]
      cases r' with
      | none => exact ⟨none, rfl, by simp⟩
      | some x =>
        obtain ⟨k1, k2, -⟩ := f2 x rfl
        dsimp only
        split
        · exact ⟨none, rfl, by simp⟩
        · refine ⟨_, rfl, fun t ht => ?_⟩
          obtain rfl := Option.some.inj ht
          refine ⟨by simp only; omega, by simp [c6], k1⟩

/-- The claim that an inconsistent structure is refused: for data of the right size, reading the structure has no undefined behaviour, and if it is accepted then no query has. -/
def ForestCheckedClaim : Prop :=
  ∀ (m : MForest ℚ) (data : List ℚ), data.length = m.numData * m.dimension →
    ∃ r, loadForest m m.dimension m.numData data distL2 0 0 = some r ∧
      ∀ F, r = some F → ∀ q : List ℚ, q.length = m.dimension → ∀ (S : Searcher ℚ), S.Ok F → (query F S [missing] 1 q).isSome = true

/-- The structure of a forest of one tree with the data 0 and 3, with a given split dimension at the root and given indices. -/
def badForest (dims : List Nat) (idx : List Nat) : MForest ℚ :=
  { dimension := 1, numData := 2, trees := [{ lowerChild := [2, -1, -2], upperChild := [3, -2, -3], splitDimension := dims, splitThreshold := [0, 0, 0], lowerBound := [none, none, some 0], upperBound := [none, some 0, none], dataIndex := idx }] }

/-- The outcome of reading the structure and then asking for the point nearest to 1. -/
def tryQuery (m : MForest ℚ) : Option (Option (Option (List (Neighbor ℚ)))) :=
  (loadForest m m.dimension m.numData [0, 3] distL2 0 0).map fun r => r.map fun F =>
    (query F (newSearcher F (List.replicate F.maxNumNodes { tree := 0, nodeIndex := 0, lowerBound := 0 })) [missing] 1 [1]).map fun x => x.2.1

/-- With consistent contents the query has an answer. -/
example : tryQuery (badForest [1, 1, 1] [1, 2]) = some (some (some [{ index := 0, distance := some 1 }])) := by decide +kernel

/-- C184: the split dimension 0 is accepted, and the query reads outside the query vector. -/
theorem split_dimension_zero_accepted : tryQuery (badForest [0, 1, 1] [1, 2]) = some (some none) := by decide +kernel

/-- C184: data indices are not checked: with index 9 of two data the query reads outside the data. -/
theorem data_index_not_checked : tryQuery (badForest [1, 1, 1] [9, 2]) = some (some none) := by decide +kernel

/-- C184: with no nodes at all, the first node is read nevertheless. -/
theorem empty_tree_reads_outside (dim numData : Nat) (junk : ℚ) (idx : List Nat) (h : idx.length = numData) :
    loadTree dim numData junk { lowerChild := [], upperChild := [], splitDimension := [], splitThreshold := [], lowerBound := [], upperBound := [], dataIndex := idx } = none := by
  unfold loadTree
  simp [h, mapE, restore, rd]

/-- Three nodes of which the second is visited twice and the third never: as many visits as nodes. -/
def sharedForest : MForest ℚ :=
  { dimension := 1, numData := 2, trees := [{ lowerChild := [2, -1, -2], upperChild := [2, -2, -3], splitDimension := [1, 1, 1], splitThreshold := [0, 0, 0], lowerBound := [none, none, some 0], upperBound := [none, some 0, none], dataIndex := [1, 2] }] }

/-- C184: nodes that do not form a tree are accepted if the number of visits is the number of nodes.  The datum 3 is in the node that is not reached, so asking for two neighbours of 1 gives one. -/
theorem shared_child_accepted :
    ((loadForest sharedForest 1 2 [0, 3] distL2 0 0).map fun r => r.map fun F =>
      (query F (newSearcher F (List.replicate F.maxNumNodes { tree := 0, nodeIndex := 0, lowerBound := 0 })) [missing, missing] 2 [1]).map fun x => x.2.1) =
      some (some (some [{ index := 0, distance := some (1 : ℚ) }, missing])) := by decide +kernel

/-- C184 does not hold. -/
theorem forest_checked_claim_false : ¬ ForestCheckedClaim := by
  intro h
  obtain ⟨r, h1, h2⟩ := h (badForest [0, 1, 1] [1, 2]) [0, 3] rfl
  have hw := split_dimension_zero_accepted
  unfold tryQuery at hw
  rw [h1] at hw
  cases r with
  | none => simp at hw
  | some F =>
    have hs := h2 F rfl [1] rfl _ (newSearcher_ok F (List.replicate F.maxNumNodes { tree := 0, nodeIndex := 0, lowerBound := 0 }) (by simp))
    simp only [Option.map_some, Option.some.injEq, Option.map_eq_none_iff] at hw
    rw [hw] at hs
    simp at hs

/-! ## A case -/

/-- The hypotheses of the theorems on the round trip are met. -/
example : (lineForest distL2).Built ∧ (lineForest distL2).numData < 2 ^ 30 ∧ (lineForest distL2).dim < 2 ^ 32 - 1 := ⟨lineForest_built _, by decide, by decide⟩

/-- Saving it and asking for the three points nearest to 7/5. -/
example : ((saveForest (lineForest distL2)).bind fun m => (loadForest m 1 2 [0, 3] distL2 0 0).map fun r => r.map fun F =>
    (query F (newSearcher F (List.replicate F.maxNumNodes { tree := 0, nodeIndex := 0, lowerBound := 0 })) [missing, missing, missing] 3 [7/5]).map fun x => x.2.1.map fun y => matlabIndex (cell y)) =
    some (some (some [(1, some (49/25)), (2, some (64/25)), (0, none)])) := by decide +kernel

end Verif.KdTree
