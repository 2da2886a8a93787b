import Verif.KdTree.BuildSpec
import Mathlib.Tactic.Ring
import Mathlib.Tactic.Linarith
import Mathlib.Algebra.Order.Field.Basic

/-! # Lemmas for C23 -/

namespace Verif.KdTree

variable {K σ : Type}

theorem ptsIn_getElem? (idx : List (Entry K)) (b e j : Nat) :
    (ptsIn idx b e)[j]? = if j < e - b then idx[b + j]?.map Entry.index else none := by
  unfold ptsIn
  rw [List.getElem?_map, List.getElem?_take, List.getElem?_drop]
  split <;> rfl

theorem ptsIn_congr {idx idx' : List (Entry K)} {b e : Nat} (h : ∀ j, b ≤ j → j < e → idx[j]? = idx'[j]?) :
    ptsIn idx b e = ptsIn idx' b e := by
  apply List.ext_getElem?
  intro j
  rw [ptsIn_getElem?, ptsIn_getElem?]
  split
  · rw [h _ (by omega) (by omega)]
  · rfl

theorem ptsIn_length {idx : List (Entry K)} {b e : Nat} (h : e ≤ idx.length) : (ptsIn idx b e).length = e - b := by
  simp [ptsIn]; omega

theorem ptsIn_append (idx : List (Entry K)) {b m e : Nat} (h1 : b ≤ m) (h2 : m ≤ e) :
    ptsIn idx b e = ptsIn idx b m ++ ptsIn idx m e := by
  unfold ptsIn
  rw [← List.map_append]
  congr 1
  rw [show e - b = (m - b) + (e - m) by omega, List.take_add, List.drop_drop, show b + (m - b) = m by omega]

theorem mem_ptsIn {idx : List (Entry K)} {b e p : Nat} :
    p ∈ ptsIn idx b e ↔ ∃ j en, b ≤ j ∧ j < e ∧ idx[j]? = some en ∧ en.index = p := by
  rw [List.mem_iff_getElem?]
  constructor
  · rintro ⟨j, hj⟩
    rw [ptsIn_getElem?] at hj
    split at hj
    · rw [Option.map_eq_some_iff] at hj
      obtain ⟨en, h1, h2⟩ := hj
      exact ⟨b + j, en, by omega, by omega, h1, h2⟩
    · simp at hj
  · rintro ⟨j, en, h1, h2, h3, h4⟩
    refine ⟨j - b, ?_⟩
    rw [ptsIn_getElem?, if_pos (by omega), show b + (j - b) = j by omega, h3]
    simp [h4]

section
variable [Field K] [LinearOrder K]

omit [Field K] [LinearOrder K] in
theorem modNode_of {nodes : List (Node K)} {i : Nat} {nd : Node K} (f : Node K → Node K) (h : nodes[i]? = some nd) :
    modNode nodes i f = some (nodes.set i (f nd)) := by
  have hl : i < nodes.length := by
    rw [List.getElem?_eq_some_iff] at h; exact h.1
  unfold modNode
  rw [rd_getElem?, h]
  simp only [Option.bind_eq_bind, Option.bind_some]
  exact wr_of_lt hl _

omit [LinearOrder K] in
theorem fillValues_spec {dim n : Nat} {data : List K} {sd b e : Nat} {idx : List (Entry K)} (hd : data.length = n * dim)
    (hsd : sd < dim) (hbe : b ≤ e) (he : e ≤ idx.length) (hp : ∀ p ∈ ptsIn idx b e, p < n) :
    ∃ idx', fillValues dim data sd b e idx = some idx' ∧ idx'.length = idx.length ∧
      ∀ k, idx'[k]? = idx[k]?.map (fun en => if b ≤ k ∧ k < e then ⟨en.index, coord dim data en.index sd⟩ else en) := by
  unfold fillValues
  obtain ⟨idx', h1, h2, h3⟩ := iter_inv (n := e - b) (s := idx)
    (f := fun j idx => do
      let en ← rd idx (b + j)
      let datum ← rd data (en.index * dim + sd)
      wr idx (b + j) { en with value := datum })
    (fun j idx' => idx'.length = idx.length ∧
      ∀ k, idx'[k]? = idx[k]?.map (fun en => if b ≤ k ∧ k < b + j then ⟨en.index, coord dim data en.index sd⟩ else en))
    ⟨rfl, fun k => by
      cases idx[k]? with
      | none => rfl
      | some en => simp only [Option.map_some]; rw [if_neg (by omega)]⟩
    (by
      intro j hj l ⟨hl, hk⟩
      have hlt : b + j < idx.length := by omega
      obtain ⟨en, hen⟩ : ∃ en, idx[b + j]? = some en := ⟨_, List.getElem?_eq_getElem hlt⟩
      have hr : l[b + j]? = some en := by
        rw [hk, hen, Option.map_some, if_neg (by omega)]
      have hn : en.index < n := hp _ (mem_ptsIn.2 ⟨b + j, en, by omega, by omega, hen, rfl⟩)
      have ha : en.index * dim + sd < data.length := by
        rw [hd]
        calc en.index * dim + sd < en.index * dim + dim := by omega
          _ = (en.index + 1) * dim := by ring
          _ ≤ n * dim := Nat.mul_le_mul_right _ hn
      refine ⟨l.set (b + j) ⟨en.index, coord dim data en.index sd⟩, ?_, by simpa using hl, ?_⟩
      · rw [rd_getElem?, hr]
        simp only [Option.bind_eq_bind, Option.bind_some]
        rw [rd_of_lt ha]
        simp only [Option.bind_some]
        rw [wr_of_lt (by omega)]
        simp [coord, List.getD_eq_getElem?_getD, ha]
      · intro k
        rw [List.getElem?_set]
        by_cases hkj : b + j = k
        · subst hkj
          rw [if_pos rfl, if_pos (by omega), hen, Option.map_some, if_pos (by omega)]
        · rw [if_neg hkj, hk]
          cases idx[k]? with
          | none => rfl
          | some en =>
            simp only [Option.map_some]
            by_cases hc : b ≤ k ∧ k < b + j
            · rw [if_pos hc, if_pos (by omega)]
            · rw [if_neg hc, if_neg (by omega)])
  refine ⟨idx', h1, h2, fun k => ?_⟩
  rw [h3, show b + (e - b) = e by omega]

/-- Entries of a range are sorted by value, and values are coordinates. -/
structure SortedRange (dim : Nat) (data : List K) (sd b e : Nat) (idx : List (Entry K)) : Prop where
  val : ∀ j en, b ≤ j → j < e → idx[j]? = some en → en.value = coord dim data en.index sd
  sorted : ∀ i j x y, b ≤ i → i < j → j < e → idx[i]? = some x → idx[j]? = some y → x.value ≤ y.value

theorem sortRange_spec {dim : Nat} {data : List K} {sd b e : Nat} {sort : List (Entry K) → List (Entry K)} {idx idx1 : List (Entry K)}
    (hs : SortOk sort) (hbe : b ≤ e) (he : e ≤ idx.length) (hl : idx1.length = idx.length)
    (h1 : ∀ k, idx1[k]? = idx[k]?.map (fun en => if b ≤ k ∧ k < e then ⟨en.index, coord dim data en.index sd⟩ else en)) :
    (sortRange sort b e idx1).length = idx.length ∧
      (∀ j, (j < b ∨ e ≤ j) → (sortRange sort b e idx1)[j]? = idx[j]?) ∧
      (ptsIn (sortRange sort b e idx1) b e).Perm (ptsIn idx b e) ∧
      SortedRange dim data sd b e (sortRange sort b e idx1) := by
  set G := (idx1.drop b).take (e - b) with hG
  obtain ⟨hp, hsort⟩ := hs G
  have hGl : G.length = e - b := by simp [hG]; omega
  have hRl : (sort G).length = e - b := by rw [hp.length_eq, hGl]
  have hTl : (idx1.take b).length = b := by simp; omega
  have hget : ∀ j, (sortRange sort b e idx1)[j]? =
      if j < b then idx1[j]? else if j < e then (sort G)[j - b]? else idx1[j]? := by
    intro j
    unfold sortRange
    rw [← hG]
    by_cases c1 : j < b
    · rw [if_pos c1, List.append_assoc, List.getElem?_append_left (by omega), List.getElem?_take, if_pos c1]
    · rw [if_neg c1]
      by_cases c2 : j < e
      · rw [if_pos c2, List.append_assoc, List.getElem?_append_right (by omega), hTl, List.getElem?_append_left (by omega)]
      · rw [if_neg c2, List.append_assoc, List.getElem?_append_right (by omega), hTl, List.getElem?_append_right (by omega), hRl,
          List.getElem?_drop]
        congr 1
        omega
  have hsame : ∀ j, (j < b ∨ e ≤ j) → idx1[j]? = idx[j]? := by
    intro j hj
    rw [h1]
    cases idx[j]? with
    | none => rfl
    | some en => simp only [Option.map_some]; rw [if_neg (by omega)]
  refine ⟨?_, ?_, ?_, ?_⟩
  · unfold sortRange
    rw [← hG]
    simp only [List.length_append, hTl, hRl, List.length_drop, hl]
    omega
  · intro j hj
    rw [hget]
    split
    · exact hsame j hj
    · rw [if_neg (by omega)]; exact hsame j hj
  · have e1 : ptsIn (sortRange sort b e idx1) b e = (sort G).map Entry.index := by
      apply List.ext_getElem?
      intro j
      rw [ptsIn_getElem?, List.getElem?_map]
      split
      · rename_i hj
        rw [hget, if_neg (by omega), if_pos (by omega), show b + j - b = j by omega]
      · rw [List.getElem?_eq_none (by omega)]; rfl
    have e2 : ptsIn idx b e = G.map Entry.index := by
      have : ptsIn idx1 b e = G.map Entry.index := rfl
      rw [← this]
      apply List.ext_getElem?
      intro j
      rw [ptsIn_getElem?, ptsIn_getElem?, h1]
      split
      · cases idx[b + j]? with
        | none => rfl
        | some en => simp only [Option.map_some]; rw [if_pos (by omega)]
      · rfl
    rw [e1, e2]
    exact hp.map _
  · constructor
    · intro j en hj hj' hen
      rw [hget, if_neg (by omega), if_pos hj'] at hen
      have hm : en ∈ G := hp.subset (List.mem_of_getElem? hen)
      obtain ⟨k, hk⟩ := List.mem_iff_getElem?.1 hm
      rw [hG, List.getElem?_take] at hk
      split at hk
      · rw [List.getElem?_drop, h1, Option.map_eq_some_iff] at hk
        obtain ⟨en', -, hk2⟩ := hk
        rw [if_pos (by omega)] at hk2
        subst hk2
        rfl
      · simp at hk
    · intro i j x y hi hij hj hx hy
      rw [hget, if_neg (by omega), if_pos (by omega)] at hx hy
      rw [List.pairwise_iff_getElem] at hsort
      rw [List.getElem?_eq_some_iff] at hx hy
      obtain ⟨lx, rfl⟩ := hx
      obtain ⟨ly, rfl⟩ := hy
      exact hsort _ _ lx ly (by omega)

omit [Field K] in
theorem scanMean_spec (idx : List (Entry K)) (t : K) (i e : Nat) (hie : i ≤ e) (he : e ≤ idx.length) :
    ∃ r, scanMean idx t i e = some r ∧ i ≤ r ∧ r ≤ e ∧ (∀ j en, i ≤ j → j < r → idx[j]? = some en → en.value ≤ t) ∧
      (r < e → ∃ en, idx[r]? = some en ∧ t < en.value) := by
  induction h : e - i generalizing i with
  | zero =>
    have : i = e := by omega
    subst this
    exact ⟨i, by rw [scanMean, if_neg (by omega)], by omega, by omega, fun j en a b => by omega, by omega⟩
  | succ m ih =>
    have hlt : i < idx.length := by omega
    by_cases c : idx[i].value ≤ t
    · obtain ⟨r, h1, h2, h3, h4, h5⟩ := ih (i + 1) (by omega) (by omega)
      refine ⟨r, ?_, by omega, h3, ?_, h5⟩
      · rw [scanMean, if_pos (by omega), rd_of_lt hlt]
        simp only [Option.bind_eq_bind, Option.bind_some]
        rw [if_pos c, h1]
      · intro j en hj hjr hen
        by_cases hji : j = i
        · subst hji
          rw [List.getElem?_eq_getElem hlt] at hen
          cases hen
          exact c
        · exact h4 j en (by omega) hjr hen
    · refine ⟨i, ?_, by omega, by omega, fun j en a b => by omega, fun _ => ⟨idx[i], List.getElem?_eq_getElem hlt, not_le.1 c⟩⟩
      rw [scanMean, if_pos (by omega), rd_of_lt hlt]
      simp only [Option.bind_eq_bind, Option.bind_some]
      rw [if_neg c]

/-- What a threshold has to satisfy. -/
def GoodCut (idx : List (Entry K)) (b e : Nat) (r : Nat × K) : Prop :=
  b ≤ r.1 ∧ r.1 + 1 < e ∧ (∀ j en, b ≤ j → j ≤ r.1 → idx[j]? = some en → en.value ≤ r.2) ∧
    (∀ j en, r.1 < j → j < e → idx[j]? = some en → r.2 ≤ en.value)

theorem thresholdMedian_spec {dim : Nat} {data : List K} {sd b e : Nat} {idx : List (Entry K)} (hbe : b + 2 ≤ e)
    (he : e ≤ idx.length) (hs : SortedRange dim data sd b e idx) :
    ∃ r, thresholdMedian idx b e = some r ∧ GoodCut idx b e r := by
  have hlt : (b + e - 1) / 2 < idx.length := by omega
  refine ⟨((b + e - 1) / 2, idx[(b + e - 1) / 2].value), ?_, ?_⟩
  · unfold thresholdMedian
    simp only [Option.bind_eq_bind]
    rw [rd_of_lt hlt]
    rfl
  · refine ⟨by simp only; omega, by simp only; omega, ?_, ?_⟩
    · intro j en hj hj' hen
      simp only at hj' ⊢
      rcases Nat.lt_or_ge j ((b + e - 1) / 2) with h | h
      · exact hs.sorted j _ en _ hj h (by omega) hen (List.getElem?_eq_getElem hlt)
      · obtain rfl : j = (b + e - 1) / 2 := by omega
        rw [List.getElem?_eq_getElem hlt] at hen
        cases hen
        exact le_refl _
    · intro j en hj hj' hen
      simp only at hj ⊢
      exact hs.sorted _ j _ en (by omega) hj hj' (List.getElem?_eq_getElem hlt) hen

theorem pred64_pos {i : Nat} (h : 0 < i) (h2 : i < 2 ^ 64) : pred64 i = i - 1 := by
  unfold pred64
  rw [show i + (2 ^ 64 - 1) = (i - 1) + 2 ^ 64 by omega, Nat.add_mod_right, Nat.mod_eq_of_lt (by omega)]

theorem succ64_lt {i : Nat} (h2 : i + 1 < 2 ^ 64) : succ64 i = i + 1 := by
  unfold succ64
  rw [Nat.mod_eq_of_lt h2]

theorem threshold_spec {dim : Nat} {data : List K} {sd b e : Nat} {idx : List (Entry K)} {m : Method} {mean : K} (hbe : b + 2 ≤ e)
    (he : e ≤ idx.length) (h64 : e < 2 ^ 64) (hs : SortedRange dim data sd b e idx)
    (hm : m = .mean → b = 0 → ∃ p ∈ ptsIn idx b e, coord dim data p sd ≤ mean) :
    ∃ r, threshold m idx mean b e = some r ∧ GoodCut idx b e r := by
  unfold threshold
  cases m with
  | median => exact thresholdMedian_spec hbe he hs
  | mean =>
    obtain ⟨r, h1, h2, h3, h4, h5⟩ := scanMean_spec idx mean b e (by omega) he
    simp only [h1, Option.bind_eq_bind, Option.bind_some]
    have hr0 : 0 < r := by
      rcases Nat.eq_zero_or_pos r with h0 | h0
      · subst h0
        have hb : b = 0 := by omega
        obtain ⟨p, hp, hpm⟩ := hm rfl hb
        obtain ⟨en, hen, hlt⟩ := h5 (by omega)
        obtain ⟨j, en', hj1, hj2, hj3, hj4⟩ := mem_ptsIn.1 hp
        have hv' := hs.val j en' hj1 hj2 hj3
        rw [hj4] at hv'
        rcases Nat.eq_zero_or_pos j with hj0 | hj0
        · subst hj0
          rw [hen] at hj3
          cases hj3
          rw [hv'] at hlt
          exact absurd hpm (not_le.2 hlt)
        · have := hs.sorted 0 j en en' (by omega) hj0 hj2 hen hj3
          rw [hv'] at this
          exact absurd (this.trans hpm) (not_le.2 hlt)
      · exact h0
    rw [pred64_pos hr0 (by omega), succ64_lt (by omega)]
    split
    · rename_i hc
      refine ⟨_, rfl, hc.1, hc.2, ?_, ?_⟩
      · intro j en hj hj' hen
        exact h4 j en hj (by simp only at hj'; omega) hen
      · intro j en hj hj' hen
        simp only at hj ⊢
        obtain ⟨en', hen', hlt⟩ := h5 (by omega)
        rcases Nat.lt_or_ge r j with h | h
        · exact le_of_lt (lt_of_lt_of_le hlt (hs.sorted r j _ _ (by omega) h hj' hen' hen))
        · obtain rfl : j = r := by omega
          rw [hen'] at hen
          cases hen
          exact le_of_lt hlt
    · exact thresholdMedian_spec hbe he hs

/-- Effect of splitting a node. -/
theorem splitNode_spec {C : Cfg σ K} {n : Nat} {t : Tree K} {i b e : Nat} {sp : Split K} {nd : Node K}
    (hd : C.data.length = n * C.dim) (hs : SortOk C.sort) (hbe : b + 2 ≤ e) (he : e ≤ t.dataIndex.length) (h64 : e < 2 ^ 64)
    (hp : ∀ p ∈ ptsIn t.dataIndex b e, p < n) (hsp : sp.dimension < C.dim) (hnd : t.nodes[i]? = some nd)
    (hm : C.method = .mean → b = 0 → ∃ p ∈ ptsIn t.dataIndex b e, coord C.dim C.data p sp.dimension ≤ sp.mean) :
    ∃ (m : Nat) (thr : K) (idx : List (Entry K)), b < m ∧ m < e ∧
      splitNode C t i b e sp = some (m - 1,
        { t with nodes := t.nodes.set i { nd with splitDimension := sp.dimension, splitThreshold := thr }, dataIndex := idx }) ∧
      idx.length = t.dataIndex.length ∧ (∀ j, (j < b ∨ e ≤ j) → idx[j]? = t.dataIndex[j]?) ∧
      (ptsIn idx b e).Perm (ptsIn t.dataIndex b e) ∧
      (∀ p ∈ ptsIn idx b m, coord C.dim C.data p sp.dimension ≤ thr) ∧
      (∀ p ∈ ptsIn idx m e, thr ≤ coord C.dim C.data p sp.dimension) := by
  obtain ⟨idx1, f1, f2, f3⟩ := fillValues_spec hd hsp (by omega) he hp
  obtain ⟨s1, s2, s3, s4⟩ := sortRange_spec hs (by omega) he f2 f3
  set idx := sortRange C.sort b e idx1
  obtain ⟨⟨si, thr⟩, t1, t2, t3, t4, t5⟩ := threshold_spec (mean := sp.mean) hbe (by omega) h64 s4 (by
    intro h1 h2
    obtain ⟨p, hp1, hp2⟩ := hm h1 h2
    exact ⟨p, s3.mem_iff.2 hp1, hp2⟩)
  simp only at t2 t3 t4 t5
  have hlt : i < t.nodes.length := by rw [List.getElem?_eq_some_iff] at hnd; exact hnd.1
  refine ⟨si + 1, thr, idx, by omega, by omega, ?_, s1, s2, s3, ?_, ?_⟩
  · unfold splitNode
    rw [modNode_of _ hnd]
    simp only [Option.bind_eq_bind, Option.bind_some]
    rw [f1]
    simp only [Option.bind_some]
    rw [show sortRange C.sort b e idx1 = idx from rfl, t1]
    simp only [Option.bind_some]
    rw [modNode_of _ (List.getElem?_set_self hlt)]
    simp
  · intro p hp
    obtain ⟨j, en, a1, a2, a3, a4⟩ := mem_ptsIn.1 hp
    rw [← a4, ← s4.val j en a1 (by omega) a3]
    exact t4 j en a1 (by omega) a3
  · intro p hp
    obtain ⟨j, en, a1, a2, a3, a4⟩ := mem_ptsIn.1 hp
    rw [← a4, ← s4.val j en (by omega) a2 a3]
    exact t5 j en (by omega) a2 a3

omit [LinearOrder K] in
theorem nodeNew_spec {t : Tree K} {p : Nat} (h : t.numUsedNodes < t.nodes.length) :
    ∃ nd : Node K, nd.splitDimension = 0 ∧
      nodeNew t p = some (t.numUsedNodes, { t with nodes := t.nodes.set t.numUsedNodes nd, numUsedNodes := t.numUsedNodes + 1 }) := by
  refine ⟨{ t.nodes[t.numUsedNodes] with parent := p, lowerChild := 0, upperChild := 0, splitDimension := 0, splitThreshold := 0 },
    rfl, ?_⟩
  · unfold nodeNew assert'
    rw [if_pos (by simpa using Nat.succ_le_of_lt h)]
    simp only [Option.bind_eq_bind, Option.bind_some]
    rw [rd_of_lt h]
    simp only [Option.bind_some]
    rw [wr_of_lt h]
    rfl

end

end Verif.KdTree
