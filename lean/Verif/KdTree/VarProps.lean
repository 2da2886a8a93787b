import Verif.KdTree.StatProps
import Verif.KdTree.VarSpec
import Mathlib.Algebra.Order.BigOperators.Group.List
import Mathlib.Algebra.BigOperators.Group.List.Lemmas
import Mathlib.Tactic.Ring
import Mathlib.Tactic.Linarith

/-! # C223: the dimensions split by kd-trees are among those of largest variance -/

namespace Verif.KdTree

variable {K σ : Type} [Field K] [LinearOrder K] [IsStrictOrderedRing K]

/-! ### The variance -/

omit [LinearOrder K] [IsStrictOrderedRing K] in
theorem sum_sq_dev (l : List Nat) (f : Nat → K) (m : K) :
    (l.map (fun p => (f p - m) ^ 2)).sum = (l.map (fun p => f p * f p)).sum - 2 * m * (l.map f).sum + (l.length : K) * (m * m) := by
  induction l with
  | nil => simp
  | cons a l ih =>
    simp only [List.map_cons, List.sum_cons, List.length_cons, ih]
    push_cast
    ring

theorem spread_eq (dim : Nat) (data : List K) (pts : List Nat) (d : Nat) (h : pts ≠ []) :
    (pts.map (fun p => coord dim data p d * coord dim data p d)).sum / (pts.length : K) -
      average dim data pts d * average dim data pts d = spread dim data pts d := by
  have hlen : (pts.length : K) ≠ 0 := by
    have : 0 < pts.length := List.length_pos_iff.2 h
    exact_mod_cast this.ne'
  unfold spread
  rw [sum_sq_dev pts (fun p => coord dim data p d) (average dim data pts d)]
  unfold average
  field_simp
  ring

omit [LinearOrder K] [IsStrictOrderedRing K] in
theorem average_perm (dim : Nat) (data : List K) {l l' : List Nat} (h : l.Perm l') (d : Nat) :
    average dim data l d = average dim data l' d := by
  unfold average
  rw [(h.map _).sum_eq, h.length_eq]

omit [LinearOrder K] [IsStrictOrderedRing K] in
theorem spread_perm (dim : Nat) (data : List K) {l l' : List Nat} (h : l.Perm l') (d : Nat) :
    spread dim data l d = spread dim data l' d := by
  unfold spread
  rw [average_perm dim data h, (h.map _).sum_eq, h.length_eq]

/-- Without variance along any dimension the points coincide. -/
theorem coincide_of_spread {dim : Nat} {data : List K} {pts : List Nat} (h : ∀ d < dim, spread dim data pts d ≤ 0) :
    Coincide dim data pts := by
  have key : ∀ p ∈ pts, ∀ d < dim, coord dim data p d = average dim data pts d := by
    intro p hp d hd
    have hlen : (0 : K) < (pts.length : K) := by
      have : 0 < pts.length := List.length_pos_of_mem hp
      exact_mod_cast this
    have h1 := h d hd
    unfold spread at h1
    have h2 : (pts.map (fun p => (coord dim data p d - average dim data pts d) ^ 2)).sum ≤ 0 := by
      by_contra hc
      exact absurd h1 (not_le.2 (div_pos (not_le.1 hc) hlen))
    have h3 : (coord dim data p d - average dim data pts d) ^ 2 ≤
        (pts.map (fun p => (coord dim data p d - average dim data pts d) ^ 2)).sum := by
      apply List.single_le_sum
      · intro x hx
        obtain ⟨q, -, rfl⟩ := List.mem_map.1 hx
        exact sq_nonneg _
      · exact List.mem_map.2 ⟨p, hp, rfl⟩
    have h4 : (coord dim data p d - average dim data pts d) ^ 2 = 0 := le_antisymm (h3.trans h2) (sq_nonneg _)
    exact sub_eq_zero.1 (pow_eq_zero_iff (two_ne_zero) |>.1 h4)
  intro p hp q hq d hd
  rw [key p hp d hd, key q hq d hd]

theorem spread_of_coincide {dim : Nat} {data : List K} {pts : List Nat} (h : Coincide dim data pts) (d : Nat) (hd : d < dim) :
    spread dim data pts d = 0 := by
  by_cases h0 : pts = []
  · subst h0; simp [spread]
  obtain ⟨q, hq⟩ := List.exists_mem_of_ne_nil pts h0
  have hlen : (pts.length : K) ≠ 0 := by
    have : 0 < pts.length := List.length_pos_of_mem hq
    exact_mod_cast this.ne'
  have e1 : pts.map (fun p => coord dim data p d) = pts.map (fun _ => coord dim data q d) :=
    List.map_congr_left (fun p hp => h p hp q hq d hd)
  have e2 : average dim data pts d = coord dim data q d := by
    unfold average
    rw [e1]
    simp
    field_simp
  have e3 : pts.map (fun p => (coord dim data p d - average dim data pts d) ^ 2) = pts.map (fun _ => (0 : K)) :=
    List.map_congr_left (fun p hp => by rw [e2, h p hp q hq d hd]; simp)
  unfold spread
  rw [e3]
  simp

/-! ### The heap of the dimensions -/

/-- What the heap holds after the dimensions below `d`: some of them with their statistics, and the others vary less. -/
structure Top (dim : Nat) (data : List K) (shs : Nat) (pts : List Nat) (d : Nat) (S : List (SplitDim K)) : Prop where
  stat : ∀ x ∈ S, x.dimension < d ∧ x.mean = average dim data pts x.dimension ∧ x.variance = spread dim data pts x.dimension ∧ 0 < x.variance
  nodup : (S.map SplitDim.dimension).Nodup
  rest : ∀ d' < d, 0 < spread dim data pts d' → d' ∈ S.map SplitDim.dimension ∨
    (S.length = shs ∧ ∀ x ∈ S, spread dim data pts d' ≤ x.variance)

omit [IsStrictOrderedRing K] in
theorem Top.perm {dim : Nat} {data : List K} {shs : Nat} {pts : List Nat} {d : Nat} {S S' : List (SplitDim K)} (h : S'.Perm S)
    (t : Top dim data shs pts d S) : Top dim data shs pts d S' := by
  refine ⟨fun x hx => t.stat x (h.subset hx), ((h.map _).nodup_iff).2 t.nodup, ?_⟩
  intro d' hd hp
  rcases t.rest d' hd hp with g | ⟨g1, g2⟩
  · exact Or.inl ((h.map _).symm.subset g)
  · exact Or.inr ⟨by rw [h.length_eq, g1], fun x hx => g2 x (h.subset hx)⟩

omit [IsStrictOrderedRing K] in
/-- A dimension without variance is passed over. -/
theorem Top.skip {dim : Nat} {data : List K} {shs : Nat} {pts : List Nat} {d : Nat} {S : List (SplitDim K)}
    (t : Top dim data shs pts d S) (h : 0 < spread dim data pts d → S.length = shs ∧ ∀ x ∈ S, spread dim data pts d ≤ x.variance) :
    Top dim data shs pts (d + 1) S := by
  refine ⟨fun x hx => ?_, t.nodup, ?_⟩
  · obtain ⟨a, b, c, e⟩ := t.stat x hx
    exact ⟨by omega, b, c, e⟩
  · intro d' hd hp
    by_cases c : d' = d
    · subst c; exact Or.inr (h hp)
    · exact t.rest d' (by omega) hp

omit [IsStrictOrderedRing K] in
theorem Top.push {dim : Nat} {data : List K} {shs : Nat} {pts : List Nat} {d : Nat} {S : List (SplitDim K)}
    (t : Top dim data shs pts d S) (hl : S.length < shs) {x : SplitDim K} (hx : x.dimension = d ∧ x.mean = average dim data pts d ∧
      x.variance = spread dim data pts d ∧ 0 < x.variance) : Top dim data shs pts (d + 1) (x :: S) := by
  obtain ⟨x1, x2, x3, x4⟩ := hx
  refine ⟨?_, ?_, ?_⟩
  · intro y hy
    rcases List.mem_cons.1 hy with rfl | hy
    · rw [x1]; exact ⟨by omega, x2, x3, x4⟩
    · obtain ⟨a, b, c, e⟩ := t.stat y hy
      exact ⟨by omega, b, c, e⟩
  · rw [List.map_cons, List.nodup_cons]
    refine ⟨?_, t.nodup⟩
    intro hm
    obtain ⟨y, hy, e⟩ := List.mem_map.1 hm
    have := (t.stat y hy).1
    omega
  · intro d' hd hp
    left
    by_cases c : d' = d
    · rw [c, ← x1]; exact List.mem_cons_self
    · rcases t.rest d' (by omega) hp with g | ⟨g, -⟩
      · exact List.mem_cons_of_mem _ g
      · omega

omit [IsStrictOrderedRing K] in
theorem Top.update {dim : Nat} {data : List K} {shs : Nat} {pts : List Nat} {d : Nat} {S : List (SplitDim K)} {top : SplitDim K}
    (t : Top dim data shs pts d (top :: S)) (hl : (top :: S).length = shs) (hmin : ∀ y ∈ S, top.variance ≤ y.variance) {x : SplitDim K}
    (hx : x.dimension = d ∧ x.mean = average dim data pts d ∧ x.variance = spread dim data pts d ∧ 0 < x.variance)
    (hlt : top.variance < x.variance) : Top dim data shs pts (d + 1) (x :: S) := by
  obtain ⟨x1, x2, x3, x4⟩ := hx
  refine ⟨?_, ?_, ?_⟩
  · intro y hy
    rcases List.mem_cons.1 hy with rfl | hy
    · rw [x1]; exact ⟨by omega, x2, x3, x4⟩
    · obtain ⟨a, b, c, e⟩ := t.stat y (List.mem_cons_of_mem _ hy)
      exact ⟨by omega, b, c, e⟩
  · rw [List.map_cons, List.nodup_cons]
    refine ⟨?_, (List.nodup_cons.1 (by simpa using t.nodup)).2⟩
    intro hm
    obtain ⟨y, hy, e⟩ := List.mem_map.1 hm
    have := (t.stat y (List.mem_cons_of_mem _ hy)).1
    omega
  · intro d' hd hp
    by_cases c : d' = d
    · left; rw [c, ← x1]; exact List.mem_cons_self
    · rcases t.rest d' (by omega) hp with g | ⟨-, g⟩
      · rcases List.mem_cons.1 (show d' ∈ top.dimension :: S.map SplitDim.dimension from g) with g | g
        · right
          refine ⟨by simpa using hl, ?_⟩
          have e : spread dim data pts d' = top.variance := by rw [g, (t.stat top (by simp)).2.2.1]
          rw [e]
          intro y hy
          rcases List.mem_cons.1 hy with rfl | hy
          · exact hlt.le
          · exact hmin y hy
        · left; exact List.mem_cons_of_mem _ g
      · right
        refine ⟨by simpa using hl, ?_⟩
        intro y hy
        rcases List.mem_cons.1 hy with rfl | hy
        · exact (g top (by simp)).trans hlt.le
        · exact g y (List.mem_cons_of_mem _ hy)

omit [Field K] [IsStrictOrderedRing K] in
theorem cmpVar_nonpos {x y : SplitDim K} (h : cmpVar x y ≤ 0) : x.variance ≤ y.variance := by
  unfold cmpVar at h
  split at h
  · rename_i c; exact c.le
  · split at h
    · omega
    · rename_i c; exact not_lt.1 c

/-- The statistics of one dimension of a range of at most 1024 points. -/
theorem dimStep_top {dim n : Nat} {data : List K} (rand : Nat → Nat) {shs : Nat} {idx : List (Entry K)} {b e d : Nat}
    (hd : d < dim) (hdata : data.length = n * dim) (hbe : b + 2 ≤ e) (hsmall : e - b ≤ 1024) (he : e ≤ idx.length)
    (hp : ∀ p ∈ ptsIn idx b e, p < n)
    (h1 : 1 ≤ shs) (s : Nat × Heap.State (SplitDim K)) (hv : s.2.Valid cmpVar) (hl : shs ≤ s.2.arr.length) (hs : s.2.size ≤ shs)
    (ht : Top dim data shs (ptsIn idx b e) d s.2.content) :
    ∃ s', dimStep dim data rand shs idx b e d s = some s' ∧ s'.2.Valid cmpVar ∧ s'.2.arr.length = s.2.arr.length ∧
      s'.2.size ≤ shs ∧ Top dim data shs (ptsIn idx b e) (d + 1) s'.2.content := by
  unfold dimStep
  simp only [decide_eq_true hsmall, if_true]
  obtain ⟨r, e1, r1, r2⟩ := iter_inv (n := e - b) (f := sampleStep dim data rand idx b d true)
    (s := { pos := s.1, mean := 0, secondMoment := 0 })
    (fun i r => r.mean = ((ptsIn idx b (b + i)).map (fun p => coord dim data p d)).sum ∧
      r.secondMoment = ((ptsIn idx b (b + i)).map (fun p => coord dim data p d * coord dim data p d)).sum)
    (by simp [ptsIn])
    (by
      intro i hi r ⟨l1, l2⟩
      have hlt : i + b < idx.length := by omega
      have hm : (idx[i + b]).index ∈ ptsIn idx b e :=
        mem_ptsIn.2 ⟨i + b, idx[i + b], by omega, by omega, List.getElem?_eq_getElem hlt, rfl⟩
      have hn := hp _ hm
      have ha : (idx[i + b]).index * dim + d < data.length := by
        rw [hdata]
        calc (idx[i + b]).index * dim + d < (idx[i + b]).index * dim + dim := by omega
          _ = ((idx[i + b]).index + 1) * dim := by ring
          _ ≤ n * dim := Nat.mul_le_mul_right _ hn
      have happ : ptsIn idx b (b + (i + 1)) = ptsIn idx b (b + i) ++ [(idx[i + b]).index] := by
        rw [ptsIn_append idx (show b ≤ b + i by omega) (show b + i ≤ b + (i + 1) by omega)]
        congr 1
        apply List.ext_getElem?
        intro j
        rw [ptsIn_getElem?]
        rcases j with _ | j
        · rw [if_pos (by omega), show b + i + 0 = i + b by omega, List.getElem?_eq_getElem hlt]
          rfl
        · rw [if_neg (by omega)]
          simp
      have hc : data[(idx[i + b]).index * dim + d] = coord dim data (idx[i + b]).index d := by
        simp [coord, List.getD_eq_getElem?_getD, ha]
      refine ⟨{ pos := r.pos, mean := r.mean + data[(idx[i + b]).index * dim + d],
                secondMoment := r.secondMoment + data[(idx[i + b]).index * dim + d] * data[(idx[i + b]).index * dim + d] },
        ?_, ?_, ?_⟩
      · unfold sampleStep
        simp only [if_true, Option.bind_eq_bind]
        rw [rd_of_lt hlt]
        simp only [Option.bind_some]
        rw [rd_of_lt ha]
        rfl
      · rw [happ]; simp [l1, hc]
      · rw [happ]; simp [l2, hc])
  rw [e1]
  simp only [Option.bind_eq_bind, Option.bind_some]
  set pts := ptsIn idx b e with hpts
  have hlen : pts.length = e - b := ptsIn_length he
  have hne : pts ≠ [] := by intro h0; rw [h0] at hlen; simp at hlen; omega
  rw [show b + (e - b) = e by omega, ← hpts] at r1 r2
  have hmean : r.mean / ((e - b : Nat) : K) = average dim data pts d := by rw [r1, ← hlen]; rfl
  have hvar : r.secondMoment / ((e - b : Nat) : K) - average dim data pts d * average dim data pts d = spread dim data pts d := by
    rw [r2, ← hlen]; exact spread_eq dim data pts d hne
  rw [hmean, hvar]
  have hcl : s.2.content.length = s.2.size := by simp [Heap.State.content]; exact hv.1
  split
  · rename_i c
    exact ⟨_, rfl, hv, rfl, hs, ht.skip (fun h => absurd c (not_le.2 h))⟩
  · rename_i c
    have hpos : 0 < spread dim data pts d := not_le.1 c
    set item : SplitDim K := { dimension := d, mean := average dim data pts d, variance := spread dim data pts d } with hit
    by_cases hsz : s.2.size < shs
    · rw [if_pos hsz]
      obtain ⟨h', a1, a2, ⟨a3, a4⟩, a5, -⟩ := Heap.step_correct threeWay_cmpVar s.2 (.push item) hv (by simp only [Heap.Legal]; omega)
      rw [a1]
      refine ⟨(r.pos, h'), rfl, a2, a5, by simp only; omega, ?_⟩
      exact (ht.push (by omega) ⟨rfl, rfl, rfl, hpos⟩).perm a4
    · rw [if_neg hsz]
      have h0 : 0 < s.2.arr.length := by omega
      rw [rd_of_lt h0]
      simp only [Option.bind_some]
      obtain ⟨rest, hrest⟩ : ∃ rest, s.2.content = s.2.arr[0] :: rest := by
        obtain ⟨y, ys, hy⟩ := List.exists_cons_of_ne_nil (l := s.2.content) (by intro h0; rw [h0] at hcl; simp at hcl; omega)
        refine ⟨ys, ?_⟩
        have : s.2.content[0]? = some y := by rw [hy]; rfl
        rw [Heap.State.content, List.getElem?_take, if_pos (by omega), List.getElem?_eq_getElem h0] at this
        rw [hy]
        simpa using this.symm
      have hmin : ∀ y ∈ rest, (s.2.arr[0]).variance ≤ y.variance := by
        intro y hy
        have hmem : y ∈ s.2.content := by rw [hrest]; exact List.mem_cons_of_mem _ hy
        obtain ⟨i, hi⟩ := List.mem_iff_getElem?.1 hmem
        rw [Heap.State.content, List.getElem?_take] at hi
        split at hi
        · rename_i hi'
          have := Heap.root_min threeWay_cmpVar ((Heap.isHeap_take hv.1).1 hv.2) i hi'
          rw [hi, List.getElem?_eq_getElem h0] at this
          exact cmpVar_nonpos this
        · simp at hi
      have hfull : (s.2.arr[0] :: rest).length = shs := by rw [← hrest, hcl]; omega
      split
      · rename_i hlt
        obtain ⟨h', a1, a2, ⟨a3, a4⟩, a5, -⟩ := Heap.step_correct threeWay_cmpVar s.2 (.update 0 item) hv
          (by simp only [Heap.Legal]; omega)
        rw [a1]
        refine ⟨(r.pos, h'), rfl, a2, a5, by simp only; omega, ?_⟩
        rw [hrest] at a4 ht
        exact (ht.update hfull hmin ⟨rfl, rfl, rfl, hpos⟩ hlt).perm (by simpa using a4)
      · rename_i hlt
        refine ⟨_, rfl, hv, rfl, hs, ht.skip (fun _ => ⟨by omega, ?_⟩)⟩
        intro y hy
        rw [hrest] at hy
        rcases List.mem_cons.1 hy with rfl | hy
        · exact not_lt.1 hlt
        · exact (not_lt.1 hlt).trans (hmin y hy)

/-- C223, one range of at most 1024 points: it is left whole exactly when its points coincide, and otherwise it is split along a
dimension with positive variance such that less than `shs` dimensions have a larger one; the mean handed on is the average. -/
theorem chooseSplit_top (dim n : Nat) (data : List K) (rand : Nat → Nat) (shs : Nat) (hdata : data.length = n * dim) (h1 : 1 ≤ shs)
    (s : ChooseState K) (idx : List (Entry K)) (b e : Nat) (hs : shs ≤ s.heapArr.length) (hbe : b + 2 ≤ e) (hsmall : e - b ≤ 1024)
    (he : e ≤ idx.length) (hp : ∀ p ∈ ptsIn idx b e, p < n) :
    ∃ c s', chooseSplit dim data rand shs s idx b e = some (c, s') ∧
      (c = none ↔ Coincide dim data (ptsIn idx b e)) ∧
      ∀ sp, c = some sp → AmongTop dim data shs (ptsIn idx b e) sp.dimension ∧ sp.mean = average dim data (ptsIn idx b e) sp.dimension := by
  obtain ⟨r, e1, r1, r2, r3, r4⟩ := iter_inv (n := dim) (f := fun d => dimStep dim data rand shs idx b e d)
    (s := (s.pos, (⟨s.heapArr, 0⟩ : Heap.State (SplitDim K))))
    (fun d r => r.2.Valid cmpVar ∧ shs ≤ r.2.arr.length ∧ r.2.size ≤ shs ∧ Top dim data shs (ptsIn idx b e) d r.2.content)
    ⟨Heap.empty_valid _ _, hs, by simp, ⟨by simp [Heap.State.content], by simp [Heap.State.content], by intro d' h; omega⟩⟩
    (by
      intro d hd r ⟨r1, r2, r3, r4⟩
      obtain ⟨s', a1, a2, a3, a4, a5⟩ := dimStep_top rand hd hdata hbe hsmall he hp h1 r r1 r2 r3 r4
      exact ⟨s', a1, a2, by omega, a4, a5⟩)
  have hcl : r.2.content.length = r.2.size := by simp [Heap.State.content]; exact r1.1
  simp only [chooseSplit]
  rw [e1]
  simp only [Option.bind_eq_bind, Option.bind_some]
  by_cases h0 : r.2.size = 0
  · rw [if_pos h0]
    refine ⟨none, _, rfl, ⟨fun _ => coincide_of_spread ?_, fun _ => rfl⟩, by simp⟩
    intro d hd
    by_contra hc
    have hnil : r.2.content = [] := List.length_eq_zero_iff.1 (by omega)
    rcases r4.rest d hd (not_le.1 hc) with g | ⟨g, -⟩
    · rw [hnil] at g; simp at g
    · omega
  · rw [if_neg h0]
    have hmod : rand r.1 % min shs r.2.size < min shs r.2.size := Nat.mod_lt _ (by omega)
    have hlt : rand r.1 % min shs r.2.size < r.2.arr.length := by omega
    rw [rd_of_lt hlt]
    have hmem : r.2.arr[rand r.1 % min shs r.2.size] ∈ r.2.content := by
      rw [Heap.State.content, List.mem_iff_getElem?]
      refine ⟨rand r.1 % min shs r.2.size, ?_⟩
      rw [List.getElem?_take, if_pos (by omega), List.getElem?_eq_getElem hlt]
    generalize r.2.arr[rand r.1 % min shs r.2.size] = x at hmem
    obtain ⟨g1, g2, g3, g4⟩ := r4.stat x hmem
    refine ⟨_, _, rfl, ⟨by simp, fun hc => ?_⟩, ?_⟩
    · rw [g3, spread_of_coincide hc _ g1] at g4
      exact absurd g4 (lt_irrefl _)
    intro sp hsp
    cases hsp
    refine ⟨⟨g1, by rw [← g3]; exact g4, ?_⟩, g2⟩
    have hsub : (Finset.range dim).filter (fun d' => spread dim data (ptsIn idx b e) x.dimension < spread dim data (ptsIn idx b e) d') ⊆
        (r.2.content.map SplitDim.dimension).toFinset.erase x.dimension := by
      intro d' hd'
      rw [Finset.mem_filter, Finset.mem_range] at hd'
      obtain ⟨k1, k2⟩ := hd'
      rw [Finset.mem_erase, List.mem_toFinset]
      refine ⟨fun hc => by rw [hc] at k2; exact lt_irrefl _ k2, ?_⟩
      rcases r4.rest d' k1 (by rw [← g3] at k2; exact g4.trans k2) with g | ⟨-, g⟩
      · exact g
      · have := g x hmem
        rw [g3] at this
        exact absurd k2 (not_lt.2 this)
    have hcard := Finset.card_le_card hsub
    rw [Finset.card_erase_of_mem (by rw [List.mem_toFinset]; exact List.mem_map.2 ⟨x, hmem, rfl⟩), List.toFinset_card_of_nodup r4.nodup,
      List.length_map, hcl] at hcard
    show Finset.card _ < shs
    refine lt_of_le_of_lt hcard ?_
    omega

/-! ### Trees -/

/-- The marks of the trees: statements about the ranges of at most 1024 points. -/
theorem chooseSplit_marks (dim n : Nat) (data : List K) (rand : Nat → Nat) (shs : Nat) (method : Method)
    (sort : List (Entry K) → List (Entry K)) (hdata : data.length = n * dim) (h1 : 1 ≤ shs) :
    ChooserMarks { dim := dim, data := data, method := method, choose := chooseSplit dim data rand shs, sort := sort } n
      (fun s => shs ≤ s.heapArr.length) (fun pts => pts.length ≤ 1024 → Coincide dim data pts)
      (fun d pts => pts.length ≤ 1024 → AmongTop dim data shs pts d) := by
  refine ⟨?_, ?_, ?_, ?_⟩
  · intro p _ a ha b hb d _
    simp only [List.mem_singleton] at ha hb
    rw [ha, hb]
  · intro l l' hll h hl a ha b hb
    exact h (by rw [hll.length_eq]; exact hl) a (hll.symm.subset ha) b (hll.symm.subset hb)
  · intro d l l' hll h hl
    obtain ⟨a, b, c⟩ := h (by rw [hll.length_eq]; exact hl)
    refine ⟨a, by rw [← spread_perm dim data hll]; exact b, ?_⟩
    simpa only [← spread_perm dim data hll] using c
  · intro s idx b e c s' hs hbe he hp hc
    have hlen : (ptsIn idx b e).length = e - b := ptsIn_length he
    by_cases hsmall : e - b ≤ 1024
    · obtain ⟨c', s'', e1, e2, e3⟩ := chooseSplit_top dim n data rand shs hdata h1 s idx b e hs hbe hsmall he hp
      simp only at hc
      rw [e1] at hc
      cases hc
      exact ⟨fun h _ => e2.1 h, fun sp h _ => (e3 sp h).1⟩
    · exact ⟨fun _ h => by omega, fun _ _ h => by omega⟩

omit [Field K] [LinearOrder K] [IsStrictOrderedRing K] in
theorem Marked.strip_congr {P : List Nat → Prop} {Q : Nat → List Nat → Prop} {nodes nodes' : List (Node K)} {idx : List (Entry K)}
    {sh : Shape} {i b e : Nat} (hs : ∀ j : Nat, nodes'[j]?.map strip = nodes[j]?.map strip) (h : Marked P Q nodes idx sh i b e) :
    Marked P Q nodes' idx sh i b e := by
  have get : ∀ (j : Nat) (nd : Node K), nodes[j]? = some nd → ∃ nd', nodes'[j]? = some nd' ∧ strip nd' = strip nd := by
    intro j nd hj
    have := hs j
    rw [hj, Option.map_some, Option.map_eq_some_iff] at this
    exact this
  induction sh generalizing i b e with
  | leaf =>
    obtain ⟨nd, h1, h2, h3, h4⟩ := h
    obtain ⟨nd', g1, g2⟩ := get i nd h1
    simp only [strip, Node.mk.injEq] at g2
    exact ⟨nd', g1, by rw [g2.2.1, h2], by rw [g2.2.2.1, h3], h4⟩
  | node l r ihl ihr =>
    obtain ⟨nd, m, c1, c2, h1, h2, h3, h4, h5, h6⟩ := h
    obtain ⟨nd', g1, g2⟩ := get i nd h1
    simp only [strip, Node.mk.injEq] at g2
    exact ⟨nd', m, c1, c2, g1, by rw [g2.2.1, h2], by rw [g2.2.2.1, h3], by rw [g2.2.2.2.1]; exact h4, ihl h5, ihr h6⟩

omit [IsStrictOrderedRing K] in
theorem boundTree_marked {dim : Nat} {data : List K} {n : Nat} {t : Tree K} (hdim : 0 < dim) (h : GoodTree dim data n t)
    {P : List Nat → Prop} {Q : Nat → List Nat → Prop} (hm : ∃ sh, Marked P Q t.nodes t.dataIndex sh 0 0 n) :
    ∃ t', boundTree dim t = some t' ∧ (BuiltTree dim data n t' ∧ ∃ sh, Marked P Q t'.nodes t'.dataIndex sh 0 0 n) ∧
      t'.numUsedNodes = t.numUsedNodes := by
  obtain ⟨t', e0, B, u⟩ := boundTree_spec hdim h
  obtain ⟨sh, h1, h2, h3, h4, h5, h6⟩ := h
  obtain ⟨nodes', e1, l1, -, s1, b1⟩ := calcBounds_spec (data := data) (idx := t.dataIndex) hdim sh t.nodes.length t.nodes 0 0 n
    (fun _ => none) (fun _ => none) (List.replicate (2 * dim) none) h1 (by omega)
    ⟨by simp, fun d hd => by
      constructor
      · rw [List.getElem?_replicate, if_pos (by omega)]
      · rw [List.getElem?_replicate, if_pos (by omega)]⟩
  obtain ⟨sh', hm⟩ := hm
  refine ⟨t', e0, ⟨B, sh', ?_⟩, u⟩
  unfold boundTree at e0
  rw [e1] at e0
  cases e0
  exact hm.strip_congr s1

/-- C223 for the trees of a forest.  For all data, seeds, numbers of trees and both thresholding methods: the tree partitions the data;
a node with at most 1024 points is split along a dimension of positive variance, such that less than `min blks.length 5` dimensions have
a larger one (with one tree, a dimension of largest variance); and the points of a leaf with at most 1024 points coincide.  Missing: nodes
with more points, for which it is false (`split_claim_false`). -/
theorem forestBuild_top_partial (dim n : Nat) (data : List K) (rand : Nat → Nat) (method : Method) (sort : List (Entry K) → List (Entry K))
    (hn : 1 ≤ n) (hd : 0 < dim) (hdata : data.length = n * dim) (hsort : SortOk sort) (h64 : n < 2 ^ 64)
    (blks : List (List (Node K) × List (Entry K))) (hb : ∀ blk ∈ blks, blk.1.length = 2 * n - 1 ∧ blk.2.length = n)
    (hb1 : blks ≠ []) (pos : Nat) (heapArr : List (SplitDim K)) (hh : heapArr.length = 5) :
    ∃ s' trees N,
      forestBuild { dim := dim, data := data, method := method, choose := chooseSplit dim data rand (min blks.length 5), sort := sort }
        n blks { pos := pos, heapArr := heapArr } = some (s', trees, N) ∧
      trees.length = blks.length ∧ ∀ t ∈ trees, BuiltTree dim data n t ∧ ∃ sh, Marked (fun pts => pts.length ≤ 1024 → Coincide dim data pts)
        (fun d pts => pts.length ≤ 1024 → AmongTop dim data (min blks.length 5) pts d) t.nodes t.dataIndex sh 0 0 n := by
  have h0 : 0 < blks.length := List.length_pos_iff.2 hb1
  have hc := chooseSplit_ok dim n data rand (min blks.length 5) method sort hdata (by omega)
  have hm := chooseSplit_marks dim n data rand (min blks.length 5) method sort hdata (by omega)
  obtain ⟨s', trees, N, a1, a2, a3, -⟩ := forestBuild_all
    { dim := dim, data := data, method := method, choose := chooseSplit dim data rand (min blks.length 5), sort := sort }
    (Inv := fun s => min blks.length 5 ≤ s.heapArr.length)
    (fun t => GoodTree dim data n t ∧ ∃ sh, Marked (fun pts => pts.length ≤ 1024 → Coincide dim data pts)
        (fun d pts => pts.length ≤ 1024 → AmongTop dim data (min blks.length 5) pts d) t.nodes t.dataIndex sh 0 0 n)
    (fun t => BuiltTree dim data n t ∧ ∃ sh, Marked (fun pts => pts.length ≤ 1024 → Coincide dim data pts)
        (fun d pts => pts.length ≤ 1024 → AmongTop dim data (min blks.length 5) pts d) t.nodes t.dataIndex sh 0 0 n) hn
    (fun s nb ib h h1 h2 => buildTree_marked _ hn hdata hsort hc hm h64 s h nb ib h1 h2)
    (fun t ht => boundTree_marked hd ht.1 ht.2) { pos := pos, heapArr := heapArr } (by simp only; omega) blks hb
  exact ⟨s', trees, N, a1, a2, a3⟩

omit [IsStrictOrderedRing K] in
/-- One tree: the dimension is one of largest variance. -/
theorem AmongTop.one {dim : Nat} {data : List K} {pts : List Nat} {d : Nat} (h : AmongTop dim data 1 pts d) :
    ∀ d' < dim, spread dim data pts d' ≤ spread dim data pts d := by
  intro d' hd
  have := Finset.card_eq_zero.1 (Nat.lt_one_iff.1 h.2.2)
  by_contra hc
  have hm : d' ∈ (Finset.range dim).filter (fun d' => spread dim data pts d < spread dim data pts d') :=
    Finset.mem_filter.2 ⟨Finset.mem_range.2 hd, not_le.1 hc⟩
  rw [this] at hm
  simp at hm

/-- Three points that vary more along the second coordinate: `chooseSplit` takes it, and the hypotheses of `chooseSplit_top` hold. -/
example : (chooseSplit 2 ([0, 0, 1, 5, 2, 9] : List ℚ) (fun _ => 0) 1 ⟨0, [⟨0, 0, 0⟩]⟩ [⟨0, 0⟩, ⟨1, 0⟩, ⟨2, 0⟩] 0 3).map
      (fun r => r.1.map Split.dimension) = some (some 1) ∧
    ([0, 0, 1, 5, 2, 9] : List ℚ).length = 3 * 2 ∧ ∀ p ∈ ptsIn ([⟨0, 0⟩, ⟨1, 0⟩, ⟨2, 0⟩] : List (Entry ℚ)) 0 3, p < 3 := by decide +kernel

/-! ### Ranges with more points -/

/-- The documented construction, for data sets of every size: "the splitting dimension is the one which has largest sample variance" (one
of the largest for forests), so that the points that share a leaf coincide. -/
def SplitClaim : Prop :=
  ∀ (dim n : Nat) (data : List ℚ) (rand : Nat → Nat) (method : Method) (sort : List (Entry ℚ) → List (Entry ℚ)),
    1 ≤ n → 0 < dim → data.length = n * dim → SortOk sort → n < 2 ^ 64 →
    ∀ (blks : List (List (Node ℚ) × List (Entry ℚ))), (∀ blk ∈ blks, blk.1.length = 2 * n - 1 ∧ blk.2.length = n) → blks ≠ [] →
    ∀ (pos : Nat) (heapArr : List (SplitDim ℚ)), heapArr.length = 5 → ∀ s' trees N,
      forestBuild { dim := dim, data := data, method := method, choose := chooseSplit dim data rand (min blks.length 5), sort := sort }
        n blks { pos := pos, heapArr := heapArr } = some (s', trees, N) →
      ∀ t ∈ trees, ∃ sh, Marked (Coincide dim data) (fun d pts => AmongTop dim data (min blks.length 5) pts d) t.nodes t.dataIndex sh 0 0 n

/-- A number that differs from the 1024 before it. -/
def oddOneOut : List ℚ := List.replicate 1024 0 ++ [1]

/-- The samples of a range of more than 1024 points are taken from its first 1024 points only. -/
theorem choose_oddOneOut (rand : Nat → Nat) (shs : Nat) (s : ChooseState ℚ) (idx : List (Entry ℚ)) (h : ptsIn idx 0 1025 = List.range 1025) :
    ∃ s', chooseSplit 1 oddOneOut rand shs s idx 0 1025 = some (none, s') := by
  have hstep : ∀ st : Nat × Heap.State (SplitDim ℚ), ∃ pos, dimStep 1 oddOneOut rand shs idx 0 1025 0 st = some (pos, st.2) := by
    intro st
    unfold dimStep
    have hb : decide (1025 - 0 ≤ 1024) = false := rfl
    simp only [hb]
    obtain ⟨r, e1, r1, r2⟩ := iter_inv (n := 1024) (f := sampleStep 1 oddOneOut rand idx 0 0 false)
      (s := { pos := st.1, mean := 0, secondMoment := 0 }) (fun _ r => r.mean = 0 ∧ r.secondMoment = 0) ⟨rfl, rfl⟩
      (by
        intro i _ r ⟨l1, l2⟩
        have hk : rand r.pos % 1024 < 1024 := Nat.mod_lt _ (by omega)
        generalize hkk : rand r.pos % 1024 = k at hk
        have hik : (ptsIn idx 0 1025)[k]? = some k := by rw [h, List.getElem?_range (by omega)]
        rw [ptsIn_getElem?, if_pos (by omega), Nat.zero_add, Option.map_eq_some_iff] at hik
        obtain ⟨en, g1, g2⟩ := hik
        have hz : rd oddOneOut (en.index * 1 + 0) = some 0 := by
          rw [g2, rd, oddOneOut, List.getElem?_append_left (by rw [List.length_replicate]; omega), List.getElem?_replicate, if_pos (by omega)]
        refine ⟨{ pos := r.pos + 1, mean := 0, secondMoment := 0 }, ?_, rfl, rfl⟩
        simp only [sampleStep, Bool.false_eq_true, if_false, Option.bind_eq_bind, Nat.add_zero]
        rw [hkk, show rd idx k = some en from g1]
        simp only [Option.bind_some]
        rw [show en.index * 1 = en.index * 1 + 0 from rfl, hz]
        simp [l1, l2])
    simp only [Bool.false_eq_true, if_false]
    rw [e1]
    simp only [Option.bind_eq_bind, Option.bind_some, r1, r2]
    exact ⟨r.pos, by simp⟩
  obtain ⟨pos, hp⟩ := hstep (s.pos, ⟨s.heapArr, 0⟩)
  refine ⟨{ pos := pos, heapArr := s.heapArr }, ?_⟩
  simp only [chooseSplit, iter, Option.bind_some, hp, Option.bind_eq_bind, if_true]

/-- The claim fails: 1025 numbers, the last of which differs from the others, are left in one leaf, whatever the random numbers are. -/
theorem split_claim_false : ¬ SplitClaim := by
  intro hclaim
  let C : Cfg (ChooseState ℚ) ℚ := ⟨1, oddOneOut, .median, chooseSplit 1 oddOneOut (fun _ => 0) (min 1 5),
    fun l => l.mergeSort (fun x y => decide (x.value ≤ y.value))⟩
  have hdata : oddOneOut.length = 1025 * 1 := by rw [oddOneOut, List.length_append, List.length_replicate, List.length_singleton]
  have hc := chooseSplit_ok 1 1025 oddOneOut (fun _ => 0) (min 1 5) .median
    (fun l : List (Entry ℚ) => l.mergeSort (fun x y => decide (x.value ≤ y.value))) hdata (by omega)
  let nd0 : Node ℚ := ⟨0, 0, 0, 0, 0, none, none⟩
  let blks : List (List (Node ℚ) × List (Entry ℚ)) := [(List.replicate 2049 nd0, List.replicate 1025 ⟨0, 0⟩)]
  have hblks : ∀ blk ∈ blks, blk.1.length = 2 * 1025 - 1 ∧ blk.2.length = 1025 := by
    intro blk hblk
    simp only [blks, List.mem_singleton] at hblk
    subst hblk
    constructor
    · rw [List.length_replicate]
    · rw [List.length_replicate]
  obtain ⟨s', trees, N, a1, a2, a3, -⟩ := forestBuild_all C (n := 1025) (Inv := fun s => min 1 5 ≤ s.heapArr.length)
    (fun t => GoodTree 1 oddOneOut 1025 t ∧ ∃ sh, Marked (fun _ => True) (fun _ _ => False) t.nodes t.dataIndex sh 0 0 1025)
    (fun t => BuiltTree 1 oddOneOut 1025 t ∧ ∃ sh, Marked (fun _ => True) (fun _ _ => False) t.nodes t.dataIndex sh 0 0 1025) (by omega)
    (by
      intro s nb ib h h1 h2
      obtain ⟨s', t, e, i, g⟩ := buildTree_good C (n := 1025) (by omega) hdata mergeSort_ok hc (by omega) s h nb ib h1 h2
      refine ⟨s', t, e, i, g, .leaf, ?_⟩
      obtain ⟨idx, e1, l1, p1⟩ := initIndex 1025 ib h2
      obtain ⟨nn, nn0, e2⟩ := nodeNew_spec
        (t := { nodes := nb, numUsedNodes := 0, dataIndex := idx, depth := 0 }) (p := 0) (by simp only; omega)
      obtain ⟨s1, e3⟩ := choose_oddOneOut (fun _ => 0) (min 1 5) s idx p1
      obtain ⟨t', e4, P⟩ := mkLeaf_post C (P := fun _ => True) (Q := fun _ _ => False)
        (t := { nodes := nb.set 0 nn, numUsedNodes := 0 + 1, dataIndex := idx, depth := 0 }) (i := 0) (b := 0) (e := 1025) 0
        (by simp only; rw [List.getElem?_set_self (by omega)]) nn0 (by omega) trivial
      unfold buildTree at e
      rw [e1] at e
      simp only [Option.bind_eq_bind, Option.bind_some] at e
      rw [e2] at e
      simp only [Option.bind_some] at e
      rw [show (2 * 1025 - 1) = 2048 + 1 from rfl, buildRec, if_neg (by omega), if_neg (by omega)] at e
      simp only [Option.bind_eq_bind] at e
      rw [show C.choose s idx 0 1025 = some (none, s1) from e3] at e
      simp only [Option.bind_some] at e
      rw [show mkLeaf { nodes := nb.set 0 nn, numUsedNodes := 0 + 1, dataIndex := idx, depth := 0 } 0 0 1025 = some t' from e4] at e
      cases e
      exact P.mark _ _ (fun _ _ => rfl) (fun _ _ _ => rfl))
    (fun t ht => boundTree_marked (by show 0 < 1; omega) ht.1 ht.2) { pos := 0, heapArr := List.replicate 5 ⟨0, 0, 0⟩ }
    (by simp) blks hblks
  obtain ⟨t, ht⟩ := List.exists_mem_of_length_pos (l := trees) (by rw [a2]; exact Nat.zero_lt_one)
  obtain ⟨⟨-, -, -, hperm, -⟩, sh, hm⟩ := a3 t ht
  obtain ⟨sh', hm'⟩ := hclaim 1 1025 oddOneOut (fun _ => 0) .median
    (fun l : List (Entry ℚ) => l.mergeSort (fun x y => decide (x.value ≤ y.value))) (by omega) (by omega) hdata mergeSort_ok (by omega)
    blks hblks (List.cons_ne_nil _ _) 0 (List.replicate 5 ⟨0, 0, 0⟩) (by simp) s' trees N a1 t ht
  cases sh with
  | node l r => obtain ⟨_, _, _, _, _, _, _, h, _⟩ := hm; exact h
  | leaf =>
    obtain ⟨nd, h1, h2, -⟩ := hm
    cases sh' with
    | node l r =>
      obtain ⟨nd', _, c1, _, g1, g2, _⟩ := hm'
      rw [h1] at g1
      cases g1
      omega
    | leaf =>
      obtain ⟨_, _, _, _, h⟩ := hm'
      have h0 : coord 1 oddOneOut 0 0 = 0 := by
        rw [coord, List.getD_eq_getElem?_getD, oddOneOut, List.getElem?_append_left (by rw [List.length_replicate]; omega),
          List.getElem?_replicate, if_pos (by omega), Option.getD_some]
      have h1 : coord 1 oddOneOut 1024 0 = 1 := by
        rw [coord, List.getD_eq_getElem?_getD, oddOneOut, List.getElem?_append_right (by rw [List.length_replicate]),
          List.length_replicate]
        rfl
      have := h 0 (hperm.symm.subset (List.mem_range.2 (by omega))) 1024 (hperm.symm.subset (List.mem_range.2 (by omega))) 0 (by omega)
      rw [h0, h1] at this
      exact zero_ne_one this

end Verif.KdTree
