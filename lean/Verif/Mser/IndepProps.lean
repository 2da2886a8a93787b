import Verif.Mser.ProcessProps

/-!
# The regions found do not depend on the buffers

The pixel that stands for a region may depend on what the buffers hold (`sameResult_claim_false`), but the regions themselves do not.
-/

namespace Verif.Mser

variable {dims im : List Nat} {P : Params}

/-- What is known about the records `g` of `n` regions. -/
structure Facts (P : Params) (dims im : List Nat) (n : Nat) (g : Nat → Er) : Prop where
  index : ∀ i < n, (g i).index < dims.prod ∧ (g i).value = pix im (g i).index
  inj : ∀ i < n, ∀ j < n, region dims im (g i) = region dims im (g j) → i = j
  cover : ∀ v, ∀ q < dims.prod, pix im q ≤ v → ∃ i < n, region dims im (g i) = Ext dims im v q
  area : ∀ i < n, (g i).area = (region dims im (g i)).ncard
  parent : ∀ i < n, (g i).parent < n ∧ ((g i).parent = i → region dims im (g i) = {q | q < dims.prod}) ∧
    ((g i).parent ≠ i → region dims im (g i) ⊂ region dims im (g (g i).parent) ∧
      ∀ j < n, region dims im (g i) ⊂ region dims im (g j) → region dims im (g (g i).parent) ⊆ region dims im (g j))
  variation : ∀ i < n, (g i).variation = (((Ext dims im ((g i).value + P.delta) (g i).index).ncard : ℚ) - (region dims im (g i)).ncard) / (region dims im (g i)).ncard
  kept : ∀ k < n, (g k).maxStable = true ↔ Stable n g k ∧ GoodSize P dims.prod (g k) ∧ Diverse P g k

/-- The same region in two runs. -/
def Same (dims im : List Nat) (n n' : Nat) (g g' : Nat → Er) (i j : Nat) : Prop := i < n ∧ j < n' ∧ region dims im (g i) = region dims im (g' j)

variable {n n' : Nat} {g g' : Nat → Er}

theorem Same.symm {i j : Nat} (h : Same dims im n n' g g' i j) : Same dims im n' n g' g j i := ⟨h.2.1, h.1, h.2.2.symm⟩

theorem Facts.lt (A : Facts P dims im n g) {i q : Nat} (hi : i < n) (hq : q ∈ region dims im (g i)) : q < dims.prod := ext_lt (A.index i hi).1 hq

theorem Facts.exists_same (A : Facts P dims im n g) (A' : Facts P dims im n' g') {i : Nat} (hi : i < n) : ∃ j, Same dims im n n' g g' i j := by
  obtain ⟨j, hj, e⟩ := A'.cover (g i).value (g i).index (A.index i hi).1 (A.index i hi).2.ge
  exact ⟨j, hi, hj, e.symm⟩

theorem Facts.same_iff (A : Facts P dims im n g) (A' : Facts P dims im n' g') {i j k l : Nat} (h : Same dims im n n' g g' i j) (h' : Same dims im n n' g g' k l) : i = k ↔ j = l := by
  constructor
  · intro e; subst e; exact A'.inj j h.2.1 l h'.2.1 (h.2.2.symm.trans h'.2.2)
  · intro e; subst e; exact A.inj i h.1 k h'.1 (h.2.2.trans h'.2.2.symm)

theorem Facts.value_le (A : Facts P dims im n g) (A' : Facts P dims im n' g') {i j : Nat} (h : Same dims im n n' g g' i j) : (g i).value ≤ (g' j).value := by
  obtain ⟨hi, hj, e⟩ := h
  rw [(A.index i hi).2]
  have : (g i).index ∈ region dims im (g' j) := by rw [← e]; exact ext_self
  exact ext_pix (A'.index j hj).2.ge this

theorem Facts.value_eq (A : Facts P dims im n g) (A' : Facts P dims im n' g') {i j : Nat} (h : Same dims im n n' g g' i j) : (g i).value = (g' j).value :=
  le_antisymm (A.value_le A' h) (A'.value_le A h.symm)

theorem Facts.area_eq (A : Facts P dims im n g) (A' : Facts P dims im n' g') {i j : Nat} (h : Same dims im n n' g g' i j) : (g i).area = (g' j).area := by
  rw [A.area i h.1, A'.area j h.2.1, h.2.2]

theorem Facts.variation_eq (A : Facts P dims im n g) (A' : Facts P dims im n' g') {i j : Nat} (h : Same dims im n n' g g' i j) : (g i).variation = (g' j).variation := by
  rw [A.variation i h.1, A'.variation j h.2.1, h.2.2, A.value_eq A' h]
  have : (g' j).index ∈ Ext dims im (g i).value (g i).index := by
    have : (g' j).index ∈ region dims im (g i) := by rw [h.2.2]; exact ext_self
    exact this
  rw [A.value_eq A' h] at this
  have h2 := ext_mono (w := (g' j).value + P.delta) (by omega) this
  rw [ext_eq _ h2]
  have := (A.index i h.1).2
  rw [A.value_eq A' h] at this
  omega

theorem Facts.sub_parent (A : Facts P dims im n g) {i : Nat} (hi : i < n) : region dims im (g i) ⊆ region dims im (g (g i).parent) := by
  by_cases c : (g i).parent = i
  · rw [c]
  · exact ((A.parent i hi).2.2 c).1.1

theorem Facts.root_of (A : Facts P dims im n g) (A' : Facts P dims im n' g') {i j : Nat} (h : Same dims im n n' g g' i j) (hr : (g i).parent = i) : (g' j).parent = j := by
  by_contra c
  have h1 := ((A'.parent j h.2.1).2.2 c).1
  rw [← h.2.2, (A.parent i h.1).2.1 hr] at h1
  exact h1.2 (fun q hq => A'.lt (A'.parent j h.2.1).1 hq)

theorem Facts.same_parent (A : Facts P dims im n g) (A' : Facts P dims im n' g') {i j : Nat} (h : Same dims im n n' g g' i j) : Same dims im n n' g g' (g i).parent (g' j).parent := by
  by_cases c : (g i).parent = i
  · rw [c, A.root_of A' h c]; exact h
  · have c' : (g' j).parent ≠ j := fun e => c (A'.root_of A h.symm e)
    obtain ⟨x, hx⟩ := A.exists_same A' (A.parent i h.1).1
    obtain ⟨y, hy⟩ := A'.exists_same A (A'.parent j h.2.1).1
    refine ⟨(A.parent i h.1).1, (A'.parent j h.2.1).1, Set.Subset.antisymm ?_ ?_⟩
    · rw [hy.2.2]
      apply ((A.parent i h.1).2.2 c).2 y hy.2.1
      rw [← hy.2.2, h.2.2]
      exact ((A'.parent j h.2.1).2.2 c').1
    · rw [hx.2.2]
      apply ((A'.parent j h.2.1).2.2 c').2 x hx.2.1
      rw [← hx.2.2, ← h.2.2]
      exact ((A.parent i h.1).2.2 c).1

theorem Facts.loses_of (A : Facts P dims im n g) (A' : Facts P dims im n' g') {i j k l : Nat} (h : Same dims im n n' g g' i j) (h' : Same dims im n n' g g' k l) (hl : Loses g i k) : Loses g' j l := by
  have hp := A.same_parent A' h
  unfold Loses at *
  rw [← A.value_eq A' h, ← A.value_eq A' hp, ← A.variation_eq A' h, ← A.variation_eq A' hp, ← A.same_iff A' h' hp, ← A.same_iff A' h' h]
  exact hl

theorem Facts.stable_of (A : Facts P dims im n g) (A' : Facts P dims im n' g') {i j : Nat} (h : Same dims im n n' g g' i j) (hs : Stable n g i) : Stable n' g' j := by
  intro y hy hl
  obtain ⟨x, hx⟩ := A'.exists_same A hy
  exact hs x hx.2.1 (A'.loses_of A hx h.symm hl)

theorem Facts.nearest_of (A : Facts P dims im n g) (A' : Facts P dims im n' g') {i : Nat} (hag : ∀ x y, Same dims im n n' g g' x y → region dims im (g i) ⊂ region dims im (g x) → ((g x).maxStable = true ↔ (g' y).maxStable = true))
    {x a : Nat} (hN : NearestKept g x a) : ∀ y, Same dims im n n' g g' x y → region dims im (g i) ⊂ region dims im (g x) → ∃ b, Same dims im n n' g g' a b ∧ NearestKept g' y b := by
  obtain ⟨h1, h2⟩ := hN
  induction h1 using Relation.ReflTransGen.head_induction_on with
  | refl =>
    intro y hy hlt
    refine ⟨y, hy, .refl, ?_⟩
    rcases h2 with h2 | h2
    · exact Or.inl ((hag _ _ hy hlt).mp h2)
    · exact Or.inr (A.root_of A' hy h2)
  | head hab _ ih =>
    intro y hy hlt
    have hp := A.same_parent A' hy
    rw [hab.2] at hp
    have hsub := A.sub_parent hy.1
    rw [hab.2] at hsub
    obtain ⟨b, hb, hN⟩ := ih _ hp (hlt.trans_subset hsub)
    refine ⟨b, hb, .head ⟨?_, rfl⟩ hN.1, hN.2⟩
    have := hag _ _ hy hlt
    rw [hab.1] at this
    simpa using this

theorem Facts.diverse_of (A : Facts P dims im n g) (A' : Facts P dims im n' g') {i j : Nat} (h : Same dims im n n' g g' i j)
    (hag : ∀ x y, Same dims im n n' g g' x y → region dims im (g i) ⊂ region dims im (g x) → ((g x).maxStable = true ↔ (g' y).maxStable = true)) (hd : Diverse P g i) : Diverse P g' j := by
  intro h1 h2 b hb
  have c : (g i).parent ≠ i := fun e => h2 (A.root_of A' h e)
  have hag' : ∀ y x, Same dims im n' n g' g y x → region dims im (g' j) ⊂ region dims im (g' y) → ((g' y).maxStable = true ↔ (g x).maxStable = true) := by
    intro y x hyx hlt
    rw [← h.2.2, hyx.2.2] at hlt
    exact (hag x y hyx.symm hlt).symm
  obtain ⟨a, ha, hN⟩ := A'.nearest_of A hag' hb _ (A.same_parent A' h).symm ((A'.parent j h.2.1).2.2 h2).1
  have := hd h1 c a hN
  rw [A.area_eq A' h, A.area_eq A' ha.symm] at this
  exact this

theorem Facts.kept_iff (A : Facts P dims im n g) (A' : Facts P dims im n' g') : ∀ (m i j : Nat), dims.prod - (g i).area = m → Same dims im n n' g g' i j → ((g i).maxStable = true ↔ (g' j).maxStable = true) := by
  intro m
  induction m using Nat.strong_induction_on with
  | _ m ih =>
    intro i j hm h
    have hag : ∀ x y, Same dims im n n' g g' x y → region dims im (g i) ⊂ region dims im (g x) → ((g x).maxStable = true ↔ (g' y).maxStable = true) := by
      intro x y hxy hlt
      refine ih (dims.prod - (g x).area) ?_ x y rfl hxy
      have hfin : (region dims im (g x)).Finite := ext_finite (A.index x hxy.1).1
      have h1 := Set.ncard_lt_ncard hlt hfin
      rw [← A.area i h.1, ← A.area x hxy.1] at h1
      have h2 : (g x).area ≤ dims.prod := by
        rw [A.area x hxy.1]
        have := Set.ncard_le_ncard (s := region dims im (g x)) (t := {q | q < dims.prod}) (fun q hq => A.lt hxy.1 hq) (Set.finite_lt_nat _)
        have h3 : ({q | q < dims.prod} : Set Nat).ncard = dims.prod := by
          rw [show ({q | q < dims.prod} : Set Nat) = ((Finset.range dims.prod : Finset Nat) : Set Nat) by ext; simp, Set.ncard_coe_finset, Finset.card_range]
        omega
      omega
    have hag' : ∀ y x, Same dims im n' n g' g y x → region dims im (g' j) ⊂ region dims im (g' y) → ((g' y).maxStable = true ↔ (g x).maxStable = true) := by
      intro y x hyx hlt
      rw [← h.2.2, hyx.2.2] at hlt
      exact (hag x y hyx.symm hlt).symm
    rw [A.kept i h.1, A'.kept j h.2.1]
    have hgood : GoodSize P dims.prod (g i) ↔ GoodSize P dims.prod (g' j) := by unfold GoodSize; rw [A.variation_eq A' h, A.area_eq A' h]
    rw [hgood]
    exact ⟨fun ⟨a, b, c⟩ => ⟨A.stable_of A' h a, b, A.diverse_of A' h hag c⟩, fun ⟨a, b, c⟩ => ⟨A'.stable_of A h.symm a, b, A'.diverse_of A h.symm hag' c⟩⟩

/-- C85: two runs on the same image, with any contents of the buffers, keep the same regions. -/
theorem kept_regions_independent (P : Params) (dims im : List Nat) (hl : im.length = dims.prod) (h256 : ∀ v ∈ im, v < 256) (hsmall : dims.prod < 2 ^ 32) (h0 : 0 < dims.prod) (perm0 perm1 : List Nat)
    (hp0 : perm0.length = dims.prod) (hp1 : perm1.length = dims.prod) (r0 r1 : List Reg) (hr0 : r0.length = dims.prod) (hr1 : r1.length = dims.prod) (b0 b1 : Nat → List Er)
    (hb0 : ∀ n, n ≤ (b0 n).length) (hb1 : ∀ n, n ≤ (b1 n).length) :
    ∃ o o', process P dims im perm0 r0 b0 = some o ∧ process P dims im perm1 r1 b1 = some o' ∧ o.mer.length = o'.mer.length ∧
      ((fun p => Ext dims im (pix im p) p) '' {p | p ∈ o.mer}) = ((fun p => Ext dims im (pix im p) p) '' {p | p ∈ o'.mer}) := by
  have run : ∀ (perm0 : List Nat) (r0 : List Reg) (b0 : Nat → List Er), perm0.length = dims.prod → r0.length = dims.prod → (∀ n, n ≤ (b0 n).length) →
      ∃ o, process P dims im perm0 r0 b0 = some o ∧ Facts P dims im o.ner (recAt o.er) ∧
        o.mer = ((List.range o.ner).filter (fun k => (recAt o.er k).maxStable)).map (fun k => (recAt o.er k).index) := by
    intro perm0 r0 b0 hp0 hr0 hb0
    obtain ⟨o, e, _, h1, h2, h3, h4, h5, h6⟩ := process_tree P dims im hl h256 hsmall h0 perm0 hp0 r0 hr0 b0 hb0
    obtain ⟨o', e', k1, k2, _⟩ := process_stable P dims im hl h256 hsmall h0 perm0 hp0 r0 hr0 b0 hb0
    rw [e] at e'
    cases e'
    exact ⟨o, e, ⟨h1, h2, h3, h4, h5, h6, k1⟩, k2⟩
  obtain ⟨o, e, A, hmer⟩ := run perm0 r0 b0 hp0 hr0 hb0
  obtain ⟨o', e', A', hmer'⟩ := run perm1 r1 b1 hp1 hr1 hb1
  have key : ∀ {n n' : Nat} {g g' : Nat → Er}, Facts P dims im n g → Facts P dims im n' g' →
      ((fun p => Ext dims im (pix im p) p) '' {p | p ∈ ((List.range n).filter (fun k => (g k).maxStable)).map (fun k => (g k).index)}) ⊆
      ((fun p => Ext dims im (pix im p) p) '' {p | p ∈ ((List.range n').filter (fun k => (g' k).maxStable)).map (fun k => (g' k).index)}) := by
    intro n n' g g' A A' s hs
    obtain ⟨p, hp, rfl⟩ := hs
    simp only [Set.mem_ofPred_eq, List.mem_map, List.mem_filter, List.mem_range] at hp
    obtain ⟨i, ⟨hi, hk⟩, rfl⟩ := hp
    obtain ⟨j, hj⟩ := A.exists_same A' hi
    refine ⟨(g' j).index, ?_, ?_⟩
    · simp only [Set.mem_ofPred_eq, List.mem_map, List.mem_filter, List.mem_range]
      exact ⟨j, ⟨hj.2.1, (A.kept_iff A' _ i j rfl hj).mp hk⟩, rfl⟩
    · have := hj.2.2
      unfold region at this
      rw [(A.index i hi).2, (A'.index j hj.2.1).2] at this
      exact this.symm
  have hcard : ∀ {n : Nat} {g : Nat → Er}, Facts P dims im n g →
      (((List.range n).filter (fun k => (g k).maxStable)).map (fun k => (g k).index)).length =
        ((fun p => Ext dims im (pix im p) p) '' {p | p ∈ ((List.range n).filter (fun k => (g k).maxStable)).map (fun k => (g k).index)}).ncard := by
    intro n g A
    rw [Set.InjOn.ncard_image]
    · have hnd : (((List.range n).filter (fun k => (g k).maxStable)).map (fun k => (g k).index)).Nodup := by
        apply List.Nodup.map_on _ (List.nodup_range.filter _)
        intro i hi j hj hij
        rw [List.mem_filter, List.mem_range] at hi hj
        apply A.inj i hi.1 j hj.1
        unfold region
        rw [(A.index i hi.1).2, (A.index j hj.1).2, hij]
      have hs : {p | p ∈ ((List.range n).filter (fun k => (g k).maxStable)).map (fun k => (g k).index)} = ((((List.range n).filter (fun k => (g k).maxStable)).map (fun k => (g k).index)).toFinset : Set Nat) := by
        ext; simp
      rw [hs, Set.ncard_coe_finset, List.toFinset_card_of_nodup hnd]
    · intro p hp q hq hpq
      simp only [Set.mem_ofPred_eq, List.mem_map, List.mem_filter, List.mem_range] at hp hq
      obtain ⟨i, ⟨hi, _⟩, rfl⟩ := hp
      obtain ⟨j, ⟨hj, _⟩, rfl⟩ := hq
      have : i = j := by
        apply A.inj i hi j hj
        unfold region
        rw [(A.index i hi).2, (A.index j hj).2]
        exact hpq
      rw [this]
  have hset := Set.Subset.antisymm (key A A') (key A' A)
  refine ⟨o, o', e, e', ?_, ?_⟩
  · rw [hmer, hmer', hcard A, hcard A', hset]
  · rw [hmer, hmer']; exact hset

/-- The hypotheses are met by the two runs of `sameResult_claim_false`. -/
example : ∃ o o', smallRun 0 = some o ∧ smallRun 9 = some o' ∧ o.mer.length = o'.mer.length ∧
    ((fun p => Ext [2, 3] [3, 1, 7, 1, 3, 9] (pix [3, 1, 7, 1, 3, 9] p) p) '' {p | p ∈ o.mer}) = ((fun p => Ext [2, 3] [3, 1, 7, 1, 3, 9] (pix [3, 1, 7, 1, 3, 9] p) p) '' {p | p ∈ o'.mer}) :=
  kept_regions_independent _ [2, 3] [3, 1, 7, 1, 3, 9] (by decide) (by decide) (by decide) (by decide) _ _ (by decide) (by decide) _ _ (by decide) (by decide) _ _ (fun n => by simp) (fun n => by simp)

end Verif.Mser
