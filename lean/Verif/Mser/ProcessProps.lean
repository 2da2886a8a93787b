import Verif.Mser.ProcessLemmas

/-!
# The maximally stable extremal regions of an image
-/

namespace Verif.Mser

open Verif.Erfill (Touch coords stridesFrom)

theorem recAt_eq {er : List Er} {m : Nat} {g : Nat → Er} (h : Arr er m g) {i : Nat} (hi : i < m) : recAt er i = g i := by
  simp [recAt, List.getD, h.get i hi]

theorem tally_eq (n : Nat) (p : Nat → Bool) (q : Nat → Prop) (h : ∀ k < n, p k = true ↔ q k) : tally n p = howMany n q := by
  unfold tally howMany
  have hs : {k | k < n ∧ q k} = (((List.range n).filter p).toFinset : Set Nat) := by
    ext k
    simp only [Set.mem_ofPred_eq, List.coe_toFinset, List.mem_filter, List.mem_range]
    constructor
    · rintro ⟨a, b⟩; exact ⟨a, (h k a).mpr b⟩
    · rintro ⟨a, b⟩; exact ⟨a, (h k a).mp b⟩
  rw [hs, Set.ncard_coe_finset, List.toFinset_card_of_nodup (List.nodup_range.filter _)]

theorem howMany_compl (n : Nat) (p : Nat → Prop) : howMany n (fun k => ¬ p k) + howMany n p = n := by
  classical
  rw [← tally_eq n (fun k => decide (¬ p k)) _ (fun k _ => by simp), ← tally_eq n (fun k => decide (p k)) _ (fun k _ => by simp)]
  unfold tally
  have h := List.length_eq_length_filter_add (l := List.range n) (fun k => decide (p k))
  rw [List.length_range] at h
  rw [List.filter_congr (p := fun k => decide (¬ p k)) (q := fun x => !decide (p x)) (fun k _ => by simp)]
  omega

/-- A region and the regions above it. -/
theorem Tree.up_mem {dims im L : List Nat} {g : Nat → Er} (T : Tree dims im L g) {i t p q : Nat} (hp : L[i]? = some p) (hq : L[t]? = some q) (h : Up g i t) : p ∈ Ext dims im (pix im q) q ∧ pix im p ≤ pix im q := by
  unfold Up at h
  induction h using Relation.ReflTransGen.head_induction_on generalizing p with
  | refl => rw [hp] at hq; cases hq; exact ⟨ext_self, le_refl _⟩
  | head hab _ ih =>
    subst hab
    obtain ⟨a, ha, h⟩ := T.parent _ p hp
    obtain ⟨h1, h2⟩ := ih ha
    rcases h with ⟨rfl, _⟩ | ⟨h3, h4, _⟩
    · exact ⟨h1, h2⟩
    · refine ⟨?_, by omega⟩
      have := ext_mono h2 h4
      exact ext_trans h1 this

/-- C83: the array of extremal regions lists every extremal region of the image exactly once: for every level `v` and every pixel `q` of intensity `v` at most, the connected region of pixels of
intensity at most `v` around `q` is one of those listed, and two different records are different regions.  A record holds the area of its region; the parent of a region is the smallest extremal
region that is larger than it, and the region without a parent is the whole image.  The variation is the relative growth of the region when the level goes up by `delta`.  No access is out of bounds,
whatever the buffers hold at the beginning. -/
theorem process_tree (P : Params) (dims im : List Nat) (hl : im.length = dims.prod) (h256 : ∀ v ∈ im, v < 256) (hsmall : dims.prod < 2 ^ 32) (h0 : 0 < dims.prod) (perm0 : List Nat)
    (hp0 : perm0.length = dims.prod) (r0 : List Reg) (hr0 : r0.length = dims.prod) (erBuf : Nat → List Er) (herb : ∀ n, n ≤ (erBuf n).length) :
    ∃ o, process P dims im perm0 r0 erBuf = some o ∧ o.nextremal = o.ner ∧
      (∀ i < o.ner, (recAt o.er i).index < dims.prod ∧ (recAt o.er i).value = pix im (recAt o.er i).index) ∧
      (∀ i < o.ner, ∀ j < o.ner, region dims im (recAt o.er i) = region dims im (recAt o.er j) → i = j) ∧
      (∀ v, ∀ q < dims.prod, pix im q ≤ v → ∃ i < o.ner, region dims im (recAt o.er i) = Ext dims im v q) ∧
      (∀ i < o.ner, (recAt o.er i).area = (region dims im (recAt o.er i)).ncard) ∧
      (∀ i < o.ner, (recAt o.er i).parent < o.ner ∧
        ((recAt o.er i).parent = i → region dims im (recAt o.er i) = {q | q < dims.prod}) ∧
        ((recAt o.er i).parent ≠ i → region dims im (recAt o.er i) ⊂ region dims im (recAt o.er (recAt o.er i).parent) ∧
          ∀ j < o.ner, region dims im (recAt o.er i) ⊂ region dims im (recAt o.er j) → region dims im (recAt o.er (recAt o.er i).parent) ⊆ region dims im (recAt o.er j))) ∧
      (∀ i < o.ner, (recAt o.er i).variation =
        (((Ext dims im ((recAt o.er i).value + P.delta) (recAt o.er i).index).ncard : ℚ) - (region dims im (recAt o.er i)).ncard) / (region dims im (recAt o.er i)).ncard) := by
  obtain ⟨o, r, f, f', g₀, g₁, g, m, e, hperm, F, hr, hf', hner, hnx, hm, her, T, hst, hvar, _⟩ := process_spec P dims im hl h256 hsmall h0 perm0 hp0 r0 hr0 erBuf herb
  refine ⟨o, e, hnx, ?_⟩
  have hrec : ∀ i < o.ner, recAt o.er i = g i := fun i hi => recAt_eq her (by omega)
  obtain ⟨L, hL⟩ : ∃ L, extList im f o.perm = L := ⟨_, rfl⟩
  rw [hL] at T hner
  have hsome : ∀ i < o.ner, ∃ p, L[i]? = some p ∧ p < dims.prod ∧ (recAt o.er i).index = p ∧ (recAt o.er i).value = pix im p ∧ region dims im (recAt o.er i) = Ext dims im (pix im p) p := by
    intro i hi
    have hi' : i < L.length := by omega
    have hp : L[i]? = some L[i] := List.getElem?_eq_getElem hi'
    refine ⟨L[i], hp, T.lt _ (List.getElem_mem _), ?_, ?_, ?_⟩
    · rw [hrec i hi]; exact (T.index i _ hp).1
    · rw [hrec i hi]; exact (T.index i _ hp).2
    · unfold region; rw [hrec i hi, (T.index i _ hp).1, (T.index i _ hp).2]
  have hidx : ∀ {i p : Nat}, L[i]? = some p → i < o.ner := fun {i p} h => by rw [List.getElem?_eq_some_iff] at h; rw [hner]; exact h.1
  have hLx : ∀ p ∈ L, p < dims.prod ∧ Final.Extremal im o.joins f p := by
    intro p hp
    rw [← hL, mem_extList hperm] at hp
    exact ⟨hp.1, (isExt_iff F hp.1).mp hp.2⟩
  have hinj : ∀ {i j p q : Nat}, L[i]? = some p → L[j]? = some q → p = q → i = j := by
    intro i j p q hi hj hpq
    subst hpq
    have hi' : i < L.length := by rw [List.getElem?_eq_some_iff] at hi; exact hi.1
    have hj' : j < L.length := by rw [List.getElem?_eq_some_iff] at hj; exact hj.1
    rw [List.getElem?_eq_getElem hi'] at hi
    rw [List.getElem?_eq_getElem hj'] at hj
    exact (List.Nodup.getElem_inj_iff T.nodup).mp (by rw [Option.some.inj hi, Option.some.inj hj])
  refine ⟨?_, ?_, ?_, ?_, ?_, ?_⟩
  · intro i hi
    obtain ⟨p, hp, hpl, h1, h2, h3⟩ := hsome i hi
    rw [h1, h2]; exact ⟨hpl, rfl⟩
  · intro i hi j hj hij
    obtain ⟨p, hp, hpl, h1, h2, h3⟩ := hsome i hi
    obtain ⟨q, hq, hql, k1, k2, k3⟩ := hsome j hj
    rw [h3, k3] at hij
    exact hinj hp hq (F.ext_inj hpl hql (hLx p (List.mem_of_getElem? hp)).2 (hLx q (List.mem_of_getElem? hq)).2 hij)
  · intro v q hq hqv
    obtain ⟨p, hp, ht, hm'⟩ := F.exists_top hq hqv
    have hpL : p ∈ L := by rw [← hL, mem_extList hperm]; exact ⟨hp, (isExt_iff F hp).mpr (Final.top_extremal ht)⟩
    obtain ⟨i, hi⟩ := List.mem_iff_getElem?.mp hpL
    obtain ⟨p', hp', _, _, _, h3⟩ := hsome i (hidx hi)
    rw [hi] at hp'
    cases hp'
    refine ⟨i, hidx hi, ?_⟩
    rw [h3, ← F.ext_const hp ht, ext_eq hqv hm']
  · intro i hi
    obtain ⟨p, hp, hpl, h1, h2, h3⟩ := hsome i hi
    rw [h3, hrec i hi]; exact T.area i p hp
  · intro i hi
    obtain ⟨p, hp, hpl, h1, h2, h3⟩ := hsome i hi
    obtain ⟨a, ha, h⟩ := T.parent i p hp
    rw [h3]
    have hparg : (recAt o.er i).parent = (g i).parent := by rw [hrec i hi]
    rw [hparg]
    have hpn := hidx ha
    obtain ⟨a', ha', hal, k1, k2, k3⟩ := hsome _ hpn
    rw [ha] at ha'
    cases ha'
    rw [k3]
    refine ⟨hpn, ?_, ?_⟩
    · intro hpi
      rw [hpi, hp] at ha
      cases ha
      rcases h with ⟨_, h⟩ | ⟨h, _⟩
      · obtain ⟨v, hv⟩ : ∃ v, ∀ p < dims.prod, pix im p ≤ v := ⟨(Finset.range dims.prod).sup (pix im), fun p hp => Finset.le_sup (by simpa using hp)⟩
        rw [← h v (hv p hpl)]
        ext q
        simp only [Set.mem_ofPred_eq]
        exact ⟨fun hq => ext_lt hpl hq, fun hq => ext_top hv hpl hq⟩
      · omega
    · intro hpi
      rcases h with ⟨rfl, _⟩ | ⟨h4, h5, h6⟩
      · exact absurd (hinj ha hp rfl) hpi
      · have hsym : a ∈ Ext dims im (pix im a) p := ext_symm (le_refl _) h5
        have hae : Ext dims im (pix im a) a = Ext dims im (pix im a) p := ext_eq (by omega) hsym
        refine ⟨⟨?_, ?_⟩, ?_⟩
        · rw [hae]; exact ext_mono (by omega)
        · intro hsub
          have := ext_pix (le_refl _) (hsub ext_self)
          omega
        · intro j hj hss
          obtain ⟨q, hq, hql, m1, m2, m3⟩ := hsome j hj
          rw [m3] at hss ⊢
          have hpq : p ∈ Ext dims im (pix im q) q := hss.1 ext_self
          have hpv := ext_pix (le_refl _) hpq
          have heq : Ext dims im (pix im q) p = Ext dims im (pix im q) q := ext_eq (le_refl _) hpq
          rcases Nat.lt_or_ge (pix im q) (pix im a) with c | c
          · have := h6 (pix im q) hpv c
            rw [heq] at this
            exact absurd this.subset hss.2
          · rw [hae, ← heq]; exact ext_mono c
  · intro i hi
    obtain ⟨p, hp, hpl, h1, h2, h3⟩ := hsome i hi
    obtain ⟨t, ⟨hup, htv, htop⟩, hv⟩ := hvar i hi
    have hS : Shape L.length g := T.shape
    have hst' : SameTree L.length g₀ g := by rw [← hner]; exact hst
    have hupg : Up g i t := by
      have : ∀ {x y}, Up g₀ x y → x < L.length → Up g x y := by
        intro x y h
        unfold Up at h
        induction h using Relation.ReflTransGen.head_induction_on with
        | refl => intro _; exact .refl
        | head hab _ ih =>
          rename_i u w _
          intro hx
          have hp' : (g u).parent = w := by rw [(hst' u hx).1]; exact hab
          exact .head hp' (ih (by rw [← hp']; exact hS.par_lt u hx))
      exact this hup (by omega)
    have htl := hS.up_le (by omega) hupg
    have hLt : L[t]? = some L[t] := List.getElem?_eq_getElem htl.2
    obtain ⟨q, hq⟩ : ∃ q, L[t] = q := ⟨_, rfl⟩
    rw [hq] at hLt
    have hql : q < dims.prod := T.lt _ (List.mem_of_getElem? hLt)
    obtain ⟨hmem, hpq⟩ := T.up_mem hp hLt hupg
    rw [hrec i hi, hv, ← (hst i hi).2.2.2, ← (hst t (by omega)).2.2.2, T.area i p hp, T.area t q hLt]
    have hri : region dims im (g i) = Ext dims im (pix im p) p := by rw [← hrec i hi]; exact h3
    rw [hri, (T.index i p hp).1, (T.index i p hp).2]
    have hval0 : (g₀ i).value = pix im p := by rw [← (hst i hi).2.2.1]; exact (T.index i p hp).2
    have hvalt : (g₀ t).value = pix im q := by rw [← (hst t (by omega)).2.2.1]; exact (T.index t q hLt).2
    rw [hval0] at htv htop
    rw [hvalt] at htv
    have hkey : Ext dims im (pix im p + P.delta) q = Ext dims im (pix im q) q := by
      obtain ⟨a, ha, h⟩ := T.parent t q hLt
      rw [(hst t (by omega)).1] at ha
      have hpt : (g₀ t).parent < o.ner := hidx ha
      rcases h with ⟨_, h⟩ | ⟨h4, h5, h6⟩
      · exact h _ htv
      · rcases htop with e | e
        · rw [e] at ha
          rw [ha] at hLt
          cases hLt
          omega
        · rw [← (hst _ hpt).2.2.1, (T.index _ a ha).2] at e
          exact h6 _ htv e
    have : Ext dims im (pix im p + P.delta) p = Ext dims im (pix im q) q := by
      rw [← hkey]
      exact ext_eq htv (ext_mono htv hmem)
    rw [this]

/-- C84: the regions kept are those that lose no comparison with their parent or with a child at the next level, are not too variable, too large or too small, and are different enough from the
closest region kept above them (the root if there is none).  The result lists a pixel of each of them, in the order of the array; the statistics count the regions removed by each test. -/
theorem process_stable (P : Params) (dims im : List Nat) (hl : im.length = dims.prod) (h256 : ∀ v ∈ im, v < 256) (hsmall : dims.prod < 2 ^ 32) (h0 : 0 < dims.prod) (perm0 : List Nat)
    (hp0 : perm0.length = dims.prod) (r0 : List Reg) (hr0 : r0.length = dims.prod) (erBuf : Nat → List Er) (herb : ∀ n, n ≤ (erBuf n).length) :
    ∃ o, process P dims im perm0 r0 erBuf = some o ∧
      (∀ k < o.ner, (recAt o.er k).maxStable = true ↔ Stable o.ner (recAt o.er) k ∧ GoodSize P dims.prod (recAt o.er k) ∧ Diverse P (recAt o.er) k) ∧
      o.mer = ((List.range o.ner).filter (fun k => (recAt o.er k).maxStable)).map (fun k => (recAt o.er k).index) ∧
      o.counts.nmer = o.mer.length ∧
      o.nunstable = howMany o.ner (fun k => ¬ Stable o.ner (recAt o.er) k) ∧
      o.counts.nbad = howMany o.ner (fun k => Stable o.ner (recAt o.er) k ∧ P.maxVariation ≤ (recAt o.er k).variation) ∧
      o.counts.nbig = howMany o.ner (fun k => Stable o.ner (recAt o.er) k ∧ (recAt o.er k).variation < P.maxVariation ∧ P.maxArea * dims.prod < (recAt o.er k).area) ∧
      o.counts.nsmall = howMany o.ner (fun k => Stable o.ner (recAt o.er) k ∧ (recAt o.er k).variation < P.maxVariation ∧ ((recAt o.er k).area : ℚ) ≤ P.maxArea * dims.prod ∧
        ((recAt o.er k).area : ℚ) < P.minArea * dims.prod) ∧
      o.counts.ndup = howMany o.ner (fun k => Stable o.ner (recAt o.er) k ∧ GoodSize P dims.prod (recAt o.er k) ∧ ¬ Diverse P (recAt o.er) k) := by
  obtain ⟨o, r, f, f', g₀, g₁, g, m, e, hperm, F, hr, hf', hner, hnx, hm, her, T, hst, hvar, hsr, hstab, hun, hnm, hk, hb1, hb2, hb3, hsum, hmer⟩ :=
    process_spec P dims im hl h256 hsmall h0 perm0 hp0 r0 hr0 erBuf herb
  have hrec : ∀ i < o.ner, recAt o.er i = g i := fun i hi => recAt_eq her (by omega)
  have hS : Shape o.ner g := by rw [hner]; exact T.shape
  have hv1 : ∀ k < o.ner, (g₁ k).variation = (g k).variation := fun k hk => (hsr.var hk).symm
  have ha1 : ∀ k < o.ner, (g₁ k).area = (g k).area := fun k hk => (hsr.tree k hk).2.2.2.symm
  have hStab : ∀ k < o.ner, (Stable o.ner (recAt o.er) k ↔ (g₁ k).maxStable = true) := by
    intro k hk
    rw [hstab k hk]
    have key : ∀ j < o.ner, (Loses (recAt o.er) j k ↔ Loses g j k) := by
      intro j hj
      unfold Loses
      rw [hrec j hj, hrec _ (hS.par_lt j hj)]
    unfold Stable
    exact ⟨fun h j hj => by rw [← key j hj]; exact h j hj, fun h j hj => by rw [key j hj]; exact h j hj⟩
  have hDiv : ∀ k < o.ner, (Diverse P (recAt o.er) k ↔ Diverse P g k) := fun k hk => diverse_congr hS hk (fun j _ hj => hrec j hj)
  have hGood : ∀ k < o.ner, (GoodSize P dims.prod (recAt o.er k) ↔ GoodSize P dims.prod (g₁ k)) := by
    intro k hk
    unfold GoodSize
    rw [hrec k hk, hv1 k hk, ha1 k hk]
  have hmk : marked o.ner g = howMany o.ner (fun k => Stable o.ner (recAt o.er) k ∧ GoodSize P dims.prod (recAt o.er k) ∧ Diverse P (recAt o.er) k) :=
    tally_eq _ _ _ (fun k hk' => by rw [hk k hk', hStab k hk', hGood k hk', hDiv k hk'])
  have hmk1 : marked o.ner g₁ = howMany o.ner (fun k => Stable o.ner (recAt o.er) k) := tally_eq _ _ _ (fun k hk' => by rw [hStab k hk'])
  refine ⟨o, e, ?_, ?_, ?_, ?_, ?_, ?_, ?_, ?_⟩
  · intro k hk'
    rw [hrec k hk', hk k hk', hStab k hk', hDiv k hk', ← hGood k hk', hrec k hk']
  · rw [hmer]
    have h1 : (List.range o.ner).filter (fun k => (recAt o.er k).maxStable) = (List.range o.ner).filter (fun k => (g k).maxStable) :=
      List.filter_congr (fun k hk' => by rw [hrec k (List.mem_range.mp hk')])
    rw [h1]
    apply List.map_congr_left
    intro k hk'
    rw [hrec k (List.mem_range.mp (List.mem_filter.mp hk').1)]
  · rw [hnm, hmer, List.length_map]; rfl
  · rw [hun, hmk1]
    have := howMany_compl o.ner (fun k => Stable o.ner (recAt o.er) k)
    omega
  · rw [hb1]
    exact tally_eq _ _ _ (fun k hk' => by rw [hStab k hk', Bool.and_eq_true, decide_eq_true_eq, hrec k hk', hv1 k hk'])
  · rw [hb2]
    exact tally_eq _ _ _ (fun k hk' => by rw [hStab k hk', Bool.and_eq_true, decide_eq_true_eq, hrec k hk', hv1 k hk', ha1 k hk'])
  · rw [hb3]
    exact tally_eq _ _ _ (fun k hk' => by rw [hStab k hk', Bool.and_eq_true, decide_eq_true_eq, hrec k hk', hv1 k hk', ha1 k hk'])
  · -- the remaining count, by difference
    have hb1' : o.counts.nbad = howMany o.ner (fun k => Stable o.ner (recAt o.er) k ∧ P.maxVariation ≤ (recAt o.er k).variation) := by
      rw [hb1]
      exact tally_eq _ _ _ (fun k hk' => by rw [hStab k hk', Bool.and_eq_true, decide_eq_true_eq, hrec k hk', hv1 k hk'])
    have hb2' : o.counts.nbig = howMany o.ner (fun k => Stable o.ner (recAt o.er) k ∧ (recAt o.er k).variation < P.maxVariation ∧ P.maxArea * dims.prod < (recAt o.er k).area) := by
      rw [hb2]
      exact tally_eq _ _ _ (fun k hk' => by rw [hStab k hk', Bool.and_eq_true, decide_eq_true_eq, hrec k hk', hv1 k hk', ha1 k hk'])
    have hb3' : o.counts.nsmall = howMany o.ner (fun k => Stable o.ner (recAt o.er) k ∧ (recAt o.er k).variation < P.maxVariation ∧ ((recAt o.er k).area : ℚ) ≤ P.maxArea * dims.prod ∧
        ((recAt o.er k).area : ℚ) < P.minArea * dims.prod) := by
      rw [hb3]
      exact tally_eq _ _ _ (fun k hk' => by rw [hStab k hk', Bool.and_eq_true, decide_eq_true_eq, hrec k hk', hv1 k hk', ha1 k hk'])
    have split : ∀ (A B C : Nat → Prop), (∀ k, A k ↔ B k ∨ C k) → (∀ k, B k → ¬ C k) → howMany o.ner A = howMany o.ner B + howMany o.ner C := by
      intro A B C h1 h2
      unfold howMany
      have f1 : {k | k < o.ner ∧ B k}.Finite := (Set.finite_lt_nat o.ner).subset (fun k hk => hk.1)
      have f2 : {k | k < o.ner ∧ C k}.Finite := (Set.finite_lt_nat o.ner).subset (fun k hk => hk.1)
      rw [← Set.ncard_union_eq ?_ f1 f2]
      · congr 1
        ext k
        simp only [Set.mem_union, Set.mem_ofPred_eq, h1]
        constructor
        · rintro ⟨a, b | b⟩ <;> simp [a, b]
        · rintro (⟨a, b⟩ | ⟨a, b⟩) <;> simp [a, b]
      · rw [Set.disjoint_left]
        rintro k ⟨_, hb⟩ ⟨_, hc⟩
        exact h2 k hb hc
    obtain ⟨S, hSd⟩ : ∃ S : Nat → Prop, S = fun k => Stable o.ner (recAt o.er) k := ⟨_, rfl⟩
    have s1 := split S (fun k => S k ∧ P.maxVariation ≤ (recAt o.er k).variation) (fun k => S k ∧ (recAt o.er k).variation < P.maxVariation)
      (fun k => by constructor
                   · intro h
                     rcases le_or_gt P.maxVariation (recAt o.er k).variation with c | c
                     · exact Or.inl ⟨h, c⟩
                     · exact Or.inr ⟨h, c⟩
                   · rintro (h | h) <;> exact h.1)
      (fun k h1 h2 => absurd h2.2 (not_lt.mpr h1.2))
    have s2 := split (fun k => S k ∧ (recAt o.er k).variation < P.maxVariation) (fun k => S k ∧ (recAt o.er k).variation < P.maxVariation ∧ P.maxArea * dims.prod < (recAt o.er k).area)
      (fun k => S k ∧ (recAt o.er k).variation < P.maxVariation ∧ ((recAt o.er k).area : ℚ) ≤ P.maxArea * dims.prod)
      (fun k => by constructor
                   · intro h
                     rcases le_or_gt ((recAt o.er k).area : ℚ) (P.maxArea * dims.prod) with c | c
                     · exact Or.inr ⟨h.1, h.2, c⟩
                     · exact Or.inl ⟨h.1, h.2, c⟩
                   · rintro (h | h) <;> exact ⟨h.1, h.2.1⟩)
      (fun k h1 h2 => absurd h2.2.2 (not_le.mpr h1.2.2))
    have s3 := split (fun k => S k ∧ (recAt o.er k).variation < P.maxVariation ∧ ((recAt o.er k).area : ℚ) ≤ P.maxArea * dims.prod)
      (fun k => S k ∧ (recAt o.er k).variation < P.maxVariation ∧ ((recAt o.er k).area : ℚ) ≤ P.maxArea * dims.prod ∧ ((recAt o.er k).area : ℚ) < P.minArea * dims.prod)
      (fun k => S k ∧ GoodSize P dims.prod (recAt o.er k))
      (fun k => by constructor
                   · intro h
                     rcases le_or_gt (P.minArea * dims.prod) ((recAt o.er k).area : ℚ) with c | c
                     · exact Or.inr ⟨h.1, h.2.1, h.2.2, c⟩
                     · exact Or.inl ⟨h.1, h.2.1, h.2.2, c⟩
                   · rintro (h | h)
                     · exact ⟨h.1, h.2.1, h.2.2.1⟩
                     · exact ⟨h.1, h.2.1, h.2.2.1⟩)
      (fun k h1 h2 => absurd h2.2.2.2 (not_le.mpr h1.2.2.2))
    have s4 := split (fun k => S k ∧ GoodSize P dims.prod (recAt o.er k)) (fun k => S k ∧ GoodSize P dims.prod (recAt o.er k) ∧ Diverse P (recAt o.er) k)
      (fun k => S k ∧ GoodSize P dims.prod (recAt o.er k) ∧ ¬ Diverse P (recAt o.er) k)
      (fun k => by constructor
                   · intro h
                     by_cases c : Diverse P (recAt o.er) k
                     · exact Or.inl ⟨h.1, h.2, c⟩
                     · exact Or.inr ⟨h.1, h.2, c⟩
                   · rintro (h | h) <;> exact ⟨h.1, h.2.1⟩)
      (fun k h1 h2 => h2.2.2 h1.2.2)
    subst hSd
    simp only at s1 s2 s3 s4
    rw [hb1', hb2', hb3', hmk, hmk1] at hsum
    omega

/-- A filter of 2 by 3 pixels, with arbitrary contents in the buffers. -/
def smallRun (h : Int) : Option Out :=
  process { delta := 1, maxArea := 1, minArea := 0, maxVariation := 10, minDiversity := 0 } [2, 3] [3, 1, 7, 1, 3, 9] [9, 9, 9, 9, 9, 9]
    (List.replicate 6 { parent := 4, shortcut := 8, height := h, area := 7 }) (fun n => List.replicate n { parent := 5, index := 5, value := 5, shortcut := 5, area := 5, variation := 5, maxStable := true })

/-- The hypotheses of the theorems above are met, and some regions are kept. -/
example : (smallRun 0).map (fun o => (o.ner, o.mer)) = some (4, [3, 0, 2]) := by decide +kernel

/-- The claim that the result does not depend on what the buffers of a new filter hold: two filters of the same dimensions, with buffers of the right sizes, give the same list of pixels. -/
def SameResultClaim : Prop := ∀ (P : Params) (dims im : List Nat), im.length = dims.prod → (∀ v ∈ im, v < 256) → dims.prod < 2 ^ 32 → 0 < dims.prod →
  ∀ (perm0 : List Nat) (r0 r1 : List Reg) (erBuf : Nat → List Er), perm0.length = dims.prod → r0.length = dims.prod → r1.length = dims.prod → (∀ n, n ≤ (erBuf n).length) →
    (process P dims im perm0 r0 erBuf).map (fun o => o.mer) = (process P dims im perm0 r1 erBuf).map (fun o => o.mer)

/-- C85: the claim is false: the pixel that stands for a region depends on the height of the pixel 0, which is read before it has been written. -/
theorem sameResult_claim_false : ¬ SameResultClaim := by
  intro h
  have := h { delta := 1, maxArea := 1, minArea := 0, maxVariation := 10, minDiversity := 0 } [3] [5, 1, 1] (by decide) (by decide) (by decide) (by decide) [0, 0, 0]
    (List.replicate 3 { parent := 0, shortcut := 0, height := 0, area := 0 }) (List.replicate 3 { parent := 0, shortcut := 0, height := 7, area := 0 })
    (fun n => List.replicate n { parent := 5, index := 5, value := 5, shortcut := 5, area := 5, variation := 5, maxStable := true }) rfl rfl rfl (fun n => by simp)
  revert this
  decide +kernel

end Verif.Mser
