import Verif.Mser.FinalLemmas

/-!
# The extraction and the linking of the extremal regions
-/

namespace Verif.Mser

open Verif.Erfill (Touch coords stridesFrom)

variable {im dims : List Nat} {f : Nat → Reg} {r : List Reg} {joins perm : List Nat}

/-- The test of the code for an extremal pixel. -/
def isExt (im : List Nat) (f : Nat → Reg) (p : Nat) : Bool := decide (pix im (par f p) > pix im p ∨ p = par f p)

theorem isExt_iff (F : Final dims im r joins f) {p : Nat} (hp : p < dims.prod) : isExt im f p = true ↔ Final.Extremal im joins f p := by
  unfold isExt Final.Extremal Final.Top
  rw [decide_eq_true_iff]
  have hroot := F.forest.isRoot (p := p) (by simpa using hp)
  constructor
  · rintro (h | h)
    · exact ⟨le_refl _, fun _ => h⟩
    · exact ⟨le_refl _, fun hj => absurd hj (hroot.mp h.symm)⟩
  · rintro ⟨_, h⟩
    by_cases g : p ∈ joins
    · exact Or.inl (h g)
    · exact Or.inr (hroot.mpr g).symm

/-- The extremal pixels in the order of the array. -/
def extList (im : List Nat) (f : Nat → Reg) (perm : List Nat) : List Nat := perm.filter (isExt im f)

theorem mem_extList (hperm : perm.Perm (List.range dims.prod)) {p : Nat} : p ∈ extList im f perm ↔ p < dims.prod ∧ isExt im f p = true := by
  simp only [extList, List.mem_filter]
  rw [hperm.mem_iff, List.mem_range]

theorem extList_nodup (hperm : perm.Perm (List.range dims.prod)) : (extList im f perm).Nodup := by
  apply List.Nodup.filter
  rw [hperm.nodup_iff]; exact List.nodup_range

/-- The number of extremal regions is the one that was counted. -/
theorem extList_length (F : Final dims im r joins f) (hperm : perm.Perm (List.range dims.prod)) (h0 : 0 < dims.prod) :
    (extList im f perm).length = (joins.filter (fun j => pix im j ≠ pix im (par f j))).length + 1 := by
  obtain ⟨ρ, hρ, hρj, huniq⟩ := F.one_root h0
  have hnd : (ρ :: joins.filter (fun j => pix im j ≠ pix im (par f j))).Nodup := by
    rw [List.nodup_cons]
    exact ⟨fun h => hρj (List.mem_filter.mp h).1, F.forest.nodup.filter _⟩
  have : (extList im f perm).Perm (ρ :: joins.filter (fun j => pix im j ≠ pix im (par f j))) := by
    rw [List.perm_ext_iff_of_nodup (extList_nodup hperm) hnd]
    intro p
    rw [mem_extList hperm, List.mem_cons, List.mem_filter]
    constructor
    · rintro ⟨hp, he⟩
      have := (isExt_iff F hp).mp he
      by_cases g : p ∈ joins
      · right
        have h2 := this.2 g
        exact ⟨g, by simp; omega⟩
      · left; exact huniq p hp g
    · rintro (h | ⟨h1, h2⟩)
      · subst h
        exact ⟨hρ, (isExt_iff F hρ).mpr ⟨le_refl _, fun h => absurd h hρj⟩⟩
      · have hp : p < dims.prod := by simpa using F.forest.sub p h1
        refine ⟨hp, (isExt_iff F hp).mpr ⟨le_refl _, fun _ => ?_⟩⟩
        have := F.mono p h1
        simp at h2
        omega
  rw [this.length_eq]; rfl

/-- The extremal regions after the extraction. -/
theorem extract_spec (hl : im.length = dims.prod) (hperm : perm.Perm (List.range dims.prod)) (F : Final dims im r joins f) {er : List Er} (her : (extList im f perm).length ≤ er.length) :
    ∃ r' f' er' g, extract im dims.prod perm r er = some (r', er', (extList im f perm).length) ∧ Arr r' dims.prod f' ∧ Arr er' er.length g ∧
      (∀ p < dims.prod, (f' p).parent = (f p).parent ∧ (f' p).area = (f p).area ∧ (f' p).shortcut = if isExt im f p then (extList im f perm).idxOf p else void) ∧
      ∀ (k : Nat) (p : Nat), (extList im f perm)[k]? = some p → (g k).index = p ∧ (g k).parent = k ∧ (g k).value = pix im p ∧ (g k).area = (f p).area := by
  have hpl : perm.length = dims.prod := by rw [hperm.length_eq]; simp
  have hnd : perm.Nodup := by rw [hperm.nodup_iff]; exact List.nodup_range
  have hL : ∀ i, extList im f perm = extList im f (perm.take i) ++ extList im f (perm.drop i) := by
    intro i; simp only [extList]; rw [← List.filter_append, List.take_append_drop]
  unfold extract
  have := iter_inv (n := dims.prod) (s := (r, er, 0)) (f := fun i (st : List Reg × List Er × Nat) => do
    let idx ← rd perm i
    let val ← rd im idx
    let x ← rd st.1 idx
    let pval ← rd im x.parent
    if pval > val ∨ idx = x.parent then do
      let e ← rd st.2.1 st.2.2
      let er ← wr st.2.1 st.2.2 { e with index := idx, parent := st.2.2, value := val, area := x.area }
      let r ← wr st.1 idx { x with shortcut := st.2.2 }
      pure (r, er, st.2.2 + 1)
    else do
      let r ← wr st.1 idx { x with shortcut := void }
      pure (r, st.2.1, st.2.2))
    (P := fun (i : Nat) (st : List Reg × List Er × Nat) => st.2.2 = (extList im f (perm.take i)).length ∧ ∃ f' g, Arr st.1 dims.prod f' ∧ Arr st.2.1 er.length g ∧
      (∀ p < dims.prod, (f' p).parent = (f p).parent ∧ (f' p).area = (f p).area) ∧
      (∀ p ∈ perm.take i, (f' p).shortcut = if isExt im f p then (extList im f (perm.take i)).idxOf p else void) ∧
      ∀ (k : Nat) (p : Nat), (extList im f (perm.take i))[k]? = some p → (g k).index = p ∧ (g k).parent = k ∧ (g k).value = pix im p ∧ (g k).area = (f p).area) ?_ ?_
  · obtain ⟨⟨r', er', n⟩, e, hn, f', g, h1, h2, h3, h4, h5⟩ := this
    rw [List.take_of_length_le (by omega)] at hn h4 h5
    simp only at hn
    subst hn
    exact ⟨r', f', er', g, e, h1, h2, fun p hp => ⟨(h3 p hp).1, (h3 p hp).2, h4 p (by rw [hperm.mem_iff]; simpa using hp)⟩, h5⟩
  · refine ⟨by simp [extList], f, _, F.arr, Arr.of_len er ⟨0, 0, 0, 0, 0, 0, false⟩, fun _ _ => ⟨rfl, rfl⟩, by simp, by simp [extList]⟩
  · rintro i hi ⟨r1, er1, n⟩ ⟨hn, f', g, h1, h2, h3, h4, h5⟩
    simp only at hn h1 h2 ⊢
    obtain ⟨idx, hidx⟩ : ∃ idx, perm[i]? = some idx := ⟨perm[i], List.getElem?_eq_getElem (by omega)⟩
    have hil : idx < dims.prod := by
      have := List.mem_of_getElem? hidx
      rw [hperm.mem_iff] at this; simpa using this
    have hparl : par f idx < dims.prod := by simpa using F.forest.parD idx (by simpa using hil)
    have hit : idx ∉ perm.take i := by
      intro h
      rw [List.mem_take_iff_getElem] at h
      obtain ⟨k, hk, e⟩ := h
      have := (List.Nodup.getElem_inj_iff hnd (i := k) (j := i) (hi := by omega) (hj := by omega)).mp (by
        rw [e]; rw [List.getElem?_eq_getElem (by omega)] at hidx; exact (Option.some.inj hidx).symm)
      omega
    have htake : perm.take (i + 1) = perm.take i ++ [idx] := by rw [List.take_add_one, hidx]; rfl
    rw [rd_getElem?, hidx]
    simp only [Option.bind_eq_bind, Option.bind_some]
    rw [rd_pix (by omega)]
    simp only [Option.bind_some]
    rw [h1.rd hil]
    simp only [Option.bind_some]
    have hp3 : (f' idx).parent = par f idx := (h3 idx hil).1
    rw [hp3, rd_pix (by omega)]
    simp only [Option.bind_some]
    have hext : extList im f (perm.take (i + 1)) = extList im f (perm.take i) ++ (if isExt im f idx then [idx] else []) := by
      rw [htake]; simp only [extList, List.filter_append, List.filter_singleton]
      cases isExt im f idx <;> rfl
    have hnotL : idx ∉ extList im f (perm.take i) := fun h => hit (List.mem_filter.mp h).1
    have hidxOf : ∀ p ∈ perm.take i, isExt im f p = true → (extList im f (perm.take (i + 1))).idxOf p = (extList im f (perm.take i)).idxOf p := by
      intro p hp he
      rw [hext, List.idxOf_append_of_mem (show p ∈ extList im f (perm.take i) from List.mem_filter.mpr ⟨hp, he⟩)]
    by_cases hc : pix im (par f idx) > pix im idx ∨ idx = par f idx
    · have hE : isExt im f idx = true := by simp [isExt, hc]
      rw [hE, if_pos rfl] at hext
      have hnl : n < er.length := by
        have := congrArg List.length (hL (i + 1))
        rw [hext] at this
        simp at this
        omega
      rw [if_pos hc, h2.rd hnl]
      simp only [Option.bind_some]
      obtain ⟨er', e1, h2'⟩ := h2.wr hnl { g n with index := idx, parent := n, value := pix im idx, area := (f' idx).area }
      obtain ⟨r', e2, h1'⟩ := h1.wr hil { f' idx with shortcut := n }
      have e2' : wr r1 idx { parent := par f idx, shortcut := n, height := (f' idx).height, area := (f' idx).area } = some r' := by rw [← hp3]; exact e2
      have e1' := e1
      simp only at e1'
      simp only [e1', Option.bind_some, e2']
      refine ⟨_, rfl, by rw [hext]; simp [hn], _, _, h1', h2', ?_, ?_, ?_⟩
      · intro p hp
        simp only [upd1]
        by_cases g : p = idx
        · subst g; simp only [if_true]; exact h3 p hp
        · rw [if_neg g]; exact h3 p hp
      · intro p hp
        rw [htake] at hp
        simp only [upd1]
        by_cases g : p = idx
        · subst g
          simp only [if_true]
          rw [if_pos hE, hext, List.idxOf_append_of_notMem hnotL]
          simp [hn]
        · rw [if_neg g]
          have hp' : p ∈ perm.take i := by
            rcases List.mem_append.mp hp with h | h
            · exact h
            · simp at h; exact absurd h g
          rw [h4 p hp']
          split_ifs with he
          · rw [hidxOf p hp' he]
          · rfl
      · intro k p hk
        rw [hext] at hk
        simp only [upd1]
        by_cases g : k = n
        · subst g
          rw [hn, List.getElem?_append_right (le_refl _)] at hk
          simp only [Nat.sub_self, List.getElem?_cons_zero, Option.some.injEq] at hk
          subst hk
          simp only [if_true]
          exact ⟨trivial, trivial, trivial, (h3 idx hil).2⟩
        · rw [if_neg g]
          apply h5
          rcases Nat.lt_or_ge k n with hkn | hkn
          · rwa [List.getElem?_append_left (by omega)] at hk
          · rw [List.getElem?_append_right (by omega)] at hk
            rw [List.getElem?_eq_none (by simp; omega)] at hk
            cases hk
    · have hE : isExt im f idx = false := by simp [isExt]; omega
      rw [hE, if_neg (by simp), List.append_nil] at hext
      rw [if_neg hc]
      obtain ⟨r', e2, h1'⟩ := h1.wr hil { f' idx with shortcut := void }
      have e2' : wr r1 idx { parent := par f idx, shortcut := void, height := (f' idx).height, area := (f' idx).area } = some r' := by rw [← hp3]; exact e2
      simp only [e2', Option.bind_some]
      refine ⟨_, rfl, by rw [hext]; exact hn, _, g, h1', h2, ?_, ?_, ?_⟩
      · intro p hp
        simp only [upd1]
        by_cases g : p = idx
        · subst g; simp only [if_true]; exact h3 p hp
        · rw [if_neg g]; exact h3 p hp
      · intro p hp
        rw [htake] at hp
        simp only [upd1]
        by_cases g : p = idx
        · subst g
          simp [hE]
        · rw [if_neg g]
          have hp' : p ∈ perm.take i := by
            rcases List.mem_append.mp hp with h | h
            · exact h
            · simp at h; exact absurd h g
          rw [h4 p hp', hext]
      · intro k p hk
        rw [hext] at hk
        exact h5 k p hk

/-- The first extremal pixel above a pixel. -/
theorem ancestor_spec (F : Final dims im r joins f) {r' : List Reg} {f' : Nat → Reg} (hr : Arr r' dims.prod f') (hpar : ∀ p < dims.prod, (f' p).parent = par f p) {L : List Nat}
    (hsc : ∀ p < dims.prod, (f' p).shortcut = if isExt im f p then L.idxOf p else void) (hL : ∀ p < dims.prod, isExt im f p = true → L.idxOf p ≠ void) :
    ∀ (fuel p : Nat), p < dims.prod → joins.length - joins.idxOf p < fuel → ∃ a < dims.prod, ancestor r' fuel p = some (L.idxOf a) ∧ isExt im f a = true ∧ (p ∉ joins → a = p) ∧
      (p ∈ joins → pix im a = pix im (par f p) ∧ a ∈ Ext dims im (pix im a) p) := by
  intro fuel
  induction fuel with
  | zero => intro p _ h; omega
  | succ fuel ih =>
    intro p hp hfuel
    have hparl : par f p < dims.prod := by simpa using F.forest.parD p (by simpa using hp)
    simp only [ancestor, Option.bind_eq_bind]
    rw [hr.rd hp]
    simp only [Option.bind_some]
    rw [hpar p hp, hr.rd hparl]
    simp only [Option.bind_some]
    rw [hsc _ hparl]
    by_cases he : isExt im f (par f p) = true
    · rw [if_pos he, if_neg (hL _ hparl he)]
      refine ⟨_, hparl, rfl, he, fun hj => (F.forest.root p (by simpa using hp) hj).1, fun hj => ⟨rfl, F.par_mem hp hj⟩⟩
    · have hpj : p ∈ joins := by
        by_contra g
        have := (F.forest.root p (by simpa using hp) g).1
        rw [this] at he
        exact he (by simp [isExt, this])
      have hpj2 : par f p ∈ joins := by
        by_contra g
        have := (F.forest.root (par f p) (by simpa using hparl) g).1
        exact he (by simp [isExt, this])
      rw [if_neg he, if_pos rfl]
      have hup := F.forest.upP p hpj
      have hlt := List.idxOf_lt_length_of_mem hpj
      obtain ⟨a, ha, e, h1, _, h3⟩ := ih (par f p) hparl (by omega)
      obtain ⟨h4, h5⟩ := h3 hpj2
      have hm := F.mono _ hpj2
      have hpix : pix im (par f (par f p)) = pix im (par f p) := by
        have : ¬ (pix im (par f (par f p)) > pix im (par f p)) := fun h => he (by simp [isExt, h])
        omega
      refine ⟨a, ha, e, h1, fun h => absurd hpj h, fun _ => ⟨by rw [h4, hpix], ?_⟩⟩
      have h6 := F.par_mem hp hpj
      rw [← hpix, ← h4] at h6
      exact ext_trans h6 h5

/-- The tree of the extremal regions: `L` are their pixels in the order of the array, `g` the records. -/
structure Tree (dims im : List Nat) (L : List Nat) (g : Nat → Er) : Prop where
  index : ∀ (i p : Nat), L[i]? = some p → (g i).index = p ∧ (g i).value = pix im p
  lt : ∀ p ∈ L, p < dims.prod
  nodup : L.Nodup
  sorted : L.Pairwise (Before im)
  parent : ∀ (i p : Nat), L[i]? = some p → ∃ a, L[(g i).parent]? = some a ∧
    (a = p ∧ (∀ v, pix im p ≤ v → Ext dims im v p = Ext dims im (pix im p) p) ∨ pix im p < pix im a ∧ p ∈ Ext dims im (pix im a) a ∧ ∀ v, pix im p ≤ v → v < pix im a → Ext dims im v p = Ext dims im (pix im p) p)
  area : ∀ (i p : Nat), L[i]? = some p → (g i).area = (Ext dims im (pix im p) p).ncard

/-- The extremal regions after the linking. -/
theorem link_spec (hv : dims.prod ≤ void) (hperm : perm.Perm (List.range dims.prod)) (hsort : perm.Pairwise (Before im)) (F : Final dims im r joins f) {r' : List Reg} {f' : Nat → Reg} {er : List Er} {g : Nat → Er}
    (hr : Arr r' dims.prod f') (her : Arr er er.length g) (hlen : (extList im f perm).length ≤ er.length)
    (h1 : ∀ p < dims.prod, (f' p).parent = (f p).parent ∧ (f' p).shortcut = if isExt im f p then (extList im f perm).idxOf p else void)
    (h2 : ∀ (k : Nat) (p : Nat), (extList im f perm)[k]? = some p → (g k).index = p ∧ (g k).parent = k ∧ (g k).value = pix im p ∧ (g k).area = (f p).area) :
    ∃ er' g', link r' (extList im f perm).length er = some er' ∧ Arr er' er.length g' ∧ Tree dims im (extList im f perm) g' ∧ ∀ i < (extList im f perm).length, (g' i).shortcut = i := by
  obtain ⟨L, hLdef⟩ : ∃ L, extList im f perm = L := ⟨_, rfl⟩
  simp only [hLdef] at hlen h1 h2 ⊢
  have hLm : ∀ p, p ∈ L ↔ p < dims.prod ∧ isExt im f p = true := fun p => by rw [← hLdef]; exact mem_extList hperm
  have hLn : L.Nodup := by rw [← hLdef]; exact extList_nodup hperm
  have hLs : L.Pairwise (Before im) := by rw [← hLdef]; exact hsort.filter _
  have hLlen : L.length ≤ dims.prod := by
    have := Erfill.length_le_card hLn (n := dims.prod) (fun x hx => ((hLm x).mp hx).1)
    exact this
  unfold link
  have := iter_inv (n := L.length) (s := er) (f := fun i (er : List Er) => do
    let e ← rd er i
    let p ← ancestor r' (r'.length + 1) e.index
    wr er i { e with parent := p, shortcut := i })
    (P := fun (i : Nat) (er' : List Er) => ∃ g', Arr er' er.length g' ∧ (∀ k, i ≤ k → g' k = g k) ∧
      ∀ k < i, ∀ p, L[k]? = some p → (g' k).index = p ∧ (g' k).value = pix im p ∧ (g' k).area = (f p).area ∧ (g' k).shortcut = k ∧
        ∃ a < dims.prod, (g' k).parent = L.idxOf a ∧ isExt im f a = true ∧ (p ∉ joins → a = p) ∧ (p ∈ joins → pix im a = pix im (par f p) ∧ a ∈ Ext dims im (pix im a) p)) ?_ ?_
  · obtain ⟨er', e, g', ha, _, hk⟩ := this
    refine ⟨er', g', e, ha, ⟨?_, fun p hp => ((hLm p).mp hp).1, hLn, hLs, ?_, ?_⟩, ?_⟩
    · intro i p hip
      have := hk i (by rw [List.getElem?_eq_some_iff] at hip; exact hip.1) p hip
      exact ⟨this.1, this.2.1⟩
    · intro i p hip
      obtain ⟨_, _, _, _, a, ha1, ha2, ha3, ha4, ha5⟩ := hk i (by rw [List.getElem?_eq_some_iff] at hip; exact hip.1) p hip
      have hpL : p ∈ L := List.mem_of_getElem? hip
      obtain ⟨hpl, hpe⟩ := (hLm p).mp hpL
      have haL : a ∈ L := (hLm a).mpr ⟨ha1, ha3⟩
      have hE := (isExt_iff F hpl).mp hpe
      refine ⟨a, ?_, ?_⟩
      · rw [ha2, List.getElem?_eq_getElem (List.idxOf_lt_length_of_mem haL), List.getElem_idxOf]
      · by_cases hj : p ∈ joins
        · right
          obtain ⟨h3, h4⟩ := ha5 hj
          have h5 := hE.2 hj
          refine ⟨by omega, ext_symm (by omega) h4, fun v hv1 hv2 => F.ext_const hpl ⟨hv1, fun _ => by omega⟩⟩
        · left
          exact ⟨ha4 hj, fun v hv => F.ext_const hpl ⟨hv, fun h => absurd h hj⟩⟩
    · intro i p hip
      have := hk i (by rw [List.getElem?_eq_some_iff] at hip; exact hip.1) p hip
      obtain ⟨hpl, hpe⟩ := (hLm p).mp (List.mem_of_getElem? hip)
      rw [this.2.2.1]
      exact F.area hpl ((isExt_iff F hpl).mp hpe)
    · intro i hi
      exact (hk i hi L[i] (List.getElem?_eq_getElem hi)).2.2.2.1
  · exact ⟨g, her, fun _ _ => rfl, by intro k hk; omega⟩
  · rintro i hi er1 ⟨g1, hg1, hg2, hg3⟩
    have hiL : i < er.length := by omega
    rw [hg1.rd hiL, hg2 i (le_refl _)]
    simp only [Option.bind_eq_bind, Option.bind_some]
    obtain ⟨p, hp⟩ : ∃ p, L[i]? = some p := ⟨L[i], List.getElem?_eq_getElem hi⟩
    obtain ⟨k1, k2, k3, k4⟩ := h2 i p hp
    obtain ⟨hpl, hpe⟩ := (hLm p).mp (List.mem_of_getElem? hp)
    have hjl : joins.length ≤ dims.prod := Erfill.length_le_card F.forest.nodup (fun x hx => by simpa using F.forest.sub x hx)
    obtain ⟨a, ha, e, ha1, ha2, ha3⟩ := ancestor_spec F hr (fun p hp => (h1 p hp).1) (L := L) (fun p hp => (h1 p hp).2) (fun p hp he => by
      have := List.idxOf_lt_length_of_mem ((hLm p).mpr ⟨hp, he⟩)
      omega) (r'.length + 1) p hpl (by rw [hr.len]; omega)
    rw [k1, e]
    simp only [Option.bind_some]
    obtain ⟨er2, e2, hg4⟩ := hg1.wr hiL { g i with parent := L.idxOf a, shortcut := i }
    have e2' := e2
    simp only [k1] at e2'
    refine ⟨er2, e2', _, hg4, ?_, ?_⟩
    · intro k hk
      simp only [upd1]
      rw [if_neg (by omega)]; exact hg2 k (by omega)
    · intro k hk q hq
      simp only [upd1]
      by_cases gk : k = i
      · subst gk
        rw [hp] at hq
        simp only [Option.some.injEq] at hq
        subst hq
        simp only [if_true]
        exact ⟨k1, k3, k4, trivial, a, ha, rfl, ha1, ha2, ha3⟩
      · rw [if_neg gk]; exact hg3 k (by omega) q hq

end Verif.Mser
