import Verif.Mser.TreeLemmas
import Verif.Mser.SelectSpec
import Mathlib.Tactic.Linarith

/-!
# The selection of the maximally stable regions
-/

namespace Verif.Mser

/-- The shape of the tree of `n` regions. -/
structure Shape (n : Nat) (g : Nat → Er) : Prop where
  par_lt : ∀ i < n, (g i).parent < n
  par_gt : ∀ i < n, (g i).parent = i ∨ (i < (g i).parent ∧ (g i).value < (g (g i).parent).value)
  mono : ∀ i j, i ≤ j → j < n → (g i).value ≤ (g j).value

theorem Tree.shape {dims im L : List Nat} {g : Nat → Er} (T : Tree dims im L g) : Shape L.length g := by
  have hsome : ∀ {i : Nat}, i < L.length → ∃ p, L[i]? = some p := fun {i} h => ⟨L[i], List.getElem?_eq_getElem h⟩
  have hlt : ∀ {i p : Nat}, L[i]? = some p → i < L.length := fun {i p} h => by rw [List.getElem?_eq_some_iff] at h; exact h.1
  have hs := T.sorted
  rw [List.pairwise_iff_getElem] at hs
  have hs' : ∀ {i j p q : Nat}, L[i]? = some p → L[j]? = some q → i < j → Before im p q := by
    intro i j p q hp hq hij
    have := hs i j (hlt hp) (hlt hq) hij
    rw [List.getElem?_eq_getElem (hlt hp)] at hp
    rw [List.getElem?_eq_getElem (hlt hq)] at hq
    rw [Option.some.inj hp, Option.some.inj hq] at this
    exact this
  refine ⟨?_, ?_, ?_⟩
  · intro i hi
    obtain ⟨p, hp⟩ := hsome hi
    obtain ⟨a, ha, _⟩ := T.parent i p hp
    exact hlt ha
  · intro i hi
    obtain ⟨p, hp⟩ := hsome hi
    obtain ⟨a, ha, h⟩ := T.parent i p hp
    rcases h with ⟨rfl, _⟩ | ⟨h, _⟩
    · left
      rcases Nat.lt_trichotomy (g i).parent i with e | e | e
      · exact absurd (hs' ha hp e) (before_irrefl _)
      · exact e
      · exact absurd (hs' hp ha e) (before_irrefl _)
    · right
      rw [(T.index i p hp).2, (T.index _ a ha).2]
      refine ⟨?_, h⟩
      rcases Nat.lt_trichotomy (g i).parent i with e | e | e
      · have := hs' ha hp e; unfold Before at this; omega
      · rw [e, hp] at ha; simp only [Option.some.injEq] at ha; subst ha; omega
      · exact e
  · intro i j hij hj
    rcases Nat.lt_or_ge i j with e | e
    · obtain ⟨p, hp⟩ := hsome (show i < L.length by omega)
      obtain ⟨q, hq⟩ := hsome hj
      rw [(T.index i p hp).2, (T.index j q hq).2]
      have := hs' hp hq e
      unfold Before at this; omega
    · have : i = j := by omega
      subst this; exact le_refl _

/-- The steps towards the root. -/
def Up (g : Nat → Er) (i t : Nat) : Prop := Relation.ReflTransGen (fun u w => (g u).parent = w) i t

variable {n : Nat} {g : Nat → Er}

theorem Shape.up_le (S : Shape n g) {i t : Nat} (hi : i < n) (h : Up g i t) : i ≤ t ∧ t < n := by
  unfold Up at h
  induction h with
  | refl => exact ⟨le_refl _, hi⟩
  | tail _ hbc ih =>
    subst hbc
    rename_i b _
    have := S.par_gt b ih.2
    have h2 := S.par_lt b ih.2
    omega

/-- The records agree on the fields that describe the tree. -/
def SameTree (n : Nat) (g g' : Nat → Er) : Prop := ∀ k < n, (g' k).parent = (g k).parent ∧ (g' k).index = (g k).index ∧ (g' k).value = (g k).value ∧ (g' k).area = (g k).area

theorem SameTree.refl : SameTree n g g := fun _ _ => ⟨rfl, rfl, rfl, rfl⟩

theorem SameTree.trans {g' g'' : Nat → Er} (h1 : SameTree n g g') (h2 : SameTree n g' g'') : SameTree n g g'' := fun k hk => by
  obtain ⟨a, b, c, d⟩ := h1 k hk
  obtain ⟨a', b', c', d'⟩ := h2 k hk
  exact ⟨a'.trans a, b'.trans b, c'.trans c, d'.trans d⟩

theorem SameTree.shape {g' : Nat → Er} (h : SameTree n g g') (S : Shape n g) : Shape n g' := by
  refine ⟨?_, ?_, ?_⟩
  · intro i hi; rw [(h i hi).1]; exact S.par_lt i hi
  · intro i hi
    rw [(h i hi).1, (h i hi).2.2.1, (h _ (S.par_lt i hi)).2.2.1]; exact S.par_gt i hi
  · intro i j hij hj
    rw [(h i (by omega)).2.2.1, (h j hj).2.2.1]; exact S.mono i j hij hj

/-! ### Variations -/

/-- `t` is the last region above `i` of value `tv` at most. -/
def IsTop (g : Nat → Er) (tv i t : Nat) : Prop := Up g i t ∧ (g t).value ≤ tv ∧ ((g t).parent = t ∨ tv < (g (g t).parent).value)

theorem topParent_spec (S : Shape n g) {er : List Er} {g' : Nat → Er} (h : SameTree n g g') {m : Nat} (her : Arr er m g') (hm : n ≤ m) (tv : Nat) :
    ∀ (fuel x : Nat), x < n → n - x < fuel → (g x).value ≤ tv → ∃ t, topParent er tv fuel x = some t ∧ IsTop g tv x t := by
  intro fuel
  induction fuel with
  | zero => intro x _ h; omega
  | succ fuel ih =>
    intro x hx hf hv
    have hp := S.par_lt x hx
    simp only [topParent, Option.bind_eq_bind]
    rw [her.rd (by omega)]
    simp only [Option.bind_some]
    rw [(h x hx).1, her.rd (by omega)]
    simp only [Option.bind_some]
    rw [(h _ hp).2.2.1]
    by_cases c : (g x).parent = x ∨ (g (g x).parent).value > tv
    · rw [if_pos c]
      exact ⟨x, rfl, .refl, hv, c⟩
    · rw [if_neg c]
      have := S.par_gt x hx
      obtain ⟨t, e, h1, h2, h3⟩ := ih (g x).parent hp (by omega) (by omega)
      exact ⟨t, e, .head rfl h1, h2, h3⟩

theorem variations_spec (S : Shape n g) {er : List Er} {m : Nat} (her : Arr er m g) (hm : n ≤ m) (hsc : ∀ i < n, (g i).shortcut = i) (delta : Nat) :
    ∃ er' g', variations delta n er = some er' ∧ Arr er' m g' ∧ SameTree n g g' ∧
      ∀ k < n, (g' k).maxStable = true ∧ ∃ t, IsTop g ((g k).value + delta) k t ∧ (g' k).variation = (((g t).area : ℚ) - (g k).area) / (g k).area := by
  unfold variations
  have := iter_inv (n := n) (s := er) (f := fun i (er : List Er) => do
    let e ← rd er i
    let top ← topParent er (e.value + delta) (er.length + 1) e.shortcut
    let t ← rd er top
    let er ← wr er i { e with variation := ((t.area : ℚ) - e.area) / e.area, maxStable := true }
    let e ← rd er i
    let p ← rd er e.parent
    wr er e.parent { p with shortcut := max top p.shortcut })
    (P := fun (i : Nat) (er' : List Er) => ∃ g', Arr er' m g' ∧ SameTree n g g' ∧ (∀ k < n, Up g k (g' k).shortcut ∧ (g (g' k).shortcut).value ≤ (g k).value + delta) ∧
      ∀ k < i, (g' k).maxStable = true ∧ ∃ t, IsTop g ((g k).value + delta) k t ∧ (g' k).variation = (((g t).area : ℚ) - (g k).area) / (g k).area) ?_ ?_
  · obtain ⟨er', e, g', h1, h2, _, h3⟩ := this
    exact ⟨er', g', e, h1, h2, h3⟩
  · refine ⟨g, her, SameTree.refl, fun k hk => ?_, by intro k hk; omega⟩
    rw [hsc k hk]; exact ⟨.refl, by omega⟩
  · rintro i hi er1 ⟨g1, h1, h2, h3, h4⟩
    have hmi : i < m := by omega
    rw [h1.rd hmi]
    simp only [Option.bind_eq_bind, Option.bind_some]
    obtain ⟨hu, hval⟩ := h3 i hi
    have hsl := S.up_le hi hu
    rw [(h2 i hi).2.2.1]
    obtain ⟨t, et, ht1, ht2, ht3⟩ := topParent_spec S h2 h1 hm ((g i).value + delta) (er1.length + 1) (g1 i).shortcut hsl.2 (by rw [h1.len]; omega) hval
    rw [et]
    simp only [Option.bind_some]
    have hit : Up g i t := Relation.ReflTransGen.trans hu ht1
    have htl := S.up_le hi hit
    rw [h1.rd (by omega)]
    simp only [Option.bind_some]
    obtain ⟨er2, e2, h5⟩ := h1.wr hmi { g1 i with variation := (((g1 t).area : ℚ) - (g1 i).area) / (g1 i).area, maxStable := true }
    have e2' := e2
    simp only [(h2 i hi).2.2.1] at e2'
    rw [e2']
    simp only [Option.bind_some]
    obtain ⟨g2, hg2⟩ : ∃ g2, g2 = upd1 g1 i { g1 i with variation := (((g1 t).area : ℚ) - (g1 i).area) / (g1 i).area, maxStable := true } := ⟨_, rfl⟩
    rw [← hg2] at h5
    have hg2o : ∀ k, k ≠ i → g2 k = g1 k := fun k hk => by rw [hg2]; simp [upd1, hk]
    have hg2i : g2 i = { g1 i with variation := (((g1 t).area : ℚ) - (g1 i).area) / (g1 i).area, maxStable := true } := by rw [hg2]; simp [upd1]
    have hs2 : SameTree n g g2 := by
      intro k hk
      by_cases e : k = i
      · subst e; rw [hg2i]; exact h2 k hk
      · rw [hg2o k e]; exact h2 k hk
    have hsc2 : ∀ k, (g2 k).shortcut = (g1 k).shortcut := by
      intro k
      by_cases e : k = i
      · subst e; rw [hg2i]
      · rw [hg2o k e]
    rw [h5.rd hmi]
    simp only [Option.bind_some]
    have hpar := S.par_lt i hi
    rw [(hs2 i hi).1, h5.rd (by omega)]
    simp only [Option.bind_some]
    obtain ⟨er3, e3, h6⟩ := h5.wr (show (g i).parent < m by omega) { g2 (g i).parent with shortcut := max t (g2 (g i).parent).shortcut }
    rw [e3]
    obtain ⟨g3, hg3⟩ : ∃ g3, g3 = upd1 g2 (g i).parent { g2 (g i).parent with shortcut := max t (g2 (g i).parent).shortcut } := ⟨_, rfl⟩
    rw [← hg3] at h6
    have hg3o : ∀ k, k ≠ (g i).parent → g3 k = g2 k := fun k hk => by rw [hg3]; simp [upd1, hk]
    have hg3i : g3 (g i).parent = { g2 (g i).parent with shortcut := max t (g2 (g i).parent).shortcut } := by rw [hg3]; simp [upd1]
    have hg3v : ∀ k, (g3 k).variation = (g2 k).variation ∧ (g3 k).maxStable = (g2 k).maxStable := by
      intro k
      by_cases e : k = (g i).parent
      · rw [e, hg3i]; exact ⟨rfl, rfl⟩
      · rw [hg3o k e]; exact ⟨rfl, rfl⟩
    refine ⟨er3, rfl, g3, h6, ?_, ?_, ?_⟩
    · intro k hk
      by_cases e : k = (g i).parent
      · have := hs2 k hk
        rw [e] at this ⊢
        rw [hg3i]
        exact this
      · rw [hg3o k e]; exact hs2 k hk
    · intro k hk
      by_cases e : k = (g i).parent
      · subst e
        rw [hg3i]
        simp only
        rw [hsc2]
        obtain ⟨hu2, hv2⟩ := h3 (g i).parent hk
        have hle := S.up_le hk hu2
        rcases Nat.lt_or_ge (g1 (g i).parent).shortcut t with c | c
        · rw [Nat.max_eq_left (by omega)]
          have hmono : (g i).value ≤ (g (g i).parent).value := by
            have := S.par_gt i hi
            rcases this with e | e
            · rw [e]
            · omega
          refine ⟨?_, by omega⟩
          have hti : t ≠ i := by
            intro e
            have := S.par_gt i hi
            omega
          rcases Relation.ReflTransGen.cases_head hit with e | ⟨c', hc', hh⟩
          · exact absurd e.symm hti
          · subst hc'; exact hh
        · rw [Nat.max_eq_right c]; exact ⟨hu2, hv2⟩
      · rw [hg3o k e, hsc2]; exact h3 k hk
    · intro k hk
      rw [(hg3v k).1, (hg3v k).2]
      by_cases e : k = i
      · subst e
        rw [hg2i]
        refine ⟨rfl, t, ⟨hit, ht2, ht3⟩, ?_⟩
        simp only
        rw [(h2 k hi).2.2.2, (h2 t htl.2).2.2.2]
      · rw [hg2o k e]; exact h4 k (by omega)

/-! ### Maximally stable branches -/

/-- The number of regions marked. -/
def marked (n : Nat) (g : Nat → Er) : Nat := ((List.range n).filter (fun k => (g k).maxStable)).length

/-- The records agree except for the mark. -/
def SameRec (n : Nat) (g g' : Nat → Er) : Prop := ∀ k < n, g' k = { g k with maxStable := (g' k).maxStable }

theorem SameRec.refl : SameRec n g g := fun _ _ => rfl

theorem SameRec.tree {g' : Nat → Er} (h : SameRec n g g') : SameTree n g g' := fun k hk => by
  have := h k hk
  refine ⟨?_, ?_, ?_, ?_⟩ <;> rw [this]

theorem SameRec.var {g' : Nat → Er} (h : SameRec n g g') {k : Nat} (hk : k < n) : (g' k).variation = (g k).variation := by rw [h k hk]

theorem SameRec.trans {g' g'' : Nat → Er} (h1 : SameRec n g g') (h2 : SameRec n g' g'') : SameRec n g g'' := fun k hk => by
  have a := h1 k hk
  have b := h2 k hk
  rw [b, a]

/-- One region is unmarked. -/
theorem unmark {er : List Er} {m : Nat} {g' : Nat → Er} (her : Arr er m g') (hr : SameRec n g g') {i : Nat} (hi : i < n) (him : i < m) (hs : (g' i).maxStable = true) :
    ∃ er' g'', wr er i { g' i with maxStable := false } = some er' ∧ Arr er' m g'' ∧ SameRec n g g'' ∧ (g'' i).maxStable = false ∧ (∀ k, k ≠ i → g'' k = g' k) ∧ marked n g'' + 1 = marked n g' := by
  obtain ⟨er', e, h⟩ := her.wr him { g' i with maxStable := false }
  refine ⟨er', _, e, h, ?_, by simp [upd1], by intro k hk; simp [upd1, hk], ?_⟩
  · intro k hk
    by_cases c : k = i
    · subst c
      simp only [upd1, if_true]
      have := hr k hk
      conv_lhs => rw [this]
    · simp only [upd1, if_neg c]; exact hr k hk
  · unfold marked
    have h1 : (List.range n).filter (fun k => (g' k).maxStable) = (List.range n).filter (fun k => (g' k).maxStable) := rfl
    have hperm : ((List.range n).filter (fun k => (g' k).maxStable)).Perm (i :: (List.range n).filter (fun k => (upd1 g' i { g' i with maxStable := false } k).maxStable)) := by
      rw [List.perm_ext_iff_of_nodup (List.nodup_range.filter _)]
      · intro k
        simp only [List.mem_cons, List.mem_filter, List.mem_range, upd1]
        by_cases c : k = i
        · subst c; simp [hi, hs]
        · simp [c]
      · rw [List.nodup_cons]
        refine ⟨by simp [upd1], List.nodup_range.filter _⟩
    rw [hperm.length_eq]; rfl

theorem selectStable_spec (S : Shape n g) {er : List Er} {m : Nat} (her : Arr er m g) (hm : n ≤ m) (hms : ∀ k < n, (g k).maxStable = true) :
    ∃ er' g' c, selectStable n er = some (er', c) ∧ Arr er' m g' ∧ SameRec n g g' ∧ (∀ k < n, (g' k).maxStable = true ↔ Stable n g k) ∧ c = (marked n g' : Int) := by
  unfold selectStable
  have := iter_inv (n := n) (s := (er, (n : Int))) (f := fun i (st : List Er × Int) => do
    let e ← rd st.1 i
    let p ← rd st.1 e.parent
    if p.value > e.value + 1 then some st else do
    let loser := if e.variation < p.variation then e.parent else i
    let l ← rd st.1 loser
    if l.maxStable then do
      let er ← wr st.1 loser { l with maxStable := false }
      pure (er, st.2 - 1)
    else some st)
    (P := fun (i : Nat) (st : List Er × Int) => ∃ g', Arr st.1 m g' ∧ SameRec n g g' ∧ (∀ k < n, (g' k).maxStable = true ↔ ∀ j < i, ¬ Loses g j k) ∧ st.2 = (marked n g' : Int)) ?_ ?_
  · obtain ⟨⟨er', c⟩, e, g', h1, h2, h3, h4⟩ := this
    exact ⟨er', g', c, e, h1, h2, h3, h4⟩
  · refine ⟨g, her, SameRec.refl, fun k hk => ⟨fun _ j hj => by omega, fun _ => hms k hk⟩, ?_⟩
    simp only [marked]
    rw [List.filter_eq_self.mpr (by intro k hk; rw [List.mem_range] at hk; exact hms k hk)]
    simp
  · rintro i hi ⟨er1, c⟩ ⟨g1, h1, h2, h3, h4⟩
    simp only at h1 h4 ⊢
    have hmi : i < m := by omega
    have hp := S.par_lt i hi
    have hT := h2.tree
    rw [h1.rd hmi]
    simp only [Option.bind_eq_bind, Option.bind_some]
    rw [(hT i hi).1, h1.rd (by omega)]
    simp only [Option.bind_some]
    rw [(hT i hi).2.2.1, (hT _ hp).2.2.1, h2.var hi, h2.var hp]
    by_cases c1 : (g (g i).parent).value > (g i).value + 1
    · rw [if_pos c1]
      refine ⟨_, rfl, g1, h1, h2, fun k hk => ?_, h4⟩
      rw [h3 k hk]
      constructor
      · intro h j hj
        rcases Nat.lt_or_ge j i with e | e
        · exact h j e
        · have : j = i := by omega
          subst this
          intro hl; exact absurd hl.1 (by omega)
      · intro h j hj; exact h j (by omega)
    · rw [if_neg c1]
      obtain ⟨loser, hlo⟩ : ∃ loser, (if (g i).variation < (g (g i).parent).variation then (g i).parent else i) = loser := ⟨_, rfl⟩
      have hloses : ∀ k, Loses g i k ↔ k = loser := by
        intro k
        unfold Loses
        rw [← hlo]
        split_ifs with c2
        · constructor
          · rintro ⟨_, (h | h)⟩
            · exact h.2
            · exact absurd h.1 (not_le.mpr c2)
          · intro h; exact ⟨by omega, Or.inl ⟨c2, h⟩⟩
        · constructor
          · rintro ⟨_, (h | h)⟩
            · exact absurd h.1 c2
            · exact h.2
          · intro h; exact ⟨by omega, Or.inr ⟨not_lt.mp c2, h⟩⟩
      have hll : loser < n := by rw [← hlo]; split_ifs <;> assumption
      rw [hlo, h1.rd (by omega)]
      simp only [Option.bind_some]
      have hiff : ∀ k, (∀ j < i + 1, ¬ Loses g j k) ↔ (∀ j < i, ¬ Loses g j k) ∧ k ≠ loser := by
        intro k
        constructor
        · intro h; exact ⟨fun j hj => h j (by omega), fun e => h i (by omega) ((hloses k).mpr e)⟩
        · rintro ⟨h5, h6⟩ j hj
          rcases Nat.lt_or_ge j i with e | e
          · exact h5 j e
          · have : j = i := by omega
            subst this
            rw [hloses]; exact h6
      by_cases c2 : (g1 loser).maxStable = true
      · rw [if_pos c2]
        obtain ⟨er2, g2, e2, h5, h6, h7, h8, h9⟩ := unmark h1 h2 hll (by omega) c2
        rw [e2]
        refine ⟨_, rfl, g2, h5, h6, fun k hk => ?_, by simp only; omega⟩
        rw [hiff]
        by_cases c3 : k = loser
        · subst c3
          simp [h7]
        · rw [h8 k c3, h3 k hk]
          simp [c3]
      · rw [if_neg c2]
        refine ⟨_, rfl, g1, h1, h2, fun k hk => ?_, h4⟩
        rw [hiff]
        by_cases c3 : k = loser
        · subst c3
          simp [c2]
        · rw [h3 k hk]; simp [c3]

/-! ### Filtering -/

theorem stableParent_spec (S : Shape n g) {er : List Er} {m : Nat} (her : Arr er m g) (hm : n ≤ m) : ∀ (fuel x : Nat), x < n → n - x < fuel →
    ∃ a < n, stableParent er fuel x = some a ∧ NearestKept g x a := by
  intro fuel
  induction fuel with
  | zero => intro x _ h; omega
  | succ fuel ih =>
    intro x hx hf
    simp only [stableParent, Option.bind_eq_bind]
    rw [her.rd (by omega)]
    simp only [Option.bind_some]
    by_cases c : (g x).maxStable = true
    · rw [if_pos c]; exact ⟨x, hx, rfl, .refl, Or.inl c⟩
    · rw [if_neg c]
      by_cases c2 : (g x).parent = x
      · rw [if_pos c2]; exact ⟨x, hx, rfl, .refl, Or.inr c2⟩
      · rw [if_neg c2]
        have := S.par_gt x hx
        obtain ⟨a, ha, e, h1, h2⟩ := ih (g x).parent (S.par_lt x hx) (by omega)
        exact ⟨a, ha, e, .head ⟨by simpa using c, rfl⟩ h1, h2⟩

theorem nearestKept_unique {x a b : Nat} (h1 : NearestKept g x a) (h2 : NearestKept g x b) : a = b := by
  obtain ⟨h1, e1⟩ := h1
  induction h1 using Relation.ReflTransGen.head_induction_on with
  | refl =>
    obtain ⟨h2, e2⟩ := h2
    rcases e1 with e1 | e1
    · rcases Relation.ReflTransGen.cases_head h2 with e | ⟨c, hc, _⟩
      · exact e
      · rw [hc.1] at e1; cases e1
    · have : ∀ y, Relation.ReflTransGen (fun u w => (g u).maxStable = false ∧ (g u).parent = w) a y → y = a := by
        intro y hy
        induction hy with
        | refl => rfl
        | tail _ hbc ih => rw [← hbc.2, ih, e1]
      exact (this b h2).symm
  | head hab _ ih =>
    rename_i u w _
    obtain ⟨h2, e2⟩ := h2
    apply ih
    refine ⟨?_, e2⟩
    rcases Relation.ReflTransGen.cases_head h2 with e | ⟨c, hc, h⟩
    · subst e
      rcases e2 with e2 | e2
      · rw [hab.1] at e2; cases e2
      · have : w = u := by rw [← hab.2, e2]
        subst this; exact .refl
    · have : w = c := by rw [← hab.2, ← hc.2]
      subst this; exact h

theorem nearestKept_congr (S : Shape n g) {g' : Nat → Er} {x a : Nat} (hx : x < n) (h : ∀ k, x ≤ k → k < n → g' k = g k) : NearestKept g' x a ↔ NearestKept g x a := by
  have key : ∀ {p q : Nat → Er}, (Shape n p) → (∀ k, x ≤ k → k < n → q k = p k) → ∀ {y}, Relation.ReflTransGen (fun u w => (p u).maxStable = false ∧ (p u).parent = w) x y →
      (x ≤ y ∧ y < n) ∧ Relation.ReflTransGen (fun u w => (q u).maxStable = false ∧ (q u).parent = w) x y := by
    intro p q hp hq y hy
    induction hy with
    | refl => exact ⟨⟨le_refl _, hx⟩, .refl⟩
    | tail _ hbc ih =>
      rename_i b c _
      obtain ⟨⟨h1, h2⟩, h3⟩ := ih
      have h4 := hp.par_gt b h2
      have h5 := hp.par_lt b h2
      rw [hbc.2] at h4 h5
      refine ⟨⟨by omega, h5⟩, .tail h3 ?_⟩
      rw [hq b h1 h2]; exact hbc
  constructor
  · rintro ⟨h1, h2⟩
    have hS' : ∀ {y}, Relation.ReflTransGen (fun u w => (g' u).maxStable = false ∧ (g' u).parent = w) x y →
        (x ≤ y ∧ y < n) ∧ Relation.ReflTransGen (fun u w => (g u).maxStable = false ∧ (g u).parent = w) x y := by
      intro y hy
      induction hy with
      | refl => exact ⟨⟨le_refl _, hx⟩, .refl⟩
      | tail _ hbc ih =>
        rename_i b c _
        obtain ⟨⟨h1, h2⟩, h3⟩ := ih
        rw [h b h1 h2] at hbc
        have h4 := S.par_gt b h2
        have h5 := S.par_lt b h2
        rw [hbc.2] at h4 h5
        exact ⟨⟨by omega, h5⟩, .tail h3 hbc⟩
    obtain ⟨⟨h3, h4⟩, h5⟩ := hS' h1
    rw [h a h3 h4] at h2
    exact ⟨h5, h2⟩
  · rintro ⟨h1, h2⟩
    obtain ⟨⟨h3, h4⟩, h5⟩ := key S h h1
    refine ⟨h5, ?_⟩
    rw [h a h3 h4]; exact h2

theorem diverse_congr {P : Params} (S : Shape n g) {g' : Nat → Er} {k : Nat} (hk : k < n) (h : ∀ j, k ≤ j → j < n → g' j = g j) : Diverse P g' k ↔ Diverse P g k := by
  have hp := S.par_lt k hk
  have hge : k ≤ (g k).parent := by have := S.par_gt k hk; omega
  unfold Diverse
  rw [h k (le_refl _) hk]
  have hN := fun a => nearestKept_congr S (g' := g') (a := a) hp (fun j hj hjn => h j (by omega) hjn)
  have hA : ∀ a, NearestKept g (g k).parent a → g' a = g a := by
    rintro a ⟨h1, -⟩
    have : k ≤ a ∧ a < n := by
      induction h1 with
      | refl => exact ⟨hge, hp⟩
      | tail _ hbc ih =>
        rename_i b c _
        have h4 := S.par_gt b ih.2
        have h5 := S.par_lt b ih.2
        rw [hbc.2] at h4 h5
        omega
    exact h a this.1 this.2
  constructor
  · intro hd h1 h2 a ha
    have := hd h1 h2 a ((hN a).mpr ha)
    rw [hA a ha] at this; exact this
  · intro hd h1 h2 a ha
    have ha' := (hN a).mp ha
    rw [hA a ha']
    exact hd h1 h2 a ha'

/-- The counts of the regions removed. -/
def tally (n : Nat) (p : Nat → Bool) : Nat := ((List.range n).filter p).length

theorem filterStep_spec {P : Params} {nel : Nat} (S : Shape n g) {er : List Er} {m : Nat} {g1 : Nat → Er} (hr : SameRec n g g1) (her : Arr er m g1) (hm : n ≤ m) {i : Nat} (hi : i < n) (c : Counts) (hc : c.nmer = (marked n g1 : Int)) :
    ∃ er' g2 c', filterStep P nel i (er, c) = some (er', c') ∧ Arr er' m g2 ∧ SameRec n g g2 ∧ (∀ k, k ≠ i → g2 k = g1 k) ∧ c'.nmer = (marked n g2 : Int) ∧
      ((g2 i).maxStable = true ↔ (g1 i).maxStable = true ∧ GoodSize P nel (g i) ∧ Diverse P g2 i) ∧
      c'.nbad = c.nbad + (if (g1 i).maxStable = true ∧ P.maxVariation ≤ (g i).variation then 1 else 0) ∧
      c'.nbig = c.nbig + (if (g1 i).maxStable = true ∧ (g i).variation < P.maxVariation ∧ P.maxArea * nel < (g i).area then 1 else 0) ∧
      c'.nsmall = c.nsmall + (if (g1 i).maxStable = true ∧ (g i).variation < P.maxVariation ∧ ((g i).area : ℚ) ≤ P.maxArea * nel ∧ ((g i).area : ℚ) < P.minArea * nel then 1 else 0) ∧
      c'.nbad + c'.nbig + c'.nsmall + c'.ndup + marked n g2 = c.nbad + c.nbig + c.nsmall + c.ndup + marked n g1 := by
  have hmi : i < m := by omega
  have hT := hr.tree
  have hS1 : Shape n g1 := hT.shape S
  have hvar := hr.var hi
  have harea := (hT i hi).2.2.2
  unfold filterStep
  simp only
  rw [her.rd hmi]
  simp only [Option.bind_eq_bind, Option.bind_some]
  rw [hvar, harea]
  -- the update when the region is removed
  have hdiv : ∀ {g2 : Nat → Er}, SameRec n g g2 → (∀ k, k ≠ i → g2 k = g1 k) → (Diverse P g2 i ↔ (P.minDiversity < 1 → (g i).parent ≠ i → ∀ a, NearestKept g1 (g i).parent a →
      P.minDiversity ≤ (((g1 a).area : ℚ) - (g i).area) / (g1 a).area)) := by
    intro g2 h2 ho
    have hpar2 := (h2.tree i hi).1
    have har2 := (h2.tree i hi).2.2.2
    unfold Diverse
    rw [hpar2, har2]
    by_cases hpi : (g i).parent = i
    · simp [hpi]
    · have hgt := S.par_gt i hi
      have hlt := S.par_lt i hi
      have hN := fun a => nearestKept_congr hS1 (g' := g2) (a := a) hlt (fun j hj _ => ho j (by omega))
      have hA : ∀ a, NearestKept g1 (g i).parent a → g2 a = g1 a := by
        rintro a ⟨h1, -⟩
        apply ho
        have : (g i).parent ≤ a ∧ a < n := by
          induction h1 with
          | refl => exact ⟨le_refl _, hlt⟩
          | tail _ hbc ih =>
            rename_i b c _
            have h4 := hS1.par_gt b ih.2
            have h5 := hS1.par_lt b ih.2
            rw [hbc.2] at h4 h5
            omega
        omega
      constructor
      · intro hd h1 h2' a ha
        have := hd h1 h2' a ((hN a).mpr ha)
        rwa [hA a ha] at this
      · intro hd h1 h2' a ha
        have ha' := (hN a).mp ha
        rw [hA a ha']; exact hd h1 h2' a ha'
  by_cases c0 : (g1 i).maxStable = false
  · rw [if_pos c0]
    exact ⟨er, g1, c, rfl, her, hr, fun _ _ => rfl, hc, by simp [c0], by simp [c0], by simp [c0], by simp [c0], rfl⟩
  rw [if_neg c0]
  have c0' : (g1 i).maxStable = true := by simpa using c0
  obtain ⟨er2, g2, e2, h5, h6, h7, h8, h9⟩ := unmark her hr hi hmi c0'
  have e2' := e2
  simp only [hvar, harea] at e2'
  by_cases c1 : (g i).variation ≥ P.maxVariation
  · rw [if_pos c1, e2']
    refine ⟨_, g2, _, rfl, h5, h6, h8, by simp only; omega, ?_, ?_, ?_, ?_, ?_⟩
    · rw [h7]
      simp only [Bool.false_eq_true, false_iff, not_and]
      intro _ hg
      exact absurd hg.1 (not_lt.mpr c1)
    · simp [c0', c1]
    · simp only; rw [if_neg (fun h => absurd h.2.1 (not_lt.mpr c1))]; rfl
    · simp only; rw [if_neg (fun h => absurd h.2.1 (not_lt.mpr c1))]; rfl
    · simp only; omega
  rw [if_neg c1]
  have c1' : (g i).variation < P.maxVariation := not_le.mp c1
  by_cases c2 : ((g i).area : ℚ) > P.maxArea * nel
  · rw [if_pos c2, e2']
    refine ⟨_, g2, _, rfl, h5, h6, h8, by simp only; omega, ?_, ?_, ?_, ?_, ?_⟩
    · rw [h7]
      simp only [Bool.false_eq_true, false_iff, not_and]
      intro _ hg
      exact absurd hg.2.1 (not_le.mpr c2)
    · simp only; rw [if_neg (fun h => absurd h.2 c1)]; rfl
    · simp [c0', c1', c2]
    · simp only; rw [if_neg (fun h => absurd h.2.2.1 (not_le.mpr c2))]; rfl
    · simp only; omega
  rw [if_neg c2]
  have c2' : ((g i).area : ℚ) ≤ P.maxArea * nel := not_lt.mp c2
  by_cases c3 : ((g i).area : ℚ) < P.minArea * nel
  · rw [if_pos c3, e2']
    refine ⟨_, g2, _, rfl, h5, h6, h8, by simp only; omega, ?_, ?_, ?_, ?_, ?_⟩
    · rw [h7]
      simp only [Bool.false_eq_true, false_iff, not_and]
      intro _ hg
      exact absurd hg.2.2 (not_le.mpr c3)
    · simp only; rw [if_neg (fun h => absurd h.2 c1)]; rfl
    · simp only; rw [if_neg (fun h => absurd h.2.2 c2)]; rfl
    · simp [c0', c1', c2', c3]
    · simp only; omega
  rw [if_neg c3]
  have c3' : P.minArea * nel ≤ ((g i).area : ℚ) := not_lt.mp c3
  have hgood : GoodSize P nel (g i) := ⟨c1', c2', c3'⟩
  have hz1 : (if (g1 i).maxStable = true ∧ P.maxVariation ≤ (g i).variation then 1 else 0) = 0 := if_neg (fun h => absurd h.2 c1)
  have hz2 : (if (g1 i).maxStable = true ∧ (g i).variation < P.maxVariation ∧ P.maxArea * nel < (g i).area then 1 else 0) = 0 := if_neg (fun h => absurd h.2.2 c2)
  have hz3 : (if (g1 i).maxStable = true ∧ (g i).variation < P.maxVariation ∧ ((g i).area : ℚ) ≤ P.maxArea * nel ∧ ((g i).area : ℚ) < P.minArea * nel then 1 else 0) = 0 :=
    if_neg (fun h => absurd h.2.2.2 c3)
  rw [hz1, hz2, hz3, (hT i hi).1]
  have hkeep : Diverse P g1 i → ∃ er' g2 c', some (er, c) = some (er', c') ∧ Arr er' m g2 ∧ SameRec n g g2 ∧ (∀ k, k ≠ i → g2 k = g1 k) ∧ c'.nmer = (marked n g2 : Int) ∧
      ((g2 i).maxStable = true ↔ (g1 i).maxStable = true ∧ GoodSize P nel (g i) ∧ Diverse P g2 i) ∧ c'.nbad = c.nbad + 0 ∧ c'.nbig = c.nbig + 0 ∧ c'.nsmall = c.nsmall + 0 ∧
      c'.nbad + c'.nbig + c'.nsmall + c'.ndup + marked n g2 = c.nbad + c.nbig + c.nsmall + c.ndup + marked n g1 := by
    intro hd
    exact ⟨er, g1, c, rfl, her, hr, fun _ _ => rfl, hc, by simp [c0', hgood, hd], rfl, rfl, rfl, rfl⟩
  by_cases c4 : P.minDiversity < 1
  · rw [if_pos c4]
    by_cases c5 : (g i).parent ≠ i
    · rw [if_pos c5]
      have hgt := S.par_gt i hi
      have hlt := S.par_lt i hi
      obtain ⟨a, ha, ea, hka⟩ := stableParent_spec hS1 her hm (er.length + 1) (g i).parent hlt (by rw [her.len]; omega)
      rw [ea]
      simp only [Option.bind_some]
      rw [her.rd (by omega)]
      simp only [Option.bind_some]
      by_cases c6 : (((g1 a).area : ℚ) - (g i).area) / (g1 a).area < P.minDiversity
      · rw [if_pos c6]
        have e3 := e2'
        simp only [(hT i hi).1] at e3
        rw [e3]
        refine ⟨_, g2, _, rfl, h5, h6, h8, by simp only; omega, ?_, rfl, rfl, rfl, by simp only; omega⟩
        rw [h7]
        simp only [Bool.false_eq_true, false_iff, not_and]
        intro _ _ hd
        have := (hdiv h6 h8).mp hd c4 c5 a hka
        exact absurd this (not_le.mpr c6)
      · rw [if_neg c6]
        apply hkeep
        rw [hdiv hr (fun _ _ => rfl)]
        intro _ _ b hb
        rw [nearestKept_unique hb hka]
        exact not_lt.mp c6
    · rw [if_neg c5]
      apply hkeep
      rw [hdiv hr (fun _ _ => rfl)]
      intro _ h; exact absurd h c5
  · rw [if_neg c4]
    apply hkeep
    rw [hdiv hr (fun _ _ => rfl)]
    intro h; exact absurd h c4

theorem tally_split {n i : Nat} (hi : i < n) (p : Nat → Bool) : tally n (fun k => decide (i ≤ k) && p k) = tally n (fun k => decide (i + 1 ≤ k) && p k) + (if p i = true then 1 else 0) := by
  unfold tally
  split_ifs with h
  · have : ((List.range n).filter (fun k => decide (i ≤ k) && p k)).Perm (i :: (List.range n).filter (fun k => decide (i + 1 ≤ k) && p k)) := by
      rw [List.perm_ext_iff_of_nodup (List.nodup_range.filter _)]
      · intro k
        simp only [List.mem_cons, List.mem_filter, List.mem_range, Bool.and_eq_true, decide_eq_true_eq]
        by_cases c : k = i
        · subst c; simp [hi, h]
        · simp only [c, false_or]
          constructor
          · rintro ⟨a, b, d⟩; exact ⟨a, by omega, d⟩
          · rintro ⟨a, b, d⟩; exact ⟨a, by omega, d⟩
      · rw [List.nodup_cons]; exact ⟨by simp, List.nodup_range.filter _⟩
    rw [this.length_eq]; rfl
  · rw [Nat.add_zero]
    congr 1
    apply List.filter_congr
    intro k hk
    by_cases c : k = i
    · subst c; simp [h]
    · congr 1
      rw [decide_eq_decide]; omega

theorem filterStable_spec {P : Params} {nel : Nat} (S : Shape n g) {er : List Er} {m : Nat} (her : Arr er m g) (hm : n ≤ m) :
    ∃ er' g' c, filterStable P nel n er (marked n g) = some (er', c) ∧ Arr er' m g' ∧ SameRec n g g' ∧ c.nmer = (marked n g' : Int) ∧
      (∀ k < n, (g' k).maxStable = true ↔ (g k).maxStable = true ∧ GoodSize P nel (g k) ∧ Diverse P g' k) ∧
      c.nbad = tally n (fun k => (g k).maxStable && decide (P.maxVariation ≤ (g k).variation)) ∧
      c.nbig = tally n (fun k => (g k).maxStable && decide ((g k).variation < P.maxVariation ∧ P.maxArea * nel < (g k).area)) ∧
      c.nsmall = tally n (fun k => (g k).maxStable && decide ((g k).variation < P.maxVariation ∧ ((g k).area : ℚ) ≤ P.maxArea * nel ∧ ((g k).area : ℚ) < P.minArea * nel)) ∧
      c.nbad + c.nbig + c.nsmall + c.ndup + marked n g' = marked n g := by
  unfold filterStable
  have := iter_inv (n := n) (s := (er, ({ nmer := marked n g, nbad := 0, nbig := 0, nsmall := 0, ndup := 0 } : Counts))) (f := fun t st => filterStep P nel (n - t - 1) st)
    (P := fun (t : Nat) (st : List Er × Counts) => ∃ g', Arr st.1 m g' ∧ SameRec n g g' ∧ st.2.nmer = (marked n g' : Int) ∧ (∀ k, k < n - t → g' k = g k) ∧
      (∀ k < n, n - t ≤ k → ((g' k).maxStable = true ↔ (g k).maxStable = true ∧ GoodSize P nel (g k) ∧ Diverse P g' k)) ∧
      st.2.nbad = tally n (fun k => decide (n - t ≤ k) && ((g k).maxStable && decide (P.maxVariation ≤ (g k).variation))) ∧
      st.2.nbig = tally n (fun k => decide (n - t ≤ k) && ((g k).maxStable && decide ((g k).variation < P.maxVariation ∧ P.maxArea * nel < (g k).area))) ∧
      st.2.nsmall = tally n (fun k => decide (n - t ≤ k) && ((g k).maxStable && decide ((g k).variation < P.maxVariation ∧ ((g k).area : ℚ) ≤ P.maxArea * nel ∧ ((g k).area : ℚ) < P.minArea * nel))) ∧
      st.2.nbad + st.2.nbig + st.2.nsmall + st.2.ndup + marked n g' = marked n g) ?_ ?_
  · obtain ⟨⟨er', c⟩, e, g', h1, h2, h3, _, h4, h5, h6, h7, h8⟩ := this
    refine ⟨er', g', c, e, h1, h2, h3, fun k hk => h4 k hk (by omega), ?_, ?_, ?_, h8⟩
    · rw [h5]; simp
    · rw [h6]; simp
    · rw [h7]; simp
  · have hz : ∀ p : Nat → Bool, tally n (fun k => decide (n - 0 ≤ k) && p k) = 0 := by
      intro p
      unfold tally
      rw [List.length_eq_zero_iff, List.filter_eq_nil_iff]
      intro k hk
      rw [List.mem_range] at hk
      simp; omega
    refine ⟨g, her, SameRec.refl, rfl, fun _ _ => rfl, by intro k hk; omega, (hz _).symm, (hz _).symm, (hz _).symm, by simp⟩
  · rintro t ht ⟨er1, c1⟩ ⟨g1, h1, h2, h3, h4, h5, h6, h7, h8, h9⟩
    simp only at h1 h3 h6 h7 h8 h9 ⊢
    obtain ⟨i, hie⟩ : ∃ i, n - t - 1 = i := ⟨_, rfl⟩
    have hi : i < n := by omega
    have hnt : n - t = i + 1 := by omega
    have hnt1 : n - (t + 1) = i := by omega
    rw [hie]
    rw [hnt] at h4 h6 h7 h8
    rw [hnt1]
    have hg1i : g1 i = g i := h4 i (by omega)
    obtain ⟨er2, g2, c2, e, k1, k2, k3, k4, k5, k6, k7, k8, k9⟩ := filterStep_spec (P := P) (nel := nel) S h2 h1 hm hi c1 h3
    rw [hg1i] at k5 k6 k7 k8
    refine ⟨_, e, g2, k1, k2, k4, ?_, ?_, ?_, ?_, ?_, ?_⟩
    · intro k hk; rw [k3 k (by omega)]; exact h4 k (by omega)
    · intro k hk hik
      by_cases c : k = i
      · subst c; exact k5
      · rw [k3 k c, h5 k hk (by omega)]
        have hS1 : Shape n g1 := h2.tree.shape S
        rw [diverse_congr hS1 (g' := g2) hk (fun j hj _ => k3 j (by omega))]
    · simp only; rw [k6, h6, tally_split hi (fun k => (g k).maxStable && decide (P.maxVariation ≤ (g k).variation))]
      simp
    · simp only; rw [k7, h7, tally_split hi (fun k => (g k).maxStable && decide ((g k).variation < P.maxVariation ∧ P.maxArea * nel < (g k).area))]
      simp
    · simp only; rw [k8, h8, tally_split hi (fun k => (g k).maxStable && decide ((g k).variation < P.maxVariation ∧ ((g k).area : ℚ) ≤ P.maxArea * nel ∧ ((g k).area : ℚ) < P.minArea * nel))]
      simp
    · simp only; omega

theorem saveStable_spec {er : List Er} {m : Nat} (her : Arr er m g) (hm : n ≤ m) : saveStable (marked n g) n er = some (((List.range n).filter (fun k => (g k).maxStable)).map (fun k => (g k).index)) := by
  unfold saveStable
  have hpre : ∀ i ≤ n, ((List.range i).filter (fun k => (g k).maxStable)).length ≤ marked n g := by
    intro i hi
    unfold marked
    rw [show n = i + (n - i) by omega, List.range_add, List.filter_append, List.length_append]
    omega
  have := iter_inv (n := n) (s := ([] : List Nat)) (f := fun i mer => do
    let e ← rd er i
    if e.maxStable then if mer.length < marked n g then some (mer ++ [e.index]) else none
    else some mer) (P := fun (i : Nat) (mer : List Nat) => mer = ((List.range i).filter (fun k => (g k).maxStable)).map (fun k => (g k).index)) (by simp) ?_
  · obtain ⟨s, e, h⟩ := this
    rw [e, h]
  · rintro i hi mer rfl
    rw [her.rd (by omega)]
    simp only [Option.bind_eq_bind, Option.bind_some]
    have h := hpre (i + 1) hi
    rw [List.range_succ, List.filter_append, List.length_append] at h
    rw [List.range_succ, List.filter_append]
    by_cases c : (g i).maxStable = true
    · rw [if_pos c, if_pos]
      · exact ⟨_, rfl, by simp [c]⟩
      · simp [c] at h; simp; omega
    · rw [if_neg c]
      exact ⟨_, rfl, by simp [c]⟩

end Verif.Mser
