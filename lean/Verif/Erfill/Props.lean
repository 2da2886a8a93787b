import Verif.Erfill.Lemmas
import Mathlib.Data.Finset.Card
import Mathlib.Data.Fintype.Card

/-!
# Properties of the filling of an extremal region

C37: the pixels returned are the ones of the extremal region, but the seed is returned twice, and when the region is the whole image the list is overrun.
-/

namespace Verif.Erfill

/-- The condition on the intensity. -/
def Ok (img : List Nat) (invert : Bool) (seed q : Nat) : Prop := if invert then img.getD q 0 ≥ img.getD seed 0 else img.getD q 0 ≤ img.getD seed 0

/-- The pixels of the region that are not alone in it. -/
def Accomp (img dims : List Nat) (invert : Bool) (seed x : Nat) : Prop := Region img dims invert seed x ∧ ∃ y, Region img dims invert seed y ∧ y ≠ x

/-- What holds between two visits. -/
structure Inv (img dims : List Nat) (cap : Nat) (invert : Bool) (seed : Nat) (s : St) (rest : List Nat) : Prop where
  len : s.visited.length = img.length
  mem : s.members = seed :: rest
  nodup : rest.Nodup
  vis : ∀ q < img.length, s.visited[q]? = some (decide (q ∈ rest))
  reg : ∀ q ∈ rest, q < img.length ∧ Accomp img dims invert seed q
  fits : s.members.length ≤ cap

variable {img dims : List Nat} {cap : Nat} {invert : Bool} {seed : Nat}

theorem region_lt (hs : seed < dims.prod) {q : Nat} (h : Region img dims invert seed q) : q < dims.prod := by
  cases h with
  | refl => exact hs
  | tail _ h => exact h.1.2.1

theorem visit_spec (hl : img.length = dims.prod) (hseed : seed < dims.prod) {s : St} {rest : List Nat} (h : Inv img dims cap invert seed s rest)
    {index : Nat} (hi : index ∈ s.members) {off : List Int} (ho : off.length = dims.length) (ho1 : ∀ o ∈ off, -1 ≤ o ∧ o ≤ 1) :
    (∃ s' ext, visit img dims (stridesFrom 1 dims) cap invert (img.getD seed 0) index (coords dims index) off s = some s' ∧ Inv img dims cap invert seed s' (rest ++ ext) ∧
      ∀ q < dims.prod, (coords dims q).map (fun (x : Nat) => (x : Int)) = List.zipWith (fun (o : Int) (c : Nat) => o + c) off (coords dims index) → q ≠ index →
        Ok img invert seed q → q ∈ rest ++ ext) ∨
    (visit img dims (stridesFrom 1 dims) cap invert (img.getD seed 0) index (coords dims index) off s = none ∧ s.members.length = cap ∧
      ∃ l : List Nat, l.Nodup ∧ l.length = cap ∧ ∀ x ∈ l, Accomp img dims invert seed x) := by
  have hreg : Region img dims invert seed index := by
    rw [h.mem] at hi
    rcases List.mem_cons.mp hi with e | e
    · rw [e]; exact Relation.ReflTransGen.refl
    · exact (h.reg _ e).2.1
  have hidx := region_lt hseed hreg
  have hcl := coords_length dims index
  unfold visit
  cases hn : neighbour off (coords dims index) dims (stridesFrom 1 dims) 0 with
  | none =>
    left
    refine ⟨s, [], rfl, by simpa using h, ?_⟩
    intro q hq e _ _
    rw [neighbour_of dims off _ 1 0 q ho hcl hq e] at hn
    cases hn
  | some m =>
    obtain ⟨q, e1, e2, e3⟩ := neighbour_some dims off _ 1 0 m ho hcl hn
    have em : m = (q : Int) := by rw [e1]; push_cast; ring
    subst em
    have huniq : ∀ q' < dims.prod, (coords dims q').map (fun (x : Nat) => (x : Int)) = List.zipWith (fun (o : Int) (c : Nat) => o + c) off (coords dims index) → q' = q := by
      intro q' h1 h2
      have := neighbour_of dims off _ 1 0 q' ho hcl h1 h2
      rw [hn] at this
      simp only [Option.some.injEq] at this
      push_cast at this
      omega
    simp only
    have hql : q < img.length := by omega
    have hget : img.getD q 0 = img[q] := by simp [List.getD, hql]
    by_cases g1 : (q : Int) = index
    · rw [if_pos g1]
      left
      refine ⟨s, [], rfl, by simpa using h, ?_⟩
      intro q' h1 h2 h3 _
      have := huniq q' h1 h2
      omega
    · rw [if_neg g1, rdI_nat, rd_of_lt hql]
      simp only [Option.bind_eq_bind, Option.bind_some]
      by_cases g2 : (invert = false ∧ img[q] ≤ img.getD seed 0) ∨ (invert = true ∧ img[q] ≥ img.getD seed 0)
      · rw [if_pos g2]
        have hok : Ok img invert seed q := by
          unfold Ok
          rw [hget]
          rcases g2 with ⟨a, b⟩ | ⟨a, b⟩ <;> simp [a] <;> exact b
        rw [rdI_nat, rd_getElem?, h.vis q hql]
        simp only [Option.bind_some]
        by_cases g3 : q ∈ rest
        · rw [if_pos (by simpa using g3)]
          left
          refine ⟨s, [], rfl, by simpa using h, ?_⟩
          intro q' h1 h2 _ _
          rw [huniq q' h1 h2]
          simpa using g3
        · rw [if_neg (by simpa using g3), wrI_nat, wr_of_lt (by rw [h.len]; exact hql)]
          simp only [Option.bind_some]
          have htouch : Touch dims index q := ⟨hidx, e2, by omega, near_of _ _ off (by rw [ho, hcl]) ho1 e3⟩
          have hq : Region img dims invert seed q := Relation.ReflTransGen.tail hreg ⟨htouch, hok⟩
          have hacc : Accomp img dims invert seed q := ⟨hq, index, hreg, by omega⟩
          have hnd : (rest ++ [q]).Nodup := by
            rw [List.nodup_append]
            refine ⟨h.nodup, List.nodup_singleton q, ?_⟩
            rintro a ha b hb rfl
            rw [List.mem_singleton] at hb
            exact g3 (hb ▸ ha)
          by_cases g4 : s.members.length < cap
          · rw [if_pos g4]
            left
            refine ⟨_, [q], rfl, ⟨?_, ?_, hnd, ?_, ?_, ?_⟩, ?_⟩
            · simp [h.len]
            · simp [h.mem]
            · intro q' hq'
              by_cases e : q = q'
              · subst e
                rw [List.getElem?_set_self (by rw [h.len]; exact hql)]; simp
              · rw [List.getElem?_set_ne e, h.vis q' hq']
                have : q' ≠ q := fun h => e h.symm
                simp [this]
            · intro x hx
              rcases List.mem_append.mp hx with hx | hx
              · exact h.reg x hx
              · rw [List.mem_singleton] at hx
                rw [hx]
                exact ⟨hql, hacc⟩
            · simp; omega
            · intro q' h1 h2 _ _
              rw [huniq q' h1 h2]
              simp
          · rw [if_neg g4]
            right
            have := h.fits
            refine ⟨rfl, by omega, rest ++ [q], hnd, ?_, ?_⟩
            · have := congrArg List.length h.mem
              simp at this ⊢; omega
            · intro x hx
              rcases List.mem_append.mp hx with hx | hx
              · exact (h.reg x hx).2
              · rw [List.mem_singleton] at hx
                rw [hx]; exact hacc
      · rw [if_neg g2]
        left
        refine ⟨s, [], rfl, by simpa using h, ?_⟩
        intro q' h1 h2 _ h4
        exfalso; apply g2
        rw [huniq q' h1 h2] at h4
        unfold Ok at h4
        rw [hget] at h4
        cases invert
        · left; exact ⟨rfl, by simpa using h4⟩
        · right; exact ⟨rfl, by simpa using h4⟩

theorem expand_spec (hl : img.length = dims.prod) (hseed : seed < dims.prod) {index : Nat} :
    ∀ (fuel c : Nat) (s : St) (rest : List Nat), fuel + c = 3 ^ dims.length → c < 3 ^ dims.length → Inv img dims cap invert seed s rest → index ∈ s.members →
    (∃ s' ext, expand img dims (stridesFrom 1 dims) cap invert (img.getD seed 0) index (coords dims index) fuel (offsetOf dims.length c) s = some s' ∧
      Inv img dims cap invert seed s' (rest ++ ext) ∧
      ∀ q < dims.prod, (∃ c', c ≤ c' ∧ c' < 3 ^ dims.length ∧
        (coords dims q).map (fun (x : Nat) => (x : Int)) = List.zipWith (fun (o : Int) (c : Nat) => o + c) (offsetOf dims.length c') (coords dims index)) → q ≠ index →
        Ok img invert seed q → q ∈ rest ++ ext) ∨
    (expand img dims (stridesFrom 1 dims) cap invert (img.getD seed 0) index (coords dims index) fuel (offsetOf dims.length c) s = none ∧
      ∃ l : List Nat, l.Nodup ∧ l.length = cap ∧ ∀ x ∈ l, Accomp img dims invert seed x) := by
  intro fuel
  induction fuel with
  | zero => intro c s rest h1 h2; omega
  | succ fuel ih =>
    intro c s rest h1 h2 hI hi
    unfold expand
    rcases visit_spec hl hseed hI hi (offsetOf_length _ c) (offsetOf_mem _ c) with ⟨s1, ext1, e1, hI1, hq1⟩ | ⟨e1, _, hl'⟩
    · rw [e1]
      simp only [Option.bind_eq_bind, Option.bind_some]
      rw [nextOffset_spec _ _ h2]
      by_cases g : c + 1 < 3 ^ dims.length
      · rw [if_pos g]
        simp only
        have hi1 : index ∈ s1.members := by
          rw [hI1.mem]; rw [hI.mem] at hi
          rcases List.mem_cons.mp hi with e | e
          · simp [e]
          · simp [e]
        rcases ih (c + 1) s1 (rest ++ ext1) (by omega) g hI1 hi1 with ⟨s2, ext2, e2, hI2, hq2⟩ | ⟨e2, hl'⟩
        · left
          refine ⟨s2, ext1 ++ ext2, e2, by rw [← List.append_assoc]; exact hI2, ?_⟩
          rintro q hq ⟨c', h3, h4, h5⟩ hne hok
          rw [← List.append_assoc]
          rcases Nat.eq_or_lt_of_le h3 with e | e
          · subst e
            exact List.mem_append_left _ (hq1 q hq h5 hne hok)
          · exact hq2 q hq ⟨c', by omega, h4, h5⟩ hne hok
        · right; exact ⟨e2, hl'⟩
      · rw [if_neg g]
        left
        refine ⟨s1, ext1, rfl, hI1, ?_⟩
        rintro q hq ⟨c', h3, h4, h5⟩ hne hok
        have : c' = c := by omega
        subst this
        exact hq1 q hq h5 hne hok
    · right
      rw [e1]
      exact ⟨rfl, hl'⟩

/-- One expansion puts all the neighbours of the pixel in the list. -/
theorem expand_all (hl : img.length = dims.prod) (hseed : seed < dims.prod) {index : Nat} {s : St} {rest : List Nat} (hI : Inv img dims cap invert seed s rest) (hi : index ∈ s.members) :
    (∃ s' ext, expand img dims (stridesFrom 1 dims) cap invert (img.getD seed 0) index (coords dims index) (3 ^ dims.length) (List.replicate dims.length (-1)) s = some s' ∧
      Inv img dims cap invert seed s' (rest ++ ext) ∧ ∀ q, Touch dims index q → Ok img invert seed q → q ∈ rest ++ ext) ∨
    (expand img dims (stridesFrom 1 dims) cap invert (img.getD seed 0) index (coords dims index) (3 ^ dims.length) (List.replicate dims.length (-1)) s = none ∧
      ∃ l : List Nat, l.Nodup ∧ l.length = cap ∧ ∀ x ∈ l, Accomp img dims invert seed x) := by
  have hp : 0 < 3 ^ dims.length := Nat.pow_pos (by omega)
  have := expand_spec hl hseed (3 ^ dims.length) 0 s rest (by omega) hp hI hi
  rw [offsetOf_zero] at this
  rcases this with ⟨s', ext, e, hI', hq⟩ | h
  · left
    refine ⟨s', ext, e, hI', ?_⟩
    rintro q ⟨_, h2, h3, h4⟩ hok
    obtain ⟨os, o1, o2, o3⟩ := of_near _ _ h4
    rw [coords_length] at o1
    obtain ⟨c, hc, ec⟩ := offsetOf_surj os o2
    rw [o1] at hc ec
    exact hq q h2 ⟨c, by omega, hc, by rw [ec]; exact o3⟩ (by omega) hok
  · right; exact h

theorem grow_spec (hl : img.length = dims.prod) (hseed : seed < dims.prod) :
    ∀ (fuel e : Nat) (s : St) (rest : List Nat), e + fuel = cap + 1 → e ≤ s.members.length → Inv img dims cap invert seed s rest →
    (∀ i < e, ∀ p, s.members[i]? = some p → ∀ q, Touch dims p q → Ok img invert seed q → q ∈ rest) →
    (∃ s' rest', grow img dims (stridesFrom 1 dims) cap invert (img.getD seed 0) fuel e s = some s' ∧ Inv img dims cap invert seed s' rest' ∧
      ∀ p ∈ s'.members, ∀ q, Touch dims p q → Ok img invert seed q → q ∈ rest') ∨
    (grow img dims (stridesFrom 1 dims) cap invert (img.getD seed 0) fuel e s = none ∧ ∃ l : List Nat, l.Nodup ∧ l.length = cap ∧ ∀ x ∈ l, Accomp img dims invert seed x) := by
  intro fuel
  induction fuel with
  | zero =>
    intro e s rest h1 h2 hI _
    have := hI.fits
    omega
  | succ fuel ih =>
    intro e s rest h1 h2 hI hcl
    unfold grow
    by_cases g : e < s.members.length
    · rw [if_pos g, rd_of_lt g]
      simp only [Option.bind_eq_bind, Option.bind_some]
      have hmem : s.members[e] ∈ s.members := List.getElem_mem g
      have hlt : s.members[e] < dims.prod := by
        generalize s.members[e] = x at hmem
        rw [hI.mem] at hmem
        rcases List.mem_cons.mp hmem with h | h
        · rw [h]; exact hseed
        · have := (hI.reg _ h).1
          omega
      rw [subscripts_spec dims 1 _ (by simpa using hlt)]
      simp only [Nat.div_one]
      rcases expand_all hl hseed hI hmem with ⟨s', ext, e1, hI', hq⟩ | ⟨e1, hl'⟩
      · rw [e1]
        simp only [Option.bind_some]
        have hm' : s'.members = s.members ++ ext := by rw [hI'.mem, hI.mem]; rfl
        apply ih (e + 1) s' (rest ++ ext) (by omega) (by rw [hm']; simp; omega) hI'
        intro i hi p hp q ht hok
        rw [hm', List.getElem?_append_left (by omega)] at hp
        rcases Nat.lt_or_ge i e with h | h
        · exact List.mem_append_left _ (hcl i h p hp q ht hok)
        · have : i = e := by omega
          subst this
          rw [List.getElem?_eq_getElem g] at hp
          simp only [Option.some.injEq] at hp
          subst hp
          exact hq q ht hok
      · right
        rw [e1]
        exact ⟨rfl, hl'⟩
    · rw [if_neg g]
      left
      refine ⟨s, rest, rfl, hI, ?_⟩
      intro p hp q ht hok
      obtain ⟨i, hi, rfl⟩ := List.getElem_of_mem hp
      exact hcl i (by omega) _ (List.getElem?_eq_getElem hi) q ht hok

theorem touch_symm {p q : Nat} (h : Touch dims p q) : Touch dims q p :=
  ⟨h.2.1, h.1, fun e => h.2.2.1 e.symm, (h.2.2.2.imp (fun _ _ hab => (⟨hab.2, hab.1⟩ : _))).flip⟩

/-- The result, or a proof that the list is too short. -/
theorem fillCap_spec (hl : img.length = dims.prod) (hcap : 1 ≤ cap) (er : Int) (h1 : er ≠ 0) (h2 : er.natAbs ≤ img.length) :
    (∃ rest, fillCap cap img dims er = some (some (((er.natAbs - 1) :: rest).map (· + 1))) ∧ rest.Nodup ∧ rest.length + 1 ≤ cap ∧
      (∀ q, q ∈ (er.natAbs - 1) :: rest ↔ Region img dims (decide (er < 0)) (er.natAbs - 1) q) ∧
      (er.natAbs - 1 ∈ rest ↔ ∃ q, q ≠ er.natAbs - 1 ∧ Region img dims (decide (er < 0)) (er.natAbs - 1) q)) ∨
    (fillCap cap img dims er = none ∧ ∃ l : List Nat, l.Nodup ∧ l.length = cap ∧ ∀ x ∈ l, Accomp img dims (decide (er < 0)) (er.natAbs - 1) x) := by
  obtain ⟨seed, hs⟩ : ∃ seed, er.natAbs - 1 = seed := ⟨_, rfl⟩
  have hidx : (if er < 0 then -er else er) = (seed : Int) + 1 := by split_ifs <;> omega
  have hlt : seed < dims.prod := by omega
  have hsl : seed < img.length := by omega
  unfold fillCap
  simp only
  rw [hidx, if_neg (by omega), if_neg (by omega), hs]
  have e0 : rdI img ((seed : Int) + 1 - 1) = some (img.getD seed 0) := by
    rw [rdI_eq _ _ seed (by omega), rd_of_lt hsl]
    simp [List.getD, hsl]
  rw [e0]
  simp only [Option.bind_eq_bind, Option.bind_some]
  rw [show ((seed : Int) + 1 - 1).toNat = seed by omega]
  have hI : Inv img dims cap (decide (er < 0)) seed ⟨List.replicate img.length false, [seed]⟩ [] :=
    ⟨by simp, rfl, List.nodup_nil, by intro q hq; simp [hq], by simp, by simpa using hcap⟩
  rcases grow_spec hl hlt (cap + 1) 0 _ [] (by omega) (by simp) hI (by intro i hi; omega) with ⟨s, rest, e, hI', hcl⟩ | ⟨e, hl'⟩
  · left
    rw [e]
    have hsub : ∀ q, Region img dims (decide (er < 0)) seed q → q ∈ seed :: rest := by
      intro q hq
      induction hq with
      | refl => simp
      | tail h1 h2 ih =>
        have := hcl _ (by rw [hI'.mem]; exact ih) _ h2.1 h2.2
        simp [this]
    refine ⟨rest, by simp [hI'.mem], hI'.nodup, ?_, ?_, ?_⟩
    · have := hI'.fits
      rw [hI'.mem] at this
      simpa using this
    · intro q
      refine ⟨fun h => ?_, hsub q⟩
      rcases List.mem_cons.mp h with h | h
      · rw [h]; exact Relation.ReflTransGen.refl
      · exact (hI'.reg q h).2.1
    · constructor
      · intro h
        obtain ⟨_, y, hy, hne⟩ := (hI'.reg _ h).2
        exact ⟨y, hne, hy⟩
      · rintro ⟨q, hne, hq⟩
        rcases Relation.ReflTransGen.cases_head hq with h | ⟨c, h3, _⟩
        · exact absurd h.symm hne
        · have hc : c ∈ rest := hcl seed (by rw [hI'.mem]; simp) c h3.1 h3.2
          exact hcl c (by rw [hI'.mem]; simp [hc]) seed (touch_symm h3.1) (by unfold Ok; split_ifs <;> exact Nat.le_refl _)
  · right
    rw [e]
    exact ⟨rfl, hl'⟩

theorem length_le_card {l : List Nat} {n : Nat} (h1 : l.Nodup) (h2 : ∀ x ∈ l, x < n) : l.length ≤ n := by
  have : l.toFinset ⊆ Finset.range n := by
    intro x hx
    rw [List.mem_toFinset] at hx
    rw [Finset.mem_range]; exact h2 x hx
  have := Finset.card_le_card this
  rwa [List.toFinset_card_of_nodup h1, Finset.card_range] at this

/-- C37 when the region is not the whole image (or the image is one pixel): nothing is accessed outside the arrays, the pixels returned are exactly the ones of the region, and only the seed is repeated: the list begins with it
and has it again if the region has another pixel.  What is missing is the region that fills the image, see `fill_overrun`. -/
theorem fill_correct_partial (img dims : List Nat) (hl : img.length = dims.prod) (er : Int) (h1 : er ≠ 0) (h2 : er.natAbs ≤ img.length)
    (hnot : img.length = 1 ∨ ∃ p < img.length, ¬ Region img dims (decide (er < 0)) (er.natAbs - 1) p) :
    ∃ rest, fill img dims er = some (some (((er.natAbs - 1) :: rest).map (· + 1))) ∧ rest.Nodup ∧
      (∀ q, q ∈ (er.natAbs - 1) :: rest ↔ Region img dims (decide (er < 0)) (er.natAbs - 1) q) ∧
      (er.natAbs - 1 ∈ rest ↔ ∃ q, q ≠ er.natAbs - 1 ∧ Region img dims (decide (er < 0)) (er.natAbs - 1) q) := by
  have hlt : er.natAbs - 1 < dims.prod := by omega
  rcases fillCap_spec (cap := img.length) hl (by omega) er h1 h2 with ⟨rest, a, b, _, c, d⟩ | ⟨_, l, l1, l2, l3⟩
  · exact ⟨rest, a, b, c, d⟩
  · exfalso
    have hlx : ∀ x ∈ l, x < img.length := fun x hx => by have := region_lt hlt (l3 x hx).1; omega
    rcases hnot with e | ⟨p, hp, hr⟩
    · cases l with
      | nil => simp at l2; omega
      | cons x l =>
        obtain ⟨_, y, hy, hne⟩ := l3 x (by simp)
        have := hlx x (by simp)
        have := region_lt hlt hy
        omega
    · have := length_le_card (l := p :: l) (n := img.length) (List.nodup_cons.mpr ⟨fun h => hr (l3 p h).1, l1⟩)
        (by intro x hx; rcases List.mem_cons.mp hx with e | e
            · rw [e]; exact hp
            · exact hlx x e)
      simp at this; omega

/-- C37: when the region is the whole image and it has more than one pixel, the function writes one element after the end of the list of the members; with one element more the result would be defined. -/
theorem fill_overrun (img dims : List Nat) (hl : img.length = dims.prod) (er : Int) (h1 : er ≠ 0) (h2 : er.natAbs ≤ img.length) (hn : 2 ≤ img.length)
    (hall : ∀ p < img.length, Region img dims (decide (er < 0)) (er.natAbs - 1) p) :
    fill img dims er = none ∧ ∃ res, fillCap (img.length + 1) img dims er = some (some res) := by
  constructor
  · rcases fillCap_spec (cap := img.length) hl (by omega) er h1 h2 with ⟨rest, a, b, c, d, f⟩ | ⟨e, _⟩
    · exfalso
      have hs : er.natAbs - 1 ∈ rest := by
        rw [f]
        by_cases g : er.natAbs - 1 = 0
        · exact ⟨1, by omega, hall 1 (by omega)⟩
        · exact ⟨0, by omega, hall 0 (by omega)⟩
      have : Finset.range img.length ⊆ rest.toFinset := by
        intro x hx
        rw [Finset.mem_range] at hx
        rw [List.mem_toFinset]
        rcases List.mem_cons.mp ((d x).mpr (hall x hx)) with e | e
        · rw [e]; exact hs
        · exact e
      have := Finset.card_le_card this
      rw [Finset.card_range, List.toFinset_card_of_nodup b] at this
      omega
    · exact e
  · rcases fillCap_spec (cap := img.length + 1) hl (by omega) er h1 h2 with ⟨rest, a, _⟩ | ⟨_, l, l1, l2, l3⟩
    · exact ⟨_, a⟩
    · exfalso
      have := length_le_card l1 (n := img.length) (fun x hx => by have := region_lt (show er.natAbs - 1 < dims.prod by omega) (l3 x hx).1; omega)
      omega

/-- A seed outside the image is an error. -/
theorem fill_error (img dims : List Nat) (er : Int) (h : er = 0 ∨ er.natAbs > img.length) : fill img dims er = some none := by
  unfold fill fillCap
  simp only
  rw [if_pos (by split_ifs <;> omega)]

/-- The claim that the function returns each pixel of the region once. -/
def FillOnceClaim : Prop := ∀ (img dims : List Nat) (er : Int), img.length = dims.prod → er ≠ 0 → er.natAbs ≤ img.length → ∀ res, fill img dims er = some (some res) → res.Nodup

/-- The claim that the function accesses only its arrays. -/
def FillDefinedClaim : Prop := ∀ (img dims : List Nat) (er : Int), img.length = dims.prod → er ≠ 0 → er.natAbs ≤ img.length → ∃ res, fill img dims er = some res

theorem fillOnce_claim_false : ¬ FillOnceClaim := by
  intro h
  have := h [0, 0, 1] [3, 1] 1 rfl (by omega) (by decide) [1, 2, 1] (by decide)
  revert this; decide

theorem fillDefined_claim_false : ¬ FillDefinedClaim := by
  intro h
  obtain ⟨res, e⟩ := h [7, 7] [2, 1] 1 rfl (by omega) (by decide)
  rw [show fill [7, 7] [2, 1] 1 = none by decide] at e
  cases e

/-- A region of three pixels in an image of two by three. -/
example : ∃ rest, fill [1, 5, 2, 5, 1, 9] [2, 3] 3 = some (some ((2 :: rest).map (· + 1))) ∧ rest.Nodup := by
  obtain ⟨rest, h, g, _⟩ := fill_correct_partial [1, 5, 2, 5, 1, 9] [2, 3] rfl 3 (by omega) (by decide) (Or.inr ⟨1, by decide, by
    intro h
    cases h with
    | tail _ h => simp at h⟩)
  exact ⟨rest, h, g⟩

end Verif.Erfill
