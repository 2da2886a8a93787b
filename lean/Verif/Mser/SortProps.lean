import Verif.Mser.Model
import Verif.Mser.Spec
import Verif.Flat
import Mathlib.Data.List.Perm.Basic
import Mathlib.Data.List.Range
import Mathlib.Data.Finset.Sort
import Mathlib.Data.Fintype.EquivFin
import Mathlib.Data.Fintype.Card
import Mathlib.Tactic.Linarith

/-!
# The sorting of the pixels (C33)
-/

namespace Verif.Mser

variable {im : List Nat} {nel : Nat}

theorem rd_pix {p : Nat} (h : p < im.length) : rd im p = some (pix im p) := by
  rw [rd_of_lt h]; simp [pix, List.getD, h]

theorem countPixels_spec (hl : im.length = nel) (h256 : ∀ p < nel, pix im p < 256) :
    ∃ b, countPixels im nel = some b ∧ Arr b 256 (fun v => ((Finset.range nel).filter (fun j => pix im j = v)).card) := by
  unfold countPixels
  refine iter_inv (P := fun (i : Nat) (b : List Nat) => Arr b 256 (fun v => ((Finset.range i).filter (fun j => pix im j = v)).card)) ?_ ?_
  · exact (Arr.replicate 256 0).congr (fun i _ => by simp)
  · intro i hi b hb
    have hv := h256 i hi
    rw [rd_pix (by omega)]
    simp only [Option.bind_eq_bind, Option.bind_some]
    rw [hb.rd hv]
    simp only [Option.bind_some]
    obtain ⟨b', e, hb'⟩ := hb.wr hv (((Finset.range i).filter (fun j => pix im j = pix im i)).card + 1)
    refine ⟨b', e, hb'.congr (fun v _ => ?_)⟩
    simp only [upd1]
    rw [Finset.range_add_one, Finset.filter_insert]
    by_cases e : v = pix im i
    · subst e; rw [if_pos rfl, if_pos rfl, Finset.card_insert_of_notMem (by simp)]
    · rw [if_neg e, if_neg (fun h => e h.symm)]

theorem cumulate_spec {b : List Nat} (hb : Arr b 256 (fun v => ((Finset.range nel).filter (fun j => pix im j = v)).card)) :
    ∃ b', cumulate b = some b' ∧ Arr b' 256 (fun v => ((Finset.range nel).filter (fun j => pix im j ≤ v)).card) := by
  unfold cumulate
  have := iter_inv (n := 255) (s := b) (f := fun i b => do
    let x ← rd b (i + 1)
    let y ← rd b i
    wr b (i + 1) (x + y))
    (P := fun (i : Nat) (b : List Nat) => Arr b 256 (fun v => if v ≤ i then ((Finset.range nel).filter (fun j => pix im j ≤ v)).card
      else ((Finset.range nel).filter (fun j => pix im j = v)).card)) ?_ ?_
  · obtain ⟨b', e, h⟩ := this
    exact ⟨b', e, h.congr (fun v hv => by rw [if_pos (by omega)])⟩
  · refine hb.congr (fun v _ => ?_)
    split_ifs with h
    · have : v = 0 := by omega
      subst this; simp
    · rfl
  · intro i hi b hb
    rw [hb.rd (show i + 1 < 256 by omega), hb.rd (show i < 256 by omega)]
    simp only [Option.bind_eq_bind, Option.bind_some]
    obtain ⟨b', e, hb'⟩ := hb.wr (show i + 1 < 256 by omega) ((if i + 1 ≤ i then ((Finset.range nel).filter (fun j => pix im j ≤ i + 1)).card
      else ((Finset.range nel).filter (fun j => pix im j = i + 1)).card) + (if i ≤ i then ((Finset.range nel).filter (fun j => pix im j ≤ i)).card
      else ((Finset.range nel).filter (fun j => pix im j = i)).card))
    refine ⟨b', e, hb'.congr (fun v _ => ?_)⟩
    simp only [upd1]
    by_cases g : v = i + 1
    · subst g
      rw [if_pos rfl, if_neg (by omega), if_pos (le_refl i), if_pos (le_refl _), ← Finset.card_union_of_disjoint]
      · congr 1; ext j; simp only [Finset.mem_union, Finset.mem_filter, Finset.mem_range]; omega
      · rw [Finset.disjoint_filter]; intro j _ h; omega
    · rw [if_neg g]
      split_ifs <;> first | rfl | omega

/-- The place of a pixel in the order. -/
def place (im : List Nat) (nel i : Nat) : Nat := ((Finset.range nel).filter (fun j => Before im j i)).card

theorem before_trans {i j k : Nat} (h1 : Before im i j) (h2 : Before im j k) : Before im i k := by
  unfold Before at *; omega

theorem before_irrefl (i : Nat) : ¬ Before im i i := by unfold Before; omega

theorem before_total {i j : Nat} (h : i ≠ j) : Before im i j ∨ Before im j i := by unfold Before; omega

theorem place_lt {i : Nat} (hi : i < nel) : place im nel i < nel := by
  unfold place
  have : (Finset.range nel).filter (fun j => Before im j i) ⊂ Finset.range nel := by
    rw [Finset.ssubset_iff_of_subset (Finset.filter_subset _ _)]
    exact ⟨i, by simpa using hi, by simp [before_irrefl]⟩
  simpa using Finset.card_lt_card this

theorem place_mono {i j : Nat} (hi : i < nel) (h : Before im i j) : place im nel i < place im nel j := by
  unfold place
  apply Finset.card_lt_card
  rw [Finset.ssubset_iff_of_subset]
  · exact ⟨i, by simp [hi, h], by simp [before_irrefl]⟩
  · intro k hk
    simp only [Finset.mem_filter] at hk ⊢
    exact ⟨hk.1, before_trans hk.2 h⟩

theorem place_inj {i j : Nat} (hi : i < nel) (hj : j < nel) (h : place im nel i = place im nel j) : i = j := by
  by_contra g
  rcases before_total (im := im) g with e | e
  · have := place_mono hi e; omega
  · have := place_mono hj e; omega

theorem place_surj {k : Nat} (hk : k < nel) : ∃ i < nel, place im nel i = k := by
  let f : Fin nel → Fin nel := fun i => ⟨place im nel i, place_lt i.2⟩
  have hf : Function.Injective f := by
    intro a b h
    simp only [f, Fin.mk.injEq] at h
    exact Fin.ext (place_inj a.2 b.2 h)
  obtain ⟨i, hi⟩ := Finite.surjective_of_injective hf ⟨k, hk⟩
  simp only [f, Fin.mk.injEq] at hi
  exact ⟨i, i.2, hi⟩

theorem emptyBuckets_spec (hl : im.length = nel) (h256 : ∀ p < nel, pix im p < 256) {b perm : List Nat} (hp : perm.length = nel)
    (hb : Arr b 256 (fun v => ((Finset.range nel).filter (fun j => pix im j ≤ v)).card)) :
    ∃ st, emptyBuckets im nel b perm = some st ∧ st.2.length = nel ∧ ∀ i < nel, st.2[place im nel i]? = some i := by
  unfold emptyBuckets
  have := iter_inv (n := nel) (s := (b, perm)) (f := fun t st => do
    let i := nel - t - 1
    let v ← rd im i
    let c ← rd st.1 v
    if c = 0 then none else do
    let b ← wr st.1 v (c - 1)
    let perm ← wr st.2 (c - 1) i
    pure (b, perm))
    (P := fun (t : Nat) (st : List Nat × List Nat) => Arr st.1 256 (fun v => ((Finset.range nel).filter (fun j => pix im j < v ∨ (pix im j = v ∧ j < nel - t))).card) ∧
      st.2.length = nel ∧ ∀ i < nel, nel - t ≤ i → st.2[place im nel i]? = some i) ?_ ?_
  · obtain ⟨st, e, _, h1, h2⟩ := this
    exact ⟨st, e, h1, fun i hi => h2 i hi (by omega)⟩
  · refine ⟨hb.congr (fun v _ => ?_), hp, fun i hi h => by omega⟩
    congr 1
    ext j
    simp only [Finset.mem_filter, Finset.mem_range]
    omega
  · rintro t ht ⟨b, perm⟩ ⟨hb, hp, hpl⟩
    simp only at hb hp hpl ⊢
    obtain ⟨i, hi⟩ : ∃ i, nel - t - 1 = i := ⟨_, rfl⟩
    rw [hi, rd_pix (by omega)]
    simp only [Option.bind_eq_bind, Option.bind_some]
    rw [hb.rd (h256 i (by omega))]
    simp only [Option.bind_some]
    have hc : ((Finset.range nel).filter (fun j => pix im j < pix im i ∨ (pix im j = pix im i ∧ j < nel - t))).card = place im nel i + 1 := by
      unfold place
      rw [← Finset.card_insert_of_notMem (a := i) (by simp [before_irrefl])]
      congr 1
      ext j
      simp only [Finset.mem_filter, Finset.mem_range, Finset.mem_insert]
      unfold Before
      constructor
      · rintro ⟨h1, h2⟩
        by_cases g : j = i
        · exact Or.inl g
        · exact Or.inr ⟨h1, by omega⟩
      · rintro (h | h)
        · subst h; exact ⟨by omega, Or.inr ⟨rfl, by omega⟩⟩
        · exact ⟨h.1, by omega⟩
    rw [hc, if_neg (by omega), Nat.add_sub_cancel]
    obtain ⟨b', e, hb'⟩ := hb.wr (h256 i (by omega)) (place im nel i)
    rw [e, wr_of_lt (by rw [hp]; exact place_lt (by omega))]
    refine ⟨_, rfl, hb'.congr (fun v _ => ?_), by simpa using hp, fun k hk hk2 => ?_⟩
    · simp only [upd1]
      by_cases g : v = pix im i
      · subst g
        rw [if_pos rfl]
        unfold place
        congr 1
        ext j
        simp only [Finset.mem_filter, Finset.mem_range]
        unfold Before
        omega
      · rw [if_neg g]
        congr 1
        ext j
        simp only [Finset.mem_filter, Finset.mem_range]
        constructor
        · rintro ⟨h1, h2⟩
          refine ⟨h1, ?_⟩
          rcases h2 with h2 | h2
          · exact Or.inl h2
          · rcases Nat.lt_or_ge j i with h | h
            · exact Or.inr ⟨h2.1, by omega⟩
            · have : j = i := by omega
              subst this; exact absurd h2.1.symm g
        · rintro ⟨h1, h2⟩; exact ⟨h1, by omega⟩
    · simp only
      by_cases g : k = i
      · subst g
        rw [List.getElem?_set_self (by rw [hp]; exact place_lt hk)]
      · rw [List.getElem?_set_ne (fun h => g (place_inj hk (by omega) h.symm))]
        exact hpl k hk (by omega)

/-- The order of the pixels puts the pixel `i` at the place `place i`. -/
theorem sortPixels_place (hl : im.length = nel) (h256 : ∀ p < nel, pix im p < 256) {perm0 : List Nat} (hp : perm0.length = nel) :
    ∃ perm, sortPixels im nel perm0 = some perm ∧ perm.length = nel ∧ ∀ i < nel, perm[place im nel i]? = some i := by
  obtain ⟨b, e1, h1⟩ := countPixels_spec hl h256
  obtain ⟨b', e2, h2⟩ := cumulate_spec h1
  obtain ⟨st, e3, h3⟩ := emptyBuckets_spec hl h256 hp h2
  refine ⟨st.2, ?_, h3⟩
  unfold sortPixels
  rw [e1]; simp only [Option.bind_eq_bind, Option.bind_some]
  rw [e2]; simp only [Option.bind_some]
  rw [e3]; rfl

/-- C33: the order of the pixels is a permutation of all of them, sorted by intensity and, for equal intensities, by index; no access is out of bounds. -/
theorem sortPixels_correct (im : List Nat) (h256 : ∀ v ∈ im, v < 256) (perm0 : List Nat) (hp : perm0.length = im.length) :
    ∃ perm, sortPixels im im.length perm0 = some perm ∧ perm.Perm (List.range im.length) ∧ perm.Pairwise (Before im) := by
  have h : ∀ p < im.length, pix im p < 256 := by
    intro p hp
    have : pix im p = im[p] := by simp [pix, List.getD, hp]
    rw [this]; exact h256 _ (List.getElem_mem hp)
  obtain ⟨perm, e, hl, hpl⟩ := sortPixels_place rfl h hp
  have hget : ∀ k (hk : k < perm.length), ∃ i < im.length, place im im.length i = k ∧ perm[k] = i := by
    intro k hk
    obtain ⟨i, hi, hik⟩ := place_surj (im := im) (show k < im.length by omega)
    have := hpl i hi
    rw [hik, List.getElem?_eq_getElem hk] at this
    exact ⟨i, hi, hik, by simpa using this⟩
  have hsort : perm.Pairwise (Before im) := by
    rw [List.pairwise_iff_getElem]
    intro k k' hk hk' hkk
    obtain ⟨i, hi, e1, e2⟩ := hget k hk
    obtain ⟨j, hj, e3, e4⟩ := hget k' hk'
    rw [e2, e4]
    by_cases g : i = j
    · subst g; omega
    · rcases before_total (im := im) g with h | h
      · exact h
      · have := place_mono hj h; omega
  refine ⟨perm, e, ?_, hsort⟩
  have hnd : perm.Nodup := hsort.imp (fun {a b} h e => by subst e; exact before_irrefl a h)
  rw [List.perm_ext_iff_of_nodup hnd List.nodup_range]
  intro a
  rw [List.mem_range]
  constructor
  · intro ha
    obtain ⟨k, hk, rfl⟩ := List.getElem_of_mem ha
    obtain ⟨i, hi, _, e⟩ := hget k hk
    rw [e]; exact hi
  · intro ha
    exact List.mem_of_getElem? (hpl a ha)

/-- Six pixels. -/
example : ∃ perm, sortPixels [3, 1, 255, 1, 0, 3] 6 [0, 0, 0, 0, 0, 0] = some perm ∧ perm.Perm (List.range 6) ∧ perm.Pairwise (Before [3, 1, 255, 1, 0, 3]) :=
  sortPixels_correct [3, 1, 255, 1, 0, 3] (by decide) [0, 0, 0, 0, 0, 0] rfl

end Verif.Mser
