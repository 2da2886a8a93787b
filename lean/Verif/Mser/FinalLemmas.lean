import Verif.Mser.GrowProps
import Mathlib.Data.Set.Card
import Mathlib.Data.Set.Card.Arithmetic

/-!
# The forest of the whole image
-/

namespace Verif.Mser

open Verif.Erfill (Touch coords stridesFrom)

variable {im dims : List Nat} {nel : Nat} {done : Finset Nat} {s : St} {f : Nat → Reg}

/-! ### The image is connected -/

theorem near_refl : ∀ (l : List Nat), List.Forall₂ (fun a b => a ≤ b + 1 ∧ b ≤ a + 1) l l := by
  intro l
  induction l with
  | nil => exact .nil
  | cons a l ih => exact .cons (by omega) ih

theorem exists_smaller : ∀ (dims : List Nat) (p : Nat), 0 < p → p < dims.prod → ∃ q < p, List.Forall₂ (fun a b => a ≤ b + 1 ∧ b ≤ a + 1) (coords dims p) (coords dims q) := by
  intro dims
  induction dims with
  | nil => intro p h0 hp; simp at hp; omega
  | cons d ds ih =>
    intro p h0 hp
    rw [List.prod_cons] at hp
    have hd : 0 < d := by
      rcases Nat.eq_zero_or_pos d with e | e
      · subst e; simp at hp
      · exact e
    have hdm := Nat.div_add_mod p d
    by_cases g : p % d = 0
    · have hpd : 0 < p / d := by
        rcases Nat.eq_zero_or_pos (p / d) with e | e
        · rw [e, g] at hdm; simp at hdm; omega
        · exact e
      obtain ⟨q, hq, hn⟩ := ih (p / d) hpd (by rw [Nat.div_lt_iff_lt_mul hd, Nat.mul_comm]; exact hp)
      refine ⟨d * q, ?_, ?_⟩
      · have := Nat.mul_lt_mul_of_pos_left hq hd
        omega
      · simp only [coords]
        rw [Nat.mul_mod_right, Nat.mul_div_cancel_left _ hd, g]
        exact .cons (by omega) hn
    · refine ⟨p - 1, by omega, ?_⟩
      have h1 : p - 1 = d * (p / d) + (p % d - 1) := by omega
      have h2 : p % d - 1 < d := by have := Nat.mod_lt p hd; omega
      simp only [coords]
      have h3 : (p - 1) % d = p % d - 1 := by rw [h1, Nat.mul_add_mod, Nat.mod_eq_of_lt h2]
      have h4 : (p - 1) / d = p / d := by rw [h1, Nat.mul_add_div hd, Nat.div_eq_of_lt h2, Nat.add_zero]
      rw [h3, h4]
      exact .cons (by omega) (near_refl _)

theorem reach_zero {S : Nat → Prop} (hS : ∀ p < dims.prod, S p) : ∀ p < dims.prod, Reach dims S p 0 ∧ Reach dims S 0 p := by
  intro p
  induction p using Nat.strong_induction_on with
  | _ p ih =>
    intro hp
    rcases Nat.eq_zero_or_pos p with e | e
    · subst e; exact ⟨.refl, .refl⟩
    · obtain ⟨q, hq, hn⟩ := exists_smaller dims p e hp
      have ht : Touch dims p q := ⟨hp, by omega, by omega, hn⟩
      obtain ⟨h1, h2⟩ := ih q hq (by omega)
      exact ⟨.head ⟨ht, hS q (by omega)⟩ h1, .tail h2 ⟨Erfill.touch_symm ht, hS p hp⟩⟩

/-- The whole image is one extremal region. -/
theorem ext_top {v : Nat} (hv : ∀ p < dims.prod, pix im p ≤ v) {p q : Nat} (hp : p < dims.prod) (hq : q < dims.prod) : q ∈ Ext dims im v p :=
  ((reach_zero (S := fun b => pix im b ≤ v) hv p hp).1).trans (reach_zero (S := fun b => pix im b ≤ v) hv q hq).2

/-! ### Facts about extremal regions -/

theorem ext_pix {v p q : Nat} (hp : pix im p ≤ v) (h : q ∈ Ext dims im v p) : pix im q ≤ v := by
  change Relation.ReflTransGen _ _ _ at h
  cases h with
  | refl => exact hp
  | tail _ h => exact h.2

theorem ext_lt {v p q : Nat} (hp : p < dims.prod) (h : q ∈ Ext dims im v p) : q < dims.prod := by
  change Relation.ReflTransGen _ _ _ at h
  cases h with
  | refl => exact hp
  | tail _ h => exact h.1.2.1

theorem ext_self {v p : Nat} : p ∈ Ext dims im v p := Relation.ReflTransGen.refl

theorem ext_symm {v p q : Nat} (hp : pix im p ≤ v) (h : q ∈ Ext dims im v p) : p ∈ Ext dims im v q := by
  change Relation.ReflTransGen _ _ _ at h ⊢
  have : pix im q ≤ v ∧ Relation.ReflTransGen (fun a b => Touch dims a b ∧ pix im b ≤ v) q p := by
    induction h with
    | refl => exact ⟨hp, .refl⟩
    | tail _ hbc ih => exact ⟨hbc.2, .head ⟨Erfill.touch_symm hbc.1, ih.1⟩ ih.2⟩
  exact this.2

theorem ext_trans {v p q x : Nat} (h : q ∈ Ext dims im v p) (h' : x ∈ Ext dims im v q) : x ∈ Ext dims im v p := Relation.ReflTransGen.trans h h'

theorem ext_eq {v p q : Nat} (hp : pix im p ≤ v) (h : q ∈ Ext dims im v p) : Ext dims im v q = Ext dims im v p := by
  ext x
  exact ⟨fun hx => ext_trans h hx, fun hx => ext_trans (ext_symm hp h) hx⟩

theorem ext_mono {v w p : Nat} (hvw : v ≤ w) : Ext dims im v p ⊆ Ext dims im w p := by
  intro q h
  change Relation.ReflTransGen _ _ _ at h ⊢
  induction h with
  | refl => exact .refl
  | tail _ hbc ih => exact .tail ih ⟨hbc.1, by have := hbc.2; omega⟩

theorem ext_finite {v p : Nat} (hp : p < dims.prod) : (Ext dims im v p).Finite := by
  apply Set.Finite.subset (Finset.range dims.prod).finite_toSet
  intro q hq
  simpa using ext_lt hp hq

/-! ### The forest at the end -/

/-- What is known about the forest of the whole image. -/
structure Final (dims im : List Nat) (r : List Reg) (joins : List Nat) (f : Nat → Reg) : Prop where
  arr : Arr r dims.prod f
  forest : Forest (par f) (sct f) joins (Finset.range dims.prod)
  mono : ∀ j ∈ joins, pix im j ≤ pix im (par f j)
  level : ∀ v, ∃ pre new, joins = pre ++ new ∧ (∀ j ∈ pre, pix im (par f j) ≤ v) ∧ (∀ j ∈ new, v < pix im (par f j)) ∧
    (∀ q < dims.prod, ∀ q' < dims.prod, pix im q ≤ v → (rootOf (par f) pre q = rootOf (par f) pre q' ↔ q' ∈ Ext dims im v q)) ∧
    ∀ p < dims.prod, pix im p ≤ v → p ∉ pre → (f p).area = (Ext dims im v p).ncard

theorem level_index {perm : List Nat} (hsort : perm.Pairwise (Before im)) (v : Nat) : ∀ n ≤ perm.length, ∃ t ≤ n, (∀ (k : Nat) p, k < t → perm[k]? = some p → pix im p ≤ v) ∧
    ∀ (k : Nat) p, t ≤ k → k < n → perm[k]? = some p → v < pix im p := by
  intro n
  induction n with
  | zero => intro _; exact ⟨0, by omega, by intro k p h; omega, by intro k p h1 h2; omega⟩
  | succ n ih =>
    intro hn
    obtain ⟨t, ht, h1, h2⟩ := ih (by omega)
    obtain ⟨x, hx⟩ : ∃ x, perm[n]? = some x := ⟨perm[n], List.getElem?_eq_getElem (by omega)⟩
    by_cases g : pix im x ≤ v
    · refine ⟨n + 1, le_refl _, ?_, by intro k p h1 h2; omega⟩
      intro k p hk hp
      rcases Nat.lt_or_ge k n with hkn | hkn
      · rw [List.pairwise_iff_getElem] at hsort
        have hb := hsort k n (by omega) (by omega) hkn
        rw [List.getElem?_eq_getElem (by omega)] at hp hx
        simp only [Option.some.injEq] at hp hx
        rw [hp, hx] at hb
        unfold Before at hb; omega
      · have : k = n := by omega
        subst this
        rw [hx] at hp; simp only [Option.some.injEq] at hp; subst hp; exact g
    · refine ⟨t, by omega, h1, ?_⟩
      intro k p hk hk2 hp
      rcases Nat.lt_or_ge k n with hkn | hkn
      · exact h2 k p hk hkn hp
      · have : k = n := by omega
        subst this
        rw [hx] at hp; simp only [Option.some.injEq] at hp; subst hp; omega

/-- The state after all the pixels. -/
theorem grow_final (hl : im.length = dims.prod) (hv : dims.prod ≤ void) {perm : List Nat} (hperm : perm.Perm (List.range dims.prod)) (hsort : perm.Pairwise (Before im))
    {r : List Reg} {f : Nat → Reg} (hr : Arr r dims.prod f) (hvoid : ∀ p < dims.prod, (f p).parent = void) :
    ∃ s f', grow im dims (stridesFrom 1 dims) dims.prod perm r dims.prod = some s ∧ Final dims im s.r s.joins f' ∧ s.ner = (s.joins.filter (fun j => pix im j ≠ pix im (par f' j))).length := by
  have hpl : perm.length = dims.prod := by rw [hperm.length_eq]; simp
  have hpm : ∀ p, p ∈ perm ↔ p < dims.prod := fun p => by rw [hperm.mem_iff]; simp
  obtain ⟨st, ft, H⟩ := grow_spec rfl hl hv hpl (fun p hp => (hpm p).mp hp) hsort hr hvoid dims.prod (le_refl _)
  obtain ⟨e1, hI, _, hLt⟩ := H dims.prod (le_refl _)
  have hall : firstPixels perm dims.prod = Finset.range dims.prod := by
    ext p
    rw [mem_firstPixels, List.take_of_length_le (by omega), hpm, Finset.mem_range]
  refine ⟨st dims.prod, ft dims.prod, e1, ⟨hI.arr, hall ▸ hI.forest, hI.mono, fun v => ?_⟩, hI.ner⟩
  obtain ⟨t, ht, h1, h2⟩ := level_index hsort v perm.length (le_refl _)
  rw [hpl] at ht
  obtain ⟨_, hIt, hCt, _⟩ := H t ht
  have hS : ∀ p, p ∈ firstPixels perm t ↔ p < dims.prod ∧ pix im p ≤ v := by
    intro p
    rw [mem_firstPixels, List.mem_take_iff_getElem]
    constructor
    · rintro ⟨k, hk, e⟩
      exact ⟨by rw [← hpm, ← e]; exact List.getElem_mem _, h1 k p (by omega) (by rw [List.getElem?_eq_getElem (by omega), e])⟩
    · rintro ⟨hp, hpv⟩
      rw [← hpm] at hp
      obtain ⟨k, hk, e⟩ := List.getElem_of_mem hp
      refine ⟨k, ?_, e⟩
      by_contra g
      have := h2 k p (by omega) hk (by rw [List.getElem?_eq_getElem hk, e])
      omega
  obtain ⟨new, hj, hp, hnew, har⟩ := hLt t ht (v + 1) (fun k hk1 hk2 p hp => h2 k p hk1 (by omega) hp)
  have hrt : ∀ q, rootOf (par (ft dims.prod)) (st t).joins q = rt (st t) (ft t) q := fun q => rootOf_congr hp
  have hreach : ∀ q, q < dims.prod → pix im q ≤ v → ∀ q', q' ∈ Ext dims im v q ↔ rt (st t) (ft t) q = rt (st t) (ft t) q' := by
    intro q hq hqv q'
    rw [hCt q q', ← reach_iff ((hS q).mpr ⟨hq, hqv⟩)]
    have : ∀ {a b}, Relation.ReflTransGen (fun a b => Touch dims a b ∧ pix im b ≤ v) a b ↔ Relation.ReflTransGen (fun a b => Touch dims a b ∧ b ∈ firstPixels perm t) a b := by
      intro a b
      constructor
      · intro h
        exact Relation.ReflTransGen.mono (fun a b h => ⟨h.1, (hS b).mpr ⟨h.1.2.1, h.2⟩⟩) _ _ h
      · intro h
        exact Relation.ReflTransGen.mono (fun a b h => ⟨h.1, ((hS b).mp h.2).2⟩) _ _ h
    exact this
  refine ⟨(st t).joins, new, hj, ?_, fun j hj => hnew j hj, ?_, ?_⟩
  · intro j hj
    rw [hp j hj]
    exact ((hS _).mp (hIt.forest.parD j (hIt.forest.sub j hj))).2
  · intro q hq q' _ hqv
    rw [hrt, hrt, hreach q hq hqv]
  · intro p hpl hpv hpj
    have hpd := (hS p).mpr ⟨hpl, hpv⟩
    rw [har p (by omega), hIt.area p hpd hpj, ← Set.ncard_coe_finset]
    congr 1
    ext q
    simp only [Finset.coe_filter, Set.mem_ofPred_eq]
    rw [hreach p hpl hpv, show rt (st t) (ft t) p = p from Forest.rootOf_self hpj]
    constructor
    · rintro ⟨_, h⟩; exact h.symm
    · intro h
      refine ⟨?_, h.symm⟩
      have : q ∈ Ext dims im v p := by rw [hreach p hpl hpv, show rt (st t) (ft t) p = p from Forest.rootOf_self hpj]; exact h
      exact (hS q).mpr ⟨ext_lt hpl this, ext_pix hpv this⟩

namespace Final

variable {r : List Reg} {joins : List Nat} (F : Final dims im r joins f)

/-- A pixel is the top of a region at the level `v`: it is not attached yet. -/
def Top (im : List Nat) (joins : List Nat) (f : Nat → Reg) (v p : Nat) : Prop := pix im p ≤ v ∧ (p ∈ joins → v < pix im (par f p))

/-- A pixel that represents an extremal region. -/
def Extremal (im : List Nat) (joins : List Nat) (f : Nat → Reg) (p : Nat) : Prop := Top im joins f (pix im p) p

theorem top_iff {v p : Nat} {pre new : List Nat} (hj : joins = pre ++ new) (h1 : ∀ j ∈ pre, pix im (par f j) ≤ v) (h2 : ∀ j ∈ new, v < pix im (par f j)) (hp : pix im p ≤ v) :
    Top im joins f v p ↔ p ∉ pre := by
  constructor
  · intro h hpre
    have := h.2 (by rw [hj]; simp [hpre])
    have := h1 p hpre
    omega
  · intro h
    refine ⟨hp, fun hpj => ?_⟩
    rw [hj] at hpj
    rcases List.mem_append.mp hpj with g | g
    · exact absurd g h
    · exact h2 p g

theorem top_extremal {v p : Nat} (h : Top im joins f v p) : Extremal im joins f p :=
  ⟨le_refl _, fun hj => by have := h.2 hj; have := h.1; omega⟩

include F

theorem area {v p : Nat} (hp : p < dims.prod) (h : Top im joins f v p) : (f p).area = (Ext dims im v p).ncard := by
  obtain ⟨pre, new, hj, h1, h2, _, h4⟩ := F.level v
  exact h4 p hp h.1 ((top_iff hj h1 h2 h.1).mp h)

/-- Between the intensity of an extremal pixel and that of its parent, the region does not change. -/
theorem ext_const {v p : Nat} (hp : p < dims.prod) (h : Top im joins f v p) : Ext dims im v p = Ext dims im (pix im p) p := by
  symm
  refine Set.eq_of_subset_of_ncard_le (ext_mono h.1) ?_ (ext_finite hp)
  rw [← F.area hp h, ← F.area hp (top_extremal h)]

theorem prefix_ok {pre new : List Nat} (hj : joins = pre ++ new) : pre.Nodup ∧ ∀ p ∈ pre, pre.idxOf p < pre.idxOf (par f p) := by
  have hn : pre.Nodup := by have := F.forest.nodup; rw [hj] at this; exact (List.nodup_append.mp this).1
  have hsub : ∀ j ∈ pre, j ∈ joins := fun j hjj => by rw [hj]; simp [hjj]
  refine ⟨hn, ?_⟩
  intro p hp
  have := F.forest.upP p (hsub p hp)
  rw [hj, List.idxOf_append_of_mem hp] at this
  by_cases g : par f p ∈ pre
  · rw [List.idxOf_append_of_mem g] at this; exact this
  · rw [List.idxOf_eq_length g]; exact List.idxOf_lt_length_of_mem hp

/-- A pixel and its parent are in the same region at the level of the parent. -/
theorem par_mem {p : Nat} (hp : p < dims.prod) (hpj : p ∈ joins) : par f p ∈ Ext dims im (pix im (par f p)) p := by
  obtain ⟨pre, new, hj, h1, h2, h3, _⟩ := F.level (pix im (par f p))
  obtain ⟨hn, hup⟩ := F.prefix_ok hj
  have hpre : p ∈ pre := by
    rw [hj] at hpj
    rcases List.mem_append.mp hpj with g | g
    · exact g
    · have := h2 p g; omega
  have hd := F.forest.parD p (by simpa using hp)
  exact (h3 p hp _ (by simpa using hd) (F.mono p hpj)).mp (rootOf_par_of hn hup hpre).symm

theorem exists_top {v q : Nat} (hq : q < dims.prod) (hqv : pix im q ≤ v) : ∃ p < dims.prod, Top im joins f v p ∧ p ∈ Ext dims im v q := by
  obtain ⟨pre, new, hj, h1, h2, h3, _⟩ := F.level v
  obtain ⟨hn, hup⟩ := F.prefix_ok hj
  have hsub : ∀ j ∈ pre, j ∈ joins := fun j hjj => by rw [hj]; simp [hjj]
  have hroot : rootOf (par f) pre q ∉ pre := rootOf_suffix hn hup pre [] rfl q (by simp)
  have hdone : rootOf (par f) pre q < dims.prod := by
    have : ∀ (l : List Nat) (q : Nat), (∀ j ∈ l, j ∈ joins) → q < dims.prod → rootOf (par f) l q < dims.prod := by
      intro l
      induction l with
      | nil => intro q _ h; exact h
      | cons j l ih =>
        intro q h hq
        simp only [rootOf, List.foldl_cons]
        apply ih _ (fun j hj => h j (by simp [hj]))
        split_ifs
        · simpa using F.forest.parD j (F.forest.sub j (h j (by simp)))
        · exact hq
    exact this pre q hsub hq
  have hmem : rootOf (par f) pre q ∈ Ext dims im v q := (h3 q hq _ hdone hqv).mp (by rw [rootOf_notMem (q := rootOf (par f) pre q) hroot])
  have hpv := ext_pix hqv hmem
  exact ⟨_, hdone, (top_iff hj h1 h2 hpv).mpr hroot, hmem⟩

theorem top_unique {v p p' : Nat} (hp : p < dims.prod) (hp' : p' < dims.prod) (h : Top im joins f v p) (h' : Top im joins f v p') (hm : p' ∈ Ext dims im v p) : p = p' := by
  obtain ⟨pre, new, hj, h1, h2, h3, _⟩ := F.level v
  have g1 := (top_iff hj h1 h2 h.1).mp h
  have g2 := (top_iff hj h1 h2 h'.1).mp h'
  have := (h3 p hp p' hp' h.1).mpr hm
  rw [rootOf_notMem g1, rootOf_notMem g2] at this
  exact this

/-- Different extremal pixels represent different regions. -/
theorem ext_inj {p p' : Nat} (hp : p < dims.prod) (hp' : p' < dims.prod) (h : Extremal im joins f p) (h' : Extremal im joins f p')
    (e : Ext dims im (pix im p) p = Ext dims im (pix im p') p') : p = p' := by
  have h1 : p' ∈ Ext dims im (pix im p) p := by rw [e]; exact ext_self
  have h2 : p ∈ Ext dims im (pix im p') p' := by rw [← e]; exact ext_self
  have h3 := ext_pix (le_refl _) h1
  have h4 := ext_pix (le_refl _) h2
  have h5 : pix im p = pix im p' := by omega
  refine F.top_unique hp hp' h ?_ h1
  rw [h5]; exact h'

/-- Exactly one pixel is not attached. -/
theorem one_root (h0 : 0 < dims.prod) : ∃ ρ < dims.prod, ρ ∉ joins ∧ ∀ p < dims.prod, p ∉ joins → p = ρ := by
  obtain ⟨v, hv⟩ : ∃ v, ∀ p < dims.prod, pix im p ≤ v := by
    refine ⟨(Finset.range dims.prod).sup (pix im), fun p hp => Finset.le_sup (by simpa using hp)⟩
  obtain ⟨ρ, hρ, ht, _⟩ := F.exists_top h0 (hv 0 h0)
  have hroot : ∀ p < dims.prod, Top im joins f v p ↔ p ∉ joins := by
    intro p hp
    constructor
    · intro h hj
      have h1 := h.2 hj
      have h2 := F.forest.parD p (by simpa using hp)
      have h3 := hv _ (by simpa using h2)
      omega
    · intro h; exact ⟨hv p hp, fun hj => absurd hj h⟩
  refine ⟨ρ, hρ, (hroot ρ hρ).mp ht, fun p hp hj => ?_⟩
  exact F.top_unique hp hρ ((hroot p hp).mpr hj) ht (ext_top hv hp hρ)

end Final

end Verif.Mser
