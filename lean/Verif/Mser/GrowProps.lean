import Verif.Mser.GrowLemmas
import Mathlib.Data.Set.Finite.Lattice

/-!
# The forest of regions (C34)
-/

namespace Verif.Mser

open Verif.Erfill (Touch coords stridesFrom)

variable {im dims : List Nat} {nel : Nat} {done : Finset Nat} {s : St} {f : Nat → Reg}

theorem reach_iff {S : Finset Nat} {p q : Nat} (hp : p ∈ S) : Reach dims (· ∈ S) p q ↔ Relation.EqvGen (TouchOn dims S) p q := by
  constructor
  · intro h
    have : q ∈ S ∧ Relation.EqvGen (TouchOn dims S) p q := by
      unfold Reach at h
      induction h with
      | refl => exact ⟨hp, .refl _⟩
      | tail _ hbc ih => exact ⟨hbc.2, .trans _ _ _ ih.2 (.rel _ _ ⟨hbc.1, ih.1, hbc.2⟩)⟩
    exact this.2
  · intro h
    have key : ∀ {a b}, Relation.EqvGen (TouchOn dims S) a b → Relation.ReflTransGen (fun a b => Touch dims a b ∧ b ∈ S) a b ∧ Relation.ReflTransGen (fun a b => Touch dims a b ∧ b ∈ S) b a := by
      intro a b h
      induction h with
      | rel a b h => exact ⟨.single ⟨h.1, h.2.2⟩, .single ⟨Erfill.touch_symm h.1, h.2.1⟩⟩
      | refl a => exact ⟨.refl, .refl⟩
      | symm a b _ ih => exact ⟨ih.2, ih.1⟩
      | trans a b c _ _ ih1 ih2 => exact ⟨ih1.1.trans ih2.1, ih2.2.trans ih1.2⟩
    exact (key h).1

/-- The parent stored for a pixel. -/
def parentIn (r : List Reg) (p : Nat) : Nat := (r.getD p ⟨0, 0, 0, 0⟩).parent

/-- The area stored for a pixel. -/
def areaIn (r : List Reg) (p : Nat) : Nat := (r.getD p ⟨0, 0, 0, 0⟩).area

theorem parentIn_eq {r : List Reg} (h : Arr r nel f) {p : Nat} (hp : p < nel) : parentIn r p = (f p).parent := by
  simp [parentIn, List.getD, h.get p hp]

theorem areaIn_eq {r : List Reg} (h : Arr r nel f) {p : Nat} (hp : p < nel) : areaIn r p = (f p).area := by
  simp [areaIn, List.getD, h.get p hp]

theorem rootOf_unique {parent : Nat → Nat} {p ρ ρ' : Nat} (h : RootOf parent p ρ) (h' : RootOf parent p ρ') : ρ = ρ' := by
  obtain ⟨h, e⟩ := h
  induction h using Relation.ReflTransGen.head_induction_on with
  | refl =>
    obtain ⟨h', e'⟩ := h'
    induction h' with
    | refl => rfl
    | tail _ hbc ih =>
      rename_i b c _
      have : b = c ∨ parent b ≠ b := by
        by_cases g : parent b = b
        · left; rw [← hbc, g]
        · exact Or.inr g
      rcases this with g | g
      · subst g; exact ih e'
      · -- every element of the chain from a root is the root
        have hroot : ∀ x, Relation.ReflTransGen (fun a b => parent a = b) ρ x → x = ρ := by
          intro x hx
          induction hx with
          | refl => rfl
          | tail _ hbc ih => rw [← hbc, ih, e]
        rename_i hb
        have := hroot b hb
        subst this
        exact absurd e g
  | head hab _ ih =>
    rename_i a c _
    apply ih
    obtain ⟨h', e'⟩ := h'
    refine ⟨?_, e'⟩
    rcases Relation.ReflTransGen.cases_head h' with g | ⟨d, hd, g⟩
    · subst g
      have : c = a := by rw [← hab, e']
      subst this; exact .refl
    · have : c = d := by rw [← hab, ← hd]
      subst this; exact g

theorem Inv.rootOf (hI : Inv im nel done s f) {p : Nat} (hp : p ∈ done) : RootOf (parentIn s.r) p (rt s f p) := by
  have hroot := hI.forest.rootOf_done hp
  refine ⟨?_, ?_⟩
  · have h : ∀ {x y}, Relation.ReflTransGen (fun a b => par f a = b) x y → x ∈ done → Relation.ReflTransGen (fun a b => parentIn s.r a = b) x y := by
      intro x y h
      induction h using Relation.ReflTransGen.head_induction_on with
      | refl => intro _; exact .refl
      | head hab _ ih =>
        intro hx
        rename_i a b _
        refine .head (by rw [parentIn_eq hI.arr (hI.lt a hx)]; exact hab) (ih ?_)
        rw [← hab]; exact hI.forest.parD a hx
    exact h (hI.forest.reach_root hp) hp
  · rw [parentIn_eq hI.arr (hI.lt _ hroot)]
    exact (hI.forest.root _ hroot (hI.forest.rootOf_root p)).1

/-- C34: after the first `t` pixels of the order, the forest describes the connected components of these pixels: every one of them has a root, two of them have the same root exactly when they are
connected through touching pixels among the first `t` ones, and the area stored at a root is the number of pixels of its component.  Looking for a root gives the root and changes no parent and no
area.  No access is out of bounds, whatever the buffers hold at the beginning. -/
theorem forest_correct (dims im : List Nat) (hl : im.length = dims.prod) (h256 : ∀ v ∈ im, v < 256) (hsmall : dims.prod < 2 ^ 32) (perm0 : List Nat) (hp0 : perm0.length = dims.prod)
    (r0 : List Reg) (hr0 : r0.length = dims.prod) :
    ∃ perm r, sortPixels im dims.prod perm0 = some perm ∧ initForest dims.prod r0 = some r ∧ ∀ t ≤ dims.prod,
      ∃ s, grow im dims (stridesFrom 1 dims) dims.prod perm r t = some s ∧
        (∀ p ∈ perm.take t, ∃ ρ ∈ perm.take t, RootOf (parentIn s.r) p ρ) ∧
        (∀ p ∈ perm.take t, ∀ q ∈ perm.take t, ∀ ρ ρ', RootOf (parentIn s.r) p ρ → RootOf (parentIn s.r) q ρ' → (ρ = ρ' ↔ Reach dims (· ∈ perm.take t) p q)) ∧
        (∀ ρ ∈ perm.take t, parentIn s.r ρ = ρ → areaIn s.r ρ = {q | Reach dims (· ∈ perm.take t) ρ q}.ncard) ∧
        (∀ p ∈ perm.take t, ∃ r' ρ, climb s.r p = some (r', ρ) ∧ RootOf (parentIn s.r) p ρ ∧ ∀ q < dims.prod, parentIn r' q = parentIn s.r q ∧ areaIn r' q = areaIn s.r q) := by
  obtain ⟨nel, hd⟩ : ∃ nel, nel = dims.prod := ⟨_, rfl⟩
  rw [← hd] at hl hp0 hr0 hsmall ⊢
  subst hl
  obtain ⟨perm, e1, hperm, hsort⟩ := sortPixels_correct im h256 perm0 hp0
  obtain ⟨r, f, e2, hr, hvoid⟩ := initForest_spec (nel := im.length) hr0
  refine ⟨perm, r, e1, e2, fun t ht => ?_⟩
  obtain ⟨st, ft, H⟩ := grow_spec hd rfl (by unfold void; omega) (by rw [hperm.length_eq]; simp) (fun p hp => by rw [hperm.mem_iff] at hp; simpa using hp) hsort hr hvoid t ht
  obtain ⟨e3, hI, hC, _⟩ := H t (le_refl t)
  have hmem : ∀ p, p ∈ perm.take t ↔ p ∈ firstPixels perm t := fun p => mem_firstPixels.symm
  simp only [hmem]
  refine ⟨st t, e3, ?_, ?_, ?_, ?_⟩
  · intro p hp
    exact ⟨_, hI.forest.rootOf_done hp, hI.rootOf hp⟩
  · intro p hp q hq ρ ρ' h1 h2
    rw [rootOf_unique h1 (hI.rootOf hp), rootOf_unique h2 (hI.rootOf hq), reach_iff hp]
    exact hC p q
  · intro ρ hρ hpar
    rw [parentIn_eq hI.arr (hI.lt ρ hρ)] at hpar
    have hj := (hI.forest.isRoot hρ).mp hpar
    rw [areaIn_eq hI.arr (hI.lt ρ hρ), hI.area ρ hρ hj, ← Set.ncard_coe_finset]
    congr 1
    ext q
    simp only [Finset.coe_filter, Set.mem_ofPred_eq]
    have hself : rt (st t) (ft t) ρ = ρ := Forest.rootOf_self hj
    rw [reach_iff hρ, ← hC, hself]
    constructor
    · rintro ⟨_, h⟩; exact h.symm
    · intro h
      refine ⟨?_, h.symm⟩
      have h2 := (hC ρ q).mp (by rw [hself]; exact h)
      rw [← reach_iff hρ] at h2
      unfold Reach at h2
      cases h2 with
      | refl => exact hρ
      | tail _ h => exact h.2
  · intro p hp
    obtain ⟨r', f', e, hI', hpar, har⟩ := hI.climb hp
    refine ⟨r', _, e, hI.rootOf hp, fun q hq => ?_⟩
    rw [parentIn_eq hI'.arr hq, parentIn_eq hI.arr hq, areaIn_eq hI'.arr hq, areaIn_eq hI.arr hq]
    exact ⟨congrFun hpar q, har q⟩

/-- The hypotheses are met by an image of 2 by 3 pixels with arbitrary contents of the buffers; after four pixels the components are {1, 3, 0, 4}. -/
example : (sortPixels [3, 1, 7, 1, 3, 9] 6 [8, 8, 8, 8, 8, 8]).bind (fun perm => (initForest 6 (List.replicate 6 { parent := 4, shortcut := 8, height := 3, area := 7 })).bind (fun r =>
    (grow [3, 1, 7, 1, 3, 9] [2, 3] (stridesFrom 1 [2, 3]) 6 perm r 4).map (fun s => (perm.take 4, [0, 1, 3, 4].map (parentIn s.r), areaIn s.r 0)))) =
    some ([1, 3, 0, 4], [0, 0, 1, 0], 4) := by decide +kernel

end Verif.Mser
