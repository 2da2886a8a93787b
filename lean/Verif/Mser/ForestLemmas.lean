import Mathlib.Logic.Relation
import Mathlib.Data.List.Basic
import Mathlib.Data.List.Nodup
import Mathlib.Data.Finset.Card

/-!
# Forests described by a sequence of joins
-/

namespace Verif.Mser

/-- The root of `q` after the joins: each of them attaches a root to its parent. -/
def rootOf (par : Nat → Nat) (joins : List Nat) (q : Nat) : Nat := joins.foldl (fun ρ j => if ρ = j then par j else ρ) q

variable {par sc : Nat → Nat} {joins : List Nat} {done : Finset Nat}

theorem rootOf_append (l : List Nat) (q : Nat) : rootOf par (joins ++ l) q = rootOf par l (rootOf par joins q) := by
  simp [rootOf, List.foldl_append]

theorem rootOf_notMem : ∀ {l : List Nat} {q : Nat}, q ∉ l → rootOf par l q = q := by
  intro l
  induction l with
  | nil => intro q _; rfl
  | cons j l ih =>
    intro q h
    simp only [List.mem_cons, not_or] at h
    simp only [rootOf, List.foldl_cons]
    rw [if_neg h.1]
    exact ih h.2

theorem rootOf_congr {par' : Nat → Nat} : ∀ {l : List Nat} {q : Nat}, (∀ j ∈ l, par j = par' j) → rootOf par l q = rootOf par' l q := by
  intro l
  induction l with
  | nil => intro q _; rfl
  | cons j l ih =>
    intro q h
    simp only [rootOf, List.foldl_cons]
    rw [h j (by simp)]
    exact ih (fun j hj => h j (by simp [hj]))

/-- The pixels `done` form a forest; `joins` are the ones that are not roots, in the order in which they were attached. -/
structure Forest (par sc : Nat → Nat) (joins : List Nat) (done : Finset Nat) : Prop where
  nodup : joins.Nodup
  sub : ∀ j ∈ joins, j ∈ done
  parD : ∀ p ∈ done, par p ∈ done
  scD : ∀ p ∈ done, sc p ∈ done
  root : ∀ p ∈ done, p ∉ joins → par p = p ∧ sc p = p
  upP : ∀ p ∈ joins, joins.idxOf p < joins.idxOf (par p)
  upS : ∀ p ∈ joins, joins.idxOf p < joins.idxOf (sc p)
  scRoot : ∀ p ∈ done, rootOf par joins (sc p) = rootOf par joins p

theorem idxOf_not_take {pre suf : List Nat} {x : Nat} (h : pre.length ≤ (pre ++ suf).idxOf x) : x ∉ pre := by
  intro hx
  rw [List.idxOf_append_of_mem hx] at h
  have := List.idxOf_lt_length_of_mem hx
  omega

theorem rootOf_suffix (hn : joins.Nodup) (hup : ∀ p ∈ joins, joins.idxOf p < joins.idxOf (par p)) : ∀ (suf pre : List Nat), joins = pre ++ suf → ∀ x, pre.length ≤ joins.idxOf x →
    rootOf par suf x ∉ joins := by
  intro suf
  induction suf with
  | nil =>
    intro pre e x hx
    simp only [List.append_nil] at e
    subst e
    simp only [rootOf, List.foldl_nil]
    intro h
    have := List.idxOf_lt_length_of_mem h
    omega
  | cons j suf ih =>
    intro pre e x hx
    simp only [rootOf, List.foldl_cons]
    have hj : joins.idxOf j = pre.length := by
      rw [e] at hn ⊢
      have : j ∉ pre := by
        intro h
        exact (List.disjoint_of_nodup_append hn) h (by simp)
      rw [List.idxOf_append_of_notMem this]; simp
    apply ih (pre ++ [j]) (by simp [e])
    split_ifs with g
    · have := hup j (by rw [e]; simp)
      rw [List.length_append, List.length_singleton]
      omega
    · rw [List.length_append, List.length_singleton]
      by_contra h
      have h1 : joins.idxOf x = pre.length := by omega
      have h2 : pre.length < joins.length := by rw [e]; simp
      have h3 : x ∈ joins := by rw [← List.idxOf_lt_length_iff, h1]; exact h2
      have := List.getElem_idxOf (xs := joins) (x := x) (by rw [h1]; exact h2)
      have h4 := List.getElem_idxOf (xs := joins) (x := j) (by rw [hj]; exact h2)
      simp only [h1] at this
      simp only [hj] at h4
      exact g (this.symm.trans h4)

theorem rootOf_par_of (hn : joins.Nodup) (hu : ∀ p ∈ joins, joins.idxOf p < joins.idxOf (par p)) {p : Nat} (h : p ∈ joins) : rootOf par joins (par p) = rootOf par joins p := by
  obtain ⟨pre, suf, e⟩ := List.append_of_mem h
  have hpre : p ∉ pre := by
    have := hn
    rw [e] at this
    intro h
    exact (List.disjoint_of_nodup_append this) h (by simp)
  have hidx : joins.idxOf p = pre.length := by
    rw [e, List.idxOf_append_of_notMem hpre]; simp
  have hup := hu p h
  rw [hidx] at hup
  have h2 : par p ∉ pre := by
    intro h3
    rw [e, List.idxOf_append_of_mem h3] at hup
    have := List.idxOf_lt_length_of_mem h3
    omega
  have h4 : par p ≠ p := by
    intro h5; rw [h5, hidx] at hup; omega
  rw [e, rootOf_append, rootOf_append, rootOf_notMem h2, rootOf_notMem hpre]
  simp only [rootOf, List.foldl_cons]
  rw [if_neg h4, if_pos trivial]

namespace Forest

variable (F : Forest par sc joins done)
include F

theorem rootOf_root (p : Nat) : rootOf par joins p ∉ joins := rootOf_suffix F.nodup F.upP joins [] rfl p (by simp)

theorem rootOf_par {p : Nat} (hp : p ∈ done) : rootOf par joins (par p) = rootOf par joins p := by
  by_cases h : p ∈ joins
  · exact rootOf_par_of F.nodup F.upP h
  · rw [(F.root p hp h).1]

omit F in
theorem rootOf_self {p : Nat} (h : p ∉ joins) : rootOf par joins p = p := rootOf_notMem h

theorem rootOf_done {p : Nat} (hp : p ∈ done) : rootOf par joins p ∈ done := by
  have : ∀ (l : List Nat) (q : Nat), (∀ j ∈ l, j ∈ done) → q ∈ done → rootOf par l q ∈ done := by
    intro l
    induction l with
    | nil => intro q _ h; exact h
    | cons j l ih =>
      intro q h hq
      simp only [rootOf, List.foldl_cons]
      apply ih _ (fun j hj => h j (by simp [hj]))
      split_ifs
      · exact F.parD j (h j (by simp))
      · exact hq
  exact this joins p F.sub hp

/-- The root is reached by following the parents. -/
theorem reach_root {p : Nat} (hp : p ∈ done) : Relation.ReflTransGen (fun a b => par a = b) p (rootOf par joins p) := by
  obtain ⟨k, hk⟩ : ∃ k, joins.length - joins.idxOf p = k := ⟨_, rfl⟩
  induction k using Nat.strong_induction_on generalizing p with
  | _ k ih =>
    by_cases h : p ∈ joins
    · rw [← F.rootOf_par hp]
      refine Relation.ReflTransGen.head (b := par p) rfl ?_
      have h1 := F.upP p h
      have h2 := List.idxOf_lt_length_of_mem h
      exact ih _ (by omega) (F.parD p hp) rfl
    · rw [Forest.rootOf_self h]

theorem isRoot {p : Nat} (hp : p ∈ done) : par p = p ↔ p ∉ joins := by
  constructor
  · intro h g
    have := F.upP p g
    rw [h] at this; omega
  · intro h; exact (F.root p hp h).1

theorem sc_isRoot {p : Nat} (hp : p ∈ done) : sc p = p ↔ p ∉ joins := by
  constructor
  · intro h g
    have := F.upS p g
    rw [h] at this; omega
  · intro h; exact (F.root p hp h).2

/-- Shortcuts to the root. -/
theorem compress {sc' : Nat → Nat} (h : ∀ p ∈ done, sc' p = sc p ∨ sc' p = rootOf par joins p) : Forest par sc' joins done where
  nodup := F.nodup
  sub := F.sub
  parD := F.parD
  scD := fun p hp => by
    rcases h p hp with e | e
    · rw [e]; exact F.scD p hp
    · rw [e]; exact F.rootOf_done hp
  root := fun p hp hj => by
    refine ⟨(F.root p hp hj).1, ?_⟩
    rcases h p hp with e | e
    · rw [e]; exact (F.root p hp hj).2
    · rw [e]; exact Forest.rootOf_self hj
  upP := F.upP
  upS := fun p hp => by
    rcases h p (F.sub p hp) with e | e
    · rw [e]; exact F.upS p hp
    · rw [e, List.idxOf_eq_length (F.rootOf_root p)]
      exact List.idxOf_lt_length_of_mem hp
  scRoot := fun p hp => by
    rcases h p hp with e | e
    · rw [e]; exact F.scRoot p hp
    · rw [e, Forest.rootOf_self (F.rootOf_root p)]

omit F in
theorem rootOf_join {a b : Nat} {par' : Nat → Nat} (ha : a ∉ joins) (h1 : par' a = b) (h2 : ∀ q, q ≠ a → par' q = par q) (q : Nat) :
    rootOf par' (joins ++ [a]) q = if rootOf par joins q = a then b else rootOf par joins q := by
  rw [rootOf_append, rootOf_congr (par := par') (par' := par) (fun j hj => h2 j (fun e => ha (e ▸ hj)))]
  generalize rootOf par joins q = x
  simp only [rootOf, List.foldl_cons, List.foldl_nil, h1]

/-- A root is attached to another one. -/
theorem join {a b : Nat} {par' sc' : Nat → Nat} (ha : a ∈ done) (hb : b ∈ done) (haj : a ∉ joins) (hbj : b ∉ joins) (hab : a ≠ b)
    (h1 : par' a = b) (h2 : ∀ q, q ≠ a → par' q = par q) (h3 : sc' a = b) (h4 : ∀ q, q ≠ a → sc' q = sc q) : Forest par' sc' (joins ++ [a]) done where
  nodup := by
    rw [List.nodup_append]
    exact ⟨F.nodup, by simp, fun x hx y hy => by simp at hy; subst hy; intro e; exact haj (e ▸ hx)⟩
  sub := fun j hj => by
    rcases List.mem_append.mp hj with h | h
    · exact F.sub j h
    · simp at h; subst h; exact ha
  parD := fun p hp => by
    by_cases e : p = a
    · subst e; rw [h1]; exact hb
    · rw [h2 p e]; exact F.parD p hp
  scD := fun p hp => by
    by_cases e : p = a
    · subst e; rw [h3]; exact hb
    · rw [h4 p e]; exact F.scD p hp
  root := fun p hp hj => by
    simp only [List.mem_append, List.mem_singleton, not_or] at hj
    rw [h2 p hj.2, h4 p hj.2]; exact F.root p hp hj.1
  upP := fun p hp => by
    rcases List.mem_append.mp hp with h | h
    · have e : p ≠ a := fun e => haj (e ▸ h)
      rw [h2 p e, List.idxOf_append_of_mem h]
      by_cases g : par p ∈ joins
      · rw [List.idxOf_append_of_mem g]; exact F.upP p h
      · rw [List.idxOf_append_of_notMem g]
        have := List.idxOf_lt_length_of_mem h
        omega
    · simp at h; subst h
      rw [h1, List.idxOf_append_of_notMem haj, List.idxOf_append_of_notMem hbj]
      simp [List.idxOf_cons_ne _ hab]
  upS := fun p hp => by
    rcases List.mem_append.mp hp with h | h
    · have e : p ≠ a := fun e => haj (e ▸ h)
      rw [h4 p e, List.idxOf_append_of_mem h]
      by_cases g : sc p ∈ joins
      · rw [List.idxOf_append_of_mem g]; exact F.upS p h
      · rw [List.idxOf_append_of_notMem g]
        have := List.idxOf_lt_length_of_mem h
        omega
    · simp at h; subst h
      rw [h3, List.idxOf_append_of_notMem haj, List.idxOf_append_of_notMem hbj]
      simp [List.idxOf_cons_ne _ hab]
  scRoot := fun p hp => by
    rw [Forest.rootOf_join haj h1 h2, Forest.rootOf_join haj h1 h2]
    by_cases e : p = a
    · subst e
      rw [h3, Forest.rootOf_self haj, Forest.rootOf_self hbj]
      simp
    · rw [h4 p e, F.scRoot p hp]

/-- A new root. -/
theorem add {a : Nat} {par' sc' : Nat → Nat} (ha : a ∉ done) (h1 : par' a = a) (h2 : ∀ q, q ≠ a → par' q = par q) (h3 : sc' a = a) (h4 : ∀ q, q ≠ a → sc' q = sc q) :
    Forest par' sc' joins (insert a done) := by
  have hne : ∀ j ∈ joins, j ≠ a := fun j hj e => ha (e ▸ F.sub j hj)
  have hr : ∀ q, rootOf par' joins q = rootOf par joins q := fun q => rootOf_congr (fun j hj => h2 j (hne j hj))
  refine ⟨F.nodup, fun j hj => Finset.mem_insert_of_mem (F.sub j hj), ?_, ?_, ?_, ?_, ?_, ?_⟩
  · intro p hp
    by_cases e : p = a
    · subst e; rw [h1]; exact hp
    · rw [h2 p e]; exact Finset.mem_insert_of_mem (F.parD p (Finset.mem_of_mem_insert_of_ne hp e))
  · intro p hp
    by_cases e : p = a
    · subst e; rw [h3]; exact hp
    · rw [h4 p e]; exact Finset.mem_insert_of_mem (F.scD p (Finset.mem_of_mem_insert_of_ne hp e))
  · intro p hp hj
    by_cases e : p = a
    · subst e; exact ⟨h1, h3⟩
    · rw [h2 p e, h4 p e]; exact F.root p (Finset.mem_of_mem_insert_of_ne hp e) hj
  · intro p hp; rw [h2 p (hne p hp)]; exact F.upP p hp
  · intro p hp; rw [h4 p (hne p hp)]; exact F.upS p hp
  · intro p hp
    rw [hr, hr]
    by_cases e : p = a
    · subst e; rw [h3]
    · rw [h4 p e]; exact F.scRoot p (Finset.mem_of_mem_insert_of_ne hp e)

end Forest

/-- Adding an edge to the generators of an equivalence relation whose classes are the fibres of a function. -/
theorem union_edge {f f' : Nat → Nat} {E E' : Nat → Nat → Prop} {u w : Nat} (hf : ∀ p q, f p = f q ↔ Relation.EqvGen E p q)
    (hE : ∀ p q, E' p q ↔ E p q ∨ (p = u ∧ q = w) ∨ (p = w ∧ q = u)) (hf' : ∀ p, f' p = if f p = f u then f w else f p) (p q : Nat) : f' p = f' q ↔ Relation.EqvGen E' p q := by
  have hmono : ∀ p q, Relation.EqvGen E p q → Relation.EqvGen E' p q := by
    intro p q h
    induction h with
    | rel a b h => exact .rel _ _ ((hE a b).mpr (Or.inl h))
    | refl a => exact .refl _
    | symm a b _ ih => exact .symm _ _ ih
    | trans a b c _ _ ih1 ih2 => exact .trans _ _ _ ih1 ih2
  have huw : Relation.EqvGen E' u w := .rel _ _ ((hE u w).mpr (Or.inr (Or.inl ⟨rfl, rfl⟩)))
  have he : ∀ p q, f p = f q → Relation.EqvGen E' p q := fun p q h => hmono p q ((hf p q).mp h)
  constructor
  · intro h
    rw [hf', hf'] at h
    split_ifs at h with h1 h2 h3
    · exact he p q (h1.trans h2.symm)
    · exact .trans _ _ _ (he p u h1) (.trans _ _ _ huw (he w q h))
    · exact .trans _ _ _ (he p w h) (.trans _ _ _ (.symm _ _ huw) (he u q h3.symm))
    · exact he p q h
  · intro h
    induction h with
    | rel a b h =>
      rcases (hE a b).mp h with h | ⟨rfl, rfl⟩ | ⟨rfl, rfl⟩
      · have := (hf a b).mpr (.rel _ _ h)
        rw [hf', hf', this]
      · rw [hf', hf']; simp
      · rw [hf', hf']; simp
    | refl a => rfl
    | symm a b _ ih => exact ih.symm
    | trans a b c _ _ ih1 ih2 => exact ih1.trans ih2

end Verif.Mser
