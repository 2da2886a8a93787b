import Mathlib.Data.List.Perm.Basic
import Mathlib.Data.List.Nodup
import Mathlib.Data.List.Perm.Subperm
import Mathlib.Algebra.Order.Group.Multiset
import Mathlib.Tactic.Abel
import Verif.Life.Model

/-! Lemmas about the heap: a separation-logic style account of the live blocks. -/

namespace Verif.Life

/-- The live blocks are exactly those of `B`, with these contents. -/
structure Own (h : Heap) (B : List Block) : Prop where
  perm : h.live.Perm B
  nodup : (B.map Prod.fst).Nodup
  lt : ∀ b ∈ B, b.1 < h.next

theorem Own.of_perm {h : Heap} {B B' : List Block} (o : Own h B) (p : B.Perm B') : Own h B' :=
  ⟨o.perm.trans p, (p.map _).nodup_iff.mp o.nodup, fun b hb => o.lt b (p.mem_iff.mpr hb)⟩

theorem fresh_length (E : Env) (p n : Nat) : (fresh E p n).length = n := by
  simp [fresh]

theorem malloc_own {E : Env} {h : Heap} {B : List Block} (o : Own h B) (n : Nat)
    (ok : E.ok h.next = true) :
    ∃ h', malloc E h n = (some h.next, h') ∧ h'.next = h.next + 1 ∧
      Own h' ((h.next, fresh E h.next n) :: B) := by
  refine ⟨_, if_pos ok, rfl, ⟨o.perm.cons _, ?_, ?_⟩⟩
  · rw [List.map_cons, List.nodup_cons]
    refine ⟨fun hm => ?_, o.nodup⟩
    obtain ⟨b, hb, e⟩ := List.mem_map.mp hm
    have := o.lt b hb
    simp only at e
    omega
  · intro b hb
    rcases List.mem_cons.mp hb with e | e
    · subst e; exact Nat.lt_succ_self _
    · exact Nat.lt_succ_of_lt (o.lt b e)

theorem malloc_fail {E : Env} {h : Heap} {B : List Block} (o : Own h B) (n : Nat)
    (ok : E.ok h.next = false) :
    ∃ h', malloc E h n = (none, h') ∧ h'.next = h.next + 1 ∧ Own h' B := by
  refine ⟨⟨h.live, h.next + 1⟩, ?_, rfl, o.perm, o.nodup, fun b hb => Nat.lt_succ_of_lt (o.lt b hb)⟩
  simp [malloc, ok]

theorem need_own {E : Env} {h : Heap} {B : List Block} (o : Own h B) (n : Nat)
    (ok : ∀ m, E.ok m = true) :
    ∃ h' p v, need E h n = some (p, h') ∧ v.length = n ∧ Own h' ((p, v) :: B) := by
  obtain ⟨h', e, -, o'⟩ := malloc_own (E := E) o n (ok _)
  exact ⟨h', _, _, by simp [need, e], fresh_length _ _ _, o'⟩

theorem find_perm {l l' : List Block} (p : l.Perm l') (nd : (l'.map Prod.fst).Nodup) (a : Nat) :
    l.find? (fun b => b.1 == a) = l'.find? (fun b => b.1 == a) := by
  have nd' : (l.map Prod.fst).Nodup := (p.map _).nodup_iff.mpr nd
  have uniq : ∀ {m : List Block}, (m.map Prod.fst).Nodup → ∀ b ∈ m, b.1 = a →
      m.find? (fun b => b.1 == a) = some b := by
    intro m
    induction m with
    | nil => intro _ b hb; exact absurd hb List.not_mem_nil
    | cons c m ih =>
      intro hn b hb e
      rw [List.map_cons, List.nodup_cons] at hn
      rcases List.mem_cons.mp hb with r | r
      · subst r; simp [e]
      · have hc : c.1 ≠ a := fun hca =>
          hn.1 (List.mem_map.mpr ⟨b, r, by rw [e, hca]⟩)
        rw [List.find?_cons]
        simp only [beq_eq_false_iff_ne.mpr hc]
        exact ih hn.2 b r e
  by_cases hx : ∃ b ∈ l, b.1 = a
  · obtain ⟨b, hb, e⟩ := hx
    rw [uniq nd' b hb e, uniq nd b (p.mem_iff.mp hb) e]
  · have hx' : ¬ ∃ b ∈ l', b.1 = a := fun ⟨b, hb, e⟩ => hx ⟨b, p.mem_iff.mpr hb, e⟩
    rw [List.find?_eq_none.mpr, List.find?_eq_none.mpr]
    · intro b hb; simpa using fun e => hx' ⟨b, hb, e⟩
    · intro b hb; simpa using fun e => hx ⟨b, hb, e⟩

theorem load_own {h : Heap} {B : List Block} {p : Nat} {v : List ℚ} (o : Own h ((p, v) :: B)) :
    load h p = some v := by
  rw [load, find_perm o.perm o.nodup]
  simp

theorem erase_own {h : Heap} {B : List Block} {p : Nat} {v : List ℚ} (o : Own h ((p, v) :: B)) :
    (h.live.eraseP (fun b => b.1 == p)).Perm B := by
  have hp : h.live.Pairwise fun a b => ¬ ((a.1 == p) = true ∧ (b.1 == p) = true) := by
    have nd : (h.live.map Prod.fst).Nodup := (o.perm.map _).nodup_iff.mpr o.nodup
    rw [List.Nodup, List.pairwise_map] at nd
    exact nd.imp fun hne hh => hne (by
      rw [beq_iff_eq, beq_iff_eq] at hh
      rw [hh.1, hh.2])
  have e : ((p, v) :: B).eraseP (fun b => b.1 == p) = B := by simp
  rw [← e]
  refine List.Perm.eraseP (fun b => b.1 == p) ?_ o.perm
  refine hp.imp ?_
  intro a b hh ha hb
  exact absurd ⟨ha, hb⟩ hh

theorem Own.tail {h : Heap} {B : List Block} {b : Block} (o : Own h (b :: B)) :
    (B.map Prod.fst).Nodup ∧ ∀ b ∈ B, b.1 < h.next := by
  have := o.nodup
  rw [List.map_cons, List.nodup_cons] at this
  exact ⟨this.2, fun b hb => o.lt b (List.mem_cons_of_mem _ hb)⟩

theorem free_own {h : Heap} {B : List Block} {p : Nat} {v : List ℚ} (o : Own h ((p, v) :: B)) :
    ∃ h', free h p = some h' ∧ Own h' B := by
  refine ⟨⟨h.live.eraseP (fun b => b.1 == p), h.next⟩, ?_, erase_own o, o.tail.1, o.tail.2⟩
  rw [free, load_own o]

theorem store_own {h : Heap} {B : List Block} {p : Nat} {w : List ℚ} (o : Own h ((p, w) :: B))
    (v : List ℚ) (hv : v.length ≤ w.length) :
    ∃ h', store h p v = some h' ∧ Own h' ((p, v ++ w.drop v.length) :: B) := by
  refine ⟨_, by rw [store, load_own o]; exact if_pos hv, (erase_own o).cons _, ?_, ?_⟩
  · simpa using o.nodup
  · intro b hb
    rcases List.mem_cons.mp hb with e | e
    · subst e; exact o.lt (p, w) (List.mem_cons_self ..)
    · exact o.tail.2 b e

theorem store_full {h : Heap} {B : List Block} {p : Nat} {w : List ℚ} (o : Own h ((p, w) :: B))
    (v : List ℚ) (hv : v.length = w.length) :
    ∃ h', store h p v = some h' ∧ Own h' ((p, v) :: B) := by
  obtain ⟨h', e, o'⟩ := store_own o v hv.le
  rw [hv, List.drop_length, List.append_nil] at o'
  exact ⟨h', e, o'⟩

/-- Nothing can be loaded from an address that is not live. -/
theorem load_none {h : Heap} {B : List Block} (o : Own h B) {p : Nat}
    (hp : ∀ b ∈ B, b.1 ≠ p) : load h p = none := by
  rw [load, find_perm o.perm o.nodup, List.find?_eq_none.mpr]
  · rfl
  · intro b hb; simpa using hp b hb

/-- Moves the i-th group of blocks to the front. -/
theorem flatMap_front {α β : Type} (f : α → List β) (l : List α) (i : Nat) (a : α)
    (h : l[i]? = some a) : (l.flatMap f).Perm (f a ++ (l.eraseIdx i).flatMap f) := by
  induction l generalizing i with
  | nil => simp at h
  | cons b l ih =>
    cases i with
    | zero => simp at h; subst h; simp
    | succ i =>
      simp at h
      rw [List.flatMap_cons, List.eraseIdx_cons_succ, List.flatMap_cons]
      refine ((ih i h).append_left _).trans ?_
      rw [← List.append_assoc, ← List.append_assoc]
      exact List.perm_append_comm.append_right _

theorem set_front {α β : Type} (f : α → List β) (l : List α) (i : Nat) (a : α) (hi : i < l.length) :
    ((l.set i a).flatMap f).Perm (f a ++ (l.eraseIdx i).flatMap f) := by
  have := flatMap_front f (l.set i a) i a (by simp [hi])
  rwa [List.eraseIdx_set_eq] at this

/-- Decides permutations of lists built from the same parts. -/
macro "perm" : tactic => `(tactic| (
  rw [← Multiset.coe_eq_coe]
  simp only [← Multiset.cons_coe, ← Multiset.coe_add, ← Multiset.singleton_add,
    Multiset.coe_nil, List.nil_append, List.append_nil, List.cons_append]
  all_goals abel))

example (a b : Block) (l m : List Block) : (a :: (l ++ b :: m)).Perm (m ++ a :: b :: l) := by perm

end Verif.Life
