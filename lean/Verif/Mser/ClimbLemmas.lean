import Verif.Mser.Model
import Verif.Mser.ForestLemmas
import Verif.Flat
import Verif.Erfill.Props

/-!
# The search of a root
-/

namespace Verif.Mser

variable {nel : Nat} {f : Nat → Reg} {r : List Reg}

/-- The pixels met by following the shortcuts from the first one to a root. -/
inductive Path (f : Nat → Reg) : List Nat → Nat → Prop
  | last (p : Nat) : (f p).shortcut = p → Path f [p] p
  | cons (p q : Nat) (l : List Nat) (z : Nat) : (f p).shortcut = q → q ≠ p → Path f (q :: l) z → Path f (p :: q :: l) z

/-- The pixel before `q` in the list. -/
def pred : Nat → List Nat → Nat → Nat
  | prev, [], _ => prev
  | prev, p :: l, q => if q = p then prev else pred p l q

/-- The pixels of a list get a new shortcut. -/
def reroute (f : Nat → Reg) (l : List Nat) (s : Nat → Nat) : Nat → Reg := fun q => if q ∈ l then { f q with shortcut := s q } else f q

theorem Path.congr {g : Nat → Reg} {l : List Nat} {z : Nat} (h : Path f l z) (e : ∀ q ∈ l, (g q).shortcut = (f q).shortcut) : Path g l z := by
  induction h with
  | last p h => exact .last p (by rw [e p (by simp), h])
  | cons p q l z h1 h2 _ ih => exact .cons p q l z (by rw [e p (by simp), h1]) h2 (ih (fun q hq => e q (by simp [hq])))

theorem climbUp_spec {l : List Nat} {z : Nat} (h : Path f l z) : ∀ (fuel : Nat) (r : List Reg) (prev p : Nat), l.head? = some p → l.length ≤ fuel → Arr r nel f → l.Nodup → (∀ q ∈ l, q < nel) →
    ∃ r', climbUp fuel r prev p = some (r', z) ∧ Arr r' nel (reroute f l (pred prev l)) := by
  induction l generalizing f with
  | nil => intro fuel r prev p hh; simp at hh
  | cons p l ih =>
    intro fuel r prev p' hh hf hr hn hlt
    simp only [List.head?_cons, Option.some.injEq] at hh
    subst hh
    cases fuel with
    | zero => simp at hf
    | succ fuel =>
      have hp := hlt p (by simp)
      obtain ⟨r1, e1, hr1⟩ := hr.wr hp { f p with shortcut := prev }
      simp only [climbUp]
      rw [hr.rd hp]
      simp only [Option.bind_eq_bind, Option.bind_some, e1]
      cases h with
      | last _ h =>
        rw [if_pos h]
        refine ⟨r1, rfl, hr1.congr (fun q _ => ?_)⟩
        simp only [reroute, upd1, List.mem_singleton, pred]
        by_cases e : q = z
        · subst e; simp
        · simp [e]
      | cons _ q l _ h1 h2 h3 =>
        rw [h1, if_neg h2]
        have hnp : p ∉ q :: l := (List.nodup_cons.mp hn).1
        have hP : Path (upd1 f p { f p with shortcut := prev }) (q :: l) z := h3.congr (fun x hx => by
          simp only [upd1]; rw [if_neg (show ¬ x = p from fun e => hnp (e ▸ hx))])
        obtain ⟨r2, e2, hr2⟩ := ih hP fuel r1 p q rfl (by simpa using hf) hr1 (List.nodup_cons.mp hn).2 (fun x hx => hlt x (by simp [hx]))
        refine ⟨r2, e2, hr2.congr (fun x _ => ?_)⟩
        simp only [reroute, upd1]
        by_cases e : x = p
        · subst e
          rw [if_neg hnp, if_pos rfl, if_pos (by simp)]
          simp [pred]
        · by_cases g : x ∈ q :: l
          · rw [if_pos g, if_neg e, if_pos (List.mem_cons_of_mem _ g)]
            simp only [pred, if_neg e]
          · rw [if_neg g, if_neg e, if_neg (by intro h; rcases List.mem_cons.mp h with h | h <;> contradiction)]

theorem pred_append {p0 : Nat} : ∀ {l : List Nat} {x q : Nat}, q ∈ l → pred p0 (l ++ [x]) q = pred p0 l q := by
  intro l
  induction l generalizing p0 with
  | nil => intro x q h; simp at h
  | cons p l ih =>
    intro x q h
    simp only [List.cons_append, pred]
    by_cases e : q = p
    · simp [e]
    · rw [if_neg e, if_neg e]
      exact ih (by rcases List.mem_cons.mp h with h | h <;> first | contradiction | exact h)

theorem pred_last {p0 : Nat} : ∀ {l : List Nat} {x : Nat}, x ∉ l → pred p0 (l ++ [x]) x = (l.getLast?).getD p0 := by
  intro l
  induction l generalizing p0 with
  | nil => intro x _; simp [pred]
  | cons p l ih =>
    intro x h
    simp only [List.mem_cons, not_or] at h
    simp only [List.cons_append, pred]
    rw [if_neg h.1, ih h.2]
    cases l with
    | nil => simp
    | cons a l => simp [List.getLast?_cons]

theorem climbDown_spec (root : Nat) : ∀ (n : Nat) (l : List Nat), l.length = n → ∀ (fuel : Nat) (r : List Reg) (g : Nat → Reg) (p0 z : Nat), l.head? = some p0 → l.getLast? = some z → n ≤ fuel → Arr r nel g →
    l.Nodup → (∀ q ∈ l, q < nel) → (∀ q ∈ l, (g q).shortcut = pred p0 l q) → ∃ r', climbDown fuel r root z = some r' ∧ Arr r' nel (reroute g l (fun _ => root)) := by
  intro n
  induction n with
  | zero =>
    intro l hl fuel r g p0 z hh
    rw [List.length_eq_zero_iff] at hl; subst hl; simp at hh
  | succ n ih =>
    intro l hl fuel r g p0 z hh hz hf hr hn hlt hs
    obtain ⟨l1, x, rfl⟩ : ∃ l1 x, l = l1 ++ [x] := by
      have : l ≠ [] := by intro h; subst h; simp at hl
      exact ⟨l.dropLast, l.getLast this, (List.dropLast_append_getLast this).symm⟩
    simp only [List.getLast?_append, List.getLast?_singleton, Option.some_or, Option.some.injEq] at hz
    subst hz
    have hx1 : x ∉ l1 := by
      intro h
      exact (List.disjoint_of_nodup_append hn) h (by simp)
    cases fuel with
    | zero => omega
    | succ fuel =>
      have hp := hlt x (by simp)
      obtain ⟨r1, e1, hr1⟩ := hr.wr hp { g x with shortcut := root }
      simp only [climbDown]
      rw [hr.rd hp]
      simp only [Option.bind_eq_bind, Option.bind_some, e1]
      rw [hs x (by simp), pred_last hx1]
      cases hl1 : l1 with
      | nil =>
        subst hl1
        simp only [List.nil_append, List.head?_cons, Option.some.injEq] at hh
        subst hh
        simp only [List.getLast?_nil, Option.getD_none, if_true]
        refine ⟨r1, rfl, hr1.congr (fun q _ => ?_)⟩
        simp only [reroute, upd1, List.nil_append, List.mem_singleton]
        by_cases e : q = x
        · subst e; simp
        · simp [e]
      | cons a l2 =>
        rw [← hl1]
        have hne : l1 ≠ [] := by rw [hl1]; simp
        obtain ⟨z', hz'⟩ : ∃ z', l1.getLast? = some z' := ⟨l1.getLast hne, List.getLast?_eq_some_getLast hne⟩
        have hz1 : z' ∈ l1 := List.mem_of_getLast? hz'
        rw [hz', Option.getD_some, if_neg (show ¬ z' = x from fun e => hx1 (e ▸ hz1))]
        obtain ⟨r2, e2, hr2⟩ := ih l1 (by simpa using hl) fuel r1 _ p0 z' (by rw [hl1] at hh ⊢; simpa using hh) hz' (by omega) hr1 (List.nodup_append.mp hn).1 (fun q hq => hlt q (by simp [hq])) (by
          intro q hq
          simp only [upd1]
          rw [if_neg (show ¬ q = x from fun e => hx1 (e ▸ hq)), hs q (by simp [hq]), pred_append hq])
        refine ⟨r2, e2, hr2.congr (fun q _ => ?_)⟩
        simp only [reroute, upd1, List.mem_append, List.mem_singleton]
        by_cases e : q = x
        · subst e; rw [if_neg hx1, if_pos rfl, if_pos (Or.inr rfl)]
        · simp [e]

theorem Path.getLast? {l : List Nat} {z : Nat} (h : Path f l z) : l.getLast? = some z := by
  induction h with
  | last p _ => rfl
  | cons p q l z _ _ _ ih => rw [List.getLast?_cons_cons]; exact ih

/-- `climb` along a path: the shortcuts of the path point to the root. -/
theorem climb_path {l : List Nat} {p z : Nat} (h : Path f l z) (hh : l.head? = some p) (hr : Arr r nel f) (hn : l.Nodup) (hlt : ∀ q ∈ l, q < nel) :
    ∃ r', climb r p = some (r', z) ∧ Arr r' nel (reroute f l (fun _ => z)) := by
  have hlen : l.length ≤ nel := Erfill.length_le_card hn hlt
  obtain ⟨r1, e1, h1⟩ := climbUp_spec h (r.length + 1) r p p hh (by rw [hr.len]; omega) hr hn hlt
  obtain ⟨r2, e2, h2⟩ := climbDown_spec (nel := nel) z l.length l rfl (r.length + 1) r1 (reroute f l (pred p l)) p z hh h.getLast? (by rw [hr.len]; omega) h1 hn hlt (by
    intro q hq; simp only [reroute]; rw [if_pos hq])
  refine ⟨r2, ?_, h2.congr (fun q _ => ?_)⟩
  · simp only [climb, Option.bind_eq_bind, e1, Option.bind_some, e2]; rfl
  · simp only [reroute]
    split_ifs <;> rfl

/-- The path from a pixel of a forest. -/
theorem Forest.path {par : Nat → Nat} {joins : List Nat} {done : Finset Nat} (F : Forest par (fun p => (f p).shortcut) joins done) {p : Nat} (hp : p ∈ done) :
    ∃ l, Path f l (rootOf par joins p) ∧ l.head? = some p ∧ l.Nodup ∧ (∀ q ∈ l, q ∈ done ∧ rootOf par joins q = rootOf par joins p ∧ joins.idxOf p ≤ joins.idxOf q) := by
  obtain ⟨k, hk⟩ : ∃ k, joins.length - joins.idxOf p = k := ⟨_, rfl⟩
  induction k using Nat.strong_induction_on generalizing p with
  | _ k ih =>
    by_cases h : p ∈ joins
    · have h1 := F.upS p h
      have h2 := List.idxOf_lt_length_of_mem h
      obtain ⟨l, a, b, c, d⟩ := ih _ (by omega) (F.scD p hp) rfl
      rw [F.scRoot p hp] at a d
      cases l with
      | nil => simp at b
      | cons q l =>
        simp only [List.head?_cons, Option.some.injEq] at b
        have hne : (f p).shortcut ≠ p := fun e => by simp only [e] at h1; omega
        refine ⟨p :: q :: l, .cons p q l _ b.symm (by rw [b]; exact hne) a, rfl, ?_, ?_⟩
        · rw [List.nodup_cons]
          refine ⟨fun hm => ?_, c⟩
          have := (d p hm).2.2
          omega
        · intro x hx
          rcases List.mem_cons.mp hx with e | e
          · subst e; exact ⟨hp, rfl, le_refl _⟩
          · exact ⟨(d x e).1, (d x e).2.1, by have := (d x e).2.2; omega⟩
    · refine ⟨[p], ?_, rfl, by simp, ?_⟩
      · rw [Forest.rootOf_self h]
        exact .last p (F.root p hp h).2
      · intro q hq; simp at hq; subst hq; exact ⟨hp, rfl, le_refl _⟩

/-- `climb` in a forest: the root, and a forest with the same parents. -/
theorem climb_spec {par : Nat → Nat} {joins : List Nat} {done : Finset Nat} (F : Forest par (fun p => (f p).shortcut) joins done) (hr : Arr r nel f) (hlt : ∀ q ∈ done, q < nel) {p : Nat} (hp : p ∈ done) :
    ∃ r' f', climb r p = some (r', rootOf par joins p) ∧ Arr r' nel f' ∧ Forest par (fun p => (f' p).shortcut) joins done ∧
      ∀ q, (f' q).parent = (f q).parent ∧ (f' q).area = (f q).area ∧ (f' q).height = (f q).height := by
  obtain ⟨l, h1, h2, h3, h4⟩ := F.path hp
  obtain ⟨r', e, hr'⟩ := climb_path h1 h2 hr h3 (fun q hq => hlt q (h4 q hq).1)
  refine ⟨r', _, e, hr', F.compress (fun q _ => ?_), fun q => ?_⟩
  · simp only [reroute]
    split_ifs with h
    · right; exact ((h4 q h).2.1).symm
    · left; rfl
  · simp only [reroute]
    split_ifs <;> exact ⟨rfl, rfl, rfl⟩

end Verif.Mser
