import Verif.Heap.Model
import Verif.Loop

/-! # The heap operations do not depend on the part of the array outside of the heap -/

namespace Verif

variable {α β : Type}

/-- Two outcomes are related: both fail or both succeed with related results. -/
def ORel (R : α → β → Prop) : Option α → Option β → Prop
  | none, none => True
  | some a, some b => R a b
  | _, _ => False

theorem ORel.bind {γ δ : Type} {R : α → β → Prop} {Q : γ → δ → Prop} {x : Option α} {y : Option β} {f : α → Option γ} {g : β → Option δ}
    (h : ORel R x y) (hfg : ∀ a b, R a b → ORel Q (f a) (g b)) : ORel Q (x.bind f) (y.bind g) := by
  cases x <;> cases y <;> simp_all [ORel]

theorem ORel.of_eq {R : α → α → Prop} (hR : ∀ a, R a a) {x y : Option α} (h : x = y) : ORel R x y := by
  subst h
  cases x <;> simp [ORel, hR]

theorem ORel.eq {x y : Option α} (h : ORel (fun a b => a = b) x y) : x = y := by
  cases x <;> cases y <;> simp_all [ORel]

theorem ORel.mono {R Q : α → β → Prop} {x : Option α} {y : Option β} (h : ORel R x y) (hRQ : ∀ a b, R a b → Q a b) : ORel Q x y := by
  cases x <;> cases y <;> simp_all [ORel]

theorem iter_rel {R : α → β → Prop} {f : Nat → α → Option α} {g : Nat → β → Option β} (n : Nat) {s : α} {s' : β} (h : R s s')
    (hfg : ∀ i a b, i < n → R a b → ORel R (f i a) (g i b)) : ORel R (iter n f s) (iter n g s') := by
  induction n with
  | zero => exact h
  | succ n ih =>
    simp only [iter]
    exact (ih (fun i a b hi => hfg i a b (by omega))).bind (fun a b hab => hfg n a b (by omega) hab)

/-- The arrays have the same length and the same first `m` entries. -/
def Agree (m : Nat) (a b : List α) : Prop := a.length = b.length ∧ ∀ i < m, a[i]? = b[i]?

theorem Agree.mono {m n : Nat} {a b : List α} (h : Agree m a b) (hn : n ≤ m) : Agree n a b :=
  ⟨h.1, fun i hi => h.2 i (by omega)⟩

theorem Agree.rd {m i : Nat} {a b : List α} (h : Agree m a b) (hi : i < m) : Verif.rd a i = Verif.rd b i := by
  simp only [Verif.rd]; exact h.2 i hi

theorem Agree.eq {a b : List α} (h : Agree a.length a b) : a = b := by
  apply List.ext_getElem?
  intro i
  by_cases hi : i < a.length
  · exact h.2 i hi
  · rw [List.getElem?_eq_none (by omega), List.getElem?_eq_none (by have := h.1; omega)]

/-- A write extends the common part if it is at its end, and keeps it anyway. -/
theorem Agree.wr {m m' i : Nat} {a b : List α} (h : Agree m a b) (hm : ∀ j < m', j = i ∨ j < m) (x : α) :
    ORel (Agree m') (wr a i x) (wr b i x) := by
  unfold Verif.wr
  rw [h.1]
  split
  · rename_i hi
    refine ⟨by simp [h.1], fun j hj => ?_⟩
    by_cases c : i = j
    · subst c
      rw [List.getElem?_set_self (by rw [h.1]; exact hi), List.getElem?_set_self hi]
    · rw [List.getElem?_set_ne c, List.getElem?_set_ne c]
      exact h.2 j (by have := hm j hj; omega)
  · trivial

theorem Agree.swp {m i j : Nat} {a b : List α} (h : Agree m a b) (hi : i < m) (hj : j < m) :
    ORel (Agree m) (swp a i j) (swp b i j) := by
  unfold Verif.swp
  simp only [Option.bind_eq_bind]
  rw [h.rd hi, h.rd hj]
  cases Verif.rd b i with
  | none => trivial
  | some t =>
    cases Verif.rd b j with
    | none => trivial
    | some u =>
      simp only [Option.bind_some]
      exact (h.wr (fun j hj => Or.inr hj) u).bind (fun a b hab => hab.wr (fun j hj => Or.inr hj) t)

theorem Agree.cmpAt {m i j : Nat} {a b : List α} (h : Agree m a b) (hi : i < m) (hj : j < m) (cmp : α → α → Int) :
    cmpAt cmp a i j = cmpAt cmp b i j := by
  unfold Verif.cmpAt
  rw [h.rd hi, h.rd hj]

namespace Heap

theorem up_agree (cmp : α → α → Int) (n i : Nat) : ∀ (m : Nat) (a b : List α), n ≤ m → Agree m a b →
    ORel (Agree m) (up cmp a n i) (up cmp b n i) := by
  induction hk : n - i using Nat.strongRecOn generalizing i with
  | ind k ih =>
    intro m a b hn h
    rw [up, up]
    by_cases h1 : leftChild i ≥ n
    · rw [if_pos h1, if_pos h1]; exact h
    · rw [if_neg h1, if_neg h1]
      have hl : leftChild i < m := by omega
      have hi : i < m := by simp only [leftChild] at hl; omega
      by_cases h2 : rightChild i ≥ n
      · rw [if_pos h2, if_pos h2, h.cmpAt hi hl]
        simp only [Option.bind_eq_bind]
        cases Verif.cmpAt cmp b i (leftChild i) with
        | none => trivial
        | some c =>
          simp only [Option.bind_some]
          split
          · exact h.swp hi hl
          · exact h
      · rw [if_neg h2, if_neg h2]
        have hr : rightChild i < m := by omega
        rw [h.cmpAt hl hr, h.cmpAt hi hl, h.cmpAt hi hr]
        simp only [Option.bind_eq_bind]
        cases Verif.cmpAt cmp b (leftChild i) (rightChild i) with
        | none => trivial
        | some c =>
          simp only [Option.bind_some]
          by_cases hc : c < 0
          · rw [if_pos hc, if_pos hc]
            cases Verif.cmpAt cmp b i (leftChild i) with
            | none => trivial
            | some d =>
              simp only [Option.bind_some]
              by_cases hd : d > 0
              · rw [if_pos hd, if_pos hd]
                exact (h.swp hi hl).bind (fun a b hab => ih (n - leftChild i) (by simp only [leftChild] at h1 ⊢; omega) _ rfl m a b hn hab)
              · rw [if_neg hd, if_neg hd]; exact h
          · rw [if_neg hc, if_neg hc]
            cases Verif.cmpAt cmp b i (rightChild i) with
            | none => trivial
            | some d =>
              simp only [Option.bind_some]
              by_cases hd : d > 0
              · rw [if_pos hd, if_pos hd]
                exact (h.swp hi hr).bind (fun a b hab => ih (n - rightChild i) (by simp only [rightChild, leftChild] at h2 ⊢; omega) _ rfl m a b hn hab)
              · rw [if_neg hd, if_neg hd]; exact h

theorem down_agree (cmp : α → α → Int) (i : Nat) : ∀ (m : Nat) (a b : List α), i < m → Agree m a b →
    ORel (Agree m) (down cmp a i) (down cmp b i) := by
  induction i using Nat.strongRecOn with
  | ind i ih =>
    intro m a b hi h
    rw [down, down]
    by_cases h0 : i = 0
    · rw [if_pos h0, if_pos h0]; exact h
    · rw [if_neg h0, if_neg h0]
      have hp : parent i < i := by simp only [parent, if_neg h0]; omega
      rw [h.cmpAt hi (by omega : parent i < m)]
      simp only [Option.bind_eq_bind]
      cases Verif.cmpAt cmp b i (parent i) with
      | none => trivial
      | some c =>
        simp only [Option.bind_some]
        by_cases hc : c < 0
        · rw [if_pos hc, if_pos hc]
          exact (h.swp hi (by omega)).bind (fun a b hab => ih _ hp m a b (by omega) hab)
        · rw [if_neg hc, if_neg hc]; exact h

/-- The heaps have the same size and the same contents in the same order. -/
def SAgree (s s' : State α) : Prop := s.size = s'.size ∧ Agree s.size s.arr s'.arr

theorem push_agree {cmp : α → α → Int} {s s' : State α} (h : SAgree s s') (x : α) :
    ORel SAgree (step cmp s (.push x)) (step cmp s' (.push x)) := by
  obtain ⟨hs, ha⟩ := h
  simp only [step, push, Option.bind_eq_bind]
  rw [← hs]
  refine (ha.wr (m' := s.size + 1) (fun j hj => by omega) x).bind (fun a b hab => ?_)
  refine ORel.bind (R := fun (r r' : List α × Nat) => r.2 = s.size + 1 ∧ r'.2 = s.size + 1 ∧ Agree (s.size + 1) r.1 r'.1) ?_ ?_
  · refine ORel.bind (down_agree cmp s.size _ a b (by omega) hab) (fun a b hab => ?_)
    exact ⟨rfl, rfl, hab⟩
  · rintro r r' ⟨h1, h2, h3⟩
    exact ⟨by simp only [h1, h2], by simp only [h1]; exact h3⟩

theorem update_agree {cmp : α → α → Int} {s s' : State α} (h : SAgree s s') {i : Nat} (hi : i < s.size) (x : α) :
    ORel SAgree (step cmp s (.update i x)) (step cmp s' (.update i x)) := by
  obtain ⟨hs, ha⟩ := h
  simp only [step, update, Option.bind_eq_bind]
  rw [← hs]
  refine (ha.wr (m' := s.size) (fun j hj => Or.inr hj) x).bind (fun a b hab => ?_)
  exact (((up_agree cmp s.size i s.size a b (Nat.le_refl _) hab).bind (Q := Agree s.size)
    (fun a b hab => down_agree cmp i s.size a b hi hab))).bind (fun r r' h3 => ⟨rfl, h3⟩)

/-- After a pop the arrays agree also at the popped element. -/
theorem pop_agree {cmp : α → α → Int} {s s' : State α} (h : SAgree s s') :
    ORel (fun r r' => r.size + 1 = s.size ∧ r.size = r'.size ∧ Agree s.size r.arr r'.arr) (step cmp s .pop) (step cmp s' .pop) := by
  obtain ⟨hs, ha⟩ := h
  simp only [step, pop, Option.bind_eq_bind, assert']
  rw [← hs]
  by_cases h0 : s.size = 0
  · simp [h0, ORel]
  · simp only [ne_eq, h0, not_false_eq_true, decide_true, if_true, Option.bind_some]
    refine ORel.bind (R := fun (r r' : List α × Nat) => r.2 + 1 = s.size ∧ r.2 = r'.2 ∧ Agree s.size r.1 r'.1) ?_
      (fun r r' h => h)
    refine (ha.swp (i := 0) (j := s.size - 1) (by omega) (by omega)).bind (fun a b hab => ?_)
    by_cases h1 : s.size - 1 > 1
    · rw [if_pos h1, if_pos h1]
      refine ORel.bind (up_agree cmp _ 0 s.size a b (by omega) hab) (fun a b hab => ?_)
      exact ⟨by simp only; omega, rfl, hab⟩
    · rw [if_neg h1, if_neg h1]
      exact ⟨by simp only; omega, rfl, hab⟩

end Heap

end Verif
