import Verif.Loop
import Mathlib.Tactic.Ring

/-!
# Arrays and row-major matrices seen as functions
-/

namespace Verif

variable {α : Type}

/-- `l` holds `f 0, …, f (n-1)`. -/
structure Arr (l : List α) (n : Nat) (f : Nat → α) : Prop where
  len : l.length = n
  get : ∀ i < n, l[i]? = some (f i)

/-- Replace one value of a function. -/
def upd1 (f : Nat → α) (i : Nat) (v : α) : Nat → α := fun a => if a = i then v else f a

/-- Replace one value of a function of two arguments. -/
def upd2 (f : Nat → Nat → α) (i j : Nat) (v : α) : Nat → Nat → α := fun a b => if a = i ∧ b = j then v else f a b

namespace Arr

variable {l : List α} {n : Nat} {f : Nat → α}

theorem rd (h : Arr l n f) {i : Nat} (hi : i < n) : rd l i = some (f i) := by rw [rd_getElem?, h.get i hi]

theorem wr (h : Arr l n f) {i : Nat} (hi : i < n) (v : α) : ∃ l', wr l i v = some l' ∧ Arr l' n (upd1 f i v) := by
  refine ⟨_, wr_of_lt (by rw [h.len]; exact hi) v, by simp [h.len], fun a ha => ?_⟩
  unfold upd1
  by_cases e : a = i
  · subst e; rw [List.getElem?_set_self (by rw [h.len]; exact hi)]; simp
  · rw [List.getElem?_set_ne (by omega), h.get a ha, if_neg e]

theorem congr (h : Arr l n f) {g : Nat → α} (hg : ∀ i < n, f i = g i) : Arr l n g :=
  ⟨h.len, fun i hi => by rw [h.get i hi, hg i hi]⟩

theorem of_len (l : List α) (a : α) : Arr l l.length (fun i => l.getD i a) :=
  ⟨rfl, fun i hi => by simp [List.getD, hi]⟩

theorem of_len' {l : List α} {n : Nat} (h : l.length = n) (a : α) : Arr l n (fun i => l.getD i a) := h ▸ of_len l a

theorem replicate (n : Nat) (a : α) : Arr (List.replicate n a) n (fun _ => a) :=
  ⟨by simp, fun i hi => by simp [hi]⟩

theorem eq {l l' : List α} (h : Arr l n f) (h' : Arr l' n f) : l = l' := by
  apply List.ext_getElem?
  intro i
  rcases Nat.lt_or_ge i n with hi | hi
  · rw [h.get i hi, h'.get i hi]
  · rw [List.getElem?_eq_none (by rw [h.len]; exact hi), List.getElem?_eq_none (by rw [h'.len]; exact hi)]

end Arr

/-- `l` is the row-major `n` by `m` matrix `f`. -/
structure Flat (l : List α) (n m : Nat) (f : Nat → Nat → α) : Prop where
  len : l.length = n * m
  get : ∀ i < n, ∀ j < m, l[i * m + j]? = some (f i j)

namespace Flat

variable {l : List α} {n m : Nat} {f : Nat → Nat → α}

theorem addr_lt {i j : Nat} (hi : i < n) (hj : j < m) : i * m + j < n * m := by
  have := Nat.mul_le_mul_right m (show i + 1 ≤ n by omega)
  rw [Nat.add_mul] at this; omega

theorem addr_inj {i j i' j' : Nat} (hj : j < m) (hj' : j' < m) (h : i * m + j = i' * m + j') : i = i' ∧ j = j' := by
  have h1 : (i * m + j) / m = i := by rw [Nat.add_comm, Nat.add_mul_div_right _ _ (by omega), Nat.div_eq_of_lt hj]; omega
  have h2 : (i' * m + j') / m = i' := by rw [Nat.add_comm, Nat.add_mul_div_right _ _ (by omega), Nat.div_eq_of_lt hj']; omega
  have : i = i' := by rw [← h1, ← h2, h]
  subst this; omega

theorem rd (h : Flat l n m f) {i j : Nat} (hi : i < n) (hj : j < m) : rd l (i * m + j) = some (f i j) := by
  rw [rd_getElem?, h.get i hi j hj]

theorem wr (h : Flat l n m f) {i j : Nat} (hi : i < n) (hj : j < m) (v : α) :
    ∃ l', wr l (i * m + j) v = some l' ∧ Flat l' n m (upd2 f i j v) := by
  have hl := addr_lt hi hj
  refine ⟨_, wr_of_lt (by rw [h.len]; exact hl) v, by simp [h.len], fun a ha b hb => ?_⟩
  unfold upd2
  by_cases e : a = i ∧ b = j
  · obtain ⟨rfl, rfl⟩ := e; rw [List.getElem?_set_self (by rw [h.len]; exact hl)]; simp
  · rw [List.getElem?_set_ne (fun e' => e (by have := addr_inj hj hb e'; omega)), h.get a ha b hb, if_neg e]

theorem congr (h : Flat l n m f) {g : Nat → Nat → α} (hg : ∀ i < n, ∀ j < m, f i j = g i j) : Flat l n m g :=
  ⟨h.len, fun i hi j hj => by rw [h.get i hi j hj, hg i hi j hj]⟩

theorem of_len {l : List α} (h : l.length = n * m) (a : α) : Flat l n m (fun i j => l.getD (i * m + j) a) :=
  ⟨h, fun i hi j hj => by
    have := addr_lt hi hj
    simp [List.getD, show i * m + j < l.length by omega]⟩

theorem replicate (n m : Nat) (a : α) : Flat (List.replicate (n * m) a) n m (fun _ _ => a) :=
  ⟨by simp, fun i hi j hj => by have := addr_lt hi hj; simp [this]⟩

theorem vec (h : Flat l n m f) {i : Nat} (hi : i < n) :
    (l.drop (i * m)).take m = (List.range m).map (f i) := by
  have hl := Nat.mul_le_mul_right m (show i + 1 ≤ n by omega)
  rw [Nat.add_mul] at hl
  apply List.ext_getElem?
  intro j
  rcases Nat.lt_or_ge j m with hj | hj
  · rw [List.getElem?_take_of_lt hj, List.getElem?_drop, h.get i hi j hj]
    simp [hj]
  · rw [List.getElem?_eq_none (by simp; omega), List.getElem?_eq_none (by simp; exact hj)]

end Flat

end Verif
