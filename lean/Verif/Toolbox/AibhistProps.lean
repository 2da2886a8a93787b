import Verif.Toolbox.AibhistModel
import Mathlib.Data.List.Basic

/-!
# `vl_aibhist`: properties (C163, C164)
-/

namespace Verif.Toolbox

/-! ## Specification -/

/-- Node `v` is `x` or above it: parents are given by the array, counted from one; zero and one stand for no parent, and so does the node itself. -/
inductive Above (parents : List Nat) : Nat → Nat → Prop
  | self (x : Nat) : Above parents x x
  | up (x y v : Nat) : parents[x - 1]? = some y → y ≠ x → y ≠ 0 → y ≠ 1 → Above parents y v → Above parents x v

/-- A tree of AIB: a node is above its children. -/
def IsTree (parents : List Nat) : Prop := ∀ (k y : Nat), parents[k]? = some y → y ≤ parents.length ∧ (y = 0 ∨ y = 1 ∨ k + 1 ≤ y)

/-! ## Proofs -/

theorem scan_spec_tree (P : Nat) : ∀ (l : List Nat) (i : Nat), (∀ k y, l[k]? = some y → y ≤ P ∧ (y = 0 ∨ y = 1 ∨ i + k + 1 ≤ y)) → scanParents P l i 0 = some 0
  | [], _, _ => rfl
  | node :: rest, i, h => by
    have h0 := h 0 node rfl
    have e : (if node ≠ 0 ∧ node ≠ 1 then min node 0 else 0) = 0 := by split <;> simp
    have hok : linkOk P i node = true := by
      unfold linkOk
      simp
      omega
    simp only [scanParents, e]
    rw [if_pos hok]
    refine scan_spec_tree P rest (i + 1) (fun k y hk => ?_)
    have := h (k + 1) y (by simpa using hk)
    omega

theorem above_le {parents : List Nat} (ht : IsTree parents) {x v : Nat} (h : Above parents x v) (hx : 1 ≤ x) : x ≤ v := by
  induction h with
  | self x => exact Nat.le_refl _
  | up x y v hp h1 h2 h3 _ ih =>
    have := ht _ _ hp
    have := ih (by omega)
    omega

theorem walkUp_spec {parents : List Nat} (ht : IsTree parents) : ∀ (fuel x : Nat) (tree : List Nat), 1 ≤ x → x ≤ parents.length → parents.length < fuel + x →
    tree.length = parents.length → ∃ t, walkUp parents fuel x tree = some t ∧ t.length = parents.length ∧
      ∀ v c, 1 ≤ v → tree[v - 1]? = some c → (Above parents x v → t[v - 1]? = some (c + 1)) ∧ (¬ Above parents x v → t[v - 1]? = some c) := by
  intro fuel
  induction fuel with
  | zero => intro x tree _ h1 h2; omega
  | succ fuel ih =>
    intro x tree hx hxP hf hl
    have hlt : x - 1 < parents.length := by omega
    have hlt' : x - 1 < tree.length := by omega
    have hp : parents[x - 1]? = some parents[x - 1] := List.getElem?_eq_getElem hlt
    have hset : ∀ v c, 1 ≤ v → tree[v - 1]? = some c → (v = x → (tree.set (x - 1) (tree[x - 1] + 1))[v - 1]? = some (c + 1)) ∧
        (v ≠ x → (tree.set (x - 1) (tree[x - 1] + 1))[v - 1]? = some c) := by
      intro v c hv hc
      constructor
      · rintro rfl
        rw [List.getElem?_set_self hlt']
        rw [List.getElem?_eq_getElem hlt'] at hc
        rw [Option.some.inj hc]
      · intro hne
        rw [List.getElem?_set_ne (by omega), hc]
    unfold walkUp
    rw [rd_of_lt hlt, rd_of_lt hlt']
    simp only [Option.bind_eq_bind, Option.bind_some]
    rw [wr_of_lt hlt']
    simp only [Option.bind_some]
    by_cases hc : parents[x - 1] = x ∨ parents[x - 1] = 0 ∨ parents[x - 1] = 1
    · rw [if_pos hc]
      refine ⟨_, rfl, by simpa using hl, ?_⟩
      intro v c hv hvc
      constructor
      · intro h
        cases h with
        | self => exact (hset _ c hv hvc).1 rfl
        | up _ y _ hp' h1 h2 h3 _ =>
          rw [hp] at hp'
          have := Option.some.inj hp'
          omega
      · intro h
        refine (hset v c hv hvc).2 ?_
        rintro rfl
        exact h (Above.self _)
    · rw [if_neg hc]
      have hy := ht _ _ hp
      obtain ⟨t, e, g1, g2⟩ := ih parents[x - 1] (tree.set (x - 1) (tree[x - 1] + 1)) (by omega) (by omega) (by omega) (by simpa using hl)
      refine ⟨t, e, g1, ?_⟩
      have hstep : ∀ v, Above parents x v ↔ v = x ∨ Above parents parents[x - 1] v := by
        intro v
        constructor
        · intro h
          cases h with
          | self => exact Or.inl rfl
          | up _ y _ hp' h1 h2 h3 ha =>
            rw [hp] at hp'
            rw [Option.some.inj hp']
            exact Or.inr ha
        · rintro (rfl | h)
          · exact Above.self _
          · exact Above.up _ _ _ hp (by omega) (by omega) (by omega) h
      have hnot : ¬ Above parents parents[x - 1] x := by
        intro h
        have := above_le ht h (by omega)
        omega
      intro v c hv hvc
      rw [hstep]
      by_cases hvx : v = x
      · subst hvx
        refine ⟨fun _ => (g2 v (c + 1) hv ((hset v c hv hvc).1 rfl)).2 hnot, fun h => absurd (Or.inl rfl) h⟩
      · obtain ⟨q1, q2⟩ := g2 v c hv ((hset v c hv hvc).2 hvx)
        exact ⟨fun h => q1 (h.resolve_left hvx), fun h => q2 (fun h' => h (Or.inr h'))⟩

open Classical in
theorem aibLoop_spec {parents : List Nat} (ht : IsTree parents) (last fuel : Nat) (hf : parents.length ≤ fuel) (hlast : parents.length ≤ last) :
    ∀ (data : List Nat) (i : Nat) (tree : List Nat), (∀ x ∈ data, 1 ≤ x ∧ x ≤ parents.length) → tree.length = parents.length →
    ∃ t, aibLoop parents false last fuel data i tree = some (some t) ∧ t.length = parents.length ∧
      ∀ v c, 1 ≤ v → tree[v - 1]? = some c → t[v - 1]? = some (c + data.countP (fun x => decide (Above parents x v))) := by
  intro data
  induction data with
  | nil => intro i tree _ hl; exact ⟨tree, rfl, hl, fun v c _ h => by simpa using h⟩
  | cons x data ih =>
    intro i tree hd hl
    have hx := hd x (by simp)
    obtain ⟨t, e, g1, g2⟩ := walkUp_spec ht fuel x tree hx.1 hx.2 (by omega) hl
    obtain ⟨t', e', g1', g2'⟩ := ih (i + 1) t (fun y hy => hd y (by simp [hy])) g1
    refine ⟨t', ?_, g1', ?_⟩
    · simp only [aibLoop, Bool.false_eq_true, if_false]
      rw [if_neg (by omega), e]
      exact e'
    · intro v c hv hvc
      obtain ⟨q1, q2⟩ := g2 v c hv hvc
      rw [List.countP_cons]
      by_cases ha : Above parents x v
      · rw [g2' v (c + 1) hv (q1 ha)]
        simp [ha]
        omega
      · rw [g2' v c hv (q2 ha)]
        simp [ha]

open Classical in
/-- C163: for a tree of AIB and nodes of it as data, the result counts for each node the data points at or below it. -/
theorem aibhist_correct (fuel : Nat) (parents data : List Nat) (hf : parents.length ≤ fuel) (hP : parents.length < 2 ^ 32) (ht : IsTree parents)
    (hd : ∀ x ∈ data, 1 ≤ x ∧ x ≤ parents.length) : ∃ h, aibhist fuel parents data false = some (some h) ∧ h.length = parents.length ∧
      ∀ v, 1 ≤ v → v ≤ parents.length → h[v - 1]? = some (data.countP (fun x => decide (Above parents x v))) := by
  unfold aibhist
  rw [scan_spec_tree parents.length parents 0 (fun k y hk => by simpa using ht k y hk)]
  have hl : lastLeaf 0 = 2 ^ 32 - 1 := by decide
  obtain ⟨t, e, g1, g2⟩ := aibLoop_spec ht (lastLeaf 0) fuel hf (by rw [hl]; omega) data 0 (List.replicate parents.length 0) hd (by simp)
  refine ⟨t, e, g1, ?_⟩
  intro v hv hvP
  have := g2 v 0 hv (by rw [List.getElem?_replicate, if_pos (by omega)])
  rw [this, Nat.zero_add]

/-- Three leaves and two inner nodes. -/
example : IsTree [4, 4, 5, 5, 0] ∧ (∀ x ∈ [1, 3, 1], 1 ≤ x ∧ x ≤ 5) ∧ aibhist 5 [4, 4, 5, 5, 0] [1, 3, 1] false = some (some [2, 0, 1, 2, 3]) := by
  refine ⟨?_, by decide, by decide⟩
  intro k y h
  match k, h with
  | 0, h | 1, h | 2, h | 3, h | 4, h => simp at h; subst h; simp
  | k + 5, h => simp at h

/-- Data that are not nodes of the tree are reported. -/
def AibhistCheckClaim : Prop :=
  ∀ parents : List Nat, IsTree parents → ∀ x, parents.length < x → x < 2 ^ 32 → ∃ fuel, aibhist fuel parents [x] false = some none

/-- C164: they are not; memory outside the tree is read, because the smallest inner node is never found. -/
theorem aibhistCheck_claim_false : ¬ AibhistCheckClaim := by
  intro h
  obtain ⟨fuel, e⟩ := h [2, 0] (by
    intro k y h
    match k, h with
    | 0, h | 1, h => simp at h; subst h; simp
    | k + 2, h => simp at h) 3 (by decide) (by decide)
  cases fuel with
  | zero => revert e; decide
  | succ n =>
    have : aibhist (n + 1) [2, 0] [3] false = none := by
      simp [aibhist, scanParents, linkOk, aibLoop, lastLeaf, walkUp, rd]
    rw [this] at e
    cases e

/-- The histogram mode counts each leaf as often as the data say. -/
def AibhistHistClaim : Prop :=
  ∀ parents data : List Nat, IsTree parents → data ≠ [] → data.length ≤ parents.length → ∃ fuel h, aibhist fuel parents data true = some (some h)

/-- C164: this mode reports an error for all data. -/
theorem aibhist_hist_fails (fuel : Nat) (parents data : List Nat) (hne : data ≠ []) : aibhist fuel parents data true = some none := by
  unfold aibhist
  cases scanParents parents.length parents 0 0 with
  | none => rfl
  | some m =>
    cases data with
    | nil => exact absurd rfl hne
    | cons x data => simp [aibLoop]

theorem aibhistHist_claim_false : ¬ AibhistHistClaim := by
  intro h
  obtain ⟨fuel, t, e⟩ := h [2, 0] [1] (by
    intro k y h
    match k, h with
    | 0, h | 1, h => simp at h; subst h; simp
    | k + 2, h => simp at h) (by decide) (by decide)
  rw [aibhist_hist_fails fuel _ _ (by decide)] at e
  cases e

/-- The call ends for all parents. -/
def AibhistEndsClaim : Prop :=
  ∀ parents data : List Nat, (∀ x ∈ data, 1 ≤ x ∧ x ≤ parents.length) → ∃ fuel r, aibhist fuel parents data false = some r

/-- C164: a link to the previous node is accepted, so that the walk may turn in circles. -/
theorem aibhistEnds_claim_false : ¬ AibhistEndsClaim := by
  intro h
  obtain ⟨fuel, r, e⟩ := h [0, 3, 2] [2] (by decide)
  have loop : ∀ fuel x tree, (x = 2 ∨ x = 3) → tree.length = 3 → walkUp [0, 3, 2] fuel x tree = none := by
    intro fuel
    induction fuel with
    | zero => intros; rfl
    | succ n ih =>
      intro x tree hx hl
      match tree, hl with
      | [a, b, c], _ =>
        rcases hx with rfl | rfl
        · have := ih 3 [a, b + 1, c] (Or.inr rfl) rfl
          simpa [walkUp, rd, wr] using this
        · have := ih 2 [a, b, c + 1] (Or.inl rfl) rfl
          simpa [walkUp, rd, wr] using this
  have e1 : aibhist fuel [0, 3, 2] [2] false = none := by
    have := loop fuel 2 [0, 0, 0] (Or.inl rfl) rfl
    simp [aibhist, scanParents, linkOk, aibLoop, lastLeaf, this]
  rw [e1] at e
  cases e

end Verif.Toolbox
