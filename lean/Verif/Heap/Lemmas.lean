import Verif.Heap.Model
import Mathlib.Data.List.Perm.Basic

/-!
# Auxiliary facts about the heap model
-/

namespace Verif.Heap

variable {α : Type}

/-- Heap order of the entries below `n`. -/
def Ord (cmp : α → α → Int) (a : List α) (n : Nat) : Prop :=
  ∀ j, 0 < j → j < n → ole cmp a[(j - 1) / 2]? a[j]?

/-- Heap order except at the edges leaving node `i`; the children of `i` are not smaller than the parent of `i`. -/
structure OrdExceptBelow (cmp : α → α → Int) (a : List α) (n i : Nat) : Prop where
  edges : ∀ j, 0 < j → j < n → (j - 1) / 2 ≠ i → ole cmp a[(j - 1) / 2]? a[j]?
  skip : 0 < i → ∀ c, 0 < c → c < n → (c - 1) / 2 = i → ole cmp a[(i - 1) / 2]? a[c]?

/-- Heap order except at the edge entering node `i`. -/
structure OrdExceptAbove (cmp : α → α → Int) (a : List α) (n i : Nat) : Prop where
  edges : ∀ j, 0 < j → j < n → j ≠ i → ole cmp a[(j - 1) / 2]? a[j]?
  skip : 0 < i → ∀ c, 0 < c → c < n → (c - 1) / 2 = i → ole cmp a[(i - 1) / 2]? a[c]?

/-- Swapping node `i` with its child `l`, which is not larger than any other child of `i` and smaller than `i`, moves the
defect from `i` to `l`. -/
theorem swap_child {cmp : α → α → Int} {a a' : List α} {n i l : Nat}
    (hl0 : 0 < l) (hl : l < n) (hp : (l - 1) / 2 = i)
    (hmin : ∀ c, 0 < c → c < n → (c - 1) / 2 = i → ole cmp a[l]? a[c]?)
    (hlt : ole cmp a[l]? a[i]?)
    (he : ∀ j, 0 < j → j < n → (j - 1) / 2 ≠ i → j ≠ i → ole cmp a[(j - 1) / 2]? a[j]?)
    (hs : 0 < i → ole cmp a[(i - 1) / 2]? a[l]?)
    (hsw : swp a i l = some a') : OrdExceptBelow cmp a' n l := by
  have hil : i < l := by omega
  constructor
  · intro j hj0 hjn hjl
    rw [swp_getElem? hsw, swp_getElem? hsw]
    rw [if_neg (by exact hjl)]
    by_cases hji : j = i
    · subst hji
      rw [if_neg (by omega : ¬ (j - 1) / 2 = j), if_neg (by omega : ¬ j = l), if_pos rfl]
      exact hs hj0
    · by_cases hpj : (j - 1) / 2 = i
      · rw [if_pos hpj]
        by_cases hjl' : j = l
        · rw [if_pos hjl']; exact hlt
        · rw [if_neg hjl', if_neg hji]; exact hmin j hj0 hjn hpj
      · rw [if_neg hpj]
        have : j ≠ l := by intro hh; subst hh; exact hpj hp
        rw [if_neg this, if_neg hji]
        exact he j hj0 hjn hpj hji
  · intro _ c hc0 hcn hcl
    rw [swp_getElem? hsw, swp_getElem? hsw, hp]
    have h1 : c ≠ l := by omega
    have h2 : c ≠ i := by omega
    rw [if_neg (by omega : ¬ i = l), if_pos rfl, if_neg h1, if_neg h2]
    have := he c hc0 hcn (by omega) h2
    rwa [hcl] at this

theorem children_of {c i : Nat} (hc : 0 < c) (h : (c - 1) / 2 = i) : c = leftChild i ∨ c = rightChild i := by
  simp only [leftChild, rightChild]; omega

theorem cmp_nonpos_of_pos {cmp : α → α → Int} (h : ThreeWay cmp) {x y : α} (hp : cmp x y > 0) : cmp y x ≤ 0 := by
  have := h.antisymm y x; omega

/-- The sift towards the leaves repairs a defect below `i`. -/
theorem up_spec {cmp : α → α → Int} (h : ThreeWay cmp) (a : List α) (n i : Nat) (hn : n ≤ a.length)
    (hpre : OrdExceptBelow cmp a n i) :
    ∃ a', up cmp a n i = some a' ∧ a'.Perm a ∧ Ord cmp a' n ∧ (∀ k, n ≤ k → a'[k]? = a[k]?) := by
  induction a, i using up.induct (n := n) with
  | case1 a i hge =>
    refine ⟨a, ?_, List.Perm.refl _, ?_, fun _ _ => rfl⟩
    · rw [up, if_pos hge]
    · intro j hj hjn
      refine hpre.edges j hj hjn ?_
      intro hh
      have := children_of hj hh
      simp only [leftChild, rightChild] at *; omega
  | case2 a i hl hr =>
    have hlt : leftChild i < n := by omega
    have hil : i < a.length := by simp only [leftChild] at hlt; omega
    rw [up, if_neg hl, if_pos hr, cmpAt_spec hil (by omega)]
    simp only [Option.bind_eq_bind, Option.bind_some]
    have honly : ∀ c, 0 < c → c < n → (c - 1) / 2 = i → c = leftChild i := by
      intro c hc hcn hci
      rcases children_of hc hci with h' | h'
      · exact h'
      · omega
    split
    · rename_i hgt
      rw [swp_of_lt hil (by omega)]
      have hsw := swp_of_lt (l := a) hil (show leftChild i < a.length by omega)
      refine ⟨_, rfl, swp_perm hsw, ?_, ?_⟩
      · have := swap_child (n := n) (l := leftChild i) (by simp [leftChild]) hlt (by simp [leftChild])
          (by intro c hc hcn hci; rw [honly c hc hcn hci]; exact ole_refl h _)
          (by simp only [List.getElem?_eq_getElem, hil, show leftChild i < a.length by omega, ole]
              exact cmp_nonpos_of_pos h hgt)
          (by intro j hj hjn hji _; exact hpre.edges j hj hjn hji)
          (by intro hi; exact hpre.skip hi _ (by simp [leftChild]) hlt (by simp [leftChild])) hsw
        intro j hj hjn
        refine this.edges j hj hjn ?_
        intro hh
        have := children_of hj hh
        simp only [leftChild, rightChild] at *; omega
      · intro k hk
        rw [swp_getElem? hsw, if_neg (by omega), if_neg (by simp only [leftChild] at *; omega)]
    · rename_i hgt
      refine ⟨a, rfl, List.Perm.refl _, ?_, fun _ _ => rfl⟩
      intro j hj hjn
      by_cases hji : (j - 1) / 2 = i
      · have := honly j hj hjn hji
        subst this
        rw [hji]
        simp only [List.getElem?_eq_getElem, hil, show leftChild i < a.length by omega, ole]
        omega
      · exact hpre.edges j hj hjn hji
  | case3 a i hl hr ih1 ih2 =>
    have hlt : leftChild i < n := by omega
    have hrt : rightChild i < n := by omega
    have hil : i < a.length := by simp only [leftChild] at hlt; omega
    have hll : leftChild i < a.length := by omega
    have hrl : rightChild i < a.length := by omega
    rw [up, if_neg hl, if_neg hr, cmpAt_spec hll hrl]
    simp only [Option.bind_eq_bind, Option.bind_some]
    have key : ∀ (m o : Nat), (m = leftChild i ∧ o = rightChild i ∨ m = rightChild i ∧ o = leftChild i) →
        ole cmp a[m]? a[o]? →
        (∀ a', swp a i m = some a' → OrdExceptBelow cmp a' n m →
          ∃ a'', up cmp a' n m = some a'' ∧ a''.Perm a' ∧ Ord cmp a'' n ∧ (∀ k, n ≤ k → a''[k]? = a'[k]?)) →
        ∃ a', ((cmpAt cmp a i m).bind fun d =>
            if d > 0 then (swp a i m).bind fun a' => up cmp a' n m else some a) = some a' ∧
          a'.Perm a ∧ Ord cmp a' n ∧ (∀ k, n ≤ k → a'[k]? = a[k]?) := by
      intro m o hmo hle hrec
      have hml : m < a.length := by omega
      have hmn : m < n := by omega
      have hm0 : 0 < m := by simp only [leftChild, rightChild] at hmo; omega
      have hmp : (m - 1) / 2 = i := by simp only [leftChild, rightChild] at hmo; omega
      have hch : ∀ c, 0 < c → c < n → (c - 1) / 2 = i → ole cmp a[m]? a[c]? := by
        intro c hc hcn hci
        have := children_of hc hci
        by_cases hcm : c = m
        · rw [hcm]; exact ole_refl h _
        · have : c = o := by omega
          rw [this]; exact hle
      rw [cmpAt_spec hil hml]
      simp only [Option.bind_some]
      split
      · rename_i hgt
        have hsw := swp_of_lt (l := a) hil hml
        rw [hsw]
        simp only [Option.bind_some]
        obtain ⟨a'', h1, h2, h3, h4⟩ := hrec _ hsw (swap_child (n := n) hm0 hmn hmp hch
          (by simp only [List.getElem?_eq_getElem, hil, hml, ole]; exact cmp_nonpos_of_pos h hgt)
          (by intro j hj hjn hji _; exact hpre.edges j hj hjn hji)
          (by intro hi; exact hpre.skip hi _ hm0 hmn hmp) hsw)
        refine ⟨a'', h1, h2.trans (swp_perm hsw), h3, ?_⟩
        intro k hk
        rw [h4 k hk, swp_getElem? hsw, if_neg (by omega),
          if_neg (by simp only [leftChild, rightChild] at *; omega)]
      · rename_i hgt
        refine ⟨a, rfl, List.Perm.refl _, ?_, fun _ _ => rfl⟩
        intro j hj hjn
        by_cases hji : (j - 1) / 2 = i
        · refine ole_trans h ?_ (hch j hj hjn hji)
          rw [hji]
          simp only [List.getElem?_eq_getElem, hil, hml, ole]
          omega
        · exact hpre.edges j hj hjn hji
    split
    · rename_i hc
      refine key (leftChild i) (rightChild i) (Or.inl ⟨rfl, rfl⟩) ?_ ?_
      · simp only [List.getElem?_eq_getElem, hll, hrl, ole]; omega
      · intro a' hsw hpre'
        exact ih1 a' (by rw [swp_length hsw]; exact hn) hpre'
    · rename_i hc
      refine key (rightChild i) (leftChild i) (Or.inr ⟨rfl, rfl⟩) ?_ ?_
      · simp only [List.getElem?_eq_getElem, hll, hrl, ole]
        exact (h.le_iff _ _).2 (by omega)
      · intro a' hsw hpre'
        exact ih2 a' (by rw [swp_length hsw]; exact hn) hpre'

/-- The sift towards the root repairs a defect above `i`. -/
theorem down_spec {cmp : α → α → Int} (h : ThreeWay cmp) (a : List α) (n i : Nat) (hn : n ≤ a.length) (hi : i < n)
    (hpre : OrdExceptAbove cmp a n i) :
    ∃ a', down cmp a i = some a' ∧ a'.Perm a ∧ Ord cmp a' n ∧ (∀ k, i < k → a'[k]? = a[k]?) := by
  induction i using Nat.strongRecOn generalizing a with
  | _ i ih =>
    rw [down]
    split
    · rename_i h0
      refine ⟨a, rfl, List.Perm.refl _, ?_, fun _ _ => rfl⟩
      intro j hj hjn
      exact hpre.edges j hj hjn (by omega)
    · rename_i h0
      have hpar : parent i = (i - 1) / 2 := by simp [parent, h0]
      have hil : i < a.length := by omega
      have hpl : (i - 1) / 2 < a.length := by omega
      rw [hpar, cmpAt_spec hil hpl]
      simp only [Option.bind_eq_bind, Option.bind_some]
      split
      · rename_i hlt
        have hsw := swp_of_lt (l := a) hil hpl
        rw [hsw]
        simp only [Option.bind_some]
        have hpi : ole cmp a[i]? a[(i - 1) / 2]? := by
          simp only [List.getElem?_eq_getElem, hil, hpl, ole]; omega
        obtain ⟨a'', h1, h2, h3, h4⟩ := ih ((i - 1) / 2) (by omega) _ (by rw [swp_length hsw]; exact hn) (by omega)
          (by
            constructor
            · intro j hj hjn hjp
              rw [swp_getElem? hsw, swp_getElem? hsw, if_neg hjp]
              by_cases h1 : (j - 1) / 2 = (i - 1) / 2
              · rw [if_pos h1]
                by_cases hji : j = i
                · rw [if_pos hji]; exact hpi
                · rw [if_neg hji]
                  refine ole_trans h hpi ?_
                  rw [← h1]
                  exact hpre.edges j hj hjn hji
              · rw [if_neg h1]
                have hji : j ≠ i := by intro hh; subst hh; exact h1 rfl
                rw [if_neg hji]
                by_cases h2 : (j - 1) / 2 = i
                · rw [if_pos h2]
                  exact hpre.skip (by omega) j hj hjn h2
                · rw [if_neg h2]
                  exact hpre.edges j hj hjn hji
            · intro hp0 c hc hcn hcp
              rw [swp_getElem? hsw, swp_getElem? hsw,
                if_neg (by omega : ¬ ((i - 1) / 2 - 1) / 2 = (i - 1) / 2), if_neg (by omega : ¬ ((i - 1) / 2 - 1) / 2 = i),
                if_neg (by omega : ¬ c = (i - 1) / 2)]
              have hgp := hpre.edges ((i - 1) / 2) hp0 (by omega) (by omega)
              by_cases hci : c = i
              · rw [if_pos hci]; exact hgp
              · rw [if_neg hci]
                refine ole_trans h hgp ?_
                rw [← hcp]
                exact hpre.edges c hc hcn hci)
        refine ⟨a'', h1, h2.trans (swp_perm hsw), h3, ?_⟩
        intro k hk
        rw [h4 k (by omega), swp_getElem? hsw, if_neg (by omega), if_neg (by omega)]
      · rename_i hlt
        refine ⟨a, rfl, List.Perm.refl _, ?_, fun _ _ => rfl⟩
        intro j hj hjn
        by_cases hji : j = i
        · subst hji
          simp only [List.getElem?_eq_getElem, hil, hpl, ole]
          exact (h.le_iff _ _).2 (by omega)
        · exact hpre.edges j hj hjn hji

/-- `down` does nothing on a heap. -/
theorem down_of_ord {cmp : α → α → Int} (h : ThreeWay cmp) (a : List α) (n i : Nat) (hn : n ≤ a.length) (hi : i < n)
    (ho : Ord cmp a n) : down cmp a i = some a := by
  rw [down]
  split
  · rfl
  · rename_i h0
    have hpar : parent i = (i - 1) / 2 := by simp [parent, h0]
    rw [hpar, cmpAt_spec (show i < a.length by omega) (show (i - 1) / 2 < a.length by omega)]
    simp only [Option.bind_eq_bind, Option.bind_some]
    have := ho i (by omega) hi
    rw [List.getElem?_eq_getElem (show i < a.length by omega),
      List.getElem?_eq_getElem (show (i - 1) / 2 < a.length by omega)] at this
    simp only [ole] at this
    rw [if_neg]
    have := h.antisymm a[i] a[(i - 1) / 2]
    omega

/-- The root of a heap is minimal. -/
theorem root_min {cmp : α → α → Int} (h : ThreeWay cmp) {a : List α} {n : Nat} (ho : Ord cmp a n) (i : Nat) (hi : i < n) :
    ole cmp a[0]? a[i]? := by
  induction i using Nat.strongRecOn with
  | _ i ih =>
    by_cases h0 : i = 0
    · subst h0; exact ole_refl h _
    · exact ole_trans h (ih ((i - 1) / 2) (by omega) (by omega)) (ho i (by omega) hi)

end Verif.Heap
