import Verif.Flat
import Verif.Liop.Model
import Verif.Liop.Spec
import Mathlib.Data.List.Permutation
import Mathlib.Data.Finset.Card
import Mathlib.Tactic.Linarith
import Mathlib.Tactic.Ring

/-!
# Lemmas about the number of a permutation
-/

namespace Verif.Liop

theorem factLoop_spec : ∀ (fuel num result : Nat), num < fuel → factLoop fuel num result = some (num.factorial * result) := by
  intro fuel
  induction fuel with
  | zero => intro num result h; omega
  | succ fuel ih =>
    intro num result h
    unfold factLoop
    by_cases g : num > 1
    · rw [if_pos g, ih _ _ (by omega)]
      obtain ⟨m, rfl⟩ : ∃ m, num = m + 1 := ⟨num - 1, by omega⟩
      rw [Nat.factorial_succ, Nat.add_sub_cancel]
      congr 1; ring
    · rw [if_neg g]
      have : num = 0 ∨ num = 1 := by omega
      rcases this with rfl | rfl <;> simp

theorem factorial_spec (n : Nat) : factorial n = some n.factorial := by
  unfold factorial; rw [factLoop_spec _ _ _ (by omega), Nat.mul_one]

/-- `lexRank` only depends on the order of the entries. -/
theorem lexRank_map (f : Nat → Nat) : ∀ (l : List Nat), (∀ a ∈ l, ∀ b ∈ l, (f a < f b ↔ a < b)) → lexRank (l.map f) = lexRank l := by
  intro l
  induction l with
  | nil => intro _; rfl
  | cons a l ih =>
    intro h
    simp only [List.map_cons, lexRank, List.length_map]
    rw [ih (fun x hx y hy => h x (by simp [hx]) y (by simp [hy])), List.countP_map]
    congr 2
    apply List.countP_congr
    intro x hx
    simp [h x (by simp [hx]) a (by simp)]

theorem lexRank_lt : ∀ l : List Nat, lexRank l < l.length.factorial := by
  intro l
  induction l with
  | nil => simp [lexRank]
  | cons a l ih =>
    simp only [lexRank, List.length_cons, Nat.factorial_succ]
    have h : l.countP (· < a) ≤ l.length := List.countP_le_length
    have := Nat.mul_le_mul_right l.length.factorial h
    rw [Nat.add_mul, Nat.one_mul]
    omega

theorem countP_head {m a : Nat} {rest : List Nat} (h : (a :: rest).Perm (List.range m)) : rest.countP (· < a) = a := by
  have h1 := h.countP_eq (· < a)
  rw [List.countP_cons_of_neg (by simp)] at h1
  rw [h1]
  have ha : a < m := by have := h.subset (List.mem_cons_self (a := a)); simpa using this
  obtain ⟨d, rfl⟩ : ∃ d, m = a + d := ⟨m - a, by omega⟩
  rw [List.range_add, List.countP_append]
  have h2 : (List.range a).countP (· < a) = a := by
    rw [List.countP_eq_length.mpr (by intro x hx; simpa using hx), List.length_range]
  have h3 : ((List.range d).map (a + ·)).countP (· < a) = 0 := by
    rw [List.countP_eq_zero]
    intro x hx
    obtain ⟨y, _, rfl⟩ := List.mem_map.mp hx
    simp
  omega

/-- The decrement of the code. -/
def lower (a b : Nat) : Nat := if b > a then b - 1 else b

theorem lower_perm {m a : Nat} {rest : List Nat} (h : (a :: rest).Perm (List.range (m + 1))) : (rest.map (lower a)).Perm (List.range m) := by
  have hnd : (a :: rest).Nodup := h.nodup_iff.mpr List.nodup_range
  rw [List.nodup_cons] at hnd
  have hmem : ∀ x, x ∈ a :: rest ↔ x < m + 1 := by intro x; rw [h.mem_iff]; simp
  have hne : ∀ x ∈ rest, x ≠ a := by rintro x hx rfl; exact hnd.1 hx
  have ha : a < m + 1 := (hmem a).mp (by simp)
  rw [List.perm_ext_iff_of_nodup _ List.nodup_range]
  · intro x
    rw [List.mem_map, List.mem_range]
    constructor
    · rintro ⟨y, hy, rfl⟩
      have h1 := (hmem y).mp (by simp [hy])
      have h2 := hne y hy
      unfold lower; split_ifs <;> omega
    · intro hx
      by_cases g : x < a
      · have := (hmem x).mpr (by omega)
        rw [List.mem_cons] at this
        exact ⟨x, this.resolve_left (by omega), by unfold lower; rw [if_neg (by omega)]⟩
      · have := (hmem (x + 1)).mpr (by omega)
        rw [List.mem_cons] at this
        exact ⟨x + 1, this.resolve_left (by omega), by unfold lower; rw [if_pos (by omega)]; omega⟩
  · refine List.Nodup.map_on ?_ hnd.2
    intro x hx y hy e
    have h2 := hne x hx
    have h3 := hne y hy
    unfold lower at e; split_ifs at e <;> omega

theorem lexRank_lower {m a : Nat} {rest : List Nat} (h : (a :: rest).Perm (List.range m)) : lexRank (rest.map (lower a)) = lexRank rest := by
  have hnd : (a :: rest).Nodup := h.nodup_iff.mpr List.nodup_range
  rw [List.nodup_cons] at hnd
  have hne : ∀ x ∈ rest, x ≠ a := by rintro x hx rfl; exact hnd.1 hx
  apply lexRank_map
  intro x hx y hy
  have h2 := hne x hx
  have h3 := hne y hy
  unfold lower; split_ifs <;> omega

/-- The entries from `i` on. -/
def tailOf (f : Nat → Nat) (n i : Nat) : List Nat := (List.range (n - i)).map (fun k => f (i + k))

theorem tailOf_cons (f : Nat → Nat) {n i : Nat} (h : i < n) : tailOf f n i = f i :: tailOf f n (i + 1) := by
  unfold tailOf
  rw [show n - i = (n - (i + 1)) + 1 by omega, List.range_succ_eq_map]
  simp only [List.map_cons, List.map_map, Nat.add_zero]
  congr 1
  apply List.map_congr_left
  intro k _
  simp only [Function.comp]
  congr 1; omega

theorem tailOf_congr {f g : Nat → Nat} {n i : Nat} (u : Nat → Nat) (h : ∀ j, i ≤ j → j < n → g j = u (f j)) : tailOf g n i = (tailOf f n i).map u := by
  unfold tailOf
  rw [List.map_map]
  apply List.map_congr_left
  intro k hk
  rw [List.mem_range] at hk
  simp only [Function.comp]
  exact h _ (by omega) (by omega)

theorem tailOf_length (f : Nat → Nat) (n i : Nat) : (tailOf f n i).length = n - i := by simp [tailOf]

theorem permIndex_spec {p : List Nat} {n : Nat} (hp : p.Perm (List.range n)) : ∃ q, permIndex p n = some (lexRank p, q) ∧ q.length = n := by
  have hlen : p.length = n := by rw [hp.length_eq, List.length_range]
  have hp0 : tailOf (fun i => p.getD i 0) n 0 = p := by
    unfold tailOf
    apply List.ext_getElem?
    intro i
    simp only [Nat.sub_zero, Nat.zero_add, List.getElem?_map]
    by_cases hi : i < n
    · rw [List.getElem?_range hi]
      simp [List.getD, List.getElem?_eq_getElem (show i < p.length by omega)]
    · rw [List.getElem?_eq_none (by simp; omega), List.getElem?_eq_none (by omega)]; rfl
  obtain ⟨⟨idx, q⟩, e, f, h1, h2, h3⟩ := iter_inv (n := n) (f := fun (i : Nat) ((index, perm) : Nat × List Nat) => (do
      let pi ← rd perm i
      let index := index * (n - i) + pi
      let perm ← iter (n - (i + 1)) (fun (k : Nat) (perm : List Nat) => (do
        let j := i + 1 + k
        let pj ← rd perm j
        let pi ← rd perm i
        if pj > pi then wr perm j (pj - 1) else some perm : Option (List Nat))) perm
      some (index, perm) : Option (Nat × List Nat))) (s := (0, p))
    (fun i st => ∃ f, Arr st.2 n f ∧ (tailOf f n i).Perm (List.range (n - i)) ∧ st.1 * (n - i).factorial + lexRank (tailOf f n i) = lexRank p)
    ⟨_, Arr.of_len' hlen 0, by rw [hp0]; exact hp, by rw [hp0]; simp⟩ (by
    rintro i hi ⟨index, perm⟩ ⟨f, h1, h2, h3⟩
    simp only at h1 h3 ⊢
    rw [h1.rd hi]
    simp only [Option.bind_eq_bind, Option.bind_some]
    obtain ⟨perm', e1, g1⟩ := iter_inv (n := n - (i + 1)) (f := fun (k : Nat) (perm : List Nat) => (do
        let j := i + 1 + k
        let pj ← rd perm j
        let pi ← rd perm i
        if pj > pi then wr perm j (pj - 1) else some perm : Option (List Nat))) (s := perm)
      (fun k l => Arr l n (fun j => if i < j ∧ j < i + 1 + k then lower (f i) (f j) else f j))
      (h1.congr (by intro j _; rw [if_neg (by omega)])) (by
      intro k hk l hl
      simp only
      rw [hl.rd (show i + 1 + k < n by omega), hl.rd hi]
      simp only [Option.bind_eq_bind, Option.bind_some]
      rw [if_neg (show ¬ (i < i + 1 + k ∧ i + 1 + k < i + 1 + k) by omega), if_neg (show ¬ (i < i ∧ i < i + 1 + k) by omega)]
      by_cases g : f (i + 1 + k) > f i
      · rw [if_pos g]
        obtain ⟨l', e2, h4⟩ := hl.wr (show i + 1 + k < n by omega) (f (i + 1 + k) - 1)
        refine ⟨l', e2, h4.congr ?_⟩
        intro j hj
        unfold upd1
        by_cases ej : j = i + 1 + k
        · subst ej
          rw [if_pos rfl, if_pos (by omega)]
          unfold lower; rw [if_pos g]
        · rw [if_neg ej]; beta_reduce
          by_cases c : i < j ∧ j < i + 1 + k
          · rw [if_pos c, if_pos (by omega)]
          · rw [if_neg c, if_neg (by omega)]
      · rw [if_neg g]
        refine ⟨l, rfl, hl.congr ?_⟩
        intro j hj
        by_cases ej : j = i + 1 + k
        · subst ej
          rw [if_neg (by omega), if_pos (by omega)]
          unfold lower; rw [if_neg g]
        · by_cases c : i < j ∧ j < i + 1 + k
          · rw [if_pos c, if_pos (by omega)]
          · rw [if_neg c, if_neg (by omega)])
    simp only [Option.bind_eq_bind] at e1
    rw [e1]
    refine ⟨_, rfl, _, g1, ?_⟩
    rw [tailOf_cons f hi] at h2 h3
    obtain ⟨m, hm⟩ : ∃ m, n - i = m + 1 := ⟨n - i - 1, by omega⟩
    have hm' : n - (i + 1) = m := by omega
    have ht : tailOf (fun j => if i < j ∧ j < i + 1 + (n - (i + 1)) then lower (f i) (f j) else f j) n (i + 1) = (tailOf f n (i + 1)).map (lower (f i)) := by
      apply tailOf_congr
      intro j h4 h5
      rw [if_pos (by omega)]
    rw [hm] at h2
    rw [ht, lexRank_lower h2, hm']
    refine ⟨lower_perm h2, ?_⟩
    rw [← h3]
    simp only [lexRank, countP_head h2, tailOf_length, hm, hm', Nat.factorial_succ]
    ring)
  refine ⟨q, ?_, h1.len⟩
  have : idx = lexRank p := by
    simp only [Nat.sub_self] at h3
    have h4 : tailOf f n n = [] := by simp [tailOf]
    rw [h4] at h3
    simpa [lexRank] using h3
  unfold permIndex
  rw [← this]
  exact e

/-- A bigger head gives a bigger number. -/
theorem lexRank_head_lt {a b : Nat} {l m : List Nat} (h : (a :: l).Perm (b :: m)) (hlt : a < b) : lexRank (a :: l) < lexRank (b :: m) := by
  have hlen : l.length = m.length := by have := h.length_eq; simpa using this
  have ha : a ∈ m := by
    have := h.subset (List.mem_cons_self (a := a))
    rw [List.mem_cons] at this
    exact this.resolve_left (by omega)
  have h1 := h.countP_eq (· < a)
  rw [List.countP_cons_of_neg (by simp), List.countP_cons_of_neg (by simp; omega)] at h1
  have h2 : m.countP (· < a) + 1 ≤ m.countP (· < b) := by
    obtain ⟨s, t, rfl⟩ := List.append_of_mem ha
    have hm : ∀ l : List Nat, l.countP (· < a) ≤ l.countP (· < b) := by
      intro l
      apply List.countP_mono_left
      intro x _ hx
      simp at hx ⊢; omega
    simp only [List.countP_append]
    rw [List.countP_cons_of_neg (by simp), List.countP_cons_of_pos (by simpa using hlt)]
    have := hm s
    have := hm t
    omega
  simp only [lexRank]
  have h3 := lexRank_lt l
  have h4 : (l.countP (· < a) + 1) * l.length.factorial ≤ m.countP (· < b) * l.length.factorial := Nat.mul_le_mul_right _ (by omega)
  rw [Nat.add_mul] at h4
  rw [← hlen]
  omega

theorem lexRank_strictMono : ∀ (p q : List Nat), p.Perm q → p < q → lexRank p < lexRank q := by
  intro p
  induction p with
  | nil => intro q h hlt; rw [List.nil_perm.mp h] at hlt; exact absurd hlt (by simp)
  | cons a l ih =>
    intro q h hlt
    cases q with
    | nil => simp at h
    | cons b m =>
      rw [List.cons_lt_cons_iff] at hlt
      rcases hlt with hab | ⟨rfl, hlm⟩
      · exact lexRank_head_lt h hab
      · have h' := h.cons_inv
        have := ih m h' hlm
        simp only [lexRank]
        rw [h'.countP_eq, h'.length_eq]
        omega

theorem lexRank_lt_iff {p q : List Nat} (h : p.Perm q) : lexRank p < lexRank q ↔ p < q := by
  refine ⟨fun hl => ?_, lexRank_strictMono p q h⟩
  by_contra hn
  rcases lt_or_eq_of_le (not_lt.mp hn) with h1 | h1
  · have := lexRank_strictMono q p h.symm h1; omega
  · rw [h1] at hl; omega

theorem lexRank_inj {p q : List Nat} (h : p.Perm q) (e : lexRank p = lexRank q) : p = q := by
  rcases lt_trichotomy p q with h1 | h1 | h1
  · have := lexRank_strictMono p q h h1; omega
  · exact h1
  · have := lexRank_strictMono q p h.symm h1; omega

theorem lexRank_surj (n k : Nat) (hk : k < n.factorial) : ∃ p : List Nat, p.Perm (List.range n) ∧ lexRank p = k := by
  have h1 : (List.range n).permutations.toFinset.card = n.factorial := by
    rw [List.toFinset_card_of_nodup (List.nodup_permutations _ List.nodup_range), List.length_permutations, List.length_range]
  have h2 := Finset.surjOn_of_injOn_of_card_le (s := (List.range n).permutations.toFinset) (t := Finset.range n.factorial) lexRank
    (by
      intro p hp
      simp only [Finset.mem_coe, List.mem_toFinset, List.mem_permutations, Finset.mem_range] at hp ⊢
      have := lexRank_lt p
      rwa [hp.length_eq, List.length_range] at this)
    (by
      intro p hp q hq e
      simp only [Finset.mem_coe, List.mem_toFinset, List.mem_permutations] at hp hq
      exact lexRank_inj (hp.trans hq.symm) e)
    (by rw [h1, Finset.card_range])
  obtain ⟨p, hp, e⟩ := h2 (by simpa using hk : k ∈ ((Finset.range n.factorial : Finset Nat) : Set Nat))
  simp only [Finset.mem_coe, List.mem_toFinset, List.mem_permutations] at hp
  exact ⟨p, hp, e⟩

end Verif.Liop
