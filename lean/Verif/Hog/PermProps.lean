import Verif.Hog.PermModel
import Verif.Scatter
import Mathlib.Data.List.Nodup
import Mathlib.Data.List.Perm.Basic
import Mathlib.Tactic.Linarith
import Mathlib.Tactic.IntervalCases

/-!
# The HOG mirror permutation is an involution
-/

namespace Verif.Hog

/-! ## Specification -/

/-- Components `i` and `j` of the descriptor of a cell are exchanged by a left-right flip of the image.  Directed
orientation `i` is at the angle `i π / O` and goes to the angle `π - i π / O`, modulo `2 π`; undirected ones are modulo
`π`; the four blocks, listed left to right and top to bottom, keep their row and exchange the columns. -/
def IsMirror (v : Variant) (O i j : Nat) : Prop :=
  match v with
  | .uoctti =>
    (i < 2 * O ∧ j < 2 * O ∧ (i + j) % (2 * O) = O) ∨
    (∃ a b, a < O ∧ b < O ∧ i = 2 * O + a ∧ j = 2 * O + b ∧ (a + b) % O = 0) ∨
    (∃ row col, row < 2 ∧ col < 2 ∧ i = 3 * O + 2 * row + col ∧ j = 3 * O + 2 * row + (1 - col))
  | .dalalTriggs =>
    ∃ row col a b, row < 2 ∧ col < 2 ∧ a < O ∧ b < O ∧ i = (2 * row + col) * O + a ∧ j = (2 * row + (1 - col)) * O + b ∧
      (a + b) % O = 0

/-! ## Lemmas -/

theorem mirror_mod {O a : Nat} (ha : a < O) : (O - a) % O < O ∧ (a + (O - a) % O) % O = 0 := by
  refine ⟨Nat.mod_lt _ (by omega), ?_⟩
  rcases Nat.eq_zero_or_pos a with h | h
  · subst h; simp
  · rw [Nat.mod_eq_of_lt (show O - a < O by omega), show a + (O - a) = O by omega, Nat.mod_self]

theorem mirror_mod_invol {O a : Nat} (ha : a < O) : (O - (O - a) % O) % O = a := by
  rcases Nat.eq_zero_or_pos a with h | h
  · subst h; simp
  · rw [Nat.mod_eq_of_lt (show O - a < O by omega), show O - (O - a) = a by omega, Nat.mod_eq_of_lt ha]

theorem orient_spec {O : Nat} (hO : 1 ≤ O) {buf : List Nat} (hlen : buf.length = 3 * O + 4) :
    ∃ p, uocttiOrient O buf = some p ∧ p.length = 3 * O + 4 ∧ ∀ o < O, p[o]? = some (O - o) ∧
      p[o + O]? = some ((O - o + O) % (2 * O)) ∧ p[o + 2 * O]? = some ((O - o) % O + 2 * O) := by
  unfold uocttiOrient
  obtain ⟨p, h1, h2, h3⟩ := iter_inv (n := O) (f := fun o perm => do
    let perm ← wr perm o (O - o)
    let perm ← wr perm (o + O) ((O - o + O) % (2 * O))
    wr perm (o + 2 * O) ((O - o) % O + 2 * O)) (s := buf) (fun n (p : List Nat) => p.length = 3 * O + 4 ∧
      ∀ o < n, p[o]? = some (O - o) ∧
        p[o + O]? = some ((O - o + O) % (2 * O)) ∧ p[o + 2 * O]? = some ((O - o) % O + 2 * O)) ⟨hlen, by simp⟩ (by
    intro o ho p ⟨q1, q2⟩
    have k1 : o < p.length := by omega
    have k2 : o + O < p.length := by omega
    have k3 : o + 2 * O < p.length := by omega
    simp only [Option.bind_eq_bind]
    rw [wr_of_lt k1, Option.bind_some, wr_of_lt (by simpa using k2), Option.bind_some, wr_of_lt (by simpa using k3)]
    refine ⟨_, rfl, by simpa using q1, fun j hj => ?_⟩
    by_cases e : j = o
    · subst e
      refine ⟨?_, ?_, ?_⟩
      · rw [List.getElem?_set_ne (by omega), List.getElem?_set_ne (by omega), List.getElem?_set_self k1]
      · rw [List.getElem?_set_ne (by omega), List.getElem?_set_self (by simpa using k2)]
      · rw [List.getElem?_set_self (by simpa using k3)]
    · obtain ⟨r1, r2, r3⟩ := q2 j (by omega)
      refine ⟨?_, ?_, ?_⟩
      all_goals rw [List.getElem?_set_ne (by omega), List.getElem?_set_ne (by omega), List.getElem?_set_ne (by omega)]
      · exact r1
      · exact r2
      · exact r3)
  exact ⟨p, h1, h2, h3⟩

theorem swapBlock_spec {k : Nat} (hk : k < 4) : swapBlock k < 4 ∧ swapBlock (swapBlock k) = k ∧
    ∃ row col, row < 2 ∧ col < 2 ∧ k = 2 * row + col ∧ swapBlock k = 2 * row + (1 - col) := by
  refine ⟨?_, ?_, k / 2, k % 2, by omega, by omega, by omega, ?_⟩
  · unfold swapBlock; omega
  · unfold swapBlock; omega
  · unfold swapBlock; omega

theorem uoctti_spec {O : Nat} (hO : 1 ≤ O) {buf : List Nat} (hlen : buf.length = 3 * O + 4) :
    ∃ p, permutation .uoctti O buf = some p ∧ p.length = 3 * O + 4 ∧
      (∀ o < O, p[o]? = some (O - o) ∧ p[o + O]? = some ((O - o + O) % (2 * O)) ∧
        p[o + 2 * O]? = some ((O - o) % O + 2 * O)) ∧ ∀ k < 4, p[k + O * 3]? = some (swapBlock k + O * 3) := by
  obtain ⟨p, h1, h2, h3⟩ := orient_spec hO hlen
  obtain ⟨p', g1, g2, g3, g4⟩ := scatter_spec (fun k perm => wr perm (k + O * 3) (swapBlock k + O * 3)) (n := 4) (m := p)
    (fun k => k + O * 3) (fun k => swapBlock k + O * 3) (fun k hk => by omega) (fun k _ k' _ h => by omega) (fun _ _ _ _ => rfl)
  refine ⟨p', ?_, by omega, fun o ho => ?_, g3⟩
  · unfold permutation
    rw [show assert' (decide (1 ≤ O)) = some () by simp [assert', hO]]
    simp only [Option.bind_eq_bind, Option.bind_some]
    rw [h1, Option.bind_some]
    exact g1
  · rw [g4 _ (fun k hk => by omega), g4 _ (fun k hk => by omega), g4 _ (fun k hk => by omega)]
    exact h3 o ho

theorem dalal_spec {O : Nat} (hO : 1 ≤ O) {buf : List Nat} (hlen : buf.length = 4 * O) :
    ∃ p, permutation .dalalTriggs O buf = some p ∧ p.length = 4 * O ∧
      ∀ k < 4, ∀ o < O, p[o + k * O]? = some ((O - o) % O + swapBlock k * O) := by
  obtain ⟨p, h1, h2, h3⟩ := iter_inv (n := 4) (f := fun k perm => iter O (fun o perm =>
      wr perm (o + k * O) ((O - o) % O + swapBlock k * O)) perm) (s := buf) (fun n (p : List Nat) => p.length = 4 * O ∧
      ∀ k < n, ∀ o < O, p[o + k * O]? = some ((O - o) % O + swapBlock k * O)) ⟨hlen, by simp⟩ (by
    intro k hk p ⟨q1, q2⟩
    have hkO : k * O + O ≤ 4 * O := by
      have := Nat.mul_le_mul_right O (show k + 1 ≤ 4 by omega)
      rw [Nat.add_mul] at this; omega
    obtain ⟨p', g1, g2, g3, g4⟩ := scatter_spec (fun o perm => wr perm (o + k * O) ((O - o) % O + swapBlock k * O)) (n := O) (m := p)
      (fun o => o + k * O) (fun o => (O - o) % O + swapBlock k * O) (fun o ho => by omega) (fun o _ o' _ h => by omega)
      (fun _ _ _ _ => rfl)
    refine ⟨p', g1, by omega, fun j hj o ho => ?_⟩
    by_cases e : j = k
    · subst e; exact g3 o ho
    · rw [g4 _ (fun o' ho' h => ?_)]
      · exact q2 j (by omega) o ho
      · have := Nat.mul_le_mul_right O (show j + 1 ≤ k by omega)
        rw [Nat.add_mul] at this; omega)
  refine ⟨p, ?_, h2, h3⟩
  unfold permutation
  rw [show assert' (decide (1 ≤ O)) = some () by simp [assert', hO]]
  exact h1

/-- A list that maps every index to an index that maps back is a rearrangement of the indexes. -/
theorem perm_of_involution {p : List Nat} {n : Nat} (hlen : p.length = n)
    (h : ∀ i < n, ∃ j < n, p[i]? = some j ∧ p[j]? = some i) : p.Perm (List.range n) := by
  have hnd : p.Nodup := by
    rw [List.nodup_iff_injective_get]
    intro a b hab
    obtain ⟨j, _, h1, h2⟩ := h a (by have := a.2; omega)
    obtain ⟨j', _, h1', h2'⟩ := h b (by have := b.2; omega)
    have ha : p[a.1]? = some (p.get a) := by simp
    have hb : p[b.1]? = some (p.get b) := by simp
    rw [ha] at h1; rw [hb] at h1'
    have e1 := Option.some.inj h1
    have e2 := Option.some.inj h1'
    have : j = j' := by rw [← e1, ← e2, hab]
    subst this
    rw [h2] at h2'
    exact Fin.ext (Option.some.inj h2')
  refine (List.perm_ext_iff_of_nodup hnd List.nodup_range).2 fun x => ?_
  rw [List.mem_range]
  constructor
  · intro hx
    obtain ⟨i, hi, rfl⟩ := List.getElem_of_mem hx
    obtain ⟨j, hj, h1, _⟩ := h i (by omega)
    rw [List.getElem?_eq_getElem hi] at h1
    have := Option.some.inj h1; omega
  · intro hx
    obtain ⟨j, _, _, h2⟩ := h x hx
    exact List.mem_of_getElem? h2

/-! ## The property -/

/-- **C43**: for any number of orientations and both variants, whatever the allocated block holds, `vl_hog_new` stores a
permutation of the components of a descriptor that is its own inverse, and that exchanges exactly the components that a
left-right flip of the image exchanges. -/
theorem permutation_involution (v : Variant) {O : Nat} (hO : 1 ≤ O) {buf : List Nat} (hlen : buf.length = dimension v O) :
    ∃ p, permutation v O buf = some p ∧ p.Perm (List.range (dimension v O)) ∧
      ∀ i < dimension v O, ∃ j < dimension v O, p[i]? = some j ∧ p[j]? = some i ∧ IsMirror v O i j := by
  suffices ∃ p, permutation v O buf = some p ∧ p.length = dimension v O ∧
      ∀ i < dimension v O, ∃ j < dimension v O, p[i]? = some j ∧ p[j]? = some i ∧ IsMirror v O i j by
    obtain ⟨p, h1, h2, h3⟩ := this
    exact ⟨p, h1, perm_of_involution h2 (fun i hi => by obtain ⟨j, a, b, c, _⟩ := h3 i hi; exact ⟨j, a, b, c⟩), h3⟩
  cases v with
  | uoctti =>
    obtain ⟨p, h1, h2, h3, h4⟩ := uoctti_spec hO hlen
    refine ⟨p, h1, h2, fun i hi => ?_⟩
    simp only [dimension] at hi ⊢
    rcases Nat.lt_or_ge i (2 * O) with c1 | c1
    · -- directed orientations
      have key : ∀ o, o < O → (o = 0 → (O - o + O) % (2 * O) = 0) ∧ (0 < o → (O - o + O) % (2 * O) = 2 * O - o) := by
        intro o ho
        refine ⟨fun h => ?_, fun h => ?_⟩
        · subst h; rw [show O - 0 + O = 2 * O by omega, Nat.mod_self]
        · rw [Nat.mod_eq_of_lt (by omega)]; omega
      have hmod : ∀ i j, (i + j = O ∨ i + j = 3 * O) → (i + j) % (2 * O) = O := by
        intro i j h
        rcases h with h | h
        · rw [h, Nat.mod_eq_of_lt (by omega)]
        · rw [h, show 3 * O = O + 2 * O by omega, Nat.add_mod_right, Nat.mod_eq_of_lt (by omega)]
      rcases Nat.lt_or_ge i O with c2 | c2
      · refine ⟨O - i, by omega, (h3 i c2).1, ?_, Or.inl ⟨c1, by omega, hmod _ _ (by omega)⟩⟩
        rcases Nat.eq_zero_or_pos i with e | e
        · subst e
          have := (h3 0 c2).2.1
          rw [(key 0 c2).1 rfl] at this
          simpa using this
        · rw [(h3 (O - i) (by omega)).1]; congr 1; omega
      · have hi2 := (h3 (i - O) (by omega)).2.1
        rw [show i - O + O = i by omega] at hi2
        rcases Nat.eq_zero_or_pos (i - O) with e | e
        · rw [(key _ (by omega)).1 e] at hi2
          refine ⟨0, by omega, hi2, ?_, Or.inl ⟨c1, by omega, hmod _ _ (by omega)⟩⟩
          rw [(h3 0 (by omega)).1]; congr 1; omega
        · rw [(key _ (by omega)).2 e] at hi2
          refine ⟨_, by omega, hi2, ?_, Or.inl ⟨c1, by omega, hmod _ _ (by omega)⟩⟩
          have := (h3 (2 * O - (i - O) - O) (by omega)).2.1
          rw [show 2 * O - (i - O) - O + O = 2 * O - (i - O) by omega, (key _ (by omega)).2 (by omega)] at this
          rw [this]; congr 1; omega
    · rcases Nat.lt_or_ge i (3 * O) with c2 | c2
      · obtain ⟨m1, m2⟩ := mirror_mod (show i - 2 * O < O by omega)
        have hi2 := (h3 (i - 2 * O) (by omega)).2.2
        rw [show i - 2 * O + 2 * O = i by omega] at hi2
        refine ⟨_, by omega, hi2, ?_, Or.inr (Or.inl ⟨_, _, by omega, m1, by omega, by omega, m2⟩)⟩
        rw [(h3 _ m1).2.2, mirror_mod_invol (show i - 2 * O < O by omega)]
        congr 1; omega
      · have hk : i - 3 * O < 4 := by omega
        obtain ⟨b1, b2, row, col, r1, r2, r3, r4⟩ := swapBlock_spec hk
        have hi2 := h4 _ hk
        rw [show i - 3 * O + O * 3 = i by omega] at hi2
        refine ⟨_, by omega, hi2, ?_, Or.inr (Or.inr ⟨row, col, r1, r2, by omega, by omega⟩)⟩
        rw [h4 _ b1, b2]; congr 1; omega
  | dalalTriggs =>
    obtain ⟨p, h1, h2, h3⟩ := dalal_spec hO hlen
    refine ⟨p, h1, h2, fun i hi => ?_⟩
    simp only [dimension] at hi ⊢
    have hk : i / O < 4 := (Nat.div_lt_iff_lt_mul (by omega)).2 hi
    have ha : i % O < O := Nat.mod_lt _ (by omega)
    have hi' : i % O + i / O * O = i := by rw [Nat.mul_comm]; exact Nat.mod_add_div i O
    obtain ⟨b1, b2, row, col, r1, r2, r3, r4⟩ := swapBlock_spec hk
    obtain ⟨m1, m2⟩ := mirror_mod ha
    have hi2 := h3 _ hk _ ha
    rw [hi'] at hi2
    have hb : swapBlock (i / O) * O + O ≤ 4 * O := by
      have := Nat.mul_le_mul_right O (show swapBlock (i / O) + 1 ≤ 4 by omega)
      rw [Nat.add_mul] at this; omega
    refine ⟨_, by omega, hi2, ?_, row, col, i % O, (O - i % O) % O, r1, r2, ha, m1, ?_, ?_, m2⟩
    · rw [h3 _ b1 _ m1, b2, mirror_mod_invol ha, hi']
    · rw [← r3]; omega
    · rw [← r4]; omega

/-- The hypotheses are met: three orientations. -/
example : permutation .uoctti 3 (List.replicate 13 77) = some [3, 2, 1, 0, 5, 4, 6, 8, 7, 10, 9, 12, 11] := by decide
example : permutation .dalalTriggs 3 (List.replicate 12 77) = some [3, 5, 4, 0, 2, 1, 9, 11, 10, 6, 8, 7] := by decide
example : IsMirror .uoctti 9 2 7 ∧ ¬ IsMirror .uoctti 9 2 2 := by
  refine ⟨Or.inl (by decide), ?_⟩
  rintro (⟨_, _, h⟩ | ⟨a, b, _, _, h, _⟩ | ⟨r, c, _, _, h, _⟩)
  · exact absurd h (by decide)
  · omega
  · omega

end Verif.Hog
