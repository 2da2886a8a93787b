import Verif.Random.ShuffleModel
import Mathlib.Data.List.Perm.Basic
import Mathlib.Data.List.Nodup
import Mathlib.Tactic.Cases

/-! # Property C04: shuffling yields permutations, each by exactly one choice of random indexes -/

namespace Verif.Random

variable {α σ : Type}

/-! ### Specification -/

/-- Legal choices for shuffling `n` elements: one index below `n`, one below `n - 1`, …, one below `2`. -/
def ValidChoices : Nat → List Nat → Prop
  | n + 2, k :: ks => k < n + 2 ∧ ValidChoices (n + 1) ks
  | _ + 2, [] => False
  | _, ks => ks = []

/-- A generator whose bounded index is in range, for every generator state satisfying an invariant and every non-zero range up
to a bound. -/
def InRange (inv : σ → Prop) (bound : Nat) (uindex : σ → Nat → Option (Nat × σ)) : Prop :=
  ∀ s range, inv s → 0 < range → range ≤ bound → ∃ k s', uindex s range = some (k, s') ∧ k < range ∧ inv s'

/-! ### Proofs -/

theorem shuffleWith_perm (a : List α) (n : Nat) (ks : List Nat) (hn : n ≤ a.length) (hk : ValidChoices n ks) :
    ∃ b, shuffleWith a n ks = some b ∧ b.Perm a ∧ b.drop n = a.drop n := by
  induction n generalizing a ks with
  | zero => exact ⟨a, by simp [shuffleWith], .refl _, rfl⟩
  | succ n ih =>
    rcases n with _ | n
    · exact ⟨a, by simp [shuffleWith], .refl _, rfl⟩
    · rcases ks with _ | ⟨k, ks⟩
      · exact absurd hk (by simp [ValidChoices])
      · obtain ⟨hk1, hk2⟩ := hk
        have hsw := swp_of_lt (l := a) (i := n + 1) (j := k) (by omega) (by omega)
        obtain ⟨b, h1, h2, h3⟩ := ih _ ks (by rw [swp_length hsw]; omega) hk2
        refine ⟨b, ?_, h2.trans (swp_perm hsw), ?_⟩
        · simp only [shuffleWith, hsw, Option.bind_eq_bind, Option.bind_some]; exact h1
        · apply List.ext_getElem?
          intro i
          have := congrArg (fun l => l[i + 1]?) h3
          simp only [List.getElem?_drop] at this
          rw [List.getElem?_drop, List.getElem?_drop, show n + 1 + 1 + i = n + 1 + (i + 1) by omega, this,
            swp_getElem? hsw, if_neg (by omega), if_neg (by omega)]

/-- C04: whatever the random indexes (in range), shuffling returns a permutation of the array, without undefined behaviour;
entries beyond `n` stay. -/
theorem shuffle_perm (uindex : σ → Nat → Option (Nat × σ)) (inv : σ → Prop) (bound : Nat) (hu : InRange inv bound uindex)
    (s : σ) (hs : inv s) (a : List α) (n : Nat) (hn : n ≤ a.length) (hb : n ≤ bound) :
    ∃ b s', shuffle uindex s a n = some (b, s') ∧ inv s' ∧ b.Perm a ∧ b.drop n = a.drop n := by
  suffices h : ∃ b s' ks, shuffle uindex s a n = some (b, s') ∧ inv s' ∧ ValidChoices n ks ∧ shuffleWith a n ks = some b by
    obtain ⟨b, s', ks, h1, h0, h2, h3⟩ := h
    obtain ⟨b', h4, h5, h6⟩ := shuffleWith_perm a n ks hn h2
    rw [h3] at h4
    cases h4
    exact ⟨b, s', h1, h0, h5, h6⟩
  induction n generalizing a s with
  | zero => exact ⟨a, s, [], by simp [shuffle], hs, rfl, by simp [shuffleWith]⟩
  | succ n ih =>
    rcases n with _ | n
    · exact ⟨a, s, [], by simp [shuffle], hs, rfl, by simp [shuffleWith]⟩
    · obtain ⟨k, s1, h1, h2, hs1⟩ := hu s (n + 2) hs (by omega) hb
      have hsw := swp_of_lt (l := a) (i := n + 1) (j := k) (by omega) (by omega)
      obtain ⟨b, s', ks, h3, h0, h4, h5⟩ := ih s1 hs1 _ (by rw [swp_length hsw]; omega) (by omega)
      refine ⟨b, s', k :: ks, ?_, h0, ⟨h2, h4⟩, ?_⟩
      · simp only [shuffle, h1, hsw, Option.bind_eq_bind, Option.bind_some]; exact h3
      · simp only [shuffleWith, hsw, Option.bind_eq_bind, Option.bind_some]; exact h5

/-- C04 for `vl_rand_permute_indexes`: same, for arrays of at most 2^31 entries. -/
theorem permuteIndexes_perm_partial (uindex : σ → Nat → Option (Nat × σ)) (inv : σ → Prop) (bound : Nat)
    (hu : InRange inv bound uindex) (s : σ) (hs : inv s) (a : List Int) (n : Nat) (hn : n ≤ a.length) (hb : n ≤ bound)
    (h31 : n ≤ 2 ^ 31) :
    ∃ b s', permuteIndexes uindex s a n = some (b, s') ∧ inv s' ∧ b.Perm a ∧ b.drop n = a.drop n := by
  suffices h : permuteIndexes uindex s a n = shuffle uindex s a n by
    rw [h]; exact shuffle_perm uindex inv bound hu s hs a n hn hb
  clear hn
  induction n generalizing a s with
  | zero => simp [shuffle, permuteIndexes]
  | succ n ih =>
    rcases n with _ | n
    · simp [shuffle, permuteIndexes]
    · obtain ⟨k, s1, h1, h2, hs1⟩ := hu s (n + 2) hs (by omega) hb
      have hk : toVlInt k = k := by
        unfold toVlInt
        rw [BitVec.toInt_eq_toNat_cond, BitVec.toNat_ofNat, Nat.mod_eq_of_lt (by omega)]
        rw [if_pos (by omega)]
      simp only [permuteIndexes, shuffle, h1, Option.bind_eq_bind, Option.bind_some, hk, assert']
      rw [show decide ((0 : Int) ≤ (k : Int)) = true by simp]
      simp only [if_true, Option.bind_some, Int.toNat_natCast]
      cases swp a (n + 1) k with
      | none => rfl
      | some a' => simp only [Option.bind_some]; exact ih s1 hs1 a' (by omega) (by omega)

/-- The restriction on the size cannot be dropped: with more than 2^31 elements the conversion to `vl_int` of a drawn index can
be negative, and the array is accessed out of bounds. -/
theorem permuteIndexes_large_is_unsafe (uindex : σ → Nat → Option (Nat × σ)) (s s' : σ) (a : List Int) (n : Nat)
    (hn : n = 2 ^ 31) (hu : uindex s (n + 1) = some (2 ^ 31, s')) :
    permuteIndexes uindex s a (n + 1) = none := by
  obtain ⟨m, rfl⟩ : ∃ m, n = m + 1 := ⟨2 ^ 31 - 1, by omega⟩
  have : toVlInt (2 ^ 31) < 0 := by decide
  simp only [permuteIndexes, hu, Option.bind_eq_bind, Option.bind_some, assert']
  rw [if_neg (by simpa using this)]
  rfl

/-- C04: for an array of distinct elements, each of its permutations is produced by exactly one sequence of choices.  (As each
choice sequence consists of one index below `n`, one below `n-1`, …, uniform independent indexes make all `n!` permutations
equally likely.) -/
theorem shuffle_each_permutation_once (a b : List α) (hnd : a.Nodup) (hp : b.Perm a) :
    ∃ ks, (ValidChoices a.length ks ∧ shuffleWith a a.length ks = some b) ∧
      ∀ ks', ValidChoices a.length ks' ∧ shuffleWith a a.length ks' = some b → ks' = ks := by
  suffices h : ∀ (n : Nat) (a b : List α), a.Nodup → b.Perm a → n ≤ a.length → b.drop n = a.drop n →
      ∃ ks, (ValidChoices n ks ∧ shuffleWith a n ks = some b) ∧
        ∀ ks', ValidChoices n ks' ∧ shuffleWith a n ks' = some b → ks' = ks from
    h a.length a b hnd hp (Nat.le_refl _) (by
      rw [List.drop_of_length_le (Nat.le_refl _), List.drop_of_length_le (Nat.le_of_eq hp.length_eq)])
  intro n
  induction n with
  | zero =>
    intro a b _ hp _ hd
    have : b = a := by simpa using hd
    subst this
    exact ⟨[], ⟨rfl, by simp [shuffleWith]⟩, fun ks' h => h.1⟩
  | succ n ih =>
    intro a b hnd hp hn hd
    rcases n with _ | n
    · have hab : b = a := by
        have hp' := hp
        rw [← List.take_append_drop 1 a, ← List.take_append_drop 1 b, hd] at hp'
        have h1 := (List.perm_append_right_iff _).1 hp'
        have hlb : b.length = a.length := hp.length_eq
        rw [← List.take_append_drop 1 a, ← List.take_append_drop 1 b, hd]
        congr 1
        rcases a with _ | ⟨x, a⟩
        · simp at hn
        · rcases b with _ | ⟨y, b⟩
          · simp at hlb
          · simpa using h1
      subst hab
      exact ⟨[], ⟨rfl, by simp [shuffleWith]⟩, fun ks' h => h.1⟩
    · -- the final entry `n + 1` has to be fetched from its unique position in `a`
      have hlb : b.length = a.length := hp.length_eq
      have hmem : b[n + 1] ∈ a.take (n + 2) := by
        have h1 : b[n + 1] ∈ b.take (n + 2) := by
          rw [List.mem_iff_getElem?]
          exact ⟨n + 1, by rw [List.getElem?_take, if_pos (by omega), List.getElem?_eq_getElem]⟩
        have hp' := hp
        rw [← List.take_append_drop (n + 2) a, ← List.take_append_drop (n + 2) b, hd] at hp'
        exact ((List.perm_append_right_iff _).1 hp').subset h1
      obtain ⟨k, hk, hkx⟩ := List.mem_iff_getElem.1 hmem
      have hk' : k < n + 2 := by simp at hk; omega
      have hka : a[k] = b[n + 1] := by simpa using hkx
      have hsw := swp_of_lt (l := a) (i := n + 1) (j := k) (by omega) (by omega)
      have hperm := swp_perm hsw
      obtain ⟨ks, ⟨hv, hs⟩, huniq⟩ := ih _ b (hperm.nodup_iff.2 hnd) (hp.trans hperm.symm)
        (by rw [swp_length hsw]; omega)
        (by
          apply List.ext_getElem?
          intro i
          rw [List.getElem?_drop, List.getElem?_drop, swp_getElem? hsw]
          by_cases hi : i = 0
          · subst hi
            by_cases hkk : k = n + 1
            · subst hkk
              rw [if_pos rfl, List.getElem?_eq_getElem (by omega), List.getElem?_eq_getElem (by omega)]
              simp only [Nat.add_zero]
              rw [hka]
            · rw [if_neg (by omega), if_pos rfl, List.getElem?_eq_getElem (by omega), List.getElem?_eq_getElem (by omega)]
              simp only [Nat.add_zero]
              rw [hka]
          · rw [if_neg (by omega), if_neg (by omega)]
            have := congrArg (fun l => l[i - 1]?) hd
            simp only [List.getElem?_drop] at this
            rw [show n + 1 + 1 + (i - 1) = n + 1 + i by omega] at this
            exact this)
      refine ⟨k :: ks, ⟨⟨hk', hv⟩, ?_⟩, ?_⟩
      · simp only [shuffleWith, hsw, Option.bind_eq_bind, Option.bind_some]; exact hs
      · rintro ks' ⟨hv', hs'⟩
        rcases ks' with _ | ⟨k2, ks2⟩
        · exact absurd hv' (by simp [ValidChoices])
        · obtain ⟨hk2, hv2⟩ := hv'
          have hsw2 := swp_of_lt (l := a) (i := n + 1) (j := k2) (by omega) (by omega)
          simp only [shuffleWith, hsw2, Option.bind_eq_bind, Option.bind_some] at hs'
          -- the entry fetched is the same, hence the same position
          obtain ⟨b', g1, -, g3⟩ := shuffleWith_perm _ (n + 1) ks2 (by rw [swp_length hsw2]; omega) hv2
          have hbb : b' = b := by
            have := g1.symm.trans hs'
            simpa using this
          subst hbb
          have := congrArg (fun l => l[0]?) g3
          simp only [List.getElem?_drop, Nat.add_zero] at this
          rw [swp_getElem? hsw2] at this
          have hk2a : a[k2] = a[k] := by
            rw [hka]
            by_cases hkk : n + 1 = k2
            · rw [if_pos hkk, List.getElem?_eq_getElem (by omega), List.getElem?_eq_getElem (by omega)] at this
              subst hkk
              simpa using this.symm
            · rw [if_neg hkk, if_pos rfl, List.getElem?_eq_getElem (by omega), List.getElem?_eq_getElem (by omega)] at this
              simpa using this.symm
          have hkeq : k2 = k := (List.Nodup.getElem_inj_iff hnd).1 hk2a
          subst hkeq
          rw [huniq ks2 ⟨hv2, hs'⟩]

/-! ### Examples -/

/-- A generator meeting `InRange`: a counter reduced modulo the range. -/
example : InRange (σ := Nat) (fun _ => True) 1000 (fun s range => if range = 0 then none else some (s % range, s + 1)) := by
  intro s range _ h _
  exact ⟨s % range, s + 1, by simp; omega, Nat.mod_lt _ h, trivial⟩

example : ValidChoices 4 [3, 0, 1] ∧ shuffleWith [10, 20, 30, 40] 4 [3, 0, 1] = some [30, 20, 10, 40] := by
  refine ⟨by simp [ValidChoices], by decide⟩

example : [40, 10, 30, 20].Perm [10, 20, 30, 40] ∧ [10, 20, 30, 40].Nodup := by decide

end Verif.Random
