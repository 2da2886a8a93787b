import Verif.Random.MTModel
import Verif.Random.MTSpec

/-! # Auxiliary facts about the generator model -/

namespace Verif.Random

theorem N_val : N = 624 := rfl
theorem M_val : M = 397 := rfl

/-- `mt` holds the words `x base, …, x (base + N - 1)`, the first `kk` of them already replaced by those of the next block. -/
structure Mixed (x : Nat → BitVec 32) (mt : List (BitVec 32)) (base kk : Nat) : Prop where
  len : mt.length = N
  new : ∀ i, i < kk → mt[i]? = some (x (base + N + i))
  old : ∀ i, kk ≤ i → i < N → mt[i]? = some (x (base + i))

theorem words_step (w : Nat → BitVec 32) (k : Nat) :
    Spec.words w (k + N) = Spec.words w (k + M) ^^^ Spec.mulA (Spec.join (Spec.words w k) (Spec.words w (k + 1))) := by
  have hN := N_val; have hM := M_val
  rw [Spec.words, if_neg (by omega)]
  simp only [hN, hM, show k + 624 - 227 = k + 397 by omega, show k + 624 - 624 = k by omega, show k + 624 - 623 = k + 1 by omega]

theorem mag01_eq (y : BitVec 32) : mag01 y = if y.getLsbD 0 then 0x9908b0df#32 else 0#32 := by
  unfold mag01 matrixA
  have : (y &&& 1#32 = 0#32) ↔ y.getLsbD 0 = false := by
    constructor
    · intro h
      have := congrArg (fun z => z.getLsbD 0) h
      simpa using this
    · intro h
      apply BitVec.eq_of_getLsbD_eq
      intro i hi
      rcases i with _ | i
      · rw [BitVec.getLsbD_and, h]; rfl
      · simp only [BitVec.getLsbD_and, BitVec.getLsbD_one, BitVec.getLsbD_zero]
        simp
  by_cases h : y.getLsbD 0 = false
  · rw [if_pos (this.2 h), h]; rfl
  · rw [if_neg (fun h' => h (this.1 h'))]; rw [Bool.not_eq_false] at h; rw [h]; rfl

theorem regenWord_step (x w : Nat → BitVec 32) (hx : x = Spec.words w) (mt : List (BitVec 32)) (base kk nxt far : Nat)
    (hm : Mixed x mt base kk) (hkk : kk < N) (hn : mt[nxt]? = some (x (base + kk + 1)))
    (hf : mt[far]? = some (x (base + kk + M))) :
    ∃ mt', regenWord mt kk nxt far = some mt' ∧ Mixed x mt' base (kk + 1) := by
  have hlen := hm.len
  have hself := hm.old kk (Nat.le_refl _) hkk
  refine ⟨mt.set kk (x (base + N + kk)), ?_, ?_, ?_, ?_⟩
  · simp only [regenWord, rd, hself, hn, hf, Option.bind_eq_bind, Option.bind_some]
    rw [wr_of_lt (by omega)]
    congr 2
    rw [show base + N + kk = base + kk + N by omega, hx, words_step, ← hx, mag01_eq]
    simp only [Spec.mulA, Spec.join, upperMask, lowerMask]
    rw [BitVec.xor_assoc]
    rfl
  · simp [hlen]
  · intro i hi
    by_cases hik : i = kk
    · subst hik; rw [List.getElem?_set_self (by omega)]
    · rw [List.getElem?_set_ne (by omega)]; exact hm.new i (by omega)
  · intro i hi hiN
    rw [List.getElem?_set_ne (by omega)]; exact hm.old i (by omega) hiN

theorem regen1_spec (x w : Nat → BitVec 32) (hx : x = Spec.words w) (m : Nat) (mt : List (BitVec 32)) (base kk : Nat)
    (hm : Mixed x mt base kk) (hkk : kk + m ≤ N - M) :
    ∃ mt', regen1 mt kk m = some mt' ∧ Mixed x mt' base (kk + m) := by
  induction m generalizing mt kk with
  | zero => exact ⟨mt, rfl, hm⟩
  | succ m ih =>
    obtain ⟨mt1, h1, h2⟩ := regenWord_step x w hx mt base kk (kk + 1) (kk + M) hm (by have := N_val; have := M_val; omega)
      (hm.old (kk + 1) (by omega) (by have := N_val; have := M_val; omega))
      (by rw [hm.old (kk + M) (by omega) (by have := N_val; have := M_val; omega), Nat.add_assoc])
    obtain ⟨mt2, h3, h4⟩ := ih mt1 (kk + 1) h2 (by omega)
    refine ⟨mt2, ?_, by rwa [show kk + (m + 1) = kk + 1 + m by omega]⟩
    simp only [regen1, h1, Option.bind_eq_bind, Option.bind_some, h3]

theorem regen2_spec (x w : Nat → BitVec 32) (hx : x = Spec.words w) (m : Nat) (mt : List (BitVec 32)) (base kk : Nat)
    (hm : Mixed x mt base kk) (hk1 : N - M ≤ kk) (hkk : kk + m ≤ N - 1) :
    ∃ mt', regen2 mt kk m = some mt' ∧ Mixed x mt' base (kk + m) := by
  induction m generalizing mt kk with
  | zero => exact ⟨mt, rfl, hm⟩
  | succ m ih =>
    obtain ⟨mt1, h1, h2⟩ := regenWord_step x w hx mt base kk (kk + 1) (kk + M - N) hm (by have := N_val; have := M_val; omega)
      (hm.old (kk + 1) (by omega) (by have := N_val; have := M_val; omega))
      (by
        rw [hm.new (kk + M - N) (by have := N_val; have := M_val; omega),
          show base + N + (kk + M - N) = base + kk + M by have := N_val; have := M_val; omega])
    obtain ⟨mt2, h3, h4⟩ := ih mt1 (kk + 1) h2 (by omega) (by omega)
    refine ⟨mt2, ?_, by rwa [show kk + (m + 1) = kk + 1 + m by omega]⟩
    simp only [regen2, h1, Option.bind_eq_bind, Option.bind_some, h3]

/-- The generator `g` is about to deliver the word of index `p` of the sequence `x`. -/
def At (x : Nat → BitVec 32) (g : VlRand) (p : Nat) : Prop :=
  g.mti ≤ N ∧ ∃ base, base + g.mti = p ∧ Mixed x g.mt base 0

theorem regenerate_spec (w : Nat → BitVec 32) (g : VlRand) (p : Nat) (h : At (Spec.words w) g p) (hN : g.mti = N) :
    ∃ g', regenerate g = some g' ∧ At (Spec.words w) g' p ∧ g'.mti = 0 := by
  obtain ⟨-, base, hb, hm⟩ := h
  obtain ⟨mt1, h1, h2⟩ := regen1_spec _ w rfl (N - M) g.mt base 0 hm (by omega)
  obtain ⟨mt2, h3, h4⟩ := regen2_spec _ w rfl (M - 1) mt1 base (N - M) (by simpa using h2) (Nat.le_refl _)
    (by have := N_val; have := M_val; omega)
  have e : N - M + (M - 1) = N - 1 := by have := N_val; have := M_val; omega
  rw [e] at h4
  obtain ⟨mt3, h5, h6⟩ := regenWord_step _ w rfl mt2 base (N - 1) 0 (M - 1) h4
    (by have := N_val; omega)
    (by rw [h4.new 0 (by have := N_val; omega)]; congr 2)
    (by rw [h4.new (M - 1) (by have := N_val; have := M_val; omega)]; congr 2)
  have e2 : N - 1 + 1 = N := by have := N_val; omega
  rw [e2] at h6
  refine ⟨⟨mt3, 0⟩, ?_, ⟨by simp, base + N, by simp [← hb, hN], ?_⟩, rfl⟩
  · simp only [regenerate]
    rw [if_neg (by omega)]
    simp only [Option.bind_eq_bind, Option.bind_some, h1, h3, h5]
    rfl
  · exact ⟨h6.len, fun i hi => by omega, fun i _ hi => h6.new i hi⟩

theorem randUint32_spec (w : Nat → BitVec 32) (g : VlRand) (p : Nat) (h : At (Spec.words w) g p) :
    ∃ g', randUint32 g = some (temper (Spec.words w p), g') ∧ At (Spec.words w) g' (p + 1) := by
  -- first reduce to the case of a non-exhausted block
  suffices hs : ∀ g, At (Spec.words w) g p → g.mti < N →
      ∃ g', (do let y ← rd g.mt g.mti; pure (temper y, { g with mti := g.mti + 1 }) : Option (BitVec 32 × VlRand)) =
        some (temper (Spec.words w p), g') ∧ At (Spec.words w) g' (p + 1) by
    unfold randUint32
    by_cases hN : g.mti = N
    · obtain ⟨g1, h1, h2, h3⟩ := regenerate_spec w g p h hN
      obtain ⟨g', h4, h5⟩ := hs g1 h2 (by rw [h3]; have := N_val; omega)
      refine ⟨g', ?_, h5⟩
      rw [if_pos (by omega), h1]
      simpa using h4
    · obtain ⟨g', h4, h5⟩ := hs g h (by have := h.1; omega)
      refine ⟨g', ?_, h5⟩
      rw [if_neg (by have := h.1; omega)]
      simpa using h4
  rintro g ⟨-, base, hb, hm⟩ hN
  refine ⟨{ g with mti := g.mti + 1 }, ?_, ⟨by simp; omega, base, by simp; omega, hm⟩⟩
  simp only [rd, hm.old g.mti (Nat.zero_le _) hN, hb, Option.bind_eq_bind, Option.bind_some]
  rfl

theorem draws_spec (w : Nat → BitVec 32) (k : Nat) (g : VlRand) (p : Nat) (h : At (Spec.words w) g p) :
    ∃ g', draws g k = some ((List.range k).map (fun j => temper (Spec.words w (p + j))), g') ∧
      At (Spec.words w) g' (p + k) := by
  induction k generalizing g p with
  | zero => exact ⟨g, rfl, h⟩
  | succ k ih =>
    obtain ⟨g1, h1, h2⟩ := randUint32_spec w g p h
    obtain ⟨g2, h3, h4⟩ := ih g1 (p + 1) h2
    refine ⟨g2, ?_, by rwa [show p + (k + 1) = p + 1 + k by omega]⟩
    simp only [draws, h1, Option.bind_eq_bind, Option.bind_some, h3]
    rw [List.range_succ_eq_map]
    simp only [List.map_cons, List.map_map, Nat.add_zero]
    congr 4
    funext j
    simp [Function.comp, Nat.add_assoc, Nat.add_comm 1]

theorem words_lt (w : Nat → BitVec 32) (k : Nat) (h : k < N) : Spec.words w k = w k := by
  rw [Spec.words, if_pos (by have := N_val; omega)]

/-- An array of 624 words is the first block of the sequence it defines. -/
theorem at_of_words (g : VlRand) (w : Nat → BitVec 32) (hlen : g.mt.length = N) (hi : g.mti = N)
    (hw : ∀ i, i < N → g.mt[i]? = some (w i)) : At (Spec.words w) g N := by
  refine ⟨Nat.le_of_eq hi, 0, by omega, hlen, fun i hi => by omega, fun i _ hi => ?_⟩
  rw [hw i hi, Nat.zero_add, words_lt w i hi]

theorem seedLoop_spec (s : BitVec 32) (m : Nat) (mt : List (BitVec 32)) (i : Nat) (hlen : mt.length = N) (hi : i + m = N)
    (h1 : 1 ≤ i) (hw : ∀ j, j < i → mt[j]? = some (Spec.seedWords s j)) :
    ∃ mt', seedLoop mt i m = some mt' ∧ mt'.length = N ∧ ∀ j, j < N → mt'[j]? = some (Spec.seedWords s j) := by
  induction m generalizing mt i with
  | zero => exact ⟨mt, rfl, hlen, fun j hj => hw j (by omega)⟩
  | succ m ih =>
    obtain ⟨i, rfl⟩ : ∃ i', i = i' + 1 := ⟨i - 1, by omega⟩
    obtain ⟨mt', h2, h3, h4⟩ := ih (mt.set (i + 1) (Spec.seedWords s (i + 1))) (i + 1 + 1) (by simp [hlen]) (by omega)
      (by omega) (by
        intro j hj
        by_cases hji : j = i + 1
        · subst hji; rw [List.getElem?_set_self (by omega)]
        · rw [List.getElem?_set_ne (by omega)]; exact hw j (by omega))
    refine ⟨mt', ?_, h3, h4⟩
    simp only [seedLoop, Nat.add_sub_cancel, rd, hw i (by omega), Option.bind_eq_bind, Option.bind_some]
    rw [wr_of_lt (by omega)]
    simp only [Option.bind_some]
    exact h2

theorem randSeed_spec (g : VlRand) (s : BitVec 32) (hlen : g.mt.length = N) :
    ∃ g', randSeed g s = some g' ∧ g'.mt.length = N ∧ g'.mti = N ∧
      ∀ j, j < N → g'.mt[j]? = some (Spec.seedWords s j) := by
  obtain ⟨mt', h1, h2, h3⟩ := seedLoop_spec s (N - 1) (g.mt.set 0 s) 1 (by simp [hlen])
    (by have := N_val; omega) (Nat.le_refl _)
    (by
      intro j hj
      obtain rfl : j = 0 := by omega
      rw [List.getElem?_set_self (by rw [hlen]; have := N_val; omega)]
      rfl)
  refine ⟨⟨mt', N⟩, ?_, h2, rfl, h3⟩
  simp only [randSeed]
  rw [wr_of_lt (by rw [hlen]; have := N_val; omega)]
  simp only [Option.bind_eq_bind, Option.bind_some, h1]
  rfl

/-- Both wrap-around steps of the array seeding. -/
theorem wrap_spec (mt : List (BitVec 32)) (i : Nat) (hlen : mt.length = N) (h2 : i < N) :
    ∃ mt' i', (if i + 1 ≥ N then (do
        let l ← rd mt (N - 1)
        let mt ← wr mt 0 l
        some (mt, 1)) else some (mt, i + 1) : Option (List (BitVec 32) × Nat)) = some (mt', i') ∧
      mt'.length = N ∧ 1 ≤ i' ∧ i' < N := by
  have := N_val
  by_cases h : i + 1 ≥ N
  · refine ⟨mt.set 0 mt[N - 1], 1, ?_, by simp [hlen], Nat.le_refl _, by have := N_val; omega⟩
    rw [if_pos h, rd_of_lt (by rw [hlen]; have := N_val; omega)]
    simp only [Option.bind_eq_bind, Option.bind_some]
    rw [wr_of_lt (by rw [hlen]; have := N_val; omega)]
    rfl
  · exact ⟨mt, i + 1, by rw [if_neg h], hlen, by omega, by omega⟩

theorem seedArray1_spec (key : List (BitVec 32)) (hk : key ≠ []) (k : Nat) (mt : List (BitVec 32)) (i j : Nat)
    (hlen : mt.length = N) (h1 : 1 ≤ i) (h2 : i < N) (hj : j < key.length) :
    ∃ mt' i', seedArray1 key mt i j k = some (mt', i') ∧ mt'.length = N ∧ 1 ≤ i' ∧ i' < N := by
  induction k generalizing mt i j with
  | zero => exact ⟨mt, i, rfl, hlen, h1, h2⟩
  | succ k ih =>
    have hkl : 0 < key.length := List.length_pos_iff.2 hk
    simp only [seedArray1]
    rw [rd_of_lt (by omega), rd_of_lt (by omega), rd_of_lt hj]
    simp only [Option.bind_eq_bind, Option.bind_some]
    rw [wr_of_lt (by omega)]
    simp only [Option.bind_some]
    generalize hmt1 : mt.set i _ = mt1
    have hl1 : mt1.length = N := by rw [← hmt1]; simp [hlen]
    obtain ⟨mt2, i2, g1, g2, g3, g4⟩ := wrap_spec mt1 i hl1 h2
    simp only [Option.bind_eq_bind] at g1
    rw [g1]
    simp only [Option.bind_some]
    exact ih mt2 i2 _ g2 g3 g4 (by split <;> omega)

theorem seedArray2_spec (k : Nat) (mt : List (BitVec 32)) (i : Nat)
    (hlen : mt.length = N) (h1 : 1 ≤ i) (h2 : i < N) :
    ∃ mt', seedArray2 mt i k = some mt' ∧ mt'.length = N := by
  induction k generalizing mt i with
  | zero => exact ⟨mt, rfl, hlen⟩
  | succ k ih =>
    simp only [seedArray2]
    rw [rd_of_lt (by omega), rd_of_lt (by omega)]
    simp only [Option.bind_eq_bind, Option.bind_some]
    rw [wr_of_lt (by omega)]
    simp only [Option.bind_some]
    generalize hmt1 : mt.set i _ = mt1
    have hl1 : mt1.length = N := by rw [← hmt1]; simp [hlen]
    obtain ⟨mt2, i2, g1, g2, g3, g4⟩ := wrap_spec mt1 i hl1 h2
    simp only [Option.bind_eq_bind] at g1
    rw [g1]
    simp only [Option.bind_some]
    exact ih mt2 i2 g2 g3 g4

end Verif.Random
