import Verif.Random.MTLemmas
import Verif.Random.ShuffleProps
import Mathlib.Data.Fintype.EquivFin
import Mathlib.Data.Rat.Cast.Order
import Mathlib.Tactic.Linarith
import Mathlib.Tactic.NormNum
import Mathlib.Tactic.FieldSimp
import Mathlib.Tactic.Positivity
import Mathlib.Tactic.Ring

/-! # Properties C05 and C06: ranges of the random numbers, and the MT19937 stream -/

namespace Verif.Random

/-- States of a generator that the library can produce: an array of 624 words and a position of at most 625. -/
def Good (g : VlRand) : Prop := g.mt.length = 624 ∧ g.mti ≤ 625

/-! ### C06 -/

/-- C06: after seeding any generator with `s`, the first `k` numbers returned are the tempered words 624, 625, …, 623 + k of
the MT19937 recurrence started from the words prescribed for `s`; for all `k`. -/
theorem seeded_stream (g : VlRand) (hg : Good g) (s : BitVec 32) (k : Nat) :
    ∃ g' g'', randSeed g s = some g' ∧
      draws g' k = some ((List.range k).map (fun j => Spec.output (Spec.words (Spec.seedWords s) (624 + j))), g'') := by
  obtain ⟨g', h1, h2, h3, h4⟩ := randSeed_spec g s hg.1
  obtain ⟨g'', h5, -⟩ := draws_spec (Spec.seedWords s) k g' N (at_of_words g' _ h2 h3 h4)
  exact ⟨g', g'', h1, h5⟩

/-- C06: seeding erases all history (the resulting state does not depend on the state before). -/
theorem seed_forgets (g₁ g₂ : VlRand) (h₁ : Good g₁) (h₂ : Good g₂) (s : BitVec 32) : randSeed g₁ s = randSeed g₂ s := by
  obtain ⟨a, ha, ha1, ha2, ha3⟩ := randSeed_spec g₁ s h₁.1
  obtain ⟨b, hb, hb1, hb2, hb3⟩ := randSeed_spec g₂ s h₂.1
  rw [ha, hb]
  obtain ⟨am, ai⟩ := a
  obtain ⟨bm, bi⟩ := b
  simp only at *
  subst ha2 hb2
  congr 2
  apply List.ext_getElem?
  intro i
  by_cases hi : i < N
  · rw [ha3 i hi, hb3 i hi]
  · rw [List.getElem?_eq_none (by omega), List.getElem?_eq_none (by omega)]

/-- C06: a generator that was initialised but never seeded behaves as one seeded with 5489. -/
theorem unseeded_stream (k : Nat) :
    ∃ g'', draws randInit (k + 1) =
      some ((List.range (k + 1)).map (fun j => Spec.output (Spec.words (Spec.seedWords 5489#32) (624 + j))), g'') := by
  have hlen : randInit.mt.length = N := by simp [randInit]
  obtain ⟨g', h1, h2, h3, h4⟩ := randSeed_spec randInit 5489#32 hlen
  have hat := at_of_words g' _ h2 h3 h4
  obtain ⟨g'', h5, -⟩ := draws_spec (Spec.seedWords 5489#32) (k + 1) g' N hat
  refine ⟨g'', ?_⟩
  have hfirst : randUint32 randInit = randUint32 g' := by
    have hN := N_val
    have e1 : randInit.mti = N + 1 := rfl
    unfold randUint32 regenerate
    rw [if_pos (by omega : randInit.mti ≥ N), if_pos (by omega : g'.mti ≥ N), if_pos e1, if_neg (by omega), h1]
  rw [draws, hfirst, ← draws]
  exact h5

/-- The state after `t` steps of the initialisation by an array. -/
structure ArrInv (key : List (BitVec 32)) (mt : List (BitVec 32)) (t : Nat) : Prop where
  len : mt.length = 624
  prev : mt[t % 623]? = some (if t = 0 then Spec.seedWords 19650218#32 0 else Spec.arrayWords key (t - 1))
  old : ∀ d < 623, mt[1 + (t + d) % 623]? =
    some (if t + d < 623 then Spec.seedWords 19650218#32 (t + d + 1) else Spec.arrayWords key (t + d - 623))

theorem ArrInv.step {key mt : List (BitVec 32)} {t : Nat} (h : ArrInv key mt t) :
    ∃ r, (if 1 + t % 623 + 1 ≥ N then do
        let l ← rd (mt.set (1 + t % 623) (Spec.arrayWords key t)) (N - 1)
        let mt ← wr (mt.set (1 + t % 623) (Spec.arrayWords key t)) 0 l
        some (mt, 1)
      else some (mt.set (1 + t % 623) (Spec.arrayWords key t), 1 + t % 623 + 1)) = some (r, 1 + (t + 1) % 623) ∧
      ArrInv key r (t + 1) := by
  have hN := N_val
  have hlt : t % 623 < 623 := Nat.mod_lt _ (by omega)
  have hl := h.len
  set mt1 := mt.set (1 + t % 623) (Spec.arrayWords key t) with hmt1
  have hl1 : mt1.length = 624 := by simp [hmt1, hl]
  have hw : mt1[1 + t % 623]? = some (Spec.arrayWords key t) := by rw [hmt1, List.getElem?_set_self (by omega)]
  have hold : ∀ d < 623, mt1[1 + (t + 1 + d) % 623]? =
      some (if t + 1 + d < 623 then Spec.seedWords 19650218#32 (t + 1 + d + 1) else Spec.arrayWords key (t + 1 + d - 623)) := by
    intro d hd
    by_cases e : d = 622
    · subst e
      rw [show (t + 1 + 622) % 623 = t % 623 by omega, hw, if_neg (by omega), show t + 1 + 622 - 623 = t by omega]
    · rw [hmt1, List.getElem?_set_ne (by omega)]
      have := h.old (d + 1) (by omega)
      rw [show t + 1 + d = t + (d + 1) by omega]
      exact this
  by_cases hi : 1 + t % 623 + 1 ≥ N
  · rw [if_pos hi]
    have e1 : 1 + t % 623 = N - 1 := by omega
    have e2 : rd mt1 (N - 1) = some (Spec.arrayWords key t) := by
      rw [e1] at hw
      obtain ⟨h1, h2⟩ := List.getElem?_eq_some_iff.mp hw
      rw [rd_of_lt h1, h2]
    simp only [Option.bind_eq_bind, Option.bind_some, e2]
    rw [wr_of_lt (by omega)]
    simp only [Option.bind_some]
    refine ⟨_, by rw [show (t + 1) % 623 = 0 by omega], by simp [hl1], ?_, fun d hd => ?_⟩
    · rw [show (t + 1) % 623 = 0 by omega, List.getElem?_set_self (by omega), if_neg (by omega)]
      rfl
    · rw [List.getElem?_set_ne (by omega)]; exact hold d hd
  · rw [if_neg hi]
    refine ⟨_, by rw [show 1 + t % 623 + 1 = 1 + (t + 1) % 623 by omega], hl1, ?_, hold⟩
    rw [show (t + 1) % 623 = 1 + t % 623 by omega, hw, if_neg (by omega)]
    rfl

theorem rd_getD {l : List (BitVec 32)} {i : Nat} {x : BitVec 32} (h : l[i]? = some x) : rd l i = some x := by
  obtain ⟨h1, h2⟩ := List.getElem?_eq_some_iff.mp h
  rw [rd_of_lt h1, h2]

theorem seedArray1_words (key : List (BitVec 32)) (hk : key ≠ []) :
    ∀ (k t : Nat) (mt : List (BitVec 32)), t + k = max 624 key.length → ArrInv key mt t →
    ∃ mt', seedArray1 key mt (1 + t % 623) (t % key.length) k = some (mt', 1 + (t + k) % 623) ∧ ArrInv key mt' (t + k) := by
  have hkl : 0 < key.length := List.length_pos_iff.2 hk
  intro k
  induction k with
  | zero => intro t mt _ h; exact ⟨mt, rfl, h⟩
  | succ k ih =>
    intro t mt ht h
    have hN := N_val
    have hlt : t % 623 < 623 := Nat.mod_lt _ (by omega)
    have hj : t % key.length < key.length := Nat.mod_lt _ hkl
    simp only [seedArray1]
    have ho := h.old 0 (by omega)
    simp only [Nat.add_zero] at ho
    have hp := h.prev
    rw [rd_getD ho, show 1 + t % 623 - 1 = t % 623 by omega, rd_getD hp, rd_of_lt hj]
    simp only [Option.bind_eq_bind, Option.bind_some]
    rw [wr_of_lt (by rw [h.len]; omega)]
    simp only [Option.bind_some]
    have hv : ((if t < 623 then Spec.seedWords 19650218#32 (t + 1) else Spec.arrayWords key (t - 623)) ^^^
        (((if t = 0 then Spec.seedWords 19650218#32 0 else Spec.arrayWords key (t - 1)) ^^^
        ((if t = 0 then Spec.seedWords 19650218#32 0 else Spec.arrayWords key (t - 1)) >>> 30)) * 1664525#32)) +
        key[t % key.length] + BitVec.ofNat 32 (t % key.length) = Spec.arrayWords key t := by
      conv_rhs => rw [Spec.arrayWords]
      rw [if_pos (show t < max 624 key.length by omega), List.getD_eq_getElem?_getD, List.getElem?_eq_getElem hj]
      rfl
    rw [hv]
    obtain ⟨r, r1, r2⟩ := h.step
    simp only [Option.bind_eq_bind] at r1
    rw [r1]
    simp only [Option.bind_some]
    have hj' : (if t % key.length + 1 ≥ key.length then 0 else t % key.length + 1) = (t + 1) % key.length := by
      by_cases e : t % key.length + 1 ≥ key.length
      · rw [if_pos e, Nat.add_mod]
        by_cases h1 : key.length = 1
        · rw [h1]; omega
        · rw [Nat.mod_eq_of_lt (show 1 < key.length by omega), show t % key.length + 1 = key.length by omega, Nat.mod_self]
      · rw [if_neg e, Nat.add_mod, Nat.mod_eq_of_lt (show 1 < key.length by omega),
          Nat.mod_eq_of_lt (show t % key.length + 1 < key.length by omega)]
    rw [hj']
    obtain ⟨mt', i1, i2⟩ := ih (t + 1) r (by omega) r2
    refine ⟨mt', ?_, ?_⟩
    · rw [i1, show t + 1 + k = t + (k + 1) by omega]
    · rw [show t + (k + 1) = t + 1 + k by omega]; exact i2

theorem seedArray2_words (key : List (BitVec 32)) :
    ∀ (k t : Nat) (mt : List (BitVec 32)), max 624 key.length ≤ t → ArrInv key mt t →
    ∃ mt', seedArray2 mt (1 + t % 623) k = some mt' ∧ ArrInv key mt' (t + k) := by
  intro k
  induction k with
  | zero => intro t mt _ h; exact ⟨mt, rfl, h⟩
  | succ k ih =>
    intro t mt ht h
    have hN := N_val
    have hlt : t % 623 < 623 := Nat.mod_lt _ (by omega)
    simp only [seedArray2]
    have ho := h.old 0 (by omega)
    simp only [Nat.add_zero] at ho
    have hp := h.prev
    rw [rd_getD ho, show 1 + t % 623 - 1 = t % 623 by omega, rd_getD hp]
    simp only [Option.bind_eq_bind, Option.bind_some]
    rw [wr_of_lt (by rw [h.len]; omega)]
    simp only [Option.bind_some]
    have hv : ((if t < 623 then Spec.seedWords 19650218#32 (t + 1) else Spec.arrayWords key (t - 623)) ^^^
        (((if t = 0 then Spec.seedWords 19650218#32 0 else Spec.arrayWords key (t - 1)) ^^^
        ((if t = 0 then Spec.seedWords 19650218#32 0 else Spec.arrayWords key (t - 1)) >>> 30)) * 1566083941#32)) -
        BitVec.ofNat 32 (1 + t % 623) = Spec.arrayWords key t := by
      conv_rhs => rw [Spec.arrayWords]
      rw [if_neg (show ¬ t < max 624 key.length by omega)]
    rw [hv]
    obtain ⟨r, r1, r2⟩ := h.step
    simp only [Option.bind_eq_bind] at r1
    rw [r1]
    simp only [Option.bind_some]
    obtain ⟨mt', i1, i2⟩ := ih (t + 1) r (by omega) r2
    exact ⟨mt', i1, by rw [show t + (k + 1) = t + 1 + k by omega]; exact i2⟩

/-- C06: seeding any generator by a non-empty array stores exactly the words prescribed for the key. -/
theorem randSeedByArray_spec (g : VlRand) (hg : Good g) (key : List (BitVec 32)) (hk : key ≠ []) :
    ∃ g' w, randSeedByArray g key = some g' ∧ g'.mti = 624 ∧ g'.mt = (List.range 624).map w ∧ Spec.IsArraySeed key w := by
  obtain ⟨g1, h1, h2, h3, h4⟩ := randSeed_spec g 19650218#32 hg.1
  have hN := N_val
  have hT : (if N > key.length then N else key.length) = max 624 key.length := by
    rw [hN]; by_cases h : 624 > key.length
    · rw [if_pos h, Nat.max_eq_left (by omega)]
    · rw [if_neg h, Nat.max_eq_right (by omega)]
  have hinv : ArrInv key g1.mt 0 := by
    refine ⟨by omega, ?_, fun d hd => ?_⟩
    · rw [if_pos rfl]; exact h4 0 (by omega)
    · rw [Nat.zero_add, if_pos hd, Nat.mod_eq_of_lt hd, Nat.add_comm 1 d]; exact h4 (d + 1) (by omega)
  obtain ⟨mt1, q1, q2⟩ := seedArray1_words key hk (max 624 key.length) 0 g1.mt (by omega) hinv
  rw [Nat.zero_add] at q1 q2
  obtain ⟨mt2, q3, q4⟩ := seedArray2_words key 623 (max 624 key.length) mt1 (Nat.le_refl _) q2
  have hl := q4.len
  refine ⟨⟨mt2.set 0 0x80000000#32, g1.mti⟩, fun i => (mt2.set 0 0x80000000#32).getD i 0, ?_, by rw [← hN]; exact h3, ?_, ?_, ?_⟩
  · simp only [Nat.zero_mod, Nat.add_zero] at q1
    simp only [randSeedByArray, h1, Option.bind_eq_bind, Option.bind_some, hT, q1, show N - 1 = 623 from rfl, q3]
    rw [wr_of_lt (by omega)]
    rfl
  · apply List.ext_getElem?
    intro i
    by_cases hi : i < 624
    · rw [List.getElem?_map, List.getElem?_range hi, List.getElem?_eq_getElem (by simp; omega)]
      simp only [Option.map_some, List.getD_eq_getElem?_getD]
      rw [List.getElem?_eq_getElem (by simp; omega)]
      rfl
    · rw [List.getElem?_eq_none (by simp; omega), List.getElem?_eq_none (by simp; omega)]
  · simp only [List.getD_eq_getElem?_getD]
    rw [List.getElem?_set_self (by omega)]
    rfl
  · intro t ht1 ht2
    have := q4.old (t - max 624 key.length) (by omega)
    rw [show max 624 key.length + 623 + (t - max 624 key.length) = t + 623 by omega, Nat.add_mod_right, if_neg (by omega),
      Nat.add_sub_cancel] at this
    simp only [List.getD_eq_getElem?_getD]
    rw [List.getElem?_set_ne (by omega), this]
    rfl

/-- C06: after seeding by a non-empty array the stream is the MT19937 sequence started from the words prescribed for the key. -/
theorem array_seeded_stream (g : VlRand) (hg : Good g) (key : List (BitVec 32)) (hk : key ≠ []) (k : Nat) :
    ∃ g' g'' w, randSeedByArray g key = some g' ∧ Spec.IsArraySeed key w ∧
      draws g' k = some ((List.range k).map (fun j => Spec.output (Spec.words w (624 + j))), g'') := by
  obtain ⟨g', w, h1, h2, h3, h4⟩ := randSeedByArray_spec g hg key hk
  have hN := N_val
  obtain ⟨g'', h5, -⟩ := draws_spec w k g' N (at_of_words g' _ (by rw [h3]; simp [hN]) (by rw [h2, hN]) (by
    intro i hi
    rw [h3, List.getElem?_map, List.getElem?_range (by omega)]; rfl))
  exact ⟨g', g'', w, h1, h4, h5⟩

/-- The words prescribed for a key are determined. -/
theorem arraySeed_unique (key : List (BitVec 32)) (w w' : Nat → BitVec 32) (h : Spec.IsArraySeed key w)
    (h' : Spec.IsArraySeed key w') (i : Nat) (hi : i < 624) : w i = w' i := by
  rcases Nat.eq_zero_or_pos i with h0 | h0
  · rw [h0, h.1, h'.1]
  · set T := max 624 key.length
    obtain ⟨t, t1, t2, t3⟩ : ∃ t, T ≤ t ∧ t < T + 623 ∧ 1 + t % 623 = i :=
      ⟨T + (i - 1 + 623 - T % 623) % 623, by omega, by omega, by omega⟩
    rw [← t3, h.2 t t1 t2, h'.2 t t1 t2]

/-- C06: seeding by an array erases all history as well. -/
theorem array_seed_forgets (g₁ g₂ : VlRand) (h₁ : Good g₁) (h₂ : Good g₂) (key : List (BitVec 32)) :
    randSeedByArray g₁ key = randSeedByArray g₂ key := by
  unfold randSeedByArray
  rw [seed_forgets g₁ g₂ h₁ h₂]

/-- Seeding by an empty array reads outside of it. -/
theorem array_seed_empty_unsafe (g : VlRand) (hg : Good g) : randSeedByArray g [] = none := by
  obtain ⟨g1, h1, h2, -, -⟩ := randSeed_spec g 19650218#32 hg.1
  have hN := N_val
  simp only [randSeedByArray, h1, Option.bind_eq_bind, Option.bind_some, List.length_nil]
  rw [if_pos (by omega)]
  obtain ⟨n, hn⟩ : ∃ n, N = n + 1 := ⟨623, rfl⟩
  have : seedArray1 [] g1.mt 1 0 N = none := by
    rw [hn]
    simp only [seedArray1]
    rw [rd_of_lt (by omega), rd_of_lt (by omega)]
    rfl
  rw [this]
  rfl

theorem xor_eq_zero {d e : BitVec 32} (h : d ^^^ e = 0#32) : d = e := by
  have := congrArg (· ^^^ e) h
  simpa [BitVec.xor_assoc] using this

/-- A word equal to its own right shift (masked or not) vanishes. -/
theorem zero_of_shiftRight (d : BitVec 32) (s : Nat) (hs : 0 < s) (h : d = d >>> s) : d = 0#32 := by
  have key : ∀ n i, 32 - i ≤ n → d.getLsbD i = false := by
    intro n
    induction n with
    | zero => intro i hi; exact BitVec.getLsbD_of_ge d i (by omega)
    | succ n ih =>
      intro i hi
      rw [h, BitVec.getLsbD_ushiftRight]
      by_cases h32 : 32 ≤ i
      · exact BitVec.getLsbD_of_ge d _ (by omega)
      · exact ih _ (by omega)
  apply BitVec.eq_of_getLsbD_eq
  intro i _
  rw [key 32 i (by omega)]; simp

theorem zero_of_shiftLeft (d m : BitVec 32) (s : Nat) (hs : 0 < s) (h : d = (d <<< s) &&& m) : d = 0#32 := by
  have key : ∀ i, d.getLsbD i = false := by
    intro i
    induction i using Nat.strongRecOn with
    | _ i ih =>
      rw [h, BitVec.getLsbD_and, BitVec.getLsbD_shiftLeft]
      by_cases hi : i < s
      · simp [hi]
      · simp [ih (i - s) (by omega)]
  apply BitVec.eq_of_getLsbD_eq
  intro i _
  rw [key i]; simp

theorem xor_shiftRight_inj (s : Nat) (hs : 0 < s) (a b : BitVec 32) (h : a ^^^ (a >>> s) = b ^^^ (b >>> s)) : a = b := by
  apply xor_eq_zero
  apply zero_of_shiftRight _ s hs
  rw [BitVec.ushiftRight_xor_distrib]
  apply BitVec.eq_of_getLsbD_eq
  intro i hi
  have := congrArg (fun z => z.getLsbD i) h
  simp only [BitVec.getLsbD_xor] at this ⊢
  revert this
  generalize a.getLsbD i = p
  generalize b.getLsbD i = q
  generalize (a >>> s).getLsbD i = r
  generalize (b >>> s).getLsbD i = t
  revert p q r t
  decide

theorem xor_shiftLeft_inj (s : Nat) (hs : 0 < s) (m a b : BitVec 32)
    (h : a ^^^ ((a <<< s) &&& m) = b ^^^ ((b <<< s) &&& m)) : a = b := by
  apply xor_eq_zero
  apply zero_of_shiftLeft _ m s hs
  rw [BitVec.shiftLeft_xor_distrib]
  apply BitVec.eq_of_getLsbD_eq
  intro i hi
  have := congrArg (fun z => z.getLsbD i) h
  simp only [BitVec.getLsbD_xor, BitVec.getLsbD_and] at this ⊢
  revert this
  generalize a.getLsbD i = p
  generalize b.getLsbD i = q
  generalize (a <<< s).getLsbD i = r
  generalize (b <<< s).getLsbD i = t
  generalize m.getLsbD i = u
  revert p q r t u
  decide

/-- C06: the tempering is a bijection of 32-bit words, so that no output value is lost or doubled. -/
theorem temper_bijective : Function.Bijective temper := by
  have : Finite (BitVec 32) := Finite.of_injective BitVec.toFin (fun a b h => BitVec.eq_of_toFin_eq h)
  rw [← Finite.injective_iff_bijective]
  intro a b h
  unfold temper at h
  simp only at h
  have h1 := xor_shiftRight_inj 18 (by omega) _ _ h
  have h2 := xor_shiftLeft_inj 15 (by omega) _ _ _ h1
  have h3 := xor_shiftLeft_inj 7 (by omega) _ _ _ h2
  exact xor_shiftRight_inj 11 (by omega) _ _ h3

/-! ### C05 -/

/-- The 32-bit generator never fails on a good state and leaves a good state. -/
theorem randUint32_total (g : VlRand) (hg : Good g) : ∃ y g', randUint32 g = some (y, g') ∧ Good g' := by
  obtain ⟨hlen, hi⟩ := hg
  have hN := N_val
  by_cases h : g.mti = N + 1
  · obtain ⟨g', h1, h2, h3, h4⟩ := randSeed_spec g 5489#32 hlen
    obtain ⟨g2, h5, h6⟩ := randUint32_spec (Spec.seedWords 5489#32) g' N (at_of_words g' _ h2 h3 h4)
    refine ⟨temper (Spec.words (Spec.seedWords 5489#32) N), g2, ?_, ?_⟩
    · rw [← h5]
      unfold randUint32 regenerate
      rw [if_pos (by omega : g.mti ≥ N), if_pos (by omega : g'.mti ≥ N), if_pos h, if_neg (by omega), h1]
    · obtain ⟨h7, b, -, h8⟩ := h6
      exact ⟨h8.len, by omega⟩
  · have hw : ∀ i, i < N → g.mt[i]? = some (g.mt.getD i 0) := by
      intro i hi
      rw [List.getD_eq_getElem?_getD, List.getElem?_eq_getElem (by omega)]
      rfl
    obtain ⟨g2, h5, h6⟩ := randUint32_spec (fun i => g.mt.getD i 0) g (0 + g.mti)
      ⟨by omega, 0, rfl, hlen, fun i hi => by omega, fun i _ hi => by rw [hw i hi, Nat.zero_add, words_lt _ i hi]⟩
    obtain ⟨h7, b, -, h8⟩ := h6
    exact ⟨_, g2, h5, h8.len, by omega⟩

theorem randUint64_total (g : VlRand) (hg : Good g) : ∃ y g', randUint64 g = some (y, g') ∧ Good g' := by
  obtain ⟨y, g1, h1, h2⟩ := randUint32_total g hg
  obtain ⟨z, g2, h3, h4⟩ := randUint32_total g1 h2
  exact ⟨_, g2, by simp [randUint64, h1, h3]; rfl, h4⟩

/-- C05: a bounded random index is below its range, for every non-zero 64-bit range and every generator state. -/
theorem uindex_lt (g : VlRand) (hg : Good g) (range : BitVec 64) (hr : range ≠ 0) :
    ∃ v g', randUindex g range = some (v, g') ∧ v.toNat < range.toNat ∧ Good g' := by
  have hr' : 0 < range.toNat := by
    rcases Nat.eq_zero_or_pos range.toNat with h | h
    · exact absurd (BitVec.eq_of_toNat_eq (by simpa using h)) hr
    · exact h
  unfold randUindex
  by_cases h : range ≤ 0xffffffff#64
  · obtain ⟨y, g1, h1, h2⟩ := randUint32_total g hg
    have hle : range.toNat ≤ 4294967295 := by simpa [BitVec.le_def] using h
    have hset : (range.setWidth 32).toNat = range.toNat := by
      rw [BitVec.toNat_setWidth, Nat.mod_eq_of_lt (by omega)]
    have hne : range.setWidth 32 ≠ 0 := by
      intro h0
      rw [h0] at hset
      simp at hset
      omega
    refine ⟨(y % range.setWidth 32).setWidth 64, g1, ?_, ?_, h2⟩
    · rw [if_pos h]
      have hd : decide (BitVec.setWidth 32 range ≠ 0) = true := by simpa using hne
      simp only [h1, assert', hd, Option.bind_eq_bind, Option.bind_some, if_true]
      rfl
    · rw [BitVec.toNat_setWidth, BitVec.toNat_umod, hset]
      have := Nat.mod_lt y.toNat hr'
      rw [Nat.mod_eq_of_lt (by omega)]
      exact this
  · obtain ⟨y, g1, h1, h2⟩ := randUint64_total g hg
    refine ⟨y % range, g1, ?_, ?_, h2⟩
    · rw [if_neg h]; simp [h1]
    · rw [BitVec.toNat_umod]; exact Nat.mod_lt _ hr'

/-- A zero range divides by zero. -/
theorem uindex_zero (g : VlRand) (hg : Good g) : randUindex g 0 = none := by
  obtain ⟨y, g1, h1, -⟩ := randUint32_total g hg
  unfold randUindex
  rw [if_pos (by decide)]
  simp [h1, assert']

/-- C05: 31-bit integers are in `[0, 2^31)`. -/
theorem int31_range (g : VlRand) (hg : Good g) :
    ∃ v g', randInt31 g = some (v, g') ∧ 0 ≤ v ∧ v < 2 ^ 31 := by
  obtain ⟨y, g1, h1, -⟩ := randUint32_total g hg
  refine ⟨(y >>> 1).toInt, g1, by simp [randInt31, h1], ?_⟩
  have hlt : (y >>> 1).toNat < 2 ^ 31 := by
    rw [BitVec.toNat_ushiftRight, Nat.shiftRight_eq_div_pow]; have := y.isLt; omega
  rw [BitVec.toInt_eq_toNat_cond, if_pos (by omega)]
  omega

/-- C05: 63-bit integers are in `[0, 2^63)`. -/
theorem int63_range (g : VlRand) (hg : Good g) :
    ∃ v g', randInt63 g = some (v, g') ∧ 0 ≤ v ∧ v < 2 ^ 63 := by
  obtain ⟨y, g1, h1, -⟩ := randUint64_total g hg
  refine ⟨(y >>> 1).toInt, g1, by simp [randInt63, h1], ?_⟩
  have hlt : (y >>> 1).toNat < 2 ^ 63 := by
    rw [BitVec.toNat_ushiftRight, Nat.shiftRight_eq_div_pow]; have := y.isLt; omega
  rw [BitVec.toInt_eq_toNat_cond, if_pos (by omega)]
  omega

/-- The 64-bit number is the concatenation of the two 32-bit numbers drawn, first one on top. -/
theorem uint64_value (g g1 g2 : VlRand) (a b : BitVec 32) (h1 : randUint32 g = some (a, g1))
    (h2 : randUint32 g1 = some (b, g2)) :
    ∃ v, randUint64 g = some (v, g2) ∧ v.toNat = a.toNat * 2 ^ 32 + b.toNat := by
  refine ⟨_, by simp [randUint64, h1, h2]; rfl, ?_⟩
  have hb := b.isLt
  have ha := a.isLt
  rw [BitVec.toNat_or, BitVec.toNat_shiftLeft, BitVec.toNat_setWidth, BitVec.toNat_setWidth,
    Nat.mod_eq_of_lt (show a.toNat < 2 ^ 64 by omega), Nat.mod_eq_of_lt (show b.toNat < 2 ^ 64 by omega),
    Nat.shiftLeft_eq, Nat.mod_eq_of_lt (show a.toNat * 2 ^ 32 < 2 ^ 64 by omega), Nat.mul_comm,
    Nat.two_pow_add_eq_or_of_lt hb]

/-- C05: `real1` is in `[0, 1]`. -/
theorem real1_range (g : VlRand) (hg : Good g) : ∃ v g', randReal1 g = some (v, g') ∧ 0 ≤ v ∧ v ≤ 1 := by
  obtain ⟨y, g1, h1, -⟩ := randUint32_total g hg
  refine ⟨_, g1, by simp [randReal1, h1]; rfl, by positivity, ?_⟩
  have : (y.toNat : ℚ) ≤ 4294967295 := by have := y.isLt; exact_mod_cast (by omega : y.toNat ≤ 4294967295)
  linarith

/-- C05: `real2` is in `[0, 1)`. -/
theorem real2_range (g : VlRand) (hg : Good g) : ∃ v g', randReal2 g = some (v, g') ∧ 0 ≤ v ∧ v < 1 := by
  obtain ⟨y, g1, h1, -⟩ := randUint32_total g hg
  refine ⟨_, g1, by simp [randReal2, h1]; rfl, by positivity, ?_⟩
  have : (y.toNat : ℚ) ≤ 4294967295 := by have := y.isLt; exact_mod_cast (by omega : y.toNat ≤ 4294967295)
  linarith

/-- C05: `real3` is in `(0, 1)`. -/
theorem real3_range (g : VlRand) (hg : Good g) : ∃ v g', randReal3 g = some (v, g') ∧ 0 < v ∧ v < 1 := by
  obtain ⟨y, g1, h1, -⟩ := randUint32_total g hg
  refine ⟨_, g1, by simp [randReal3, h1]; rfl, by positivity, ?_⟩
  have : (y.toNat : ℚ) ≤ 4294967295 := by have := y.isLt; exact_mod_cast (by omega : y.toNat ≤ 4294967295)
  linarith

/-- C05: `res53` is in `[0, 1)`, and a multiple of 2^-53. -/
theorem res53_range (g : VlRand) (hg : Good g) :
    ∃ (v : ℚ) (g' : VlRand) (m : Nat), randRes53 g = some (v, g') ∧ v = (m : ℚ) / 2 ^ 53 ∧ 0 ≤ v ∧ v < 1 := by
  obtain ⟨y, g1, h1, h2⟩ := randUint32_total g hg
  obtain ⟨z, g2, h3, -⟩ := randUint32_total g1 h2
  have ha : (y >>> 5).toNat ≤ 134217727 := by
    rw [BitVec.toNat_ushiftRight, Nat.shiftRight_eq_div_pow]; have := y.isLt; omega
  have hb : (z >>> 6).toNat ≤ 67108863 := by
    rw [BitVec.toNat_ushiftRight, Nat.shiftRight_eq_div_pow]; have := z.isLt; omega
  have ha' : ((y >>> 5).toNat : ℚ) ≤ 134217727 := by exact_mod_cast ha
  have hb' : ((z >>> 6).toNat : ℚ) ≤ 67108863 := by exact_mod_cast hb
  refine ⟨(((y >>> 5).toNat : ℚ) * 67108864 + ((z >>> 6).toNat : ℚ)) * (1 / 9007199254740992), g2,
    (y >>> 5).toNat * 67108864 + (z >>> 6).toNat, by simp [randRes53, h1, h3], ?_, by positivity, ?_⟩
  · push_cast; ring
  · linarith

/-- The index generator of the library as seen by the shuffling routines. -/
def mtUindex (g : VlRand) (range : Nat) : Option (Nat × VlRand) := do
  let r ← randUindex g (BitVec.ofNat 64 range)
  pure (r.1.toNat, r.2)

/-- With the library's generator the shuffling routines meet the hypothesis `InRange`: C04 holds for them whatever the state
of the generator (ranges are 64-bit numbers). -/
theorem mtUindex_inRange : InRange Good (2 ^ 64 - 1) mtUindex := by
  intro g range hg h0 hb
  have hn : (BitVec.ofNat 64 range).toNat = range := by
    rw [BitVec.toNat_ofNat, Nat.mod_eq_of_lt (by omega)]
  obtain ⟨v, g', h1, h2, h3⟩ := uindex_lt g hg (BitVec.ofNat 64 range) (by
    intro h
    rw [h] at hn
    simp at hn
    omega)
  exact ⟨v.toNat, g', by simp [mtUindex, h1], by rwa [hn] at h2, h3⟩

/-- C04 with the library's generator, in any state. -/
theorem shuffle_with_mt (g : VlRand) (hg : Good g) {α : Type} (a : List α) (ha : a.length < 2 ^ 64) :
    ∃ b g', shuffle mtUindex g a a.length = some (b, g') ∧ b.Perm a := by
  obtain ⟨b, g', h1, -, h2, -⟩ := shuffle_perm mtUindex Good _ mtUindex_inRange g hg a a.length (Nat.le_refl _) (by omega)
  exact ⟨b, g', h1, h2⟩

/-! ### Examples -/

/-- The initial state of the library is good; so the theorems apply to it. -/
example : Good randInit := ⟨List.length_replicate, Nat.le_refl _⟩

example : ∃ g', randSeed randInit 42#32 = some g' ∧ Good g' := by
  obtain ⟨g', h1, h2, h3, -⟩ := randSeed_spec randInit 42#32 (by simp [randInit])
  exact ⟨g', h1, h2, by rw [h3, N_val]; omega⟩

example : (10 : BitVec 64) ≠ 0 := by decide

end Verif.Random
