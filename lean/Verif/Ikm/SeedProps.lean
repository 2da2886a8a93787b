import Verif.Ikm.SeedModel
import Verif.Ikm.ElkanProps
import Mathlib.Data.List.Sort
import Mathlib.Data.List.Perm.Basic

/-!
# Random order of the data and random centres: properties (C170, C171)
-/

namespace Verif.Ikm

/-! ## Specification -/

/-- What `qsort` guarantees: the elements in an order such that none compares greater than a later one. -/
def IsSorted (cmp : SeedPair → SeedPair → Option Int) (l s : List SeedPair) : Prop :=
  s.Perm l ∧ s.Pairwise fun a b => ∃ d, cmp a b = some d ∧ d ≤ 0

/-- `cmp` decides a total order on the elements of `l`: it is defined, zero only for equal elements, changes its sign with the order of its
arguments, and is transitive. -/
structure IsOrder (cmp : SeedPair → SeedPair → Option Int) (l : List SeedPair) : Prop where
  total : ∀ a ∈ l, ∀ b ∈ l, ∃ d, cmp a b = some d
  zero : ∀ a ∈ l, ∀ b ∈ l, cmp a b = some 0 ↔ a = b
  anti : ∀ a ∈ l, ∀ b ∈ l, ∀ d e, cmp a b = some d → cmp b a = some e → (d < 0 ↔ 0 < e)
  trans : ∀ a ∈ l, ∀ b ∈ l, ∀ c ∈ l, ∀ d e f, cmp a b = some d → cmp b c = some e → cmp a c = some f → d ≤ 0 → e ≤ 0 → f ≤ 0

/-! ## Order -/

theorem toInt_id {z : Int} (h : -2147483648 ≤ z) (h' : z < 2147483648) : toInt z = z := by
  unfold toInt
  exact Int.bmod_eq_of_le (by omega) (by omega)

theorem seed_bounds (x : UInt32) : -536870912 ≤ toInt x.toNat >>> 2 ∧ toInt x.toNat >>> 2 < 536870912 := by
  have h1 : -2147483648 ≤ toInt x.toNat := by
    unfold toInt; have := @Int.le_bmod x.toNat 4294967296 (by decide); omega
  have h2 : toInt x.toNat < 2147483648 := by
    unfold toInt; have := @Int.bmod_lt x.toNat 4294967296 (by decide); omega
  rw [Int.shiftRight_eq_div_pow]
  omega

variable {rand : Nat → UInt32} {N : Nat}

theorem mem_seedPairs {p : SeedPair} (hp : p ∈ seedPairs rand N) :
    -536870912 ≤ p.w ∧ p.w < 536870912 ∧ 0 ≤ p.j ∧ p.j < N := by
  unfold seedPairs at hp
  obtain ⟨j, hj, rfl⟩ := List.mem_map.mp hp
  have := seed_bounds (rand j)
  rw [List.mem_range] at hj
  exact ⟨this.1, this.2, by simp, by simpa using hj⟩

theorem cmpPair_eq (hN : N ≤ 2147483648) {a b : SeedPair} (ha : a ∈ seedPairs rand N) (hb : b ∈ seedPairs rand N) :
    cmpPair a b = some (if a.w - b.w ≠ 0 then a.w - b.w else a.j - b.j) := by
  have h1 := mem_seedPairs ha
  have h2 := mem_seedPairs hb
  unfold cmpPair
  simp only
  rw [if_pos (by omega), toInt_id (by omega) (by omega), toInt_id (by omega) (by omega)]
  split
  · rfl
  · rw [if_pos (by omega)]

/-- **C170.** The comparison of the pairs is a total order, so that `qsort` may be called with it, up to 2^31 data. -/
theorem cmpPair_order (rand : Nat → UInt32) (hN : N ≤ 2147483648) : IsOrder cmpPair (seedPairs rand N) := by
  refine ⟨fun a ha b hb => ⟨_, cmpPair_eq hN ha hb⟩, fun a ha b hb => ?_, fun a ha b hb d e => ?_, fun a ha b hb c hc d e f => ?_⟩
  · rw [cmpPair_eq hN ha hb]
    constructor
    · intro h
      simp only [Option.some.injEq] at h
      split at h
      · omega
      · cases a; cases b; simp at *; omega
    · rintro rfl; simp
  · rw [cmpPair_eq hN ha hb, cmpPair_eq hN hb ha]
    simp only [Option.some.injEq]
    intro h1 h2
    split at h1 <;> split at h2 <;> omega
  · rw [cmpPair_eq hN ha hb, cmpPair_eq hN hb hc, cmpPair_eq hN ha hc]
    simp only [Option.some.injEq]
    intro h1 h2 h3
    split at h1 <;> split at h2 <;> split at h3 <;> omega

/-- **C170.** The order of the data, and hence the seeds, depends only on the random numbers and not on how `qsort` sorts: any two results
are equal, and the order is a permutation of the data. -/
theorem seedOrder_unique (rand : Nat → UInt32) (hN : N ≤ 2147483648) {s s' : List SeedPair} (h : IsSorted cmpPair (seedPairs rand N) s)
    (h' : IsSorted cmpPair (seedPairs rand N) s') :
    s = s' ∧ (seedOrder s).Perm (List.range N) := by
  have hord := cmpPair_order rand hN
  constructor
  · refine List.Perm.eq_of_pairwise (fun a b ha hb h1 h2 => ?_) h.2 h'.2 (h.1.trans h'.1.symm)
    have ha' := h.1.mem_iff.mp ha
    have hb' := h'.1.mem_iff.mp hb
    obtain ⟨d, d1, d2⟩ := h1
    obtain ⟨e, e1, e2⟩ := h2
    have := hord.anti a ha' b hb' d e d1 e1
    have : d = 0 := by omega
    rw [this] at d1
    exact (hord.zero a ha' b hb').mp d1
  · have := h.1.map fun p => p.j.toNat
    refine this.trans ?_
    unfold seedPairs
    rw [List.map_map]
    have : ((fun p : SeedPair => p.j.toNat) ∘ fun j => ⟨toInt (rand j).toNat >>> 2, (j : Int)⟩) = (id : Nat → Nat) := by
      funext j; simp
    rw [this, List.map_id]

theorem seed_lockstep {data : List UInt8} {M K : Nat} (hM : M ≤ 33025) (hd : data.length = N * M) (hN : 0 < N) {perm : List Nat}
    (hp : perm.Perm (List.range N)) {g g' : List Int} (hg : g.length = K * M) (hg' : g'.length = K * M) :
    ∀ k ≤ K, ∃ j cs cs', ∃ sel : List Nat, ∃ G G' : Nat → Nat → Int, iter k (seedStep data M N perm) (0, g) = some (j, cs) ∧
      iter k (seedStep data M N perm) (0, g') = some (j, cs') ∧ sel.length = k ∧ j ≤ N - 1 ∧ Flat cs K M G ∧ Flat cs' K M G' ∧
      (∀ c (h : c < sel.length), G c = pt data M sel[c]) ∧ ∀ c (h : c < sel.length), G' c = pt data M sel[c] := by
  have hpl : perm.length = N := by simpa using hp.length_eq
  have hpN : ∀ x ∈ perm, x < N := fun x hx => by simpa using hp.mem_iff.mp hx
  intro k
  induction k with
  | zero => intro _; exact ⟨0, g, g', [], _, _, rfl, rfl, rfl, by omega, flat_ctr hg, flat_ctr hg', by simp, by simp⟩
  | succ k ih =>
    intro hk
    obtain ⟨j, cs, cs', sel, G, G', e1, e2, e3, e4, e5, e6, e7, e8⟩ := ih (by omega)
    subst e3
    clear ih
    have hj : N - 1 - j + j = N - 1 := by omega
    have hk' : sel.length ≤ K := by omega
    obtain ⟨a, a1, a2, a3, a4, a5⟩ := nextCandidate_spec hM hd hpl hpN e5 hk' e7 (N - 1 - j) j hj
    obtain ⟨b, b1, b2, b3, b4, b5⟩ := nextCandidate_spec hM hd hpl hpN e6 hk' e8 (N - 1 - j) j hj
    have hab : a = b := by
      rcases Nat.lt_trichotomy a b with h | h | h
      · obtain ⟨y, hy, hs⟩ := b4 a (by omega) a2 h
        exact absurd hs (a5 (by omega) (by omega) y hy)
      · exact h
      · obtain ⟨y, hy, hs⟩ := a4 b (by omega) b2 h
        exact absurd hs (b5 (by omega) (by omega) y hy)
    subst hab
    have ha' : a < perm.length := by omega
    have hx := hpN _ (List.getElem_mem ha')
    obtain ⟨c, c1, c2⟩ := copyDatum_spec hd hx e5 (show sel.length < K by omega)
    obtain ⟨c', c1', c2'⟩ := copyDatum_spec hd hx e6 (show sel.length < K by omega)
    have hstep : ∀ {cs c : List Int}, nextCandidate cs data M perm sel.length (N - 1 - j) j = some a →
        iter M (fun i cs => do let b ← rd data (perm[a] * M + i); wr cs (sel.length * M + i) (b.toNat : Int)) cs = some c →
        seedStep data M N perm sel.length (j, cs) = some (if a < N - 1 then a + 1 else a, c) := by
      intro cs c h1 h2
      unfold seedStep
      rw [h1]
      simp only [Option.bind_eq_bind, Option.bind_some]
      rw [rd_of_lt ha']
      simp only [Option.bind_some]
      simp only [Option.bind_eq_bind] at h2
      rw [h2]
      rfl
    refine ⟨if a < N - 1 then a + 1 else a, c, c', sel ++ [perm[a]], _, _, ?_, ?_, by simp, by split <;> omega, c2, c2', ?_, ?_⟩
    · rw [iter, e1]; exact hstep a1 c1
    · rw [iter, e2]; exact hstep b1 c1'
    · intro q hq
      by_cases e : q = sel.length
      · subst e; simp
      · simp only [if_neg e]
        rw [List.getElem_append_left (by simp at hq; omega)]
        exact e7 q (by simp at hq; omega)
    · intro q hq
      by_cases e : q = sel.length
      · subst e; simp
      · simp only [if_neg e]
        rw [List.getElem_append_left (by simp at hq; omega)]
        exact e8 q (by simp at hq; omega)

/-- **C170.** The seeding is defined for every sequence of random numbers, and its seeds depend on nothing else: neither on how `qsort`
sorts nor on what the block of the centres contained. -/
theorem seed_deterministic (rand : Nat → UInt32) {data : List UInt8} {M K : Nat} (hM : M ≤ 33025) (hd : data.length = N * M) (hN : 0 < N)
    (hN' : N ≤ 2147483648) {s s' : List SeedPair} (h : IsSorted cmpPair (seedPairs rand N) s) (h' : IsSorted cmpPair (seedPairs rand N) s')
    {g g' : List Int} (hg : g.length = K * M) (hg' : g'.length = K * M) :
    ∃ cs, initRandData data M N K (seedOrder s) g = some cs ∧ initRandData data M N K (seedOrder s') g' = some cs := by
  obtain ⟨e, hp⟩ := seedOrder_unique rand hN' h h'
  subst e
  obtain ⟨j, cs, cs', sel, G, G', e1, e2, e3, e4, e5, e6, e7, e8⟩ := seed_lockstep hM hd hN hp hg hg' K le_rfl
  refine ⟨cs, ?_, ?_⟩
  · unfold initRandData
    rw [e1]; rfl
  · unfold initRandData
    rw [e2]
    have : cs = cs' := ctr_ext e5.len e6.len fun k hk i hi => by
      rw [Flat.ctr_eq e5 hk hi, Flat.ctr_eq e6 hk hi, e7 k (by omega), e8 k (by omega)]
    rw [this]; rfl

/-- Random numbers of which the second is, with its sign, the least. -/
def someRand (j : Nat) : UInt32 := [7, 4294967200, 1234567, 8].getD j 0

example : IsSorted cmpPair (seedPairs someRand 4) [⟨-24, 1⟩, ⟨1, 0⟩, ⟨2, 3⟩, ⟨308641, 2⟩] :=
  ⟨by decide +kernel, by simp [cmpPair]; decide +kernel⟩

/-! ## Random centres -/

/-- The property of `vl_ikm_init_rand`: the quantizer can be initialised with either method, and then data can be projected. -/
def InitRandClaim : Prop :=
  ∀ (elkan : Bool) (rand : Nat → UInt32) (M K : Nat) (gc gi : List Int) (data : List UInt8), 0 < K → gc.length = K * M →
    gi.length = K * K → data.length = M → ∃ r, initRand elkan rand M K gc gi = some r ∧ ∃ a, pushLloyd r.1 [0] data M K 1 = some a

/-- **C171.** Centres with all the bits random are too far apart: the square of the distance of the centres 0 and 2^16 overflows. -/
theorem initRand_claim_false : ¬ InitRandClaim := by
  intro h
  obtain ⟨r, h1, -⟩ := h true (fun j => if j = 0 then 0 else 65536) 1 2 [0, 0] [0, 0, 0, 0] [3] (by decide) rfl rfl rfl
  exact absurd h1 (by rw [show initRand true (fun j => if j = 0 then 0 else 65536) 1 2 [0, 0] [0, 0, 0, 0] = none by decide +kernel]; simp)

/-- **C171, partial.** With the Lloyd method the initialisation is defined, and each component of a centre is the random number drawn
for it, with its sign.  Missing: the projection of data, and the Elkan method; see `initRand_claim_false`. -/
theorem initRand_partial (rand : Nat → UInt32) (M K : Nat) {gc : List Int} (hc : gc.length = K * M) (gi : List Int) :
    ∃ c t, initRand false rand M K gc gi = some (c, t) ∧ c.length = K * M ∧
      ∀ k < K, ∀ i < M, ctr c M k i % 4294967296 = ((rand (k * M + i)).toNat : Int) ∧ -2147483648 ≤ ctr c M k i ∧
        ctr c M k i ≤ 2147483647 := by
  obtain ⟨c, c1, c2⟩ := iter_inv (n := K)
    (f := fun k c => iter M (fun i c => wr c (k * M + i) (toInt (rand (k * M + i)).toNat)) c) (s := gc)
    (fun q (c : List Int) => Flat c K M fun k i => if k < q then toInt (rand (k * M + i)).toNat else ctr gc M k i)
    (by simpa using flat_ctr hc) (by
    intro k hk c hcc
    obtain ⟨c', d1, d2⟩ := iter_inv (n := M) (f := fun i c => wr c (k * M + i) (toInt (rand (k * M + i)).toNat)) (s := c)
      (fun d (c : List Int) => Flat c K M fun k' i => if k' < k ∨ k' = k ∧ i < d then toInt (rand (k' * M + i)).toNat else ctr gc M k' i)
      (by simpa using hcc) (by
      intro d hd c hcd
      obtain ⟨l, l1, l2⟩ := hcd.wr hk hd (toInt (rand (k * M + d)).toNat)
      refine ⟨l, l1, l2.congr fun k' _ i' _ => ?_⟩
      simp only [upd2]
      by_cases e : k' = k ∧ i' = d
      · obtain ⟨rfl, rfl⟩ := e; simp
      · rw [if_neg e]
        by_cases h : k' < k ∨ k' = k ∧ i' < d
        · rw [if_pos h, if_pos (by omega)]
        · rw [if_neg h, if_neg (by omega)])
    refine ⟨c', d1, d2.congr fun k' _ i' hi' => ?_⟩
    by_cases h : k' < k + 1
    · rw [if_pos h, if_pos (by omega)]
    · rw [if_neg h, if_neg (by omega)])
  refine ⟨c, [], ?_, c2.len, fun k hk i hi => ?_⟩
  · unfold initRand
    rw [c1]
    rfl
  · rw [Flat.ctr_eq c2 hk hi, if_pos hk]
    have h1 : -2147483648 ≤ toInt (rand (k * M + i)).toNat := by
      unfold toInt; have := @Int.le_bmod (rand (k * M + i)).toNat 4294967296 (by decide); omega
    have h2 : toInt (rand (k * M + i)).toNat < 2147483648 := by
      unfold toInt; have := @Int.bmod_lt (rand (k * M + i)).toNat 4294967296 (by decide); omega
    refine ⟨?_, h1, by omega⟩
    unfold toInt
    have hm : ∀ z : Int, Int.bmod z 4294967296 % 4294967296 = z % 4294967296 := fun z => Int.bmod_emod
    rw [hm]
    have := (rand (k * M + i)).toNat_lt
    omega

example : (initRand false someRand 2 2 [0, 0, 0, 0] []).map (·.1) = some [7, -96, 1234567, 8] := by decide +kernel

end Verif.Ikm
