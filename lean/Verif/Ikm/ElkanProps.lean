import Verif.Ikm.ElkanLemmas
import Mathlib.Tactic.IntervalCases

/-!
# Accelerated training of integer k-means: properties (C165, C166)
-/

namespace Verif.Ikm

variable {data : List UInt8} {M K N : Nat}

/-! ## Specification -/

/-- Squared distance of datum `j` and centre `k`. -/
def gap (data : List UInt8) (M : Nat) (cs : List Int) (j k : Nat) : Int := sq M (pt data M j) (ctr cs M k)

/-- Each datum either stays where it is or goes to a centre that is nearer. -/
def Improves (data : List UInt8) (M K N : Nat) (cs : List Int) (a a' : Nat → Nat) : Prop :=
  ∀ j < N, a' j < K ∧ (a' j = a j ∨ gap data M cs j (a' j) < gap data M cs j (a j))

/-- Each datum is assigned to a nearest centre. -/
def Nearest (data : List UInt8) (M K N : Nat) (cs : List Int) (a : Nat → Nat) : Prop :=
  ∀ j < N, a j < K ∧ ∀ k < K, gap data M cs j (a j) ≤ gap data M cs j k

/-- Centres and assignments that `n` passes can reach: at first the data are assigned to the first nearest of the given centres; in a pass
the centres become the means of their data, and then the assignments improve. -/
inductive Reached (data : List UInt8) (M K N : Nat) (C : List Int) : Nat → List Int → (Nat → Nat) → (Nat → Nat) → Prop
  | first {a cs b} : AllNearest data M K N C a → AreMeans data M K N cs a → Improves data M K N cs a b → Reached data M K N C 1 cs a b
  | pass {n cs a b cs' b'} : Reached data M K N C n cs a b → AreMeans data M K N cs' b →
      Improves data M K N cs' b b' → Reached data M K N C (n + 1) cs' b b'

/-! ## First assignment -/

/-- The bounds hold for the centres `cs`; the upper bounds are at most `U`. -/
structure Valid (data : List UInt8) (M K N : Nat) (cs : List Int) (U : Int) (b : Bounds) (lf : Nat → Nat → Int) (uf : Nat → Int)
    (rf : Nat → Bool) (af : Nat → Nat) : Prop where
  l : Flat b.l K N lf
  u : Arr b.u N uf
  r : Arr b.r N rf
  a : Arr b.asgn N af
  lt : ∀ x < N, af x < K
  lower : ∀ c < K, ∀ x < N, lf c x ≤ gap data M cs x c
  upper : ∀ x < N, gap data M cs x (af x) ≤ uf x
  bound : ∀ x < N, uf x ≤ U

theorem gap_lim (hM : M ≤ 8192) {cs : List Int} (hb : Bytes cs M K) {j k : Nat} (hk : k < K) : gap data M cs j k ≤ lim :=
  byte_lim hM (fun _ _ => pt_byte _ _ _ _) (hb k hk)

theorem ctr_lim (hM : M ≤ 8192) {cs cs' : List Int} (hb : Bytes cs M K) (hb' : Bytes cs' M K) {j k : Nat} (hj : j < K) (hk : k < K) :
    sq M (ctr cs M j) (ctr cs' M k) ≤ lim :=
  byte_lim hM (hb j hj) (hb' k hk)

theorem distLoop_gap (hM : M ≤ 8192) (hd : data.length = N * M) {cs : List Int} (hc : cs.length = K * M) (hb : Bytes cs M K) {j k : Nat}
    (hj : j < N) (hk : k < K) : distLoop cs data M (j * M) k = some (gap data M cs j k) :=
  distLoop_spec hc.ge hd.ge hj hk ((gap_lim hM hb hk).trans (by unfold lim accMax; norm_num))

theorem firstOne_spec (hM : M ≤ 8192) (hd : data.length = N * M) (hK : 0 < K) (hK' : K ≤ 4294967296) {cs : List Int}
    (hc : cs.length = K * M) (hb : Bytes cs M K) {inter : List Int} (hi : InterOk cs M K inter) {b : Bounds} {lf : Nat → Nat → Int}
    {uf : Nat → Int} {af : Nat → Nat} (hl : Flat b.l K N lf) (hu : Arr b.u N uf) (ha : Arr b.asgn N af)
    (hlow : ∀ c < K, ∀ x < N, lf c x ≤ gap data M cs x c) {x : Nat} (hx : x < N) :
    ∃ b' lf' k, firstOne cs inter data M K N x b = some b' ∧ Flat b'.l K N lf' ∧ Arr b'.u N (upd1 uf x (gap data M cs x k)) ∧
      b'.r = b.r ∧ Arr b'.asgn N (upd1 af x k) ∧ (∀ c < K, ∀ x < N, lf' c x ≤ gap data M cs x c) ∧
      FirstNearest K (gap data M cs x) k := by
  unfold firstOne
  rw [distLoop_gap hM hd hc hb hx hK]
  simp only [Option.bind_eq_bind, Option.bind_some]
  obtain ⟨l0, w1, w2⟩ := hl.wr hK hx (gap data M cs x 0)
  rw [Nat.zero_mul, Nat.zero_add] at w1
  rw [w1]
  simp only [Option.bind_some]
  obtain ⟨t, t1, t2, t3, t4, t5⟩ := iter_inv (n := K - 1)
    (f := fun c t => firstStep cs inter data M K N x (c + 1) t) (s := (l0, 0, gap data M cs x 0))
    (fun i (t : List Int × Nat × Int) => (∃ lf, Flat t.1 K N lf ∧ ∀ c < K, ∀ x < N, lf c x ≤ gap data M cs x c) ∧ t.2.1 < K ∧
      t.2.2 = gap data M cs x t.2.1 ∧ FirstNearest (i + 1) (gap data M cs x) t.2.1)
    ⟨⟨_, w2, fun c hcK y hy => by
        simp only [upd2]
        split_ifs with e
        · rw [e.1, e.2]
        · exact hlow c hcK y hy⟩, hK, rfl, Nat.zero_lt_one, fun k hk => by
        rw [show k = 0 by omega], fun k hk => absurd hk (Nat.not_lt_zero _)⟩ (by
    intro i hi' t ⟨⟨lg, g1, g2⟩, g3, g4, n1, n2, n3⟩
    have hiK : i + 1 < K := by omega
    unfold firstStep
    rw [rd_getElem?, hi t.2.1 g3 (i + 1) hiK]
    simp only [Option.bind_eq_bind, Option.bind_some]
    have keep : gap data M cs x t.2.1 ≤ gap data M cs x (i + 1) → FirstNearest (i + 1 + 1) (gap data M cs x) t.2.1 := fun hle =>
      ⟨by omega, fun k' hk' => by
        rcases Nat.lt_or_ge k' (i + 1) with h' | h'
        · exact n2 k' h'
        · rw [show k' = i + 1 by omega]; exact hle, n3⟩
    by_cases hh : sq M (ctr cs M t.2.1) (ctr cs M (i + 1)) / 4 < t.2.2
    · rw [if_pos hh, distLoop_gap hM hd hc hb hx hiK]
      simp only [Option.bind_some]
      obtain ⟨l', v1, v2⟩ := g1.wr hiK hx (gap data M cs x (i + 1))
      rw [Nat.mul_comm N, v1]
      simp only [Option.bind_some]
      have low : ∀ c < K, ∀ y < N, upd2 lg (i + 1) x (gap data M cs x (i + 1)) c y ≤ gap data M cs y c := by
        intro c hcK y hy
        simp only [upd2]
        split_ifs with e
        · rw [e.1, e.2]
        · exact g2 c hcK y hy
      by_cases hlt : gap data M cs x (i + 1) < t.2.2
      · rw [if_pos hlt]
        rw [g4] at hlt
        refine ⟨_, rfl, ⟨_, v2, low⟩, hiK, rfl, by dsimp only; omega, fun k' hk' => ?_, fun k' hk' => ?_⟩
        · rcases Nat.lt_or_ge k' (i + 1) with h' | h'
          · exact le_trans hlt.le (n2 k' h')
          · rw [show k' = i + 1 by omega]
        · exact lt_of_lt_of_le hlt (n2 k' hk')
      · rw [if_neg hlt]
        rw [g4] at hlt
        exact ⟨_, rfl, ⟨_, v2, low⟩, g3, g4, keep (not_lt.mp hlt)⟩
    · rw [if_neg hh]
      refine ⟨_, rfl, ⟨lg, g1, g2⟩, g3, g4, keep ?_⟩
      apply prune
      rw [g4] at hh
      unfold gap at hh
      omega)
  rw [t1]
  simp only [Option.bind_some]
  obtain ⟨lg, g1, g2⟩ := t2
  rw [Nat.mod_eq_of_lt (by omega)]
  obtain ⟨as, a1, a2⟩ := ha.wr hx t.2.1
  obtain ⟨us, u1, u2⟩ := hu.wr hx t.2.2
  rw [a1]
  simp only [Option.bind_some]
  rw [u1]
  simp only [Option.bind_some]
  refine ⟨_, lg, t.2.1, rfl, g1, ?_, rfl, a2, g2, ?_⟩
  · rw [← t4]; exact u2
  · rw [show K = K - 1 + 1 by omega]; exact t5

theorem first_spec (hM : M ≤ 8192) (hd : data.length = N * M) (hK : 0 < K) (hK' : K ≤ 4294967296) {cs : List Int}
    (hc : cs.length = K * M) (hb : Bytes cs M K) {inter : List Int} (hi : InterOk cs M K inter) {ga : List Nat} (hga : ga.length = N) :
    ∃ b lf uf rf af, iter N (firstOne cs inter data M K N)
        ⟨List.replicate (N * K) 0, List.replicate N 0, List.replicate N false, ga⟩ = some b ∧
      Valid data M K N cs lim b lf uf rf af ∧ AllNearest data M K N cs af := by
  obtain ⟨b, h1, ⟨lf, uf, af, h2, h3, h4, h5, h6, h7⟩⟩ := iter_inv (n := N) (f := firstOne cs inter data M K N)
    (s := ⟨List.replicate (N * K) 0, List.replicate N 0, List.replicate N false, ga⟩)
    (fun i (b : Bounds) => ∃ lf uf af, Flat b.l K N lf ∧ Arr b.u N uf ∧ b.r = List.replicate N false ∧ Arr b.asgn N af ∧
      (∀ c < K, ∀ x < N, lf c x ≤ gap data M cs x c) ∧
      ∀ x < i, FirstNearest K (gap data M cs x) (af x) ∧ uf x = gap data M cs x (af x))
    ⟨_, _, _, by rw [Nat.mul_comm]; exact Flat.replicate K N 0, Arr.replicate N 0, rfl, Arr.of_len' hga 0,
      fun c _ x _ => sq_nonneg' _ _ _, fun x hx => by omega⟩ (by
    intro x hx b ⟨lf, uf, af, g1, g2, g3, g4, g5, g6⟩
    obtain ⟨b', lf', k, e1, e2, e3, e4, e5, e6, e7⟩ := firstOne_spec hM hd hK hK' hc hb hi g1 g2 g4 g5 hx
    refine ⟨b', e1, lf', _, _, e2, e3, e4.trans g3, e5, e6, fun y hy => ?_⟩
    simp only [upd1]
    by_cases e : y = x
    · rw [if_pos e, if_pos e, e]; exact ⟨e7, rfl⟩
    · rw [if_neg e, if_neg e]; exact g6 y (by omega))
  refine ⟨b, lf, uf, fun _ => false, af, h1, ⟨h2, h3, by rw [h4]; exact Arr.replicate N false, h5, fun x hx => (h7 x hx).1.1, h6,
    fun x hx => (h7 x hx).2.ge, fun x hx => ?_⟩, fun x hx => (h7 x hx).1⟩
  rw [(h7 x hx).2]
  exact gap_lim hM hb (h7 x hx).1.1

/-! ## Update of the bounds -/

theorem moveCenter_spec (hM : M ≤ 8192) {m cs : List Int} (hm : m.length = K * M) (hmb : Bytes m M K) (hc : cs.length = K * M)
    (hb : Bytes cs M K) {c : Nat} (hcK : c < K) :
    ∃ cs', moveCenter m M c cs = some (cs', sq M (ctr m M c) (ctr cs M c)) ∧ cs'.length = K * M ∧
      ∀ k < K, ∀ i < M, ctr cs' M k i = if k = c then ctr m M k i else ctr cs M k i := by
  obtain ⟨s, h1, h2, h3⟩ := iter_inv (n := M) (f := fun i (s : List Int × Int) => do
      let a ← rd m (c * M + i)
      let b ← rd s.1 (c * M + i)
      let cs ← wr s.1 (c * M + i) a
      let d ← accStep a b s.2
      some (cs, d)) (s := (cs, 0))
    (fun i (s : List Int × Int) => Flat s.1 K M (fun k j => if k = c ∧ j < i then ctr m M k j else ctr cs M k j) ∧
      s.2 = sq i (ctr m M c) (ctr cs M c)) ⟨by simpa using flat_ctr hc, by simp [sq]⟩ (by
    intro i hi s ⟨q1, q2⟩
    rw [(flat_ctr hm).rd hcK hi, q1.rd hcK hi]
    simp only [Option.bind_eq_bind, Option.bind_some, Nat.lt_irrefl, and_false, if_false]
    obtain ⟨l', f1, f2⟩ := q1.wr hcK hi (ctr m M c i)
    rw [f1]
    simp only [Option.bind_some]
    have hle : sq (i + 1) (ctr m M c) (ctr cs M c) ≤ accMax :=
      (sq_mono (by omega) _ _).trans ((ctr_lim hM hmb hb hcK hcK).trans (by unfold lim accMax; norm_num))
    rw [sq_succ] at hle
    rw [q2, accStep_spec (sq_nonneg' _ _ _) hle]
    simp only [Option.bind_some]
    refine ⟨_, rfl, f2.congr fun k _ j _ => ?_, (sq_succ _ _ _).symm⟩
    simp only [upd2]
    by_cases e : k = c ∧ j = i
    · obtain ⟨rfl, rfl⟩ := e
      rw [if_pos ⟨rfl, rfl⟩, if_pos ⟨rfl, by omega⟩]
    · rw [if_neg e]
      by_cases h : k = c ∧ j < i
      · rw [if_pos h, if_pos ⟨h.1, by omega⟩]
      · rw [if_neg h, if_neg (by omega)])
  refine ⟨s.1, ?_, h2.len, fun k hk i hi => ?_⟩
  · unfold moveCenter
    rw [h1, ← h3]
  · rw [Flat.ctr_eq h2 hk hi]
    by_cases e : k = c
    · rw [if_pos ⟨e, hi⟩, if_pos e]
    · rw [if_neg (fun h => e h.1), if_neg e]

theorem gap_congr {cs cs' : List Int} {k : Nat} (h : ∀ i < M, ctr cs M k i = ctr cs' M k i) (x : Nat) :
    gap data M cs x k = gap data M cs' x k := by
  unfold gap sq
  exact Finset.sum_congr rfl fun i hi => by rw [h i (by simpa using hi)]

/-- The bounds of the data when centre `c` moves from `cs` to `cs'`. -/
theorem boundLoop_spec (hM : M ≤ 8192) {cs cs' : List Int} (hb : Bytes cs M K) (hb' : Bytes cs' M K) {c : Nat} (hcK : c < K)
    (hsame : ∀ k < K, k ≠ c → ∀ i < M, ctr cs' M k i = ctr cs M k i) {b : Bounds} {lf : Nat → Nat → Int} {uf : Nat → Int}
    {rf : Nat → Bool} {af : Nat → Nat} (hl : Flat b.l K N lf) (hu : Arr b.u N uf) (hr : Arr b.r N rf) (ha : Arr b.asgn N af)
    (hlt : ∀ x < N, af x < K) (hlow : ∀ k < K, ∀ x < N, lf k x ≤ gap data M cs x k) (hup : ∀ x < N, gap data M cs x (af x) ≤ uf x)
    (hbd : ∀ x < N, af x = c → uf x ≤ lim) :
    ∃ b' lf' uf' rf', iter N (boundStep N c (sq M (ctr cs' M c) (ctr cs M c))) b = some b' ∧ Flat b'.l K N lf' ∧ Arr b'.u N uf' ∧
      Arr b'.r N rf' ∧ b'.asgn = b.asgn ∧ (∀ k < K, ∀ x < N, lf' k x ≤ gap data M cs' x k) ∧
      (∀ x < N, gap data M cs' x (af x) ≤ uf' x) ∧ (∀ x < N, af x = c → uf' x ≤ 2147483647 ∧ rf' x = true) ∧
      ∀ x < N, af x ≠ c → uf' x = uf x ∧ rf' x = rf x := by
  have hg : ∀ k < K, k ≠ c → ∀ x, gap data M cs' x k = gap data M cs x k := fun k hk hne x => gap_congr (hsame k hk hne) x
  have hdl : sq M (ctr cs' M c) (ctr cs M c) ≤ lim := ctr_lim hM hb' hb hcK hcK
  obtain ⟨b', h1, lf', uf', rf', q1, q2, q3, q4, q5, q6, q7, q8⟩ := iter_inv (n := N)
    (f := boundStep N c (sq M (ctr cs' M c) (ctr cs M c))) (s := b)
    (fun i (b' : Bounds) => ∃ lf' uf' rf', Flat b'.l K N lf' ∧ Arr b'.u N uf' ∧ Arr b'.r N rf' ∧ b'.asgn = b.asgn ∧
      (∀ k < K, ∀ x < N, lf' k x ≤ gap data M (if x < i then cs' else cs) x k) ∧
      (∀ x < N, gap data M (if x < i then cs' else cs) x (af x) ≤ uf' x) ∧
      (∀ x < i, af x = c → uf' x ≤ 2147483647 ∧ rf' x = true) ∧ ∀ x < N, (af x ≠ c ∨ i ≤ x) → uf' x = uf x ∧ rf' x = rf x)
    ⟨lf, uf, rf, hl, hu, hr, rfl, by simpa using hlow, by simpa using hup, fun x hx => by omega, fun _ _ _ => ⟨rfl, rfl⟩⟩ (by
    intro x hx b' ⟨lf', uf', rf', q1, q2, q3, q4, q5, q6, q7, q8⟩
    unfold boundStep
    rw [q1.rd hcK hx, q4, ha.rd hx]
    simp only [Option.bind_eq_bind, Option.bind_some]
    have q5' := q5 c hcK x hx
    rw [if_neg (Nat.lt_irrefl x)] at q5'
    obtain ⟨v, v1, v2⟩ := lowerBound_spec M (pt data M x) (ctr cs M c) (ctr cs' M c) q5' rfl (gap_lim hM hb hcK) hdl
    rw [v1]
    simp only [Option.bind_some]
    obtain ⟨l', w1, w2⟩ := q1.wr hcK hx v
    rw [w1]
    simp only [Option.bind_some]
    have low : ∀ k < K, ∀ y < N, upd2 lf' c x v k y ≤ gap data M (if y < x + 1 then cs' else cs) y k := by
      intro k hk y hy
      simp only [upd2]
      by_cases e : k = c ∧ y = x
      · rw [if_pos e, e.1, e.2, if_pos (by omega)]; exact v2
      · rw [if_neg e]
        have h5 := q5 k hk y hy
        by_cases hyx : y = x
        · have hkc : k ≠ c := fun h => e ⟨h, hyx⟩
          subst hyx
          rw [if_neg (Nat.lt_irrefl y)] at h5
          rw [if_pos (by omega), hg k hk hkc]
          exact h5
        · by_cases h : y < x
          · rw [if_pos h] at h5; rw [if_pos (by omega)]; exact h5
          · rw [if_neg h] at h5; rw [if_neg (by omega)]; exact h5
    have q6' := q6 x hx
    rw [if_neg (Nat.lt_irrefl x)] at q6'
    have up : ∀ y < N, y ≠ x → gap data M (if y < x + 1 then cs' else cs) y (af y) ≤ uf' y := by
      intro y hy hyx
      have h6 := q6 y hy
      by_cases h : y < x
      · rw [if_pos h] at h6; rw [if_pos (by omega)]; exact h6
      · rw [if_neg h] at h6; rw [if_neg (by omega)]; exact h6
    unfold raiseUpper
    by_cases hca : c = af x
    · rw [if_pos hca]
      dsimp only
      rw [q2.rd hx]
      simp only [Option.bind_eq_bind, Option.bind_some]
      have hbx : uf' x ≤ lim := by rw [(q8 x hx (Or.inr (le_refl _))).1]; exact hbd x hx hca.symm
      rw [← hca] at q6'
      obtain ⟨u', z1, z2, z3⟩ := upperBound_spec M (pt data M x) (ctr cs M c) (ctr cs' M c) q6' rfl hbx hdl
      rw [z1]
      simp only [Option.bind_some]
      obtain ⟨us, y1, y2⟩ := q2.wr hx u'
      obtain ⟨rs, p1, p2⟩ := q3.wr hx true
      rw [y1]
      simp only [Option.bind_some]
      rw [p1]
      simp only [Option.bind_some]
      refine ⟨_, rfl, _, _, _, w2, y2, p2, rfl, low, fun y hy => ?_, fun y hy hay => ?_, fun y hy hay => ?_⟩
      · simp only [upd1]
        by_cases e : y = x
        · rw [if_pos e, e, if_pos (by omega), ← hca]; exact z2
        · rw [if_neg e]; exact up y hy e
      · simp only [upd1]
        by_cases e : y = x
        · rw [if_pos e, if_pos e]; exact ⟨z3, rfl⟩
        · rw [if_neg e, if_neg e]; exact q7 y (by omega) hay
      · have e : y ≠ x := by
          rintro rfl
          rcases hay with h | h
          · exact h hca.symm
          · omega
        simp only [upd1]
        rw [if_neg e, if_neg e]
        exact q8 y hy (by omega)
    · rw [if_neg hca]
      refine ⟨_, rfl, _, _, _, w2, q2, q3, rfl, low, fun y hy => ?_, fun y hy hay => ?_, fun y hy hay => ?_⟩
      · by_cases e : y = x
        · subst e
          rw [if_pos (by omega), hg _ (hlt y hx) (Ne.symm hca)]; exact q6'
        · exact up y hy e
      · have e : y ≠ x := by rintro rfl; exact hca hay.symm
        exact q7 y (by omega) hay
      · exact q8 y hy (by omega))
  refine ⟨b', lf', uf', rf', h1, q1, q2, q3, q4, fun k hk x hx => ?_, fun x hx => ?_, q7, fun x hx h => q8 x hx (Or.inl h)⟩
  · have := q5 k hk x hx; rwa [if_pos hx] at this
  · have := q6 x hx; rwa [if_pos hx] at this

theorem ctr_ext {l l' : List Int} (h : l.length = K * M) (h' : l'.length = K * M) (he : ∀ k < K, ∀ i < M, ctr l M k i = ctr l' M k i) :
    l = l' := by
  apply List.ext_getElem?
  intro n
  rcases Nat.lt_or_ge n (K * M) with hn | hn
  · have hM0 : 0 < M := by
      rcases Nat.eq_zero_or_pos M with h0 | h0
      · rw [h0] at hn; simp at hn
      · exact h0
    have e : n = n / M * M + n % M := by rw [Nat.mul_comm]; exact (Nat.div_add_mod n M).symm
    have h1 : n / M < K := Nat.div_lt_of_lt_mul (by rw [Nat.mul_comm]; exact hn)
    have h2 : n % M < M := Nat.mod_lt _ hM0
    rw [e, (flat_ctr h).get _ h1 _ h2, (flat_ctr h').get _ h1 _ h2, he _ h1 _ h2]
  · rw [List.getElem?_eq_none (by omega), List.getElem?_eq_none (by omega)]

theorem updateBounds_spec (hM : M ≤ 8192) {m cs : List Int} (hm : m.length = K * M) (hmb : Bytes m M K) (hc : cs.length = K * M)
    (hb : Bytes cs M K) {b : Bounds} {lf : Nat → Nat → Int} {uf : Nat → Int} {rf : Nat → Bool} {af : Nat → Nat}
    (hv : Valid data M K N cs lim b lf uf rf af) :
    ∃ b' lf' uf', updateBounds m M K N cs b = some (m, b') ∧ Valid data M K N m 2147483647 b' lf' uf' (fun _ => true) af := by
  obtain ⟨t, h1, h2, h3, lf', uf', rf', q1, q2, q3, q4, q5, q6, q7, q8⟩ := iter_inv (n := K)
    (f := fun c (t : List Int × Bounds) => do
      let r ← moveCenter m M c t.1
      let b ← iter N (boundStep N c r.2) t.2
      some (r.1, b)) (s := (cs, b))
    (fun c (t : List Int × Bounds) => t.1.length = K * M ∧
      (∀ k < K, ∀ i < M, ctr t.1 M k i = if k < c then ctr m M k i else ctr cs M k i) ∧
      ∃ lf' uf' rf', Flat t.2.l K N lf' ∧ Arr t.2.u N uf' ∧ Arr t.2.r N rf' ∧ t.2.asgn = b.asgn ∧
      (∀ k < K, ∀ x < N, lf' k x ≤ gap data M t.1 x k) ∧ (∀ x < N, gap data M t.1 x (af x) ≤ uf' x) ∧
      (∀ x < N, af x < c → uf' x ≤ 2147483647 ∧ rf' x = true) ∧ ∀ x < N, c ≤ af x → uf' x = uf x)
    ⟨hc, fun _ _ _ _ => by simp, lf, uf, rf, hv.l, hv.u, hv.r, rfl, hv.lower, hv.upper, fun x _ h => by omega, fun _ _ _ => rfl⟩ (by
    rintro c hcK ⟨cc, bb⟩ ⟨g1, g2, lf', uf', rf', q1, q2, q3, q4, q5, q6, q7, q8⟩
    dsimp only at g1 g2 q1 q2 q3 q4 q5 q6 q7 q8 ⊢
    have hbc : Bytes cc M K := by
      intro k hk i hi
      rw [g2 k hk i hi]
      split_ifs
      · exact hmb k hk i hi
      · exact hb k hk i hi
    obtain ⟨cs', e1, e2, e3⟩ := moveCenter_spec hM hm hmb g1 hbc hcK
    rw [e1]
    simp only [Option.bind_eq_bind, Option.bind_some]
    have hrow : ∀ i < M, ctr cs' M c i = ctr m M c i := fun i hi => by rw [e3 c hcK i hi, if_pos rfl]
    have hb' : Bytes cs' M K := by
      intro k hk i hi
      rw [e3 k hk i hi]
      split_ifs
      · exact hmb k hk i hi
      · exact hbc k hk i hi
    have hsq : sq M (ctr m M c) (ctr cc M c) = sq M (ctr cs' M c) (ctr cc M c) := by
      unfold sq
      exact Finset.sum_congr rfl fun i hi => by rw [hrow i (by simpa using hi)]
    rw [hsq]
    obtain ⟨b', lf2, uf2, rf2, w0, w1, w2, w3, w4, w5, w6, w7, w8⟩ := boundLoop_spec hM hbc hb' hcK
      (fun k hk hne i hi => by rw [e3 k hk i hi, if_neg hne]) q1 q2 q3 (by rw [q4]; exact hv.a) hv.lt q5 q6
      (fun x hx h => by rw [q8 x hx h.ge]; exact hv.bound x hx)
    rw [w0]
    refine ⟨_, rfl, e2, fun k hk i hi => ?_, lf2, uf2, rf2, w1, w2, w3, w4.trans q4, w5, w6, fun x hx h => ?_, fun x hx h => ?_⟩
    · dsimp only
      rw [e3 k hk i hi, g2 k hk i hi]
      by_cases e : k = c
      · rw [if_pos e, if_pos (by omega)]
      · rw [if_neg e]
        by_cases h : k < c
        · rw [if_pos h, if_pos (by omega)]
        · rw [if_neg h, if_neg (by omega)]
    · by_cases e : af x = c
      · exact w7 x hx e
      · obtain ⟨p1, p2⟩ := w8 x hx e
        rw [p1, p2]
        exact q7 x hx (by omega)
    · rw [(w8 x hx (by omega)).1]
      exact q8 x hx (by omega))
  have ht : t.1 = m := ctr_ext h2 hm fun k hk i hi => by rw [h3 k hk i hi, if_pos hk]
  refine ⟨t.2, lf', uf', ?_, q1, q2, q3.congr fun x hx => (q7 x hx (hv.lt x hx)).2, by rw [q4]; exact hv.a, hv.lt, ht ▸ q5, ht ▸ q6,
    fun x hx => (q7 x hx (hv.lt x hx)).1⟩
  unfold updateBounds
  rw [h1, ← ht]

/-! ## Assignments -/

theorem closest_spec {cs inter : List Int} (hi : InterOk cs M K inter) {s : List Int} (hs : s.length = K) :
    ∃ s' v, closest inter K s = some s' ∧ Arr s' K v ∧
      ∀ c < K, ∀ c' < K, c' ≠ c → v c ≤ sq M (ctr cs M c) (ctr cs M c') / 4 := by
  obtain ⟨s', h1, v, h2, h3⟩ := iter_inv (n := K) (f := fun c s => do
      let b ← closestOne inter K c
      wr s c (b >>> 2)) (s := s)
    (fun i (s : List Int) => ∃ v, Arr s K v ∧ ∀ c < i, ∀ c' < K, c' ≠ c → v c ≤ sq M (ctr cs M c) (ctr cs M c') / 4)
    ⟨_, Arr.of_len' hs 0, fun c hc => by omega⟩ (by
    intro c hc s ⟨v, q1, q2⟩
    obtain ⟨best, b1, b2, b3⟩ := iter_inv (n := K) (f := fun cp best => do
        let d ← rd inter (c * K + cp)
        if c ≠ cp ∧ d < best then some d else some best) (s := accMax)
      (fun i (best : Int) => 0 ≤ best ∧ ∀ c' < i, c' ≠ c → best ≤ sq M (ctr cs M c) (ctr cs M c') / 4)
      ⟨by simp [accMax], fun c' h => by omega⟩ (by
      intro i hiK best ⟨p1, p2⟩
      rw [rd_getElem?, Nat.mul_comm c K, hi c hc i hiK]
      simp only [Option.bind_eq_bind, Option.bind_some]
      have h0 := sq_nonneg' M (ctr cs M c) (ctr cs M i)
      by_cases h : c ≠ i ∧ sq M (ctr cs M c) (ctr cs M i) / 4 < best
      · rw [if_pos h]
        refine ⟨_, rfl, by omega, fun c' h1 h2 => ?_⟩
        by_cases e : c' = i
        · rw [e]
        · exact le_trans h.2.le (p2 c' (by omega) h2)
      · rw [if_neg h]
        refine ⟨_, rfl, p1, fun c' h1 h2 => ?_⟩
        by_cases e : c' = i
        · subst e
          by_contra h3
          exact h ⟨Ne.symm h2, by omega⟩
        · exact p2 c' (by omega) h2)
    have hone : closestOne inter K c = some best := b1
    rw [hone]
    simp only [Option.bind_eq_bind, Option.bind_some]
    obtain ⟨l, e1, e2⟩ := q1.wr hc (best >>> 2)
    refine ⟨l, e1, _, e2, fun k hk c' hc' hne => ?_⟩
    simp only [upd1]
    by_cases e : k = c
    · subst e
      rw [if_pos rfl, shift2]
      have := b3 c' hc' hne
      omega
    · rw [if_neg e]; exact q2 k (by omega) c' hc' hne)
  exact ⟨s', v, h1, h2, h3⟩

theorem excluded_spec {cs inter : List Int} (hi : InterOk cs M K inter) {s : Pass} {lf : Nat → Nat → Int} (hl : Flat s.b.l K N lf)
    {x cx c : Nat} (hx : x < N) (hcx : cx < K) (hc : c < K) :
    excluded inter K N x cx c s = some (decide (s.ux ≤ lf c x ∨ s.ux ≤ sq M (ctr cs M cx) (ctr cs M c) / 4)) := by
  unfold excluded
  rw [Nat.mul_comm N, hl.rd hc hx]
  simp only [Option.bind_eq_bind, Option.bind_some]
  by_cases h : s.ux ≤ lf c x
  · rw [if_pos h]; simp [h]
  · rw [if_neg h, rd_getElem?, hi c hc cx hcx, sq_comm]
    simp [h]

/-- What holds for datum `x` while it is compared with the centres: `i` of them have been treated, `a0`, `u0` and `r0` are the values before. -/
structure PassInv (data : List UInt8) (M K N : Nat) (cs : List Int) (x cx : Nat) (u0 : Nat → Int) (r0 : Nat → Bool) (a0 : Nat → Nat)
    (done0 : Bool) (i : Nat) (s : Pass) (lf : Nat → Nat → Int) (uf : Nat → Int) (rf : Nat → Bool) (af : Nat → Nat) : Prop where
  l : Flat s.b.l K N lf
  u : Arr s.b.u N uf
  r : Arr s.b.r N rf
  a : Arr s.b.asgn N af
  lower : ∀ c < K, ∀ x < N, lf c x ≤ gap data M cs x c
  others : ∀ y < N, y ≠ x → uf y = u0 y ∧ rf y = r0 y ∧ af y = a0 y
  ux : uf x = s.ux
  lt : af x < K
  upper : gap data M cs x (af x) ≤ s.ux
  bound : s.ux ≤ 2147483647
  exact : rf x = false → s.ux = gap data M cs x (af x)
  small : (∃ c < i, c ≠ cx) → s.ux ≤ lim
  change : (af x = cx ∧ s.done = done0 ∧ ∀ c < i, gap data M cs x cx ≤ gap data M cs x c) ∨
    (gap data M cs x (af x) < gap data M cs x cx ∧ s.done = false ∧ rf x = false)

theorem excluded_le {cs : List Int} {x cx c : Nat} {ux v : Int} (hup : gap data M cs x cx ≤ ux) (hv : v ≤ gap data M cs x c)
    (h : ux ≤ v ∨ ux ≤ sq M (ctr cs M cx) (ctr cs M c) / 4) : gap data M cs x cx ≤ gap data M cs x c := by
  rcases h with h | h
  · omega
  · apply prune
    unfold gap at hup
    omega

theorem passStep_spec (hM : M ≤ 8192) (hd : data.length = N * M) (hK' : K ≤ 4294967296) {cs : List Int} (hc : cs.length = K * M)
    (hb : Bytes cs M K) {inter : List Int} (hi : InterOk cs M K inter) {x cx c : Nat} (hx : x < N) (hcx : cx < K) (hcK : c < K)
    {u0 : Nat → Int} {r0 : Nat → Bool} {a0 : Nat → Nat} {done0 : Bool} {s : Pass} {lf : Nat → Nat → Int} {uf : Nat → Int}
    {rf : Nat → Bool} {af : Nat → Nat} (h : PassInv data M K N cs x cx u0 r0 a0 done0 c s lf uf rf af) :
    ∃ s' lf' uf' rf' af', passStep cs inter data M K N x cx c s = some s' ∧
      PassInv data M K N cs x cx u0 r0 a0 done0 (c + 1) s' lf' uf' rf' af' := by
  -- the invariant for the next centre, when only this centre is concerned
  have next : ∀ {s' : Pass} {uf' : Nat → Int} {rf' : Nat → Bool}, PassInv data M K N cs x cx u0 r0 a0 done0 c s' lf uf' rf' af →
      s'.ux ≤ lf c x ∨ s'.ux ≤ sq M (ctr cs M cx) (ctr cs M c) / 4 →
      PassInv data M K N cs x cx u0 r0 a0 done0 (c + 1) s' lf uf' rf' af := by
    intro s' uf' rf' g he
    refine ⟨g.l, g.u, g.r, g.a, g.lower, g.others, g.ux, g.lt, g.upper, g.bound, g.exact, fun _ => ?_, ?_⟩
    · rcases he with he | he
      · exact he.trans ((g.lower c hcK x hx).trans (gap_lim hM hb hcK))
      · have h1 := ctr_lim hM hb hb hcx hcK
        have h2 := sq_nonneg' M (ctr cs M cx) (ctr cs M c)
        omega
    · rcases g.change with ⟨c1, c2, c3⟩ | c1
      · refine Or.inl ⟨c1, c2, fun k hk => ?_⟩
        by_cases e : k = c
        · subst e
          exact excluded_le (c1 ▸ g.upper) (g.lower k hcK x hx) he
        · exact c3 k (by omega)
      · exact Or.inr c1
  unfold passStep
  by_cases hcc : c = cx
  · rw [if_pos hcc]
    refine ⟨s, lf, uf, rf, af, rfl, h.l, h.u, h.r, h.a, h.lower, h.others, h.ux, h.lt, h.upper, h.bound, h.exact, ?_, ?_⟩
    · rintro ⟨k, hk, hne⟩
      exact h.small ⟨k, by omega, hne⟩
    · rcases h.change with ⟨c1, c2, c3⟩ | c1
      · refine Or.inl ⟨c1, c2, fun k hk => ?_⟩
        by_cases e : k = c
        · rw [e, hcc]
        · exact c3 k (by omega)
      · exact Or.inr c1
  rw [if_neg hcc, excluded_spec hi h.l hx hcx hcK]
  simp only [Option.bind_eq_bind, Option.bind_some]
  by_cases he : s.ux ≤ lf c x ∨ s.ux ≤ sq M (ctr cs M cx) (ctr cs M c) / 4
  · rw [if_pos (by simpa using he)]
    exact ⟨s, lf, uf, rf, af, rfl, next h he⟩
  rw [if_neg (by simpa using he), h.r.rd hx]
  simp only [Option.bind_some]
  -- after the bound has been computed again
  have ref : ∃ s' uf' rf' e, refresh cs inter data M K N x cx c (rf x) s = some (s', e) ∧
      PassInv data M K N cs x cx u0 r0 a0 done0 c s' lf uf' rf' af ∧ rf' x = false ∧
      (e = true → s'.ux ≤ lf c x ∨ s'.ux ≤ sq M (ctr cs M cx) (ctr cs M c) / 4) := by
    unfold refresh
    cases hr : rf x with
    | false =>
      rw [if_neg (by simp)]
      exact ⟨s, uf, rf, false, rfl, h, hr, by simp⟩
    | true =>
      rw [if_pos rfl, distLoop_gap hM hd hc hb hx hcx]
      simp only [Option.bind_eq_bind, Option.bind_some]
      have haf : af x = cx ∧ s.done = done0 ∧ ∀ k < c, gap data M cs x cx ≤ gap data M cs x k := by
        rcases h.change with c1 | ⟨_, _, c1⟩
        · exact c1
        · rw [hr] at c1; exact absurd c1 (by simp)
      obtain ⟨us, e1, e2⟩ := h.u.wr hx (gap data M cs x cx)
      obtain ⟨rs, e3, e4⟩ := h.r.wr hx false
      rw [e1]
      simp only [Option.bind_some]
      rw [e3]
      simp only [Option.bind_some]
      rw [excluded_spec (s := ⟨⟨s.b.l, us, rs, s.b.asgn⟩, gap data M cs x cx, s.done⟩) hi h.l hx hcx hcK]
      have hle : gap data M cs x cx ≤ s.ux := haf.1 ▸ h.upper
      refine ⟨_, _, _, _, rfl, ⟨h.l, e2, e4, h.a, h.lower, fun y hy hne => ?_, by simp [upd1], h.lt, by rw [haf.1], hle.trans h.bound,
        fun _ => by rw [haf.1], fun hs => hle.trans (h.small hs), Or.inl haf⟩, by simp [upd1], fun ht => by simpa using ht⟩
      simp only [upd1]
      rw [if_neg hne, if_neg hne]
      exact h.others y hy hne
  obtain ⟨s', uf', rf', e, r1, r2, r3, r4⟩ := ref
  rw [r1]
  simp only [Option.bind_some]
  cases e with
  | true =>
    rw [if_pos rfl]
    exact ⟨s', lf, uf', rf', af, rfl, next r2 (r4 rfl)⟩
  | false =>
    rw [if_neg (by simp)]
    unfold compareTo
    rw [distLoop_gap hM hd hc hb hx hcK]
    simp only [Option.bind_eq_bind, Option.bind_some]
    obtain ⟨l', w1, w2⟩ := r2.l.wr hcK hx (gap data M cs x c)
    rw [Nat.mul_comm N, w1]
    simp only [Option.bind_some]
    have low : ∀ k < K, ∀ y < N, upd2 lf c x (gap data M cs x c) k y ≤ gap data M cs y k := by
      intro k hk y hy
      simp only [upd2]
      split_ifs with e
      · rw [e.1, e.2]
      · exact r2.lower k hk y hy
    have hex := r2.exact r3
    by_cases hlt : gap data M cs x c < s'.ux
    · rw [if_pos hlt]
      obtain ⟨us, e1, e2⟩ := r2.u.wr hx (gap data M cs x c)
      obtain ⟨as, e3, e4⟩ := r2.a.wr hx c
      rw [Nat.mod_eq_of_lt (by omega), e1]
      simp only [Option.bind_some]
      rw [e3]
      simp only [Option.bind_some]
      refine ⟨_, _, _, _, _, rfl, w2, e2, r2.r, e4, low, fun y hy hne => ?_, by simp [upd1], by simpa [upd1] using hcK,
        by simp [upd1], hlt.le.trans r2.bound, fun _ => by simp [upd1], fun _ => gap_lim hM hb hcK, Or.inr ⟨?_, rfl, r3⟩⟩
      · simp only [upd1]
        rw [if_neg hne, if_neg hne]
        exact r2.others y hy hne
      · simp only [upd1, if_true]
        rcases r2.change with ⟨c1, -, -⟩ | ⟨c1, -, -⟩
        · rw [hex, c1] at hlt; exact hlt
        · rw [hex] at hlt; exact hlt.trans c1
    · rw [if_neg hlt]
      refine ⟨_, _, _, _, _, rfl, w2, r2.u, r2.r, r2.a, low, r2.others, r2.ux, r2.lt, r2.upper, r2.bound, r2.exact, fun _ => ?_, ?_⟩
      · exact (not_lt.mp hlt).trans (gap_lim hM hb hcK)
      · rcases r2.change with ⟨c1, c2, c3⟩ | c1
        · refine Or.inl ⟨c1, c2, fun k hk => ?_⟩
          by_cases e : k = c
          · subst e
            rw [hex, c1] at hlt
            exact not_lt.mp hlt
          · exact c3 k (by omega)
        · exact Or.inr c1

/-- What holds after `i` data have been assigned. -/
structure DataInv (data : List UInt8) (M K N : Nat) (cs : List Int) (u0 : Nat → Int) (a0 : Nat → Nat) (i : Nat) (s : Bounds × Bool)
    (lf : Nat → Nat → Int) (uf : Nat → Int) (rf : Nat → Bool) (af : Nat → Nat) : Prop where
  l : Flat s.1.l K N lf
  u : Arr s.1.u N uf
  r : Arr s.1.r N rf
  a : Arr s.1.asgn N af
  lower : ∀ c < K, ∀ x < N, lf c x ≤ gap data M cs x c
  after : ∀ y < N, i ≤ y → uf y = u0 y ∧ rf y = true ∧ af y = a0 y
  upper : ∀ y < i, gap data M cs y (af y) ≤ uf y
  small : 2 ≤ K → ∀ y < i, uf y ≤ lim
  better : ∀ y < i, af y < K ∧ (af y = a0 y ∨ gap data M cs y (af y) < gap data M cs y (a0 y))
  done : s.2 = true → ∀ y < i, af y = a0 y ∧ ∀ k < K, gap data M cs y (a0 y) ≤ gap data M cs y k
  two : s.2 = false → 2 ≤ K

theorem passAll_spec (hM : M ≤ 8192) (hd : data.length = N * M) (hK' : K ≤ 4294967296) {cs : List Int} (hc : cs.length = K * M)
    (hb : Bytes cs M K) {inter : List Int} (hi : InterOk cs M K inter) {near : List Int} {v : Nat → Int} (hn : Arr near K v)
    (hv : ∀ c < K, ∀ c' < K, c' ≠ c → v c ≤ sq M (ctr cs M c) (ctr cs M c') / 4) {b : Bounds} {lf : Nat → Nat → Int} {uf : Nat → Int}
    {af : Nat → Nat} (h : Valid data M K N cs 2147483647 b lf uf (fun _ => true) af) :
    ∃ s lf' uf' rf' af', iter N (passOne cs inter near data M K N) (b, true) = some s ∧
      DataInv data M K N cs uf af N s lf' uf' rf' af' := by
  obtain ⟨s, h1, lf', uf', rf', af', h2⟩ := iter_inv (n := N) (f := passOne cs inter near data M K N) (s := (b, true))
    (fun i (s : Bounds × Bool) => ∃ lf' uf' rf' af', DataInv data M K N cs uf af i s lf' uf' rf' af')
    ⟨lf, uf, fun _ => true, af, h.l, h.u, h.r, h.a, h.lower, fun _ _ _ => ⟨rfl, rfl, rfl⟩, fun y hy => by omega,
      fun _ y hy => by omega, fun y hy => by omega, fun _ y hy => by omega, by simp⟩ (by
    intro x hx s ⟨lg, ug, rg, ag, g⟩
    obtain ⟨g1, g2, g3⟩ := g.after x hx (le_refl x)
    have hcx : ag x < K := by rw [g3]; exact h.lt x hx
    have hup : gap data M cs x (ag x) ≤ ug x := by rw [g1, g3]; exact h.upper x hx
    have hbd : ug x ≤ 2147483647 := by rw [g1]; exact h.bound x hx
    unfold passOne
    rw [g.a.rd hx]
    simp only [Option.bind_eq_bind, Option.bind_some]
    rw [g.u.rd hx]
    simp only [Option.bind_some]
    rw [hn.rd hcx]
    simp only [Option.bind_some]
    by_cases hs : ug x ≤ v (ag x)
    · rw [if_pos hs]
      have hle : ∀ k < K, k ≠ ag x → ug x ≤ sq M (ctr cs M (ag x)) (ctr cs M k) / 4 := fun k hk hne => hs.trans (hv _ hcx k hk hne)
      refine ⟨s, rfl, lg, ug, rg, ag, g.l, g.u, g.r, g.a, g.lower, fun y hy hxy => g.after y hy (by omega), fun y hy => ?_,
        fun h2 y hy => ?_, fun y hy => ?_, fun ht y hy => ?_, g.two⟩
      · by_cases e : y = x
        · rw [e]; exact hup
        · exact g.upper y (by omega)
      · by_cases e : y = x
        · subst e
          obtain ⟨k, hk, hne⟩ : ∃ k < K, k ≠ ag y := by
            by_cases e0 : ag y = 0
            · exact ⟨1, by omega, by omega⟩
            · exact ⟨0, by omega, by omega⟩
          have h3 := hle k hk hne
          have h4 := ctr_lim hM hb hb hcx hk
          have h5 := sq_nonneg' M (ctr cs M (ag y)) (ctr cs M k)
          omega
        · exact g.small h2 y (by omega)
      · by_cases e : y = x
        · rw [e]; exact ⟨hcx, Or.inl g3⟩
        · exact g.better y (by omega)
      · by_cases e : y = x
        · subst e
          refine ⟨g3, fun k hk => ?_⟩
          rw [← g3]
          by_cases ek : k = ag y
          · rw [ek]
          · exact excluded_le (v := gap data M cs y k) hup (le_refl _) (Or.inr (hle k hk ek))
        · exact g.done ht y (by omega)
    · rw [if_neg hs]
      obtain ⟨t, t1, lf', uf', rf', af', t2⟩ := iter_inv (n := K) (f := passStep cs inter data M K N x (ag x)) (s := ⟨s.1, ug x, s.2⟩)
        (fun i (t : Pass) => ∃ lf' uf' rf' af', PassInv data M K N cs x (ag x) ug rg ag s.2 i t lf' uf' rf' af')
        ⟨lg, ug, rg, ag, g.l, g.u, g.r, g.a, g.lower, fun _ _ _ => ⟨rfl, rfl, rfl⟩, rfl, hcx, hup, hbd,
          fun hf => by rw [g2] at hf; exact absurd hf (by simp), fun ⟨k, hk, _⟩ => by omega, Or.inl ⟨rfl, rfl, fun k hk => by omega⟩⟩ (by
        intro c hcK t ⟨lf', uf', rf', af', q⟩
        obtain ⟨t', a1, a2, a3, a4, a5, a6⟩ := passStep_spec hM hd hK' hc hb hi hx hcx hcK q
        exact ⟨t', a5, a1, a2, a3, a4, a6⟩)
      rw [t1]
      simp only [Option.bind_some]
      refine ⟨_, rfl, lf', uf', rf', af', t2.l, t2.u, t2.r, t2.a, t2.lower, fun y hy hxy => ?_, fun y hy => ?_,
        fun h2 y hy => ?_, fun y hy => ?_, fun ht y hy => ?_, fun hf => ?_⟩
      · obtain ⟨o1, o2, o3⟩ := t2.others y hy (by omega)
        rw [o1, o2, o3]
        exact g.after y hy (by omega)
      · by_cases e : y = x
        · rw [e, t2.ux]; exact t2.upper
        · obtain ⟨o1, o2, o3⟩ := t2.others y (by omega) e
          rw [o1, o3]
          exact g.upper y (by omega)
      · by_cases e : y = x
        · rw [e, t2.ux]
          refine t2.small ?_
          by_cases e0 : ag x = 0
          · exact ⟨1, by omega, by omega⟩
          · exact ⟨0, by omega, by omega⟩
        · rw [(t2.others y (by omega) e).1]
          exact g.small h2 y (by omega)
      · by_cases e : y = x
        · subst e
          refine ⟨t2.lt, ?_⟩
          rcases t2.change with ⟨c1, -, -⟩ | ⟨c1, -, -⟩
          · exact Or.inl (c1.trans g3)
          · rw [g3] at c1; exact Or.inr c1
        · rw [(t2.others y (by omega) e).2.2]
          exact g.better y (by omega)
      · rcases t2.change with ⟨c1, c2, c3⟩ | ⟨-, c2, -⟩
        · rw [c2] at ht
          by_cases e : y = x
          · subst e
            rw [g3] at c1 c3
            exact ⟨c1, c3⟩
          · rw [(t2.others y (by omega) e).2.2]
            exact g.done ht y (by omega)
        · rw [c2] at ht; exact absurd ht (by simp)
      · rcases t2.change with ⟨-, c2, -⟩ | ⟨c1, -, -⟩
        · exact g.two (c2 ▸ hf)
        · have hne : af' x ≠ ag x := fun e => by rw [e] at c1; exact lt_irrefl _ c1
          have := t2.lt
          omega)
  exact ⟨s, lf', uf', rf', af', h1, h2⟩

/-! ## Training -/

theorem elkanPass_spec (hM : M ≤ 8192) (hd : data.length = N * M) (hN : N ≤ 8421504) (hKN : K ≤ N) {cs : List Int}
    (hc : cs.length = K * M) (hb : Bytes cs M K) {inter near : List Int} (hi : inter.length = K * K) (hn : near.length = K)
    {counts : List Nat} (hcn : counts.length = N) {b : Bounds} {lf : Nat → Nat → Int} {uf : Nat → Int} {rf : Nat → Bool}
    {af : Nat → Nat} (hv : Valid data M K N cs lim b lf uf rf af) :
    ∃ p lf' uf' rf' af', elkanPass data M K N cs inter near counts b = some p ∧ AreMeans data M K N p.1 af ∧ Bytes p.1 M K ∧
      p.2.1.length = K * K ∧ InterOk p.1 M K p.2.1 ∧ p.2.2.2.1.length = K ∧ p.2.2.2.2.length = N ∧
      Arr p.2.2.1.1.asgn N af' ∧ Improves data M K N p.1 af af' ∧
      (p.2.2.1.2 = true → (∀ j < N, af' j = af j) ∧ Nearest data M K N p.1 af') ∧
      (p.2.2.1.2 = false → Valid data M K N p.1 lim p.2.2.1.1 lf' uf' rf' af') := by
  obtain ⟨m, m1, m2, m3, m4⟩ := trainUpdate_spec hd hN hKN hv.a hv.lt hcn
  obtain ⟨b', lf', uf', u1, u2⟩ := updateBounds_spec hM m3.1 m4 hc hb hv
  have h2 : ∀ k < K, ∀ kp < K, sq M (ctr m.1 M k) (ctr m.1 M kp) ≤ 2147483647 := fun j hj k hk =>
    (ctr_lim hM m4 m4 hj hk).trans (by unfold lim; norm_num)
  obtain ⟨inter', i1, i2, i3⟩ := updateInterDist_spec m3.1.ge hi h2
  obtain ⟨near', v, n1, n2, n3⟩ := closest_spec i3 hn
  obtain ⟨s, lg, ug, rg, ag, s1, s2⟩ := passAll_spec hM hd (by omega) m3.1 m4 i3 n2 n3 u2
  unfold elkanPass
  rw [m1]
  simp only [Option.bind_eq_bind, Option.bind_some]
  rw [u1]
  simp only [Option.bind_some]
  rw [i1]
  simp only [Option.bind_some]
  rw [n1]
  simp only [Option.bind_some]
  rw [s1]
  refine ⟨_, lg, ug, rg, ag, rfl, m3, m4, i2, i3, n2.len, m2, s2.a, s2.better, fun ht => ?_, fun hf => ?_⟩
  · have h := s2.done ht
    refine ⟨fun j hj => (h j hj).1, fun j hj => ⟨(s2.better j hj).1, ?_⟩⟩
    rw [(h j hj).1]
    exact (h j hj).2
  · exact ⟨s2.l, s2.u, s2.r, s2.a, fun x hx => (s2.better x hx).1, s2.lower, s2.upper, s2.small (s2.two hf)⟩

/-- C165: on bytes of dimension at most 8192, accelerated training stops after at most one pass more than the maximum asked for, without
overflow and within the arrays, whatever these contained.  In each pass the centres become the means of their data and no datum goes to a
farther centre.  If it stops before the maximum, each datum is assigned to a nearest centre and each centre is the mean of its data,
rounded down.  The table of the distances of the centres is left ready for `vl_ikm_push`. -/
theorem trainElkan_correct (hM : M ≤ 8192) (hd : data.length = N * M) (hN : N ≤ 8421504) (hK : 0 < K) (hKN : K ≤ N) (maxIters : Nat)
    {centers inter : List Int} (hc : centers.length = K * M) (hb : Bytes centers M K) (hi : inter.length = K * K) {ga gc : List Nat}
    {gs : List Int} (hga : ga.length = N) (hgs : gs.length = K) (hgc : gc.length = N) :
    ∃ t n a b, trainElkan data M K N maxIters centers inter ga gs gc = some t ∧
      Reached data M K N centers n t.centers a b ∧ Arr t.asgn N b ∧ n ≤ maxIters + 1 ∧ Bytes t.centers M K ∧
      InterOk t.centers M K t.inter ∧
      (t.done = true → Nearest data M K N t.centers b ∧ AreMeans data M K N t.centers b) ∧
      (t.done = false → n = maxIters + 1) := by
  have h2 : ∀ k < K, ∀ kp < K, sq M (ctr centers M k) (ctr centers M kp) ≤ 2147483647 := fun j hj k hk =>
    (ctr_lim hM hb hb hj hk).trans (by unfold lim; norm_num)
  obtain ⟨inter', i1, i2, i3⟩ := updateInterDist_spec hc.ge hi h2
  obtain ⟨b0, lf, uf, rf, af, b1, b2, b3⟩ := first_spec hM hd hK (by omega) hc hb i3 hga
  have hmeans : ∀ {cs : List Int} {a a' : Nat → Nat}, (∀ j < N, a' j = a j) → AreMeans data M K N cs a → AreMeans data M K N cs a' := by
    intro cs a a' he ha
    refine ⟨ha.1, fun k hk i hi => ?_⟩
    rw [ha.2 k hk i hi]
    have hfil : ((Finset.range N).filter fun j => a j = k) = (Finset.range N).filter fun j => a' j = k :=
      Finset.filter_congr fun j hj => by rw [he j (by simpa using hj)]
    unfold mass
    rw [hfil]
  suffices h : ∀ n m (cs inter near : List Int) (counts : List Nat) (b : Bounds) lf uf rf af, cs.length = K * M → Bytes cs M K →
      inter.length = K * K → near.length = K → counts.length = N → Valid data M K N cs lim b lf uf rf af →
      (∀ cs' b', AreMeans data M K N cs' af → Improves data M K N cs' af b' → Reached data M K N centers m cs' af b') →
      ∃ t n' a b', elkanLoop data M K N n cs inter near counts b = some t ∧ Reached data M K N centers n' t.centers a b' ∧
        Arr t.asgn N b' ∧ n' ≤ n + m ∧ Bytes t.centers M K ∧ InterOk t.centers M K t.inter ∧
        (t.done = true → Nearest data M K N t.centers b' ∧ AreMeans data M K N t.centers b') ∧ (t.done = false → n' = n + m) by
    obtain ⟨t, n', a, b', t1, t2⟩ := h maxIters 1 centers inter' gs gc b0 lf uf rf af hc hb i2 hgs hgc b2
      (fun cs' b' g1 g2 => Reached.first b3 g1 g2)
    refine ⟨t, n', a, b', ?_, t2⟩
    unfold trainElkan
    rw [i1]
    simp only [Option.bind_eq_bind, Option.bind_some]
    rw [b1]
    exact t1
  intro n
  induction n with
  | zero =>
    intro m cs inter near counts b lf uf rf af hc hb hi hn hcn hv hre
    obtain ⟨p, lg, ug, rg, ag, p1, p2, p3, p4, p5, p6, p7, p8, p9, p10, p11⟩ := elkanPass_spec hM hd hN hKN hc hb hi hn hcn hv
    rw [elkanLoop, p1]
    simp only [Option.bind_eq_bind, Option.bind_some]
    by_cases hp : p.2.2.1.2 = true
    · rw [if_pos hp]
      obtain ⟨q1, q2⟩ := p10 hp
      exact ⟨_, m, af, ag, rfl, hre _ _ p2 p9, p8, by omega, p3, p5, fun _ => ⟨q2, hmeans q1 p2⟩, fun h => absurd h (by simp)⟩
    · rw [if_neg hp]
      exact ⟨_, m, af, ag, rfl, hre _ _ p2 p9, p8, by omega, p3, p5, fun h => absurd h (by simp), fun _ => by omega⟩
  | succ n ih =>
    intro m cs inter near counts b lf uf rf af hc hb hi hn hcn hv hre
    obtain ⟨p, lg, ug, rg, ag, p1, p2, p3, p4, p5, p6, p7, p8, p9, p10, p11⟩ := elkanPass_spec hM hd hN hKN hc hb hi hn hcn hv
    rw [elkanLoop, p1]
    simp only [Option.bind_eq_bind, Option.bind_some]
    by_cases hp : p.2.2.1.2 = true
    · rw [if_pos hp]
      obtain ⟨q1, q2⟩ := p10 hp
      exact ⟨_, m, af, ag, rfl, hre _ _ p2 p9, p8, by omega, p3, p5, fun _ => ⟨q2, hmeans q1 p2⟩, fun h => absurd h (by simp)⟩
    · rw [if_neg hp]
      obtain ⟨t, n', a, b', t1, t2, t3, t4, t5, t6, t7, t8⟩ := ih (m + 1) p.1 p.2.1 p.2.2.2.1 p.2.2.2.2 p.2.2.1.1 lg ug rg ag p2.1 p3 p4 p6
        p7 (p11 (by simpa using hp)) (fun cs' b' g1 g2 => Reached.pass (hre _ _ p2 p9) g1 g2)
      exact ⟨t, n', a, b', t1, t2, t3, by omega, t5, t6, t7, fun h => by have := t8 h; omega⟩

example : trainElkan [0, 10, 1, 11] 1 2 4 5 [0, 1] [7, 7, 7, 7] [9, 9, 9, 9] [5, 5] [3, 3, 3, 3] =
    some ⟨[0, 10], [0, 25, 25, 0], [0, 1, 0, 1], true⟩ := by decide +kernel

example := trainElkan_correct (data := [0, 10, 1, 11]) (M := 1) (K := 2) (N := 4) (by decide) (by decide) (by decide) (by decide)
  (by decide) 5 (centers := [0, 1]) (inter := [7, 7, 7, 7]) (ga := [9, 9, 9, 9]) (gs := [5, 5]) (gc := [3, 3, 3, 3]) (by decide)
  (by unfold Bytes; decide) (by decide) (by decide) (by decide) (by decide)

/-! ## What it does not do -/

/-- Centres that Lloyd's algorithm can reach in `n` iterations: in each the data are assigned to nearest centres and the centres become the
means of their data. -/
inductive LloydReached (data : List UInt8) (M K N : Nat) (C : List Int) : Nat → List Int → Prop
  | start : LloydReached data M K N C 0 C
  | iteration {n cs cs' a} : LloydReached data M K N C n cs → Nearest data M K N cs a → AreMeans data M K N cs' a →
      LloydReached data M K N C (n + 1) cs'

/-- "The Elkan algorithm is an optimized variant of Lloyd" (vl/ikmeans.c:72): its centres are among those that Lloyd's algorithm reaches,
however ties are broken. -/
def ElkanLloydClaim : Prop :=
  ∀ (data : List UInt8) (M K N maxIters : Nat) (centers inter : List Int) (ga : List Nat) (gs : List Int) (gc : List Nat) (t : TrainedElkan),
    data.length = N * M → centers.length = K * M → Bytes centers M K → 0 < K → K ≤ N → inter.length = K * K → ga.length = N →
    gs.length = K → gc.length = N → trainElkan data M K N maxIters centers inter ga gs gc = some t →
    ∃ n, LloydReached data M K N centers n t.centers

/-- The means of the three data of the counterexample, assigned to `v`. -/
def threeMean (v : List Nat) (k : Nat) : Int :=
  (∑ j ∈ Finset.range 3 with v.getD j 0 = k, pt [3, 1, 14] 1 j 0) / (mass 3 (fun j => v.getD j 0) k : Int)

/-- The centres that Lloyd's algorithm reaches in the counterexample. -/
def threeReached : List (List Int) := [[0, 1, 3], [0, 1, 8], [0, 2, 14], [1, 3, 14]]

theorem three_step {cs cs' : List Int} {a : Nat → Nat} (h1 : Nearest [3, 1, 14] 1 3 3 cs a) (h2 : AreMeans [3, 1, 14] 1 3 3 cs' a) :
    ∃ v0 < 3, ∃ v1 < 3, ∃ v2 < 3, (∀ k < 3, gap [3, 1, 14] 1 cs 0 v0 ≤ gap [3, 1, 14] 1 cs 0 k) ∧
      (∀ k < 3, gap [3, 1, 14] 1 cs 1 v1 ≤ gap [3, 1, 14] 1 cs 1 k) ∧ (∀ k < 3, gap [3, 1, 14] 1 cs 2 v2 ≤ gap [3, 1, 14] 1 cs 2 k) ∧
      cs' = [threeMean [v0, v1, v2] 0, threeMean [v0, v1, v2] 1, threeMean [v0, v1, v2] 2] := by
  obtain ⟨a0, b0⟩ := h1 0 (by decide)
  obtain ⟨a1, b1⟩ := h1 1 (by decide)
  obtain ⟨a2, b2⟩ := h1 2 (by decide)
  refine ⟨a 0, a0, a 1, a1, a 2, a2, b0, b1, b2, ?_⟩
  have ha : ∀ j ∈ Finset.range 3, a j = [a 0, a 1, a 2].getD j 0 := by
    intro j hj
    have : j < 3 := by simpa using hj
    interval_cases j <;> rfl
  have key : ∀ k < 3, ctr cs' 1 k 0 = threeMean [a 0, a 1, a 2] k := by
    intro k hk
    rw [h2.2 k hk 0 (by decide)]
    unfold threeMean mass
    have hfil : ((Finset.range 3).filter fun j => a j = k) = (Finset.range 3).filter fun j => [a 0, a 1, a 2].getD j 0 = k :=
      Finset.filter_congr fun j hj => by rw [ha j hj]
    rw [hfil]
  refine ctr_ext (K := 3) (M := 1) h2.1 (by simp) fun k hk i hi => ?_
  obtain rfl : i = 0 := by omega
  rw [key k hk]
  interval_cases k <;> rfl

/-- C166: the claim is false.  When a datum changes its centre, the tests for the other centres still use the old one. -/
theorem elkanLloyd_claim_false : ¬ ElkanLloydClaim := by
  intro h
  obtain ⟨n, hn⟩ := h [3, 1, 14] 1 3 3 200 [0, 1, 3] (List.replicate 9 0) [0, 0, 0] [0, 0, 0] [0, 0, 0]
    ⟨[3, 1, 14], [0, 1, 30, 1, 0, 42, 30, 42, 0], [0, 1, 2], true⟩ (by decide) (by decide) (by unfold Bytes; decide) (by decide) (by decide)
    (by decide) (by decide) (by decide) (by decide) (by decide +kernel)
  have key : ∀ {n cs}, LloydReached [3, 1, 14] 1 3 3 [0, 1, 3] n cs → cs ∈ threeReached := by
    intro n cs hr
    induction hr with
    | start => decide
    | iteration _ g1 g2 ih =>
      obtain ⟨v0, h0, v1, h1, v2, h2, c0, c1, c2, e⟩ := three_step g1 g2
      rw [e]
      clear e g1 g2
      have all : ∀ cs ∈ threeReached, ∀ v0 ∈ List.range 3, ∀ v1 ∈ List.range 3, ∀ v2 ∈ List.range 3,
          ((∀ k ∈ List.range 3, gap [3, 1, 14] 1 cs 0 v0 ≤ gap [3, 1, 14] 1 cs 0 k) ∧
          (∀ k ∈ List.range 3, gap [3, 1, 14] 1 cs 1 v1 ≤ gap [3, 1, 14] 1 cs 1 k) ∧
          (∀ k ∈ List.range 3, gap [3, 1, 14] 1 cs 2 v2 ≤ gap [3, 1, 14] 1 cs 2 k)) →
          [threeMean [v0, v1, v2] 0, threeMean [v0, v1, v2] 1, threeMean [v0, v1, v2] 2] ∈ threeReached := by
        decide +kernel
      exact all _ ih v0 (List.mem_range.mpr h0) v1 (List.mem_range.mpr h1) v2 (List.mem_range.mpr h2)
        ⟨fun k hk => c0 k (List.mem_range.mp hk), fun k hk => c1 k (List.mem_range.mp hk), fun k hk => c2 k (List.mem_range.mp hk)⟩
  exact absurd (key hn) (by decide)

/-- Training works for any number of data (the documentation asks for `N >= 1` only). -/
def ManyCentersClaim : Prop :=
  ∀ (data : List UInt8) (M K N maxIters : Nat) (centers inter : List Int) (ga : List Nat) (gs : List Int) (gc : List Nat), 0 < N → 0 < K →
    data.length = N * M → centers.length = K * M → Bytes centers M K → inter.length = K * K → ga.length = N → gs.length = K → gc.length = N →
    trainElkan data M K N maxIters centers inter ga gs gc ≠ none ∧ trainLloyd data M K N maxIters centers ga gc ≠ none

/-- C166: with more centres than data, both methods write past the end of the array of counts, which has one entry per datum. -/
theorem manyCenters_claim_false : ¬ ManyCentersClaim := by
  intro h
  exact (h [3, 1] 1 3 2 200 [0, 1, 3] (List.replicate 9 0) [0, 0] [0, 0, 0] [0, 0] (by decide) (by decide) (by decide) (by decide)
    (by unfold Bytes; decide) (by decide) (by decide) (by decide) (by decide)).1 (by decide +kernel)

example : trainLloyd [3, 1] 1 3 2 200 [0, 1, 3] [0, 0] [0, 0] = none := by decide +kernel

end Verif.Ikm
