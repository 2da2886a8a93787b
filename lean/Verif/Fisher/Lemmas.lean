import Verif.Fisher.Spec
import Verif.Vlad.Props
import Verif.Gmm.EProps

/-!
# Lemmas about the Fisher vector model
-/

namespace Verif.Fisher

open Finset

set_option linter.unusedSectionVars false

variable {K : Type} [Field K] [LinearOrder K] [IsStrictOrderedRing K]

/-- A loop that updates two rows of a matrix. -/
theorem iter_two_rows {α : Type} {l : List α} {R D : Nat} {f : Nat → Nat → α} (h : Flat l R D f) {k k' : Nat} (hk : k < R) (hk' : k' < R) (hne : k ≠ k') (g g' : Nat → α → α) {body : Nat → List α → Option (List α)}
    (hbody : ∀ d < D, ∀ (l : List α) (f : Nat → Nat → α), Flat l R D f → body d l = (wr l (k * D + d) (g d (f k d))).bind (fun l => wr l (k' * D + d) (g' d (f k' d)))) :
    ∃ l', iter D body l = some l' ∧ Flat l' R D (fun a b => if a = k then g b (f k b) else if a = k' then g' b (f k' b) else f a b) := by
  obtain ⟨l', h1, h2⟩ := iter_inv (n := D) (f := body) (s := l)
    (fun d l => Flat l R D (fun a b => if b < d then (if a = k then g b (f k b) else if a = k' then g' b (f k' b) else f a b) else f a b)) (h.congr (by intro a _ b _; simp)) (by
      intro d hd l hl
      obtain ⟨l1, e1, e2⟩ := hl.wr hk hd (g d (f k d))
      obtain ⟨l2, e3, e4⟩ := e2.wr hk' hd (g' d (f k' d))
      refine ⟨l2, ?_, e4.congr ?_⟩
      · rw [hbody d hd l _ hl]
        simp only [if_neg (Nat.lt_irrefl d)]
        rw [e1, Option.bind_some, e3]
      · intro a ha b hb
        unfold upd2
        beta_reduce
        by_cases hb' : b = d
        · subst hb'
          rw [if_pos (Nat.lt_succ_self b)]
          by_cases h1 : a = k'
          · rw [if_pos ⟨h1, rfl⟩, if_neg (by omega), if_pos h1]
          · rw [if_neg (by omega)]
            by_cases h2 : a = k
            · rw [if_pos ⟨h2, rfl⟩, if_pos h2]
            · rw [if_neg (by omega), if_neg (Nat.lt_irrefl b), if_neg h2, if_neg h1]
        · rw [if_neg (by omega), if_neg (by omega)]
          by_cases h3 : b < d
          · rw [if_pos h3, if_pos (show b < d + 1 by omega)]
          · rw [if_neg h3, if_neg (show ¬ b < d + 1 by omega)])
  refine ⟨l', h1, h2.congr ?_⟩
  intro a ha b hb
  rw [if_pos hb]

/-- A loop over all the rows. -/
theorem iter_all {α : Type} {l : List α} {C D : Nat} (h : l.length = C * D) (g : Nat → Nat → α) {body : Nat → Nat → List α → Option (List α)}
    (hbody : ∀ k < C, ∀ d < D, ∀ (l : List α), l.length = C * D → body k d l = wr l (k * D + d) (g k d)) :
    ∃ l', iter C (fun k l => iter D (body k) l) l = some l' ∧ Flat l' C D g := by
  obtain ⟨l', h1, h2, h3⟩ := iter_inv (n := C) (f := fun k l => iter D (body k) l) (s := l)
    (fun n l => l.length = C * D ∧ ∀ k < n, ∀ d < D, l[k * D + d]? = some (g k d)) ⟨h, by omega⟩ (by
      rintro k hk l ⟨hl, hg⟩
      rcases Nat.eq_zero_or_pos D with hD | hD
      · subst hD; exact ⟨l, rfl, hl, by omega⟩
      have hne : Nonempty α := ⟨(l[0]'(by rw [hl]; exact Nat.mul_pos (by omega) hD))⟩
      obtain ⟨l', e1, e2⟩ := iter_row (Flat.of_len hl hne.some) hk (fun d _ => g k d) (body := body k) (by
        intro d hd l f hf
        exact hbody k hk d hd l hf.len)
      refine ⟨l', e1, e2.len, ?_⟩
      intro j hj d hd
      rw [e2.get j (by omega) d hd]
      by_cases hjk : j = k
      · rw [if_pos hjk, hjk]
      · rw [if_neg hjk]
        have h4 := (Flat.of_len hl hne.some).get j (by omega) d hd
        rw [hg j (by omega) d hd] at h4
        exact h4.symm)
  exact ⟨l', h1, ⟨h2, h3⟩⟩

theorem sqrtInv_spec (sq : K → K) {D C : Nat} {cov s : List K} {s2 : Nat → Nat → K} (hs : Flat cov C D s2) (hne : ∀ k < C, ∀ d < D, s2 k d ≠ 0) (hl : s.length = C * D) :
    ∃ s', sqrtInv sq D C cov s = some s' ∧ Flat s' C D (fun k d => sq (1 / s2 k d)) := by
  apply iter_all hl (fun k d => sq (1 / s2 k d))
  intro k hk d hd l hl
  rw [hs.rd hk hd]
  simp only [Option.bind_eq_bind, Option.bind_some]
  unfold assert'
  rw [if_pos (by simpa using hne k hk d hd)]
  rfl

/-- The square root of the inverse is the inverse of the square root. -/
theorem sqrt_inv {sq : K → K} (hsq : Vlad.IsSqrt sq) {a : K} (ha : 0 < a) : sq (1 / a) = 1 / sq a ∧ 0 < sq a := by
  obtain ⟨h1, h2⟩ := hsq a ha.le
  obtain ⟨h3, h4⟩ := hsq (1 / a) (by positivity)
  have h5 : 0 < sq a := lt_of_le_of_ne h1 (by intro h; rw [← h] at h2; simp at h2; exact ha.ne h2)
  refine ⟨?_, h5⟩
  have h6 : sq (1 / a) ^ 2 = (1 / sq a) ^ 2 := by rw [h4, div_pow, h2, one_pow]
  exact (pow_left_inj₀ h3 (by positivity) (by norm_num)).1 h6

theorem findBest_spec {C N : Nat} {post : List K} {q : Nat → Nat → K} (hq : Flat post N C q) (hC : 1 ≤ C) {i : Nat} (hi : i < N) :
    ∃ b, findBest C post i = some (b, q i b) ∧ b < C ∧ (∀ j < C, q i j ≤ q i b) ∧ ∀ j < b, q i j < q i b := by
  unfold findBest
  have h0 := hq.rd hi (show 0 < C by omega)
  rw [Nat.add_zero] at h0
  rw [h0]
  simp only [Option.bind_eq_bind, Option.bind_some]
  obtain ⟨⟨b, v⟩, h1, h2, h3, h4, h5⟩ := iter_inv (n := C - 1) (f := fun j (s : Nat × K) => (rd post (j + 1 + i * C)).bind (fun p => pure (if p > s.2 then (j + 1, p) else s))) (s := (0, q i 0))
    (fun n s => s.1 < n + 1 ∧ s.2 = q i s.1 ∧ (∀ j < n + 1, q i j ≤ q i s.1) ∧ ∀ j < s.1, q i j < q i s.1) (by
      refine ⟨by omega, rfl, ?_, by omega⟩
      intro j hj
      rw [show j = 0 by omega]) (by
      rintro n hn ⟨b, v⟩ ⟨h1, h2, h3, h4⟩
      simp only at h1 h2 h3 h4
      subst h2
      have e := hq.rd hi (show n + 1 < C by omega)
      rw [Nat.add_comm] at e
      simp only
      rw [e, Option.bind_some]
      by_cases hlt : q i (n + 1) > q i b
      · rw [if_pos hlt]
        refine ⟨_, rfl, ?_, rfl, ?_, ?_⟩
        · show n + 1 < n + 1 + 1
          omega
        · intro j hj
          show q i j ≤ q i (n + 1)
          rcases Nat.lt_or_ge j (n + 1) with h | h
          · exact (h3 j h).trans hlt.le
          · rw [show j = n + 1 by omega]
        · intro j hj
          exact lt_of_le_of_lt (h3 j hj) hlt
      · rw [if_neg hlt]
        refine ⟨_, rfl, ?_, rfl, ?_, h4⟩
        · show b < n + 1 + 1
          omega
        · intro j hj
          rcases Nat.lt_or_ge j (n + 1) with h | h
          · exact h3 j h
          · rw [show j = n + 1 by omega]; exact not_lt.1 hlt)
  simp only at h2 h3 h4 h5
  refine ⟨b, ?_, by omega, fun j hj => h4 j (by omega), h5⟩
  rw [← h3]
  exact h1

theorem hard_best {C : Nat} {q : Nat → Nat → K} {i b : Nat} (hb : b < C) (h1 : ∀ j < C, q i j ≤ q i b) (h2 : ∀ j < b, q i j < q i b) {k : Nat} (hk : k < C) : hard C q i k = if k = b then 1 else 0 := by
  unfold hard
  by_cases h : k = b
  · subst h
    rw [if_pos ⟨h1, h2⟩, if_pos rfl]
  · rw [if_neg h, if_neg]
    rintro ⟨h3, h4⟩
    rcases Nat.lt_or_ge k b with hlt | hge
    · exact absurd (h2 k hlt) (not_lt.2 (h3 b hb))
    · exact absurd (h4 b (by omega)) (not_lt.2 (h1 k hk))

theorem sparsify_spec {C N : Nat} {post : List K} {q : Nat → Nat → K} (hq : Flat post N C q) (hC : 1 ≤ C) : ∃ post', iter N (sparsify C) post = some post' ∧ Flat post' N C (hard C q) := by
  obtain ⟨l, h1, h2⟩ := iter_inv (n := N) (f := sparsify C) (s := post) (fun n l => Flat l N C (fun i k => if i < n then hard C q i k else q i k)) (hq.congr (by intro a _ b _; simp)) (by
    intro i hi l hl
    obtain ⟨b, e1, e2, e3, e4⟩ := findBest_spec hl hC hi
    simp only [Nat.lt_irrefl, if_false] at e3 e4
    obtain ⟨l', e5, e6⟩ := iter_row hl hi (fun k _ => if k = b then (1 : K) else 0) (body := fun k post => wr post (k + i * C) (if k = b then 1 else 0)) (by
      intro d hd l f hf
      rw [Nat.add_comm])
    refine ⟨l', ?_, e6.congr ?_⟩
    · unfold sparsify
      rw [e1]
      exact e5
    · intro a ha k hk
      by_cases h : a = i
      · rw [if_pos h, if_pos (show a < i + 1 by omega), h, hard_best e2 e3 e4 hk]
      · rw [if_neg h]
        by_cases h' : a < i
        · rw [if_pos h', if_pos (by omega)]
        · rw [if_neg h', if_neg (by omega)])
  exact ⟨l, h1, h2.congr (fun a ha b _ => by rw [if_pos ha])⟩

/-! ### The averages -/

/-- The sums for the first `n` points. -/
def uSum (sq : K → K) (mu s2 x q : Nat → Nat → K) (n k d : Nat) : K := ∑ i ∈ range n, if 1 / 10 ^ 6 ≤ q i k then q i k * ((x i d - mu k d) / sq (s2 k d)) else 0

def vSum (sq : K → K) (mu s2 x q : Nat → Nat → K) (n k d : Nat) : K := ∑ i ∈ range n, if 1 / 10 ^ 6 ≤ q i k then q i k * (((x i d - mu k d) / sq (s2 k d)) ^ 2 - 1) else 0

def cnt (q : Nat → Nat → K) (n k : Nat) : Nat := ((range n).filter (fun i => 1 / 10 ^ 6 ≤ q i k)).card

variable {sq : K → K} {D C N : Nat} {priors means data sis post : List K} {w : Nat → K} {mu s2 x q : Nat → Nat → K}

theorem addDatum_spec (hm : Flat means C D mu) (hx : Flat data N D x) (hq : Flat post N C q) (hr : Flat sis C D (fun k d => 1 / sq (s2 k d))) {k : Nat} (hk : k < C) {enc : List K} {f : Nat → Nat → K}
    (hf : Flat enc (2 * C) D f) (h0 : ∀ d < D, f k d = 0) (h0' : ∀ d < D, f (C + k) d = 0) (t : Nat) :
    ∃ enc', iter N (addDatum D C means data sis post k) (enc, t) = some (enc', t + cnt q N k) ∧
      Flat enc' (2 * C) D (fun a b => if a = k then uSum sq mu s2 x q N k b else if a = C + k then vSum sq mu s2 x q N k b else f a b) := by
  obtain ⟨⟨e, t'⟩, h1, h2, h3⟩ := iter_inv (n := N) (f := addDatum D C means data sis post k) (s := (enc, t))
    (fun n s => s.2 = t + cnt q n k ∧ Flat s.1 (2 * C) D (fun a b => if a = k then uSum sq mu s2 x q n k b else if a = C + k then vSum sq mu s2 x q n k b else f a b)) (by
      refine ⟨by simp [cnt], hf.congr ?_⟩
      intro a ha b hb
      by_cases h : a = k
      · subst h; rw [if_pos rfl, h0 b hb]; simp [uSum]
      · rw [if_neg h]
        by_cases h : a = C + k
        · subst h; rw [if_pos rfl, h0' b hb]; simp [vSum]
        · rw [if_neg h]) (by
      rintro i hi ⟨e, t'⟩ ⟨h1, h2⟩
      simp only at h1 h2
      subst h1
      unfold addDatum
      have hp := hq.rd hi hk
      rw [Nat.add_comm] at hp
      rw [hp]
      simp only [Option.bind_eq_bind, Option.bind_some]
      by_cases hlt : q i k < 1 / 10 ^ 6
      · rw [if_pos hlt]
        refine ⟨_, rfl, ?_, h2.congr ?_⟩
        · show t + cnt q i k = t + cnt q (i + 1) k
          unfold cnt
          rw [range_add_one, filter_insert, if_neg (not_le.2 hlt)]
        · intro a ha b hb
          unfold uSum vSum
          rw [sum_range_succ, sum_range_succ, if_neg (not_le.2 hlt), if_neg (not_le.2 hlt), add_zero, add_zero]
      · rw [if_neg hlt]
        obtain ⟨e', e1, e2⟩ := iter_two_rows h2 (show k < 2 * C by omega) (show C + k < 2 * C by omega) (by omega) (fun d v => v + q i k * ((x i d - mu k d) / sq (s2 k d)))
          (fun d v => v + q i k * (((x i d - mu k d) / sq (s2 k d)) ^ 2 - 1))
          (body := fun d enc => (rd data (i * D + d)).bind (fun x => (rd means (k * D + d)).bind (fun m => (rd sis (k * D + d)).bind (fun r => (rd enc (k * D + d)).bind (fun u =>
            (rd enc (k * D + C * D + d)).bind (fun v => (wr enc (k * D + d) (u + q i k * ((x - m) * r))).bind (fun enc => wr enc (k * D + C * D + d) (v + q i k * ((x - m) * r * ((x - m) * r) - 1))))))))) (by
            intro d hd l f hl
            have ea : k * D + C * D + d = (C + k) * D + d := by ring
            rw [ea, hx.rd hi hd, Option.bind_some, hm.rd hk hd, Option.bind_some, hr.rd hk hd, Option.bind_some, hl.rd (show k < 2 * C by omega) hd, Option.bind_some, hl.rd (show C + k < 2 * C by omega) hd, Option.bind_some,
              mul_one_div, pow_two])
        rw [e1]
        refine ⟨(e', t + cnt q i k + 1), rfl, ?_, e2.congr ?_⟩
        · show t + cnt q i k + 1 = t + cnt q (i + 1) k
          unfold cnt
          rw [range_add_one, filter_insert, if_pos (not_lt.1 hlt), card_insert_of_notMem (by simp), Nat.add_assoc]
        · intro a ha b hb
          unfold uSum vSum
          rw [sum_range_succ, sum_range_succ, if_pos (not_lt.1 hlt), if_pos (not_lt.1 hlt)]
          by_cases h : a = k
          · simp only [if_pos h, if_true]
          · by_cases h' : a = C + k
            · simp only [if_neg h, if_pos h', if_neg (show ¬ C + k = k by omega), if_true]
            · simp only [if_neg h, if_neg h'])
  simp only at h2 h3
  exact ⟨e, by rw [h1, h2], h3⟩

theorem uSum_eq (hw : 1 / 10 ^ 6 ≤ w k) (d : Nat) : 1 / (N * sq (w k)) * uSum sq mu s2 x q N k d = meanDev sq N w mu s2 x q k d := by
  unfold uSum meanDev Counts
  simp only [hw, true_and]

theorem vSum_eq (hw : 1 / 10 ^ 6 ≤ w k) (d : Nat) : 1 / (N * sq (2 * w k)) * vSum sq mu s2 x q N k d = varDev sq N w mu s2 x q k d := by
  unfold vSum varDev Counts
  simp only [hw, true_and]

theorem scale_spec (hsq : Vlad.IsSqrt sq) {k : Nat} (hk : k < C) (hw : 1 / 10 ^ 6 ≤ w k) {enc : List K} {f : Nat → Nat → K}
    (hf : Flat enc (2 * C) D (fun a b => if a = k then uSum sq mu s2 x q N k b else if a = C + k then vSum sq mu s2 x q N k b else f a b)) :
    ∃ enc', scale sq D C N k (w k) enc = some enc' ∧
      Flat enc' (2 * C) D (fun a b => if a = k then meanDev sq N w mu s2 x q k b else if a = C + k then varDev sq N w mu s2 x q k b else f a b) := by
  have hwp : 0 < w k := lt_of_lt_of_le (by positivity) hw
  unfold scale
  by_cases hN : N > 0
  · rw [if_pos hN]
    have hN' : (N : K) ≠ 0 := by exact_mod_cast (by omega : N ≠ 0)
    unfold assert'
    rw [if_pos (by
      rw [decide_eq_true_iff]
      exact ⟨mul_ne_zero hN' (sqrt_inv hsq hwp).2.ne', mul_ne_zero hN' (sqrt_inv hsq (by positivity)).2.ne'⟩)]
    simp only [Option.bind_eq_bind, Option.bind_some]
    obtain ⟨e', e1, e2⟩ := iter_two_rows hf (show k < 2 * C by omega) (show C + k < 2 * C by omega) (by omega) (fun d v => v * (1 / (N * sq (w k)))) (fun d v => v * (1 / (N * sq (2 * w k))))
      (body := fun d enc => (rd enc (k * D + d)).bind (fun u => (rd enc (k * D + C * D + d)).bind (fun v => (wr enc (k * D + d) (u * (1 / (N * sq (w k))))).bind (fun enc => wr enc (k * D + C * D + d) (v * (1 / (N * sq (2 * w k)))))))) (by
        intro d hd l f hl
        have ea : k * D + C * D + d = (C + k) * D + d := by ring
        rw [ea, hl.rd (show k < 2 * C by omega) hd, Option.bind_some, hl.rd (show C + k < 2 * C by omega) hd, Option.bind_some])
    refine ⟨e', e1, e2.congr ?_⟩
    intro a ha b hb
    by_cases h : a = k
    · simp only [if_pos h, if_true]
      rw [mul_comm, uSum_eq hw]
    · by_cases h' : a = C + k
      · simp only [if_neg h, if_pos h', if_neg (show ¬ C + k = k by omega), if_true]
        rw [mul_comm, vSum_eq hw]
      · simp only [if_neg h, if_neg h']
  · rw [if_neg hN]
    refine ⟨enc, rfl, hf.congr ?_⟩
    have hN' : N = 0 := by omega
    subst hN'
    intro a ha b hb
    simp only [uSum, vSum, meanDev, varDev, range_zero, sum_empty, mul_zero]

/-- The number of terms of a component. -/
def cntW (w : Nat → K) (q : Nat → Nat → K) (N k : Nat) : Nat := ((range N).filter (fun i => Counts w q i k)).card

theorem cluster_spec (hsq : Vlad.IsSqrt sq) (hw : Arr priors C w) (hm : Flat means C D mu) (hx : Flat data N D x) (hq : Flat post N C q) (hr : Flat sis C D (fun k d => 1 / sq (s2 k d))) {k : Nat} (hk : k < C)
    {enc : List K} {f : Nat → Nat → K} (hf : Flat enc (2 * C) D f) (h0 : ∀ d < D, f k d = 0) (h0' : ∀ d < D, f (C + k) d = 0) (t : Nat) :
    ∃ enc', cluster sq D C N priors means data sis post k (enc, t) = some (enc', t + cntW w q N k) ∧
      Flat enc' (2 * C) D (fun a b => if a = k then meanDev sq N w mu s2 x q k b else if a = C + k then varDev sq N w mu s2 x q k b else f a b) := by
  unfold cluster
  rw [hw.rd hk]
  simp only [Option.bind_eq_bind, Option.bind_some]
  by_cases hlt : w k < 1 / 10 ^ 6
  · rw [if_pos hlt]
    have hc : ∀ i, ¬ Counts w q i k := fun i h => absurd h.1 (not_le.2 hlt)
    refine ⟨enc, ?_, hf.congr ?_⟩
    · simp only [cntW, hc, filter_false, card_empty, Nat.add_zero]
      rfl
    · intro a ha b hb
      simp only [meanDev, varDev, hc, if_false, sum_const_zero, mul_zero]
      by_cases h : a = k
      · rw [if_pos h, h, h0 b hb]
      · rw [if_neg h]
        by_cases h' : a = C + k
        · rw [if_pos h', h', h0' b hb]
        · rw [if_neg h']
  · rw [if_neg hlt]
    have hw' := not_lt.1 hlt
    obtain ⟨e1, a1, b1⟩ := addDatum_spec hm hx hq hr hk hf h0 h0' t
    obtain ⟨e2, a2, b2⟩ := scale_spec hsq hk hw' b1
    rw [a1, Option.bind_some, a2, Option.bind_some]
    refine ⟨e2, ?_, b2⟩
    simp only [cnt, cntW, Counts, hw', true_and]
    rfl

theorem clusters_spec (hsq : Vlad.IsSqrt sq) (hw : Arr priors C w) (hm : Flat means C D mu) (hx : Flat data N D x) (hq : Flat post N C q) (hr : Flat sis C D (fun k d => 1 / sq (s2 k d))) :
    ∀ (order : List Nat), order.Nodup → (∀ k ∈ order, k < C) → ∀ (enc : List K) (f : Nat → Nat → K) (t : Nat), Flat enc (2 * C) D f → (∀ k ∈ order, ∀ d < D, f k d = 0) → (∀ k ∈ order, ∀ d < D, f (C + k) d = 0) →
      ∃ enc', order.foldlM (fun s k => cluster sq D C N priors means data sis post k s) (enc, t) = some (enc', t + (order.map (cntW w q N)).sum) ∧
        Flat enc' (2 * C) D (fun a b => if a < C then (if a ∈ order then meanDev sq N w mu s2 x q a b else f a b) else (if a - C ∈ order then varDev sq N w mu s2 x q (a - C) b else f a b)) := by
  intro order
  induction order with
  | nil => intro _ _ enc f t hf _ _; exact ⟨enc, rfl, hf.congr (by intro a _ b _; simp)⟩
  | cons k order ih =>
    intro hn hk enc f t hf h0 h0'
    rw [List.nodup_cons] at hn
    have hkC := hk k (by simp)
    obtain ⟨e1, a1, b1⟩ := cluster_spec hsq hw hm hx hq hr hkC hf (h0 k (by simp)) (h0' k (by simp)) t
    obtain ⟨e2, a2, b2⟩ := ih hn.2 (fun j hj => hk j (by simp [hj])) e1 _ (t + cntW w q N k) b1 (by
      intro j hj d hd
      have := hk j (by simp [hj])
      rw [if_neg (by rintro rfl; exact hn.1 hj), if_neg (by omega)]
      exact h0 j (by simp [hj]) d hd) (by
      intro j hj d hd
      have := hk j (by simp [hj])
      rw [if_neg (by omega), if_neg (by intro h; exact hn.1 ((by omega : j = k) ▸ hj))]
      exact h0' j (by simp [hj]) d hd)
    refine ⟨e2, ?_, b2.congr ?_⟩
    · rw [List.foldlM_cons, a1]
      refine a2.trans ?_
      rw [List.map_cons, List.sum_cons, Nat.add_assoc]
    · intro a ha b hb
      by_cases hC : a < C
      · rw [if_pos hC, if_pos hC]
        by_cases h : a ∈ order
        · rw [if_pos h, if_pos (by simp [h])]
        · rw [if_neg h]
          by_cases h' : a = k
          · rw [if_pos h', if_pos (by simp [h']), h']
          · rw [if_neg h', if_neg (by omega), if_neg (by simp [h, h'])]
      · rw [if_neg hC, if_neg hC]
        by_cases h : a - C ∈ order
        · rw [if_pos h, if_pos (by simp [h])]
        · rw [if_neg h, if_neg (by omega)]
          by_cases h' : a = C + k
          · rw [if_pos h', if_pos (by rw [h']; simp), h', Nat.add_sub_cancel_left]
          · rw [if_neg h', if_neg (by rw [List.mem_cons]; exact fun h'' => h''.elim (by omega) h)]

theorem rootAll_spec (F : Flags) (sq : K → K) {n : Nat} {enc : List K} {f : Nat → K} (h : Arr enc n f) : ∃ enc', whenB F.root (rootAll sq n) enc = some enc' ∧ Arr enc' n (fun i => rooted F sq (f i)) := by
  unfold whenB rooted
  by_cases hF : F.root = true
  · rw [if_pos hF]
    simp only [hF, if_true]
    exact iter_arr h (fun _ z => Vlad.rooted sq z) (by
      intro d hd l f hl
      rw [hl.rd hd]
      simp only [Option.bind_eq_bind, Option.bind_some]
      rw [← Vlad.signedRoot_eq]
      rfl)
  · rw [if_neg hF]
    simp only [if_neg hF]
    exact ⟨enc, rfl, h⟩

theorem normalizeAll_spec (b : Bool) (sq : K → K) {n : Nat} {enc : List K} {f : Nat → K} (h : Arr enc n f) :
    ∃ enc', whenB b (normalizeAll sq n) enc = some enc' ∧ Arr enc' n (fun i => if b then f i / max (sq (∑ i ∈ range n, f i ^ 2)) (1 / 10 ^ 12) else f i) := by
  unfold whenB
  by_cases hF : b = true
  · rw [if_pos hF]
    simp only [hF, if_true]
    unfold normalizeAll
    simp only [Option.bind_eq_bind, Option.pure_def]
    rw [iter_sum n (fun d => f d ^ 2) 0 (by
      intro d hd s
      rw [h.rd hd, Option.bind_some, pow_two])]
    simp only [Option.bind_some, zero_add]
    exact iter_arr h (fun _ z => z / max (sq (∑ i ∈ range n, f i ^ 2)) (1 / 10 ^ 12)) (by
      intro d hd l f hl
      rw [hl.rd hd, Option.bind_some])
  · rw [if_neg hF]
    simp only [if_neg hF]
    exact ⟨enc, rfl, h⟩

end Verif.Fisher
