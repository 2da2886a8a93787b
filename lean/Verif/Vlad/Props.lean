import Verif.Vlad.Spec
import Mathlib.Tactic.Ring
import Mathlib.Tactic.FieldSimp
import Mathlib.Tactic.Linarith
import Mathlib.Tactic.Positivity
import Mathlib.Algebra.Order.Field.Basic
import Mathlib.Algebra.Order.BigOperators.Ring.Finset
import Mathlib.Algebra.BigOperators.Field
import Mathlib.Data.List.Perm.Basic
import Mathlib.Analysis.Real.Sqrt
import Mathlib.Data.Rat.Floor

/-!
# The VLAD encoding is the documented one
-/

namespace Verif.Vlad

open Finset

set_option linter.unusedSectionVars false

variable {K : Type} [Field K] [LinearOrder K] [IsStrictOrderedRing K]

theorem signedRoot_eq (sq : K → K) (z : K) : signedRoot sq z = rooted sq z := by
  unfold signedRoot rooted
  by_cases h : z < 0
  · rw [if_pos h, if_neg (by rw [ge_iff_le, not_le]; exact h), abs_of_neg h]
  · rw [if_neg h, if_pos (not_lt.1 h), abs_of_nonneg (not_lt.1 h)]

/-- Sum of the data. -/
def weighted (q x : Nat → Nat → K) (n k d : Nat) : K := ∑ i ∈ range n, weight q i k * x i d

theorem addDatum_spec {D C N : Nat} {data asg : List K} {x q : Nat → Nat → K} (hx : Flat data N D x) (hq : Flat asg N C q) {k : Nat} (hk : k < C) {enc : List K} {f : Nat → Nat → K} (hf : Flat enc C D f)
    (h0 : ∀ d < D, f k d = 0) :
    ∃ enc', iter N (addDatum D C data asg k) (enc, 0) = some (enc', massOf q N k) ∧ Flat enc' C D (fun a b => if a = k then weighted q x N k b else f a b) := by
  obtain ⟨s, h1, h2, h3⟩ := iter_inv (n := N) (f := addDatum D C data asg k) (s := (enc, (0 : K)))
    (fun n s => s.2 = massOf q n k ∧ Flat s.1 C D (fun a b => if a = k then weighted q x n k b else f a b)) (by
      refine ⟨by simp [massOf], hf.congr ?_⟩
      intro a ha b hb
      by_cases h : a = k
      · subst h; rw [if_pos rfl, h0 b hb]; simp [weighted]
      · rw [if_neg h]) (by
      rintro i hi ⟨e, m⟩ ⟨rfl, h2⟩
      simp only at h2
      unfold addDatum
      rw [hq.rd hi hk]
      simp only [Option.bind_eq_bind, Option.bind_some]
      by_cases hp : q i k > 0
      · rw [if_pos hp]
        obtain ⟨e', e1, e2⟩ := iter_row h2 hk (fun d v => v + q i k * x i d) (body := fun d enc => (rd enc (k * D + d)).bind (fun e => (rd data (i * D + d)).bind (fun x => wr enc (k * D + d) (e + q i k * x)))) (by
          intro d hd l f hl
          rw [hl.rd hk hd, Option.bind_some, hx.rd hi hd, Option.bind_some])
        rw [e1]
        refine ⟨_, rfl, ?_, e2.congr ?_⟩
        · show massOf q i k + q i k = massOf q (i + 1) k
          unfold massOf
          rw [sum_range_succ, weight, max_eq_right hp.le]
        · intro a ha b hb
          by_cases h : a = k
          · rw [if_pos h, if_pos h, if_pos rfl]
            unfold weighted
            rw [sum_range_succ, weight, max_eq_right hp.le]
          · rw [if_neg h, if_neg h, if_neg h]
      · rw [if_neg hp]
        have hw : weight q i k = 0 := max_eq_left (not_lt.1 hp)
        refine ⟨_, rfl, ?_, h2.congr ?_⟩
        · show massOf q i k = massOf q (i + 1) k
          unfold massOf
          rw [sum_range_succ, hw, add_zero]
        · intro a ha b hb
          unfold weighted
          rw [sum_range_succ, hw, zero_mul, add_zero])
  exact ⟨s.1, by rw [h1, ← h2], h3⟩

theorem massOf_nonneg (q : Nat → Nat → K) (N k : Nat) : 0 ≤ massOf q N k := sum_nonneg (fun _ _ => le_max_left _ _)

theorem residual_eq (q x mu : Nat → Nat → K) (N k d : Nat) : residual q x mu N k d = weighted q x N k d - massOf q N k * mu k d := by
  unfold residual weighted massOf
  rw [sum_mul, ← sum_sub_distrib]
  exact sum_congr rfl (fun i _ => by ring)

theorem weighted_zero {q x : Nat → Nat → K} {N k : Nat} (h : massOf q N k = 0) (d : Nat) : weighted q x N k d = 0 := by
  have hw : ∀ i ∈ range N, 0 ≤ weight q i k := fun i _ => le_max_left _ _
  unfold massOf at h
  rw [sum_eq_zero_iff_of_nonneg hw] at h
  exact sum_eq_zero (fun i hi => by rw [h i hi, zero_mul])

theorem center_spec (F : Flags) {D C N : Nat} {means : List K} {x q mu : Nat → Nat → K} (hm : Flat means C D mu) {k : Nat} (hk : k < C) {enc : List K} {f : Nat → Nat → K}
    (hf : Flat enc C D (fun a b => if a = k then weighted q x N k b else f a b)) :
    ∃ enc', center F D means k (massOf q N k) enc = some enc' ∧ Flat enc' C D (fun a b => if a = k then pooled F q x mu N k b else f a b) := by
  unfold center
  by_cases h : massOf q N k > 0
  · rw [if_pos h]
    by_cases hF : F.mass = true
    · rw [if_pos hF]
      obtain ⟨e', e1, e2⟩ := iter_row hf hk (fun d v => v / massOf q N k - mu k d) (body := fun d enc => (rd enc (k * D + d)).bind (fun e => (rd means (k * D + d)).bind (fun m => wr enc (k * D + d) (e / massOf q N k - m)))) (by
        intro d hd l f hl
        rw [hl.rd hk hd, Option.bind_some, hm.rd hk hd, Option.bind_some])
      refine ⟨e', e1, e2.congr ?_⟩
      intro a ha b hb
      by_cases h' : a = k
      · rw [if_pos h', if_pos h', if_pos rfl]
        unfold pooled
        rw [if_pos hF, if_neg h.ne', residual_eq]
        field_simp
      · rw [if_neg h', if_neg h', if_neg h']
    · rw [if_neg hF]
      obtain ⟨e', e1, e2⟩ := iter_row hf hk (fun d v => v - massOf q N k * mu k d) (body := fun d enc => (rd enc (k * D + d)).bind (fun e => (rd means (k * D + d)).bind (fun m => wr enc (k * D + d) (e - massOf q N k * m)))) (by
        intro d hd l f hl
        rw [hl.rd hk hd, Option.bind_some, hm.rd hk hd, Option.bind_some])
      refine ⟨e', e1, e2.congr ?_⟩
      intro a ha b hb
      by_cases h' : a = k
      · rw [if_pos h', if_pos h', if_pos rfl]
        unfold pooled
        rw [if_neg hF, residual_eq]
      · rw [if_neg h', if_neg h', if_neg h']
  · rw [if_neg h]
    have h0 : massOf q N k = 0 := le_antisymm (not_lt.1 h) (massOf_nonneg q N k)
    refine ⟨enc, rfl, hf.congr ?_⟩
    intro a ha b hb
    by_cases h' : a = k
    · rw [if_pos h', if_pos h']
      unfold pooled
      rw [if_pos h0, residual_eq, weighted_zero h0, h0, zero_mul, sub_zero, ite_self]
    · rw [if_neg h', if_neg h']

theorem normalize_row (sq : K → K) {C D : Nat} {enc : List K} {f : Nat → Nat → K} (hf : Flat enc C D f) {k : Nat} (hk : k < C) :
    ∃ enc', normalize sq (k * D) D enc = some enc' ∧ Flat enc' C D (fun a b => if a = k then f k b / safeNorm sq D (f k) else f a b) := by
  unfold normalize
  simp only [Option.bind_eq_bind, Option.pure_def]
  rw [iter_sum D (fun d => f k d ^ 2) 0 (by
    intro d hd s
    rw [hf.rd hk hd, Option.bind_some, pow_two])]
  simp only [Option.bind_some, zero_add]
  exact iter_row hf hk (fun d v => v / safeNorm sq D (f k)) (by
    intro d hd l f hl
    rw [hl.rd hk hd, Option.bind_some]
    rfl)

theorem cluster_spec (F : Flags) (sq : K → K) {D C N : Nat} {means data asg : List K} {x q mu : Nat → Nat → K} (hm : Flat means C D mu) (hx : Flat data N D x) (hq : Flat asg N C q) {k : Nat} (hk : k < C)
    {enc : List K} {f : Nat → Nat → K} (hf : Flat enc C D f) (h0 : ∀ d < D, f k d = 0) :
    ∃ enc', cluster F sq D C N means data asg k enc = some enc' ∧ Flat enc' C D (fun a b => if a = k then component F sq q x mu D N k b else f a b) := by
  obtain ⟨e1, a1, b1⟩ := addDatum_spec hx hq hk hf h0
  obtain ⟨e2, a2, b2⟩ := center_spec F hm hk b1
  obtain ⟨e3, a3, b3⟩ : ∃ e3, whenB F.root (rootRow sq D k) e2 = some e3 ∧
      Flat e3 C D (fun a b => if a = k then (if F.root then rooted sq (pooled F q x mu N k b) else pooled F q x mu N k b) else f a b) := by
    unfold whenB
    by_cases hF : F.root = true
    · rw [if_pos hF]
      obtain ⟨e', e1, e2⟩ := iter_row b2 hk (fun d v => rooted sq v) (body := fun d enc => (rd enc (k * D + d)).bind (fun z => wr enc (k * D + d) (signedRoot sq z))) (by
        intro d hd l f hl
        rw [hl.rd hk hd, Option.bind_some, signedRoot_eq])
      refine ⟨e', e1, e2.congr ?_⟩
      intro a ha b hb
      by_cases h' : a = k
      · rw [if_pos h', if_pos h', if_pos rfl, if_pos hF]
      · rw [if_neg h', if_neg h', if_neg h']
    · rw [if_neg hF]
      refine ⟨e2, rfl, b2.congr ?_⟩
      intro a ha b hb
      rw [if_neg hF]
  obtain ⟨e4, a4, b4⟩ : ∃ e4, whenB F.components (normalize sq (k * D) D) e3 = some e4 ∧ Flat e4 C D (fun a b => if a = k then component F sq q x mu D N k b else f a b) := by
    unfold whenB
    by_cases hF : F.components = true
    · rw [if_pos hF]
      obtain ⟨e', e1, e2⟩ := normalize_row sq b3 hk
      refine ⟨e', e1, e2.congr ?_⟩
      intro a ha b hb
      by_cases h' : a = k
      · simp only [if_pos h', component, if_pos hF, if_true]
      · rw [if_neg h', if_neg h', if_neg h']
    · rw [if_neg hF]
      refine ⟨e3, rfl, b3.congr ?_⟩
      intro a ha b hb
      by_cases h' : a = k
      · simp only [if_pos h', component, if_neg hF]
      · rw [if_neg h', if_neg h']
  refine ⟨e4, ?_, b4⟩
  unfold cluster
  rw [a1]
  simp only [Option.bind_eq_bind, Option.bind_some]
  rw [a2, Option.bind_some, a3, Option.bind_some, a4]

theorem clusters_spec (F : Flags) (sq : K → K) {D C N : Nat} {means data asg : List K} {x q mu : Nat → Nat → K} (hm : Flat means C D mu) (hx : Flat data N D x) (hq : Flat asg N C q) :
    ∀ (order : List Nat), order.Nodup → (∀ k ∈ order, k < C) → ∀ (enc : List K) (f : Nat → Nat → K), Flat enc C D f → (∀ k ∈ order, ∀ d < D, f k d = 0) →
      ∃ enc', order.foldlM (fun enc k => cluster F sq D C N means data asg k enc) enc = some enc' ∧ Flat enc' C D (fun a b => if a ∈ order then component F sq q x mu D N a b else f a b) := by
  intro order
  induction order with
  | nil => intro _ _ enc f hf _; exact ⟨enc, rfl, hf.congr (by intro a _ b _; simp)⟩
  | cons k order ih =>
    intro hn hk enc f hf h0
    rw [List.nodup_cons] at hn
    obtain ⟨e1, a1, b1⟩ := cluster_spec F sq hm hx hq (hk k (by simp)) hf (h0 k (by simp))
    obtain ⟨e2, a2, b2⟩ := ih hn.2 (fun j hj => hk j (by simp [hj])) e1 _ b1 (by
      intro j hj d hd
      rw [if_neg (by rintro rfl; exact hn.1 hj)]
      exact h0 j (by simp [hj]) d hd)
    refine ⟨e2, ?_, b2.congr ?_⟩
    · rw [List.foldlM_cons, a1]; exact a2
    · intro a ha b hb
      by_cases h : a ∈ order
      · rw [if_pos h, if_pos (by simp [h])]
      · rw [if_neg h]
        by_cases h' : a = k
        · rw [if_pos h', if_pos (by simp [h']), h']
        · rw [if_neg h', if_neg (by simp [h, h'])]

/-- For every data set, assignments, flags and order of the clusters, the encoder accesses nothing out of bounds and writes the documented descriptor. -/
theorem encode_correct (F : Flags) (sq : K → K) (order : List Nat) {D C N : Nat} {means data asg : List K} {x q mu : Nat → Nat → K} (hm : Flat means C D mu) (hx : Flat data N D x) (hq : Flat asg N C q)
    (ho : order.Perm (List.range C)) :
    ∃ enc, encode F sq order D C N means data asg = some enc ∧ Flat enc C D (vlad F sq q x mu D C N) := by
  obtain ⟨e1, a1, b1⟩ := clusters_spec F sq hm hx hq order (ho.nodup_iff.2 List.nodup_range) (fun k hk => List.mem_range.1 (ho.mem_iff.1 hk)) (List.replicate (C * D) 0) _ (Flat.replicate C D 0) (by simp)
  have b1' : Flat e1 C D (component F sq q x mu D N) := b1.congr (by
    intro a ha b hb
    rw [if_pos (ho.mem_iff.2 (List.mem_range.2 ha))])
  unfold encode
  rw [a1]
  simp only [Option.bind_eq_bind, Option.bind_some]
  unfold whenB
  by_cases hF : F.unnormalized = true
  · rw [if_neg (by simp [hF])]
    refine ⟨e1, rfl, b1'.congr ?_⟩
    intro a _ b _
    simp only [vlad, if_pos hF]
  · rw [if_pos (by simpa using hF)]
    have hrow : Flat e1 1 (D * C) (fun _ i => component F sq q x mu D N (i / D) (i % D)) := by
      have h := b1'.arr
      refine ⟨by rw [h.len, Nat.one_mul, mul_comm], fun i hi j hj => ?_⟩
      rw [show i = 0 by omega, Nat.zero_mul, Nat.zero_add]
      exact h.get j (by rw [mul_comm]; exact hj)
    obtain ⟨e2, a2, b2⟩ := normalize_row sq hrow (k := 0) (by omega)
    rw [Nat.zero_mul] at a2
    refine ⟨e2, a2, Arr.flat ⟨by rw [b2.len, Nat.one_mul, mul_comm], ?_⟩⟩
    intro i hi
    have h := b2.get 0 (by omega) i (by rw [mul_comm]; exact hi)
    rw [Nat.zero_mul, Nat.zero_add] at h
    rw [h, if_pos rfl]
    have hs : safeNorm sq (D * C) (fun i => component F sq q x mu D N (i / D) (i % D)) = safeNorm2 sq C D (component F sq q x mu D N) := by
      unfold safeNorm safeNorm2
      rw [mul_comm D C, sum_flat C D (fun a b => component F sq q x mu D N a b ^ 2)]
    simp only [vlad, if_neg hF]
    rw [← hs]

/-- What the model needs of the square root. -/
def IsSqrt (sq : K → K) : Prop := ∀ a, 0 ≤ a → 0 ≤ sq a ∧ sq a ^ 2 = a

theorem sum_div_safeNorm {ι : Type} (sq : K → K) (hsq : IsSqrt sq) (s : Finset ι) (v : ι → K) :
    ∑ i ∈ s, (v i / max (sq (∑ j ∈ s, v j ^ 2)) (1 / 10 ^ 12)) ^ 2 ≤ 1 ∧
    (1 / 10 ^ 12 ≤ sq (∑ j ∈ s, v j ^ 2) → ∑ i ∈ s, (v i / max (sq (∑ j ∈ s, v j ^ 2)) (1 / 10 ^ 12)) ^ 2 = 1) := by
  set n := ∑ j ∈ s, v j ^ 2 with hn
  have hn0 : 0 ≤ n := sum_nonneg (fun _ _ => sq_nonneg _)
  obtain ⟨h1, h2⟩ := hsq n hn0
  have he : (0 : K) < 1 / 10 ^ 12 := by positivity
  have hm : 0 < max (sq n) (1 / 10 ^ 12) := lt_max_of_lt_right he
  have e : ∑ i ∈ s, (v i / max (sq n) (1 / 10 ^ 12)) ^ 2 = n / max (sq n) (1 / 10 ^ 12) ^ 2 := by
    rw [hn, sum_div]
    exact sum_congr rfl (fun i _ => by rw [div_pow])
  rw [e]
  constructor
  · rw [div_le_one (by positivity)]
    calc n = sq n ^ 2 := h2.symm
      _ ≤ max (sq n) (1 / 10 ^ 12) ^ 2 := pow_le_pow_left₀ h1 (le_max_left _ _) 2
  · intro h
    rw [max_eq_left h, h2]
    apply div_self
    intro h0
    rw [h0] at h2 h
    have : sq (0 : K) = 0 := pow_eq_zero_iff (two_ne_zero) |>.1 h2
    rw [this] at h
    exact absurd h (not_le.2 he)

/-- Unless `VL_VLAD_FLAG_UNNORMALIZED` is set, the norm of the descriptor is at most one, and it is one if the norm before normalisation is at least `1e-12`. -/
theorem encode_norm (F : Flags) (sq : K → K) (hsq : IsSqrt sq) (order : List Nat) {D C N : Nat} {means data asg : List K} {x q mu : Nat → Nat → K} (hm : Flat means C D mu) (hx : Flat data N D x) (hq : Flat asg N C q)
    (ho : order.Perm (List.range C)) (hF : F.unnormalized = false) :
    ∃ enc, encode F sq order D C N means data asg = some enc ∧ (enc.map (fun z => z ^ 2)).sum ≤ 1 ∧
      (1 / 10 ^ 12 ≤ sq (∑ k ∈ range C, ∑ d ∈ range D, component F sq q x mu D N k d ^ 2) → (enc.map (fun z => z ^ 2)).sum = 1) := by
  obtain ⟨enc, h1, h2⟩ := encode_correct F sq order hm hx hq ho
  refine ⟨enc, h1, ?_⟩
  have e : (enc.map (fun z => z ^ 2)).sum = ∑ p ∈ range C ×ˢ range D, (component F sq q x mu D N p.1 p.2 / max (sq (∑ p ∈ range C ×ˢ range D, component F sq q x mu D N p.1 p.2 ^ 2)) (1 / 10 ^ 12)) ^ 2 := by
    have h3 := h2.arr
    have : enc = (List.range (C * D)).map (fun i => vlad F sq q x mu D C N (i / D) (i % D)) := by
      apply List.ext_getElem?
      intro i
      rcases Nat.lt_or_ge i (C * D) with hi | hi
      · rw [h3.get i hi]; simp [hi]
      · rw [List.getElem?_eq_none (by rw [h3.len]; exact hi), List.getElem?_eq_none (by simpa using hi)]
    rw [this, List.map_map, ← sum_flat' (C * D), sum_product]
    simp only [Function.comp]
    rw [sum_flat C D (fun a b => vlad F sq q x mu D C N a b ^ 2)]
    simp only [vlad, hF, safeNorm2, Bool.false_eq_true, if_false, sum_product]
  have h := sum_div_safeNorm sq hsq (range C ×ˢ range D) (fun p => component F sq q x mu D N p.1 p.2)
  rw [e]
  simp only [sum_product] at h ⊢
  exact h

/-- The descriptor does not depend on the order of the data. -/
theorem encode_order (F : Flags) (sq : K → K) (order order' : List Nat) {D C N : Nat} {means data asg data' asg' : List K} {x q x' q' mu : Nat → Nat → K} (hm : Flat means C D mu) (hx : Flat data N D x) (hq : Flat asg N C q)
    (hx' : Flat data' N D x') (hq' : Flat asg' N C q') (ho : order.Perm (List.range C)) (ho' : order'.Perm (List.range C))
    (π : Equiv.Perm Nat) (hπ : ∀ i, i < N ↔ π i < N) (hxx : ∀ i < N, ∀ d < D, x' i d = x (π i) d) (hqq : ∀ i < N, ∀ k < C, q' i k = q (π i) k) :
    encode F sq order' D C N means data' asg' = encode F sq order D C N means data asg := by
  obtain ⟨enc, h1, h2⟩ := encode_correct F sq order hm hx hq ho
  obtain ⟨enc', h1', h2'⟩ := encode_correct F sq order' hm hx' hq' ho'
  have hsum : ∀ g : Nat → K, ∑ i ∈ range N, g (π i) = ∑ i ∈ range N, g i := by
    intro g
    refine sum_nbij' π π.symm ?_ ?_ ?_ ?_ ?_
    · intro i hi; rw [mem_range] at hi ⊢; exact (hπ i).1 hi
    · intro i hi; rw [mem_range] at hi ⊢; rw [hπ]; simpa using hi
    · intro i _; simp
    · intro i _; simp
    · intro i _; rfl
  have hM : ∀ k < C, massOf q' N k = massOf q N k := by
    intro k hk
    unfold massOf
    rw [← hsum (fun i => weight q i k)]
    exact sum_congr rfl (fun i hi => by rw [weight, weight, hqq i (mem_range.1 hi) k hk])
  have hR : ∀ k < C, ∀ d < D, residual q' x' mu N k d = residual q x mu N k d := by
    intro k hk d hd
    unfold residual
    rw [← hsum (fun i => weight q i k * (x i d - mu k d))]
    exact sum_congr rfl (fun i hi => by rw [weight, weight, hqq i (mem_range.1 hi) k hk, hxx i (mem_range.1 hi) d hd])
  have hP : ∀ k < C, ∀ d < D, pooled F q' x' mu N k d = pooled F q x mu N k d := by
    intro k hk d hd
    unfold pooled
    rw [hM k hk, hR k hk d hd]
  have hS : ∀ k < C, ∀ d < D, component F sq q' x' mu D N k d = component F sq q x mu D N k d := by
    intro k hk d hd
    simp only [component, safeNorm, hP k hk d hd]
    rw [sum_congr rfl (fun d hd => by rw [hP k hk d (mem_range.1 hd)])]
  have hV : ∀ k < C, ∀ d < D, vlad F sq q' x' mu D C N k d = vlad F sq q x mu D C N k d := by
    intro k hk d hd
    simp only [vlad, safeNorm2, hS k hk d hd]
    rw [sum_congr rfl (fun k hk => sum_congr rfl (fun d hd => by rw [hS k (mem_range.1 hk) d (mem_range.1 hd)]))]
  rw [h1, h1', Arr.eq h2'.arr ((h2.congr (fun k hk d hd => (hV k hk d hd).symm)).arr)]

/-! ### A concrete case: two clusters, three points of the plane, the third one shared between the clusters. -/

def exData : List ℚ := [1, 2, 5, 6, 3, 3]
def exMeans : List ℚ := [0, 0, 4, 4]
def exAsg : List ℚ := [1, 0, 0, 1, 1 / 2, 1 / 2]

example : encode ⟨false, false, true, false⟩ id [1, 0] 2 2 3 exMeans exData exAsg = some [5 / 2, 7 / 2, 1 / 2, 3 / 2] := by decide +kernel

/-- The hypotheses of `encode_correct` are met. -/
example : ∃ enc, encode ⟨true, true, false, true⟩ (fun a : ℚ => a) [1, 0] 2 2 3 exMeans exData exAsg = some enc ∧
    Flat enc 2 2 (vlad ⟨true, true, false, true⟩ (fun a => a) (fun i j => exAsg.getD (i * 2 + j) 0) (fun i j => exData.getD (i * 2 + j) 0) (fun i j => exMeans.getD (i * 2 + j) 0) 2 2 3) :=
  encode_correct _ _ _ (Flat.of_len rfl 0) (Flat.of_len rfl 0) (Flat.of_len rfl 0) (by decide)

/-- The hypotheses of `encode_norm` are met by the square root of real numbers. -/
example : IsSqrt Real.sqrt := fun a ha => ⟨Real.sqrt_nonneg a, Real.sq_sqrt ha⟩

end Verif.Vlad
