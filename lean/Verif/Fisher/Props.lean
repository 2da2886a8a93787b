import Verif.Fisher.Lemmas
import Mathlib.Analysis.Real.Sqrt

/-!
# The Fisher vector is the documented one
-/

namespace Verif.Fisher

open Finset

set_option linter.unusedSectionVars false

variable {K : Type} [Field K] [LinearOrder K] [IsStrictOrderedRing K]

/-- The inputs of the encoder: a mixture with positive variances and a component of weight at least `1e-6`, the data, the orders in which the parallel loops run, and blocks of memory of the right size with
any content. -/
structure Inputs (E : Gmm.Fns K) (sq : K → K) (D C N : Nat) (orderC orderN order : List Nat) (priors means cov data : List K) (tmp : Gmm.Prep K) (post : List (WithBot K)) (sis : List K)
    (w : Nat → K) (mu s2 x : Nat → Nat → K) : Prop where
  expLog : Gmm.IsExpLog E
  sqrt : Vlad.IsSqrt sq
  hD : 1 ≤ D
  hw : Arr priors C w
  hm : Flat means C D mu
  hs : Flat cov C D s2
  hx : Flat data N D x
  pos : ∀ k < C, ∀ d < D, 0 < s2 k d
  some_prior : ∃ k < C, 1 / 10 ^ 6 ≤ w k
  oC : orderC.Perm (List.range C)
  oN : orderN.Perm (List.range N)
  o : order.Perm (List.range C)
  t1 : tmp.logCov.length = C
  t2 : tmp.invCov.length = C * D
  t3 : tmp.logW.length = C
  hpost : post.length = N * C
  hsis : sis.length = C * D

variable {E : Gmm.Fns K} {sq : K → K} {D C N : Nat} {orderC orderN order : List Nat} {priors means cov data : List K} {tmp : Gmm.Prep K} {post : List (WithBot K)} {sis : List K}
  {w : Nat → K} {mu s2 x : Nat → Nat → K}

theorem terms_eq (w : Nat → K) (q : Nat → Nat → K) {order : List Nat} (ho : order.Perm (List.range C)) : (order.map (cntW w q N)).sum = terms C N w q := by
  rw [(ho.map _).sum_eq, ← sum_flat' C]
  unfold terms cntW
  rw [card_filter, sum_product]
  exact sum_congr rfl (fun k _ => by rw [card_filter])

/-- For every mixture, data set, flags and order of the parallel loops, the encoder accesses nothing out of bounds, divides by no zero, and writes the documented statistics; it returns the number of their terms. -/
theorem encode_correct (F : Flags) (h : Inputs E sq D C N orderC orderN order priors means cov data tmp post sis w mu s2 x) :
    ∃ enc, encode F E sq orderC orderN order D C N priors means cov data tmp post sis = some (enc, terms C N w (weights F C (fun i k => Gmm.posterior E D C w mu s2 (x i) k))) ∧
      Flat enc (2 * C) D (fisher F sq D C N w mu s2 x (fun i k => Gmm.posterior E D C w mu s2 (x i) k)) := by
  have hC : 1 ≤ C := by obtain ⟨k, hk, _⟩ := h.some_prior; omega
  set q := fun i k => Gmm.posterior E D C w mu s2 (x i) k with hq
  obtain ⟨sis', a1, a2⟩ := sqrtInv_spec sq h.hs (fun k hk d hd => (h.pos k hk d hd).ne') h.hsis
  have a3 : Flat sis' C D (fun k d => 1 / sq (s2 k d)) := a2.congr (fun k hk d hd => (sqrt_inv h.sqrt (h.pos k hk d hd)).1)
  obtain ⟨p, b1, b2⟩ := Gmm.posteriors_correct E h.expLog orderC orderN h.hw h.hm h.hs h.hx h.pos h.some_prior h.oC h.oN tmp post h.t1 h.t2 h.t3 h.hpost
  obtain ⟨p', c1, c2⟩ : ∃ p', whenB F.fast (iter N (sparsify C)) p = some p' ∧ Flat p' N C (weights F C q) := by
    unfold whenB weights
    by_cases hF : F.fast = true
    · simp only [hF, if_true]
      exact sparsify_spec b2 hC
    · simp only [if_neg hF]
      exact ⟨p, rfl, b2⟩
  obtain ⟨e1, d1, d2⟩ := clusters_spec h.sqrt h.hw h.hm h.hx c2 a3 order (h.o.nodup_iff.2 List.nodup_range) (fun k hk => List.mem_range.1 (h.o.mem_iff.1 hk)) (List.replicate (2 * D * C) 0) (fun _ _ => 0) 0
    (by rw [show 2 * D * C = 2 * C * D by ring]; exact Flat.replicate (2 * C) D 0) (by simp) (by simp)
  have d3 : Flat e1 (2 * C) D (stats sq C N w mu s2 x (weights F C q)) := d2.congr (by
    intro a ha d hd
    unfold stats
    by_cases hlt : a < C
    · rw [if_pos hlt, if_pos hlt, if_pos (h.o.mem_iff.2 (List.mem_range.2 hlt))]
    · rw [if_neg hlt, if_neg hlt, if_pos (h.o.mem_iff.2 (List.mem_range.2 (by omega)))])
  obtain ⟨e2, f1, f2⟩ := rootAll_spec F sq d3.arr
  obtain ⟨e3, g1, g2⟩ := normalizeAll_spec F.normalized sq f2
  rw [sum_flat (2 * C) D (fun a d => rooted F sq (stats sq C N w mu s2 x (weights F C q) a d) ^ 2)] at g2
  refine ⟨e3, ?_, Arr.flat g2⟩
  unfold encode assert'
  rw [if_pos (by simpa using hC), if_pos (by simpa using h.hD), a1]
  simp only [Option.bind_eq_bind, Option.bind_some]
  rw [b1, Option.bind_some, c1, Option.bind_some, d1, Option.bind_some, show 2 * D * C = 2 * C * D by ring, f1, Option.bind_some, g1, Option.bind_some, Nat.zero_add, terms_eq w _ h.o]
  rfl

/-- With `VL_FISHER_FLAG_NORMALIZED` the norm of the vector is at most one, and it is one if the norm before normalisation is at least `1e-12`. -/
theorem encode_norm (F : Flags) (h : Inputs E sq D C N orderC orderN order priors means cov data tmp post sis w mu s2 x) (hF : F.normalized = true) :
    ∃ enc t, encode F E sq orderC orderN order D C N priors means cov data tmp post sis = some (enc, t) ∧ (enc.map (fun z => z ^ 2)).sum ≤ 1 ∧
      (1 / 10 ^ 12 ≤ sq (∑ a ∈ range (2 * C), ∑ d ∈ range D, rooted F sq (stats sq C N w mu s2 x (weights F C (fun i k => Gmm.posterior E D C w mu s2 (x i) k)) a d) ^ 2) → (enc.map (fun z => z ^ 2)).sum = 1) := by
  obtain ⟨enc, h1, h2⟩ := encode_correct F h
  refine ⟨enc, _, h1, ?_⟩
  set v := fun a d => rooted F sq (stats sq C N w mu s2 x (weights F C (fun i k => Gmm.posterior E D C w mu s2 (x i) k)) a d) with hv
  have e : (enc.map (fun z => z ^ 2)).sum = ∑ p ∈ range (2 * C) ×ˢ range D, (v p.1 p.2 / max (sq (∑ p ∈ range (2 * C) ×ˢ range D, v p.1 p.2 ^ 2)) (1 / 10 ^ 12)) ^ 2 := by
    rw [h2.arr.eq_map, List.map_map, ← sum_flat', sum_product]
    simp only [Function.comp]
    rw [sum_flat (2 * C) D (fun a b => fisher F sq D C N w mu s2 x _ a b ^ 2)]
    simp only [fisher, hF, Vlad.safeNorm2, if_true, sum_product]
    rfl
  have h := Vlad.sum_div_safeNorm sq h.sqrt (range (2 * C) ×ˢ range D) (fun p => v p.1 p.2)
  rw [e]
  simp only [sum_product] at h ⊢
  exact h

/-- The documented value with `VL_FISHER_FLAG_FAST`: the number of terms is the number of points. -/
theorem encode_fast_terms (F : Flags) (h : Inputs E sq D C N orderC orderN order priors means cov data tmp post sis w mu s2 x) (hF : F.fast = true) :
    ∃ enc, encode F E sq orderC orderN order D C N priors means cov data tmp post sis = some (enc, N) := by
  obtain ⟨enc, h1, _⟩ := encode_correct F h
  refine ⟨enc, ?_⟩
  rw [h1]
  have hC : 1 ≤ C := by obtain ⟨k, hk, _⟩ := h.some_prior; omega
  congr 2
  set q := fun i k => Gmm.posterior E D C w mu s2 (x i) k with hq
  have hq1 : ∀ i, (∀ k, 0 ≤ q i k) ∧ ∑ k ∈ range C, q i k = 1 := fun i => Gmm.posterior_distribution E h.expLog D C w mu s2 (x i) h.some_prior
  have hone : ∀ i, ((range C).filter (fun k => Counts w (weights F C q) i k)).card = 1 := by
    intro i
    obtain ⟨b, _, b1, b2, b3⟩ := findBest_spec (N := i + 1) (q := q) (post := (List.range ((i + 1) * C)).map (fun j => q (j / C) (j % C))) (Arr.flat (Arr.of_map _ _)) hC (show i < i + 1 by omega)
    rw [card_eq_one]
    refine ⟨b, ?_⟩
    ext k
    rw [mem_filter, mem_range, mem_singleton]
    unfold Counts weights
    rw [if_pos hF]
    have hsmall : (1 : K) / 10 ^ 6 ≤ 1 := by norm_num
    have hpos : (0 : K) < 1 / 10 ^ 6 := by positivity
    constructor
    · rintro ⟨hk, _, hk2⟩
      rw [hard_best b1 b2 b3 hk] at hk2
      by_contra hne
      rw [if_neg hne] at hk2
      exact absurd hk2 (not_le.2 hpos)
    · rintro rfl
      refine ⟨b1, ?_, ?_⟩
      · by_contra hlt
        have h0 : q i k = 0 := by
          simp only [hq, Gmm.posterior, Gmm.joint, Gmm.usedPrior]
          rw [if_pos (not_le.1 hlt), zero_mul, zero_div]
        have hz : ∑ j ∈ range C, q i j = 0 := sum_eq_zero (fun j hj => le_antisymm (h0 ▸ b2 j (mem_range.1 hj)) ((hq1 i).1 j))
        rw [(hq1 i).2] at hz
        exact one_ne_zero hz
      · rw [hard_best b1 b2 b3 b1, if_pos rfl]
        exact hsmall
  unfold terms
  rw [card_filter, sum_product_right]
  rw [sum_congr rfl (fun i _ => by rw [← card_filter, hone i]), sum_const, card_range, smul_eq_mul, Nat.mul_one]

/-- The encoding and the number of terms do not depend on the order of the data. -/
theorem encode_order (F : Flags) {orderC' orderN' order' : List Nat} {data' : List K} {tmp' : Gmm.Prep K} {post' : List (WithBot K)} {sis' : List K} {x' : Nat → Nat → K}
    (h : Inputs E sq D C N orderC orderN order priors means cov data tmp post sis w mu s2 x) (h' : Inputs E sq D C N orderC' orderN' order' priors means cov data' tmp' post' sis' w mu s2 x')
    (π : Equiv.Perm Nat) (hπ : ∀ i, i < N ↔ π i < N) (hxx : ∀ i < N, x' i = x (π i)) :
    encode F E sq orderC' orderN' order' D C N priors means cov data' tmp' post' sis' = encode F E sq orderC orderN order D C N priors means cov data tmp post sis := by
  obtain ⟨enc, h1, h2⟩ := encode_correct F h
  obtain ⟨enc', h1', h2'⟩ := encode_correct F h'
  set q := fun i k => Gmm.posterior E D C w mu s2 (x i) k with hq
  set q' := fun i k => Gmm.posterior E D C w mu s2 (x' i) k with hq'
  have hbij : ∀ {M : Type} [AddCommMonoid M] (g : Nat → M), ∑ i ∈ range N, g (π i) = ∑ i ∈ range N, g i := by
    intro M _ g
    refine sum_nbij' π π.symm ?_ ?_ ?_ ?_ ?_
    · intro i hi; rw [mem_range] at hi ⊢; exact (hπ i).1 hi
    · intro i hi; rw [mem_range] at hi ⊢; rw [hπ]; simpa using hi
    · intro i _; simp
    · intro i _; simp
    · intro i _; rfl
  have hW : ∀ i < N, weights F C q' i = weights F C q (π i) := by
    intro i hi
    funext k
    have e : ∀ k, q' i k = q (π i) k := fun k => by simp only [hq, hq', hxx i hi]
    unfold weights hard
    simp only [e]
  have hCt : ∀ i < N, ∀ k, Counts w (weights F C q') i k = Counts w (weights F C q) (π i) k := fun i hi k => by simp only [Counts, hW i hi]
  have hM : ∀ k d, meanDev sq N w mu s2 x' (weights F C q') k d = meanDev sq N w mu s2 x (weights F C q) k d := by
    intro k d
    unfold meanDev
    rw [← hbij (fun i => if Counts w (weights F C q) i k then weights F C q i k * ((x i d - mu k d) / sq (s2 k d)) else 0)]
    congr 1
    refine sum_congr rfl (fun i hi => ?_)
    have hi := mem_range.1 hi
    simp only [hCt i hi, hW i hi, hxx i hi]
  have hV : ∀ k d, varDev sq N w mu s2 x' (weights F C q') k d = varDev sq N w mu s2 x (weights F C q) k d := by
    intro k d
    unfold varDev
    rw [← hbij (fun i => if Counts w (weights F C q) i k then weights F C q i k * (((x i d - mu k d) / sq (s2 k d)) ^ 2 - 1) else 0)]
    congr 1
    refine sum_congr rfl (fun i hi => ?_)
    have hi := mem_range.1 hi
    simp only [hCt i hi, hW i hi, hxx i hi]
  have hS : ∀ a d, stats sq C N w mu s2 x' (weights F C q') a d = stats sq C N w mu s2 x (weights F C q) a d := by
    intro a d
    unfold stats
    rw [hM, hV]
  have hT : terms C N w (weights F C q') = terms C N w (weights F C q) := by
    unfold terms
    rw [card_filter, card_filter, sum_product, sum_product]
    refine sum_congr rfl (fun k _ => ?_)
    rw [← hbij (fun i => if Counts w (weights F C q) i k then 1 else 0)]
    refine sum_congr rfl (fun i hi => ?_)
    simp only [hCt i (mem_range.1 hi)]
  rw [h1, h1', hT]
  have hf : ∀ a d, fisher F sq D C N w mu s2 x' q' a d = fisher F sq D C N w mu s2 x q a d := by
    intro a d
    simp only [fisher, hS]
  rw [Arr.eq h2'.arr ((h2.congr (fun k _ d _ => (hf k d).symm)).arr)]

/-! ### A concrete case -/

/-- The hypotheses are met: two components, three points of the plane, real numbers. -/
theorem ex_inputs : Inputs Gmm.realFns Real.sqrt 2 2 3 [1, 0] [2, 0, 1] [0, 1] [1 / 2, 1 / 2] [0, 0, 4, 4] [1, 1, 4, 4] [1, 2, 5, 6, 3, 3] { logCov := [0, 0], invCov := [7, 7, 7, 7], logW := [⊥, ⊥] } [⊥, ⊥, ⊥, ⊥, ⊥, ⊥] [0, 0, 0, 0]
    (fun k => ([1 / 2, 1 / 2] : List ℝ).getD k 0) (fun k d => ([0, 0, 4, 4] : List ℝ).getD (k * 2 + d) 0) (fun k d => ([1, 1, 4, 4] : List ℝ).getD (k * 2 + d) 0) (fun i d => ([1, 2, 5, 6, 3, 3] : List ℝ).getD (i * 2 + d) 0) where
  expLog := Gmm.real_isExpLog
  sqrt := fun a ha => ⟨Real.sqrt_nonneg a, Real.sq_sqrt ha⟩
  hD := by omega
  hw := Arr.of_len' rfl 0
  hm := Flat.of_len rfl 0
  hs := Flat.of_len rfl 0
  hx := Flat.of_len rfl 0
  pos := by
    intro k hk d hd
    have h1 : k = 0 ∨ k = 1 := by omega
    have h2 : d = 0 ∨ d = 1 := by omega
    rcases h1 with rfl | rfl <;> rcases h2 with rfl | rfl <;> simp
  some_prior := ⟨0, by omega, by norm_num⟩
  oC := by decide
  oN := by decide
  o := by decide
  t1 := rfl
  t2 := rfl
  t3 := rfl
  hpost := rfl
  hsis := rfl

example : ∃ enc, encode ⟨true, true, true⟩ Gmm.realFns Real.sqrt [1, 0] [2, 0, 1] [0, 1] 2 2 3 [1 / 2, 1 / 2] [0, 0, 4, 4] [1, 1, 4, 4] [1, 2, 5, 6, 3, 3]
    { logCov := [0, 0], invCov := [7, 7, 7, 7], logW := [⊥, ⊥] } [⊥, ⊥, ⊥, ⊥, ⊥, ⊥] [0, 0, 0, 0] = some (enc, 3) := encode_fast_terms ⟨true, true, true⟩ ex_inputs rfl

/-- The hypotheses of `encode_order` are met by swapping the first two points. -/
example (i : Nat) : i < 3 ↔ Equiv.swap 0 1 i < 3 := by
  rcases eq_or_ne i 0 with rfl | h0
  · rw [Equiv.swap_apply_left]; omega
  · rcases eq_or_ne i 1 with rfl | h1
    · rw [Equiv.swap_apply_right]; omega
    · rw [Equiv.swap_apply_of_ne_of_ne h0 h1]

end Verif.Fisher
