import Verif.Gmm.InitModel
import Verif.Gmm.EmProps
import Verif.Kmeans.AnnProps
import Verif.Kmeans.SeedProps

/-!
# Initialisation of Gaussian mixtures and repetitions: properties (C187, C188)
-/

namespace Verif.Gmm

open Finset

set_option linter.unusedSectionVars false

variable {K ρ : Type} [Field K] [LinearOrder K] [IsStrictOrderedRing K]
variable {D C N : Nat} {lbs data : List K} {lb : Nat → K} {x : Nat → Nat → K}

/-! ## Specification -/

/-- Mean of the data. -/
def dataMean (N : Nat) (x : Nat → Nat → K) (d : Nat) : K := (∑ i ∈ range N, x i d) / N

/-- Unbiased variance of the data; zero for a single point. -/
def dataVar (N : Nat) (x : Nat → Nat → K) (d : Nat) : K := (∑ i ∈ range N, (x i d - dataMean N x d) ^ 2) / ((N : K) - 1)

/-- Number of points of a group. -/
def count (N : Nat) (a : Nat → Nat) (k : Nat) : Nat := (filter (fun i => a i = k) (range N)).card

/-- Mean of the points of a group, zero if there are none. -/
def groupMean (N : Nat) (a : Nat → Nat) (x : Nat → Nat → K) (k d : Nat) : K := (∑ i ∈ range N with a i = k, x i d) / count N a k

/-- Variance of the points of a group, zero if there are none. -/
def groupVar (N : Nat) (a : Nat → Nat) (x : Nat → Nat → K) (k d : Nat) : K := (∑ i ∈ range N with a i = k, (x i d - groupMean N a x k d) ^ 2) / count N a k

/-! ## Random initialisation -/

/-- A loop that adds to one entry. -/
theorem iter_add {l : List K} {n : Nat} {f : Nat → K} (h : Arr l n f) {d : Nat} (hd : d < n) (M : Nat) (t : Nat → K) {body : Nat → List K → Option (List K)}
    (hb : ∀ i < M, ∀ (l : List K) (f : Nat → K), Arr l n f → body i l = wr l d (f d + t i)) :
    ∃ l', iter M body l = some l' ∧ Arr l' n (upd1 f d (f d + ∑ i ∈ range M, t i)) := by
  refine iter_inv (n := M) (f := body) (s := l) (fun i l => Arr l n (upd1 f d (f d + ∑ i ∈ range i, t i))) (h.congr fun j _ => ?_) ?_
  · unfold upd1
    split
    · next e => rw [e]; simp
    · rfl
  · intro i hi l hl
    obtain ⟨l', e1, e2⟩ := hl.wr hd (upd1 f d (f d + ∑ i ∈ range i, t i) d + t i)
    refine ⟨l', by rw [hb i hi l _ hl, e1], e2.congr fun j _ => ?_⟩
    unfold upd1
    split
    · rw [if_pos rfl, sum_range_succ, add_assoc]
    · rfl

/-- A loop that sets the first entries. -/
theorem iter_prefix {l : List K} {n D : Nat} {f : Nat → K} (h : Arr l n f) (v : Nat → K → K) {body : Nat → List K → Option (List K)}
    (hb : ∀ d < D, ∀ (l : List K) (f : Nat → K), Arr l n f → ∃ l', body d l = some l' ∧ Arr l' n (upd1 f d (v d (f d)))) :
    ∃ l', iter D body l = some l' ∧ Arr l' n (fun j => if j < D then v j (f j) else f j) := by
  refine iter_inv (n := D) (f := body) (s := l) (fun i l => Arr l n (fun j => if j < i then v j (f j) else f j)) (h.congr fun j _ => by simp) ?_
  intro i hi l hl
  obtain ⟨l', e1, e2⟩ := hb i hi l _ hl
  refine ⟨l', e1, e2.congr fun j _ => ?_⟩
  unfold upd1
  by_cases h1 : j = i
  · subst h1; simp
  · rw [if_neg h1]
    beta_reduce
    by_cases h2 : j < i
    · rw [if_pos h2, if_pos (by omega)]
    · rw [if_neg h2, if_neg (by omega)]

theorem initSigma_spec (hx : Flat data N D x) {n : Nat} (hn : D ≤ n) {sigma : List K} {f : Nat → K} (hs : Arr sigma n f) :
    ∃ s', initSigma D N data sigma = some s' ∧ Arr s' n (fun j => if j < D then dataVar N x j else f j) := by
  obtain ⟨s1, a1, a2⟩ := iter_prefix (D := D) hs (fun _ _ => (0 : K)) (body := fun d s => wr s d 0) (fun d hd l f hl => hl.wr (by omega) 0)
  unfold initSigma
  rw [a1]
  simp only [Option.bind_eq_bind, Option.bind_some]
  by_cases hN : N ≤ 1
  · rw [if_pos hN]
    refine ⟨s1, rfl, a2.congr fun j _ => ?_⟩
    have : dataVar N x j = 0 := by
      unfold dataVar dataMean
      have h : N = 0 ∨ N = 1 := by omega
      rcases h with rfl | rfl <;> simp
    rw [this]
  · rw [if_neg hN]
    obtain ⟨mean, b1, b2⟩ := iter_prefix (D := D) (Arr.replicate D (0 : K)) (fun d v => (v + ∑ i ∈ range N, x i d) / (N : K))
      (body := fun d (mean : List K) => (iter N (fun i (mean : List K) => (rd mean d).bind fun v => (rd data (i * D + d)).bind fun x => wr mean d (v + x)) mean).bind fun mean =>
        (rd mean d).bind fun v => wr mean d (v / (N : K))) (by
        intro d hd l f hl
        obtain ⟨l', e1, e2⟩ := iter_add hl hd N (fun i => x i d) (body := fun i (mean : List K) => (rd mean d).bind fun v => (rd data (i * D + d)).bind fun x => wr mean d (v + x)) (by
          intro i hi l f hl
          rw [hl.rd hd, Option.bind_some, hx.rd hi hd, Option.bind_some])
        obtain ⟨l2, e3, e4⟩ := e2.wr hd ((f d + ∑ i ∈ range N, x i d) / (N : K))
        refine ⟨l2, ?_, e4.congr fun j _ => ?_⟩
        · rw [e1, Option.bind_some, e2.rd hd, Option.bind_some]
          simpa [upd1] using e3
        · unfold upd1; split <;> rfl)
    have b3 : Arr mean D (dataMean N x) := b2.congr fun j hj => by simp [hj, dataMean]
    rw [b1]
    simp only [Option.bind_some]
    obtain ⟨s2, c1, c2⟩ := iter_prefix (D := D) a2 (fun d v => (v + ∑ i ∈ range N, (x i d - dataMean N x d) * (x i d - dataMean N x d)) / ((N - 1 : Nat) : K))
      (body := fun d (sigma : List K) => (iter N (fun i (sigma : List K) => (rd data (i * D + d)).bind fun x => (rd mean d).bind fun mu => (rd sigma d).bind fun v =>
          wr sigma d (v + (x - mu) * (x - mu))) sigma).bind fun sigma => (rd sigma d).bind fun v => wr sigma d (v / ((N - 1 : Nat) : K))) (by
        intro d hd l f hl
        obtain ⟨l', e1, e2⟩ := iter_add hl (show d < n by omega) N (fun i => (x i d - dataMean N x d) * (x i d - dataMean N x d))
          (body := fun i (sigma : List K) => (rd data (i * D + d)).bind fun x => (rd mean d).bind fun mu => (rd sigma d).bind fun v => wr sigma d (v + (x - mu) * (x - mu))) (by
          intro i hi l f hl
          rw [hx.rd hi hd, Option.bind_some, b3.rd hd, Option.bind_some, hl.rd (by omega), Option.bind_some])
        obtain ⟨l2, e3, e4⟩ := e2.wr (show d < n by omega) ((f d + ∑ i ∈ range N, (x i d - dataMean N x d) * (x i d - dataMean N x d)) / ((N - 1 : Nat) : K))
        refine ⟨l2, ?_, e4.congr fun j _ => ?_⟩
        · rw [e1, Option.bind_some, e2.rd (by omega), Option.bind_some]
          simpa [upd1] using e3
        · unfold upd1; split <;> rfl)
    refine ⟨s2, c1, c2.congr fun j hj => ?_⟩
    by_cases h : j < D
    · rw [if_pos h, if_pos h, if_pos h]
      unfold dataVar
      rw [zero_add, Nat.cast_sub (by omega), Nat.cast_one]
      congr 1
      exact sum_congr rfl fun i _ => by ring
    · rw [if_neg h, if_neg h, if_neg h]

theorem copySigma_spec (hC : 1 ≤ C) {cov : List K} {v : Nat → Nat → K} (hc : Flat cov C D v) :
    ∃ c', copySigma D C cov = some c' ∧ Flat c' C D (fun _ d => v 0 d) := by
  obtain ⟨c', h1, h2⟩ := iter_inv (n := C - 1) (f := fun k cov => iter D (fun d cov => (rd cov d).bind fun v => wr cov ((k + 1) * D + d) v) cov) (s := cov)
    (fun k c => Flat c C D (fun a d => if a ≤ k then v 0 d else v a d)) (hc.congr fun a _ d _ => by
      by_cases h : a ≤ 0
      · rw [if_pos h, Nat.le_zero.1 h]
      · rw [if_neg h]) (by
    intro k hk c hcc
    obtain ⟨c', e1, e2⟩ := iter_inv (n := D) (f := fun d cov => (rd cov d).bind fun v => wr cov ((k + 1) * D + d) v) (s := c)
      (fun m c => Flat c C D (fun a d => if a ≤ k ∨ (a = k + 1 ∧ d < m) then v 0 d else v a d)) (hcc.congr fun a _ d _ => by simp) (by
      intro d hd c hc'
      have h0 := hc'.rd (show 0 < C by omega) hd
      rw [Nat.zero_mul, Nat.zero_add, if_pos (Or.inl (by omega))] at h0
      obtain ⟨c', e1, e2⟩ := hc'.wr (show k + 1 < C by omega) hd (v 0 d)
      refine ⟨c', by rw [h0, Option.bind_some, e1], e2.congr fun a _ b _ => ?_⟩
      unfold upd2
      by_cases h1 : a = k + 1 ∧ b = d
      · rw [if_pos h1, if_pos (by omega), h1.2]
      · rw [if_neg h1]
        beta_reduce
        by_cases h2 : a ≤ k ∨ (a = k + 1 ∧ b < d)
        · rw [if_pos h2, if_pos (by omega)]
        · rw [if_neg h2, if_neg (by omega)])
    refine ⟨c', e1, e2.congr fun a _ d hd => ?_⟩
    by_cases h : a ≤ k + 1
    · rw [if_pos h, if_pos (by omega)]
    · rw [if_neg h, if_neg (by omega)])
  exact ⟨c', h1, h2.congr fun a ha d _ => if_pos (by omega)⟩

/-- The blocks of a mixture have the right sizes; their contents do not matter. -/
def Sized (C D : Nat) (m : Mix K) : Prop := m.priors.length = C ∧ m.means.length = C * D ∧ m.cov.length = C * D

/-- **C187 (random initialisation).** For all data, random streams and previous contents: the weights are equal, the means are data points chosen by k-means++, and all the components have the variance of the data. -/
theorem initRand_correct (hC : 1 ≤ C) (hN : 1 ≤ N) (hx : Flat data N D x) {g : List K} (hg : g.length = C * D) {u : ρ → Nat → Nat × ρ} (hu : ∀ r n, 0 < n → (u r n).1 < n) (real1 : ρ → K × ρ)
    {m : Mix K} (hm : Sized C D m) (r : ρ) :
    ∃ m' r' mu, initRand D C N data g u real1 m r = some (m', r') ∧ MixIs m' C D (fun _ => 1 / C) mu (fun _ d => dataVar N x d) ∧
      ∃ sel : List Nat, sel.length = C ∧ (∀ k (h : k < sel.length), sel[k] < N ∧ ∀ d < D, mu k d = x sel[k] d) ∧ sel.head? = some (u r N).1 ∧
        ∀ i (h : i < sel.length), 0 < i → Kmeans.Sampled .l2 D N data (sel.take i) (Kmeans.draw real1 (i - 1) (u r N).2) sel[i] := by
  obtain ⟨p, a1, a2⟩ := iter_arr (Arr.of_len' hm.1 0) (fun _ _ => 1 / (C : K)) (body := fun k p => wr p k (1 / (C : K))) (fun d _ l f _ => rfl)
  have hDn : D ≤ C * D := Nat.le_mul_of_pos_left _ hC
  obtain ⟨s, b1, b2⟩ := initSigma_spec hx hDn (Arr.of_len' hm.2.2 0)
  obtain ⟨c, c1, c2⟩ := copySigma_spec hC (Flat.of_len b2.len 0)
  obtain ⟨cs, r', sel, d1, d2, d3, d4, d5⟩ := Kmeans.ppSeed_correct (m := .l2) hx.len hg (by omega) (by omega) hu real1 r
  have hcs : cs.length = C * D := by rw [d3.1, d2]
  refine ⟨{ priors := p, means := cs.take (D * C), cov := c }, r', Kmeans.comp cs D, ?_, ⟨a2, ?_, c2.congr fun a _ d hd => ?_⟩, sel, d2, fun k hk => ⟨d3.2.1 _ (List.getElem_mem hk), fun d hd => ?_⟩, d4, d5⟩
  · unfold initRand
    rw [a1]
    simp only [Option.bind_eq_bind, Option.bind_some]
    rw [b1]
    simp only [Option.bind_some]
    rw [c1]
    simp only [Option.bind_some]
    rw [d1]
    rfl
  · rw [List.take_of_length_le (by rw [hcs, Nat.mul_comm])]
    exact Kmeans.flat_comp hcs
  · have := b2.get d (by omega)
    rw [if_pos hd] at this
    simp [List.getD, this]
  · rw [d3.2.2 k hk d hd]
    exact Kmeans.Flat.comp_eq hx (d3.2.1 _ (List.getElem_mem hk)) hd

/-! ## Initialisation by k-means -/

theorem oneHot_spec {asgn : List Nat} {a : Nat → Nat} (ha : Arr asgn N a) (hlt : ∀ i < N, a i < C) :
    ∃ p : List K, oneHot C N asgn = some p ∧ Flat p N C (fun i k => if a i = k then 1 else 0) := by
  obtain ⟨p, h1, h2⟩ := iter_inv (n := N) (f := fun i (post : List K) => (rd asgn i).bind fun a => wr post (a + i * C) 1) (s := List.replicate (C * N) 0)
    (fun i p => Flat p N C (fun j k => if j < i ∧ a j = k then 1 else 0)) (by
      rw [Nat.mul_comm]
      exact (Flat.replicate N C 0).congr fun i _ k _ => by simp) (by
    intro i hi p hp
    obtain ⟨p', e1, e2⟩ := hp.wr hi (hlt i hi) 1
    refine ⟨p', by rw [ha.rd hi, Option.bind_some, Nat.add_comm, e1], e2.congr fun j _ k _ => ?_⟩
    unfold upd2
    by_cases h : j = i ∧ k = a i
    · rw [if_pos h, if_pos ⟨by omega, by rw [h.1, h.2]⟩]
    · rw [if_neg h]
      beta_reduce
      by_cases h2 : j < i ∧ a j = k
      · rw [if_pos h2, if_pos ⟨by omega, h2.2⟩]
      · rw [if_neg h2, if_neg]
        rintro ⟨h3, h4⟩
        by_cases h5 : j = i
        · subst h5; exact h ⟨rfl, h4.symm⟩
        · exact h2 ⟨by omega, h4⟩)
  exact ⟨p, h1, h2.congr fun i hi k _ => by simp [hi]⟩

theorem assoc_oneHot (hC : 1 ≤ C) (a : Nat → Nat) (i k : Nat) : assoc C (fun i k => if a i = k then (1 : K) else 0) i k = if a i = k then 1 else 0 := by
  have h1 : (1 : K) ≤ C := by exact_mod_cast hC
  unfold assoc
  beta_reduce
  by_cases h : a i = k
  · rw [if_pos h, if_neg]
    have h3 : (1 : K) / 100 / C ≤ 1 / 100 := div_le_self (by norm_num) h1
    exact not_lt.2 (h3.trans (by norm_num))
  · rw [if_neg h, ite_self]

theorem mass_oneHot (hC : 1 ≤ C) (a : Nat → Nat) (k : Nat) : massOf C N (fun i k => if a i = k then (1 : K) else 0) k = count N a k := by
  unfold massOf count
  rw [sum_congr rfl fun i _ => assoc_oneHot hC a i k, sum_boole]

theorem wsum_oneHot (hC : 1 ≤ C) (a : Nat → Nat) (k : Nat) (f : Nat → K) :
    ∑ i ∈ range N, assoc C (fun i k => if a i = k then (1 : K) else 0) i k * f i = ∑ i ∈ range N with a i = k, f i := by
  rw [sum_congr rfl fun i _ => by rw [assoc_oneHot hC a i k], sum_filter]
  exact sum_congr rfl fun i _ => by split <;> simp

theorem sum_count {a : Nat → Nat} (h : ∀ i < N, a i < C) : ∑ k ∈ range C, count N a k = N := by
  unfold count
  rw [← card_eq_sum_card_fiberwise (f := a) (s := range N) (t := range C) (fun i hi => by simpa using h i (by simpa using hi)), card_range]

/-- **C187 (initialisation by k-means).** For all data and any run of k-means that returns centres: each point is assigned to the first of the nearest centres; the weight, the mean and the variance of a
component are the fraction, the mean and the variance of the points assigned to it, the variance not less than the lower bound; the weights are probabilities. -/
theorem initKmeans_correct (hD : 1 ≤ D) (hC : 1 ≤ C) (hN : 1 ≤ N) (hl : Arr lbs D lb) (hx : Flat data N D x) {chunks : List (List Nat)} (hch : chunks.flatten.Perm (List.range N)) (metric : Kmeans.Metric)
    {kmeans : ρ → Option (List K × ρ)} {r r' : ρ} {c : List K} (hk : kmeans r = some (c, r')) (hc : c.length = C * D) {q : Kmeans.Quant K} (h1 : q.asgn.length = N) (h2 : q.dists.length = N) (h3 : q.tmp.length = C) :
    ∃ m' a, initKmeans kmeans metric chunks D C N lbs data q r = some (m', r') ∧
      (∀ i < N, Kmeans.Nearest metric D C data c i (a i) ∧ ∀ k < a i, Kmeans.pc metric D data c i (a i) < Kmeans.pc metric D data c i k) ∧
      MixIs m' C D (fun k => (count N a k : K) / N) (groupMean N a x) (fun k d => max (groupVar N a x k d) (lb d)) ∧ DistrW C (fun k => (count N a k : K) / N) := by
  obtain ⟨q', a, a1, a2, -, -, a5⟩ := Kmeans.quantize_spec (m := metric) (dim := D) (N := N) (nC := C) hD hx.len hc hC h1 h2 h3
  have hlt : ∀ i < N, a i < C := fun i hi => (a5 i hi).1.1
  obtain ⟨p, b1, b2⟩ := oneHot_spec (K := K) a2 hlt
  obtain ⟨m', c1, c2⟩ := maximization_correct chunks hch hl b2 (fun i _ k _ => by split <;> norm_num) hx (zeros K C D) (Flat.replicate C D 0)
  have hN0 : (0 : K) < N := by exact_mod_cast hN
  have hsum : ∑ k ∈ range C, (count N a k : K) = N := by exact_mod_cast congrArg (Nat.cast (R := K)) (sum_count hlt)
  refine ⟨m', a, ?_, a5, c2.congr (fun k _ => ?_) (fun k _ d _ => ?_) (fun k _ d _ => ?_), fun k _ => by positivity, ?_⟩
  · unfold initKmeans
    rw [hk]
    simp only [Option.bind_eq_bind, Option.bind_some]
    rw [a1, Option.bind_some, b1, Option.bind_some, c1]
    rfl
  · rw [sum_congr rfl fun k _ => mass_oneHot hC a k, hsum, mass_oneHot hC a k, max_eq_left]
    have : (1 : K) ≤ N := by exact_mod_cast hN
    exact le_trans (by norm_num) this
  · rw [mass_oneHot hC a k]
    unfold meanOf groupMean
    rw [mass_oneHot hC a k, wsum_oneHot hC a k]
    split_ifs with h
    · rw [h, div_zero]
    · rfl
  · rw [mass_oneHot hC a k]
    unfold varOf groupVar
    rw [mass_oneHot hC a k, wsum_oneHot hC a k]
    unfold meanOf groupMean
    rw [mass_oneHot hC a k, wsum_oneHot hC a k]
    split_ifs with h
    · rw [h, div_zero]
    · rfl
  · rw [← sum_div, hsum, div_self hN0.ne']

/-- The default run of k-means succeeds and returns centres, whatever the random numbers, the trees and the schedules, provided there are at least as many points as components. -/
theorem defaultKmeans_correct (hD : 1 ≤ D) (hC : 1 ≤ C) (hCN : C ≤ N) (h32 : C ≤ 2 ^ 32) (hx : Flat data N D x) {u : ρ → Nat → Nat × ρ} (hu : ∀ r n, 0 < n → (u r n).1 < n) {env : Kmeans.AnnEnv K ρ}
    (hb : ∀ it, Kmeans.BuildOk D C 1 (env.build it)) (ho : ∀ i, Kmeans.IsSchedule (env.blks i).length N (env.order i)) {g : List K} (hg : g.length = C * D) {asgn : List Nat} (ha : asgn.length = N) {dists : List K}
    (hd : dists.length = N) (r : ρ) : ∃ c r', defaultKmeans env u D C N data g asgn dists r = some (c, r') ∧ c.length = C * D := by
  obtain ⟨cs, r1, sel, a1, -, a3, -, a5, -⟩ := Kmeans.randSeed_correct (m := .l2) (uindex := fun r n => some (u r n)) (inv := fun _ => True) (bound := N) hx.len hg hCN
    (fun s n _ hn _ => ⟨_, _, rfl, hu s n hn, trivial⟩) (le_refl N) (r := r) trivial
  obtain ⟨log, e, s', b, b1, b2, -⟩ := Kmeans.ann_correct (m := .l2) hu hC hCN hD (numTrees := 1) (by omega) h32 hx.len (max (N / 4) 10) (1 / 10000) 5 hb (centers := cs) (by rw [a5.1, a3]) r1
  refine ⟨s'.centers, s'.rng, ?_, b2⟩
  unfold defaultKmeans
  rw [a1]
  simp only [Option.bind_eq_bind, Option.bind_some]
  have := b1 env.blks env.order asgn dists ho ha hd
  rw [show env = { build := env.build, blks := env.blks, order := env.order } from rfl, this]
  rfl

/-! ## Repetitions -/

/-- An initialisation succeeds from any contents of the blocks and gives a mixture with a component of weight at least `1e-6`. -/
def InitOk (C D : Nat) (init : Mix K → ρ → Option (Mix K × ρ)) : Prop :=
  ∀ m r, Sized C D m → ∃ m' r' w mu s2, init m r = some (m', r') ∧ MixIs m' C D w mu s2 ∧ ∃ k < C, 1 / 10 ^ 6 ≤ w k

/-- The random initialisation is one. -/
theorem initRand_ok (hC : 1 ≤ C) (hCmax : C ≤ 10 ^ 6) (hN : 1 ≤ N) (hx : Flat data N D x) {g : List K} (hg : g.length = C * D) {u : ρ → Nat → Nat × ρ} (hu : ∀ r n, 0 < n → (u r n).1 < n) (real1 : ρ → K × ρ) :
    InitOk C D (initRand D C N data g u real1) := by
  intro m r hm
  obtain ⟨m', r', mu, h1, h2, -⟩ := initRand_correct hC hN hx hg hu real1 hm r
  have h0 : (0 : K) < C := by exact_mod_cast hC
  refine ⟨m', r', _, mu, _, h1, h2, 0, by omega, ?_⟩
  have : (C : K) ≤ 10 ^ 6 := by exact_mod_cast hCmax
  exact one_div_le_one_div_of_le h0 this

/-- The initialisation by k-means is one. -/
theorem initKmeans_ok (hS : Setup D C N lbs data lb x) {chunks : List (List Nat)} (hch : chunks.flatten.Perm (List.range N)) (metric : Kmeans.Metric)
    {kmeans : ρ → Option (List K × ρ)} (hk : ∀ r, ∃ c r', kmeans r = some (c, r') ∧ c.length = C * D) {q : Kmeans.Quant K} (h1 : q.asgn.length = N) (h2 : q.dists.length = N) (h3 : q.tmp.length = C) :
    InitOk C D (fun _ r => initKmeans kmeans metric chunks D C N lbs data q r) := by
  intro m r _
  obtain ⟨c, r', e1, e2⟩ := hk r
  obtain ⟨m', a, b1, -, b2, b3⟩ := initKmeans_correct hS.hD hS.hC hS.hN hS.hl hS.hx hch metric e1 e2 h1 h2 h3
  exact ⟨m', r', _, _, _, b1, b2, some_prior hS.hCmax b3⟩

/-- A mixture, posteriors and log-likelihood that belong together, the variances not less than the bounds. -/
def Consistent (E : Fns K) (D C N maxIter : Nat) (lb : Nat → K) (x : Nat → Nat → K) (r : Mix K × List K × K) : Prop :=
  ∃ w mu s2, MixIs r.1 C D w mu s2 ∧ (∀ k < C, ∀ d < D, lb d ≤ s2 k d) ∧ (1 ≤ maxIter → DistrW C w) ∧
    Flat r.2.1 N C (fun i k => posterior E D C w mu s2 (x i) k) ∧ r.2.2 = ∑ i ∈ range N, E.log (density E D C w mu s2 (x i))

variable {E : Fns K}

/-- **C188.** For all data, initialisations that succeed, numbers of repetitions and iterations, schedules and contents of memory: no undefined behaviour; each repetition fits a mixture starting from its own
initialisation; the mixture, the posteriors and the log-likelihood that are kept are those of the first repetition with the largest log-likelihood, and belong together. -/
theorem gmmCluster_correct (hE : IsExpLog E) (hS : Setup D C N lbs data lb x) {init : Nat → Mix K → ρ → Option (Mix K × ρ)} (hi : ∀ rep, InitOk C D (init rep)) {env : Nat → RepEnv K}
    (hs : ∀ rep n, Allowed D C N ((env rep).sched n)) (hp : ∀ rep, (env rep).post.length = N * C) {numReps : Nat} (hR : 1 ≤ numReps) (maxIter : Nat) {g m : Mix K} (hg : Sized C D g) (hm : Sized C D m) (r : ρ) :
    ∃ s, ∃ runs : List (Mix K × Mix K × List K × K), gmmCluster init E env numReps maxIter D C N lbs data g m r = some s ∧ runs.length = numReps ∧
      (∀ rep (h : rep < runs.length), (∃ m0 r0 r1, Sized C D m0 ∧ init rep m0 r0 = some (runs[rep].1, r1)) ∧ em E (env rep).sched maxIter D C N lbs data (env rep).post runs[rep].1 = some runs[rep].2 ∧
        Consistent E D C N maxIter lb x runs[rep].2) ∧
      ∃ rep, ∃ h : rep < runs.length, (s.best, s.bestPost) = (runs[rep].2.1, runs[rep].2.2.1) ∧ s.bestLL = (runs[rep].2.2.2 : WithBot K) ∧ (∀ j (h' : j < runs.length), runs[j].2.2.2 ≤ runs[rep].2.2.2) ∧
        ∀ j (_ : j < rep), runs[j].2.2.2 < runs[rep].2.2.2 := by
  obtain ⟨s, h1, h2⟩ := iter_inv (n := numReps) (f := fun rep s => repetition (init rep) E (env rep) maxIter D C N lbs data rep s) (s := { self := m, best := g, bestPost := [], bestLL := ⊥, rng := r })
    (fun n s => Sized C D s.self ∧ Sized C D s.best ∧ ∃ runs : List (Mix K × Mix K × List K × K), runs.length = n ∧
      (∀ rep (h : rep < runs.length), (∃ m0 r0 r1, Sized C D m0 ∧ init rep m0 r0 = some (runs[rep].1, r1)) ∧ em E (env rep).sched maxIter D C N lbs data (env rep).post runs[rep].1 = some runs[rep].2 ∧
        Consistent E D C N maxIter lb x runs[rep].2) ∧
      (n = 0 ∨ ∃ rep, ∃ h : rep < runs.length, (s.best, s.bestPost) = (runs[rep].2.1, runs[rep].2.2.1) ∧ s.bestLL = (runs[rep].2.2.2 : WithBot K) ∧ (∀ j (h' : j < runs.length), runs[j].2.2.2 ≤ runs[rep].2.2.2) ∧
        ∀ j (_ : j < rep), runs[j].2.2.2 < runs[rep].2.2.2))
    ⟨hm, hg, [], rfl, by simp, Or.inl rfl⟩ (by
    rintro n hn s ⟨z1, z2, runs, z3, z4, z5⟩
    obtain ⟨m', r', w, mu, s2, a1, a2, a3⟩ := hi n s.self s.rng z1
    obtain ⟨m2, p, LL, b1, w', mu', s2', b2, b3, b4, b5, b6⟩ := em_correct hE hS (env n).sched (hs n) maxIter (env n).post (hp n) a2 a3
    have hsz : Sized C D m2 := ⟨b2.priors.len, b2.means.len, b2.cov.len⟩
    have hrep : repetition (init n) E (env n) maxIter D C N lbs data n s = some (if s.bestLL < (LL : WithBot K) ∨ n = 0 then
        { self := s.best, best := m2, bestPost := p, bestLL := (LL : WithBot K), rng := r' } else { s with self := m2, rng := r' }) := by
      unfold repetition
      rw [a1]
      simp only [Option.bind_eq_bind, Option.bind_some]
      rw [b1]
      rfl
    have hget : ∀ j (h : j < runs.length) (h' : j < (runs ++ [(m', m2, p, LL)]).length), (runs ++ [(m', m2, p, LL)])[j] = runs[j] := fun j h _ => List.getElem_append_left h
    have hget' : ∀ (h' : n < (runs ++ [(m', m2, p, LL)]).length), (runs ++ [(m', m2, p, LL)])[n] = (m', m2, p, LL) := by
      intro h'
      simp [← z3]
    have hall : ∀ rep (h : rep < (runs ++ [(m', m2, p, LL)]).length), (∃ m0 r0 r1, Sized C D m0 ∧ init rep m0 r0 = some ((runs ++ [(m', m2, p, LL)])[rep].1, r1)) ∧
        em E (env rep).sched maxIter D C N lbs data (env rep).post (runs ++ [(m', m2, p, LL)])[rep].1 = some (runs ++ [(m', m2, p, LL)])[rep].2 ∧ Consistent E D C N maxIter lb x (runs ++ [(m', m2, p, LL)])[rep].2 := by
      intro rep h
      by_cases hr : rep < runs.length
      · rw [hget rep hr]; exact z4 rep hr
      · have : rep = n := by simp at h; omega
        subst this
        rw [hget']
        exact ⟨⟨s.self, s.rng, r', z1, a1⟩, b1, w', mu', s2', b2, b3, b4, b5, b6⟩
    have hlast : n < (runs ++ [(m', m2, p, LL)]).length := by simp; omega
    refine ⟨_, hrep, ?_⟩
    by_cases hb : s.bestLL < (LL : WithBot K) ∨ n = 0
    · rw [if_pos hb]
      refine ⟨z2, hsz, runs ++ [(m', m2, p, LL)], by simp [z3], hall, Or.inr ⟨n, hlast, by rw [hget'], by rw [hget'], ?_, ?_⟩⟩
      all_goals
        have hlt : ∀ j (h : j < runs.length), runs[j].2.2.2 < LL := by
          intro j h
          rcases hb with hb | hb
          · rcases z5 with z5 | ⟨rep, q1, -, q3, q4, -⟩
            · omega
            · rw [q3, WithBot.coe_lt_coe] at hb
              exact lt_of_le_of_lt (q4 j h) hb
          · omega
      · intro j h'
        rw [hget']
        by_cases hr : j < runs.length
        · rw [hget j hr]; exact (hlt j hr).le
        · have : j = n := by simp at h'; omega
          subst this
          rw [hget']
      · intro j h'
        rw [hget', hget j (by omega)]
        exact hlt j (by omega)
    · rw [if_neg hb]
      refine ⟨hsz, z2, runs ++ [(m', m2, p, LL)], by simp [z3], hall, Or.inr ?_⟩
      push Not at hb
      rcases z5 with z5 | ⟨rep, q1, q2, q3, q4, q5⟩
      · exact absurd z5 hb.2
      · refine ⟨rep, by simp; omega, by rw [hget rep q1]; exact q2, by rw [hget rep q1]; exact q3, fun j h' => ?_, fun j h' => ?_⟩
        · rw [hget rep q1]
          by_cases hr : j < runs.length
          · rw [hget j hr]; exact q4 j hr
          · have : j = n := by simp at h'; omega
            subst this
            rw [hget']
            have := hb.1
            rw [q3, WithBot.coe_le_coe] at this
            exact this
        · rw [hget rep q1, hget j (by omega)]
          exact q5 j h')
  obtain ⟨-, -, runs, e1, e2, e3⟩ := h2
  refine ⟨s, runs, ?_, e1, e2, e3.resolve_left (by omega)⟩
  unfold gmmCluster
  rw [show assert' (decide (numReps ≥ 1)) = some () from if_pos (decide_eq_true hR)]
  exact h1

/-! ## A starting point given by the user -/

/-- With no iterations the algorithm returns the mixture it is given, with bounded variances. -/
theorem em_zero (hE : IsExpLog E) (hS : Setup D C N lbs data lb x) (sched : Nat → Sched K) (hsch : ∀ n, Allowed D C N (sched n)) (post : List (WithBot K)) (hpost : post.length = N * C) {m : Mix K}
    {w : Nat → K} {mu s2 : Nat → Nat → K} (hm : MixIs m C D w mu s2) (hpr : ∃ k < C, 1 / 10 ^ 6 ≤ w k) :
    ∃ m' p, em E sched 0 D C N lbs data post m = some (m', p, ∑ i ∈ range N, E.log (density E D C w mu (fun k d => max (s2 k d) (lb d)) (x i))) ∧ MixIs m' C D w mu (fun k d => max (s2 k d) (lb d)) := by
  obtain ⟨m1, a1, a2⟩ := applyBounds_spec hS.hl hm
  have ht := hsch 0
  obtain ⟨p, b1, -⟩ := posteriors_correct E hE _ _ a2.priors a2.means a2.cov hS.hx (fun k _ d hd => lt_of_lt_of_le (hS.hpos d hd) (le_max_right _ _)) hpr ht.oC ht.oN (sched 0).tmp post ht.t1 ht.t2 ht.t3 hpost
  refine ⟨m1, p, ?_, a2⟩
  unfold em
  rw [a1]
  simp only [Option.bind_eq_bind, Option.bind_some]
  unfold emLoop
  simp only [Option.bind_eq_bind]
  rw [b1]
  rfl

/-- The initialisation `VlGMMCustom`, vl/gmm.c:1593: the mixture of the object is the starting point. -/
def initCustom (m : Mix K) (r : ρ) : Option (Mix K × ρ) := some (m, r)

/-- Claim (vl/gmm.c:108-110, 283: the user specifies the starting point): with a given starting point the result is a function of it, of the data and of the settings, not of the contents of the memory allocated. -/
def CustomClaim : Prop :=
  ∀ (D C N numReps maxIter : Nat) (lbs data : List ℝ) (lb : Nat → ℝ) (x : Nat → Nat → ℝ), Setup D C N lbs data lb x → 1 ≤ numReps → ∀ (env : Nat → RepEnv ℝ), (∀ rep n, Allowed D C N ((env rep).sched n)) →
    (∀ rep, (env rep).post.length = N * C) → ∀ (m : Mix ℝ) (w : Nat → ℝ) (mu s2 : Nat → Nat → ℝ), MixIs m C D w mu s2 → DistrW C w → ∀ g g' : Mix ℝ, Sized C D g → Sized C D g' →
      (gmmCluster (fun _ => initCustom) realFns env numReps maxIter D C N lbs data g m ()).map Reps.best = (gmmCluster (fun _ => initCustom) realFns env numReps maxIter D C N lbs data g' m ()).map Reps.best

/-- A mixture of one component of variance one. -/
def ex1 (mean : ℝ) : Mix ℝ := { priors := [1], means := [mean], cov := [1] }

theorem ex1_is (mean : ℝ) : MixIs (ex1 mean) 1 1 (fun _ => 1) (fun _ _ => mean) (fun _ _ => 1) :=
  ⟨⟨rfl, fun i hi => by obtain rfl : i = 0 := (by omega); rfl⟩, ⟨rfl, fun i hi j hj => by obtain rfl : i = 0 := (by omega); obtain rfl : j = 0 := (by omega); rfl⟩,
    ⟨rfl, fun i hi j hj => by obtain rfl : i = 0 := (by omega); obtain rfl : j = 0 := (by omega); rfl⟩⟩

theorem ex1_setup : Setup 1 1 1 ([1] : List ℝ) [0] (fun _ => 1) (fun _ _ => 0) :=
  { hD := le_refl 1, hC := le_refl 1, hCmax := by norm_num, hN := le_refl 1, hl := ⟨rfl, fun i hi => by obtain rfl : i = 0 := (by omega); rfl⟩, hpos := fun _ _ => one_pos,
    hx := ⟨rfl, fun i hi j hj => by obtain rfl : i = 0 := (by omega); obtain rfl : j = 0 := (by omega); rfl⟩ }

/-- One thread. -/
def ex1_env : RepEnv ℝ := { sched := fun _ => { orderC := [0], orderN := [0], tmp := { logCov := [0], invCov := [0], logW := [⊥] }, restart := fun _ => [[0]], chunks := [[0]] }, post := [⊥] }

theorem ex1_allowed (n : Nat) : Allowed 1 1 1 (ex1_env.sched n) :=
  { oC := List.Perm.refl _, oN := List.Perm.refl _, t1 := rfl, t2 := rfl, t3 := rfl, restart := fun _ => List.Perm.refl _, chunks := List.Perm.refl _ }

theorem ex1_LL (mean : ℝ) : ∑ i ∈ range 1, realFns.log (density realFns 1 1 (fun _ => 1) (fun _ _ => mean) (fun _ _ => max 1 1) ((fun _ _ => 0 : Nat → Nat → ℝ) i)) = - (1 / 2 * realFns.log2pi) - 1 / 2 * mean ^ 2 := by
  have h : ¬ ((1 : ℝ) < 1 / 10 ^ 6) := by norm_num
  simp only [sum_range_one, density, joint, usedPrior, if_neg h, one_mul, max_self, real_isExpLog.log_exp]
  simp [logDensity, realFns]

theorem ex1_em (mean : ℝ) : ∃ m' p, em realFns ex1_env.sched 0 1 1 1 [1] [0] ex1_env.post (ex1 mean) = some (m', p, - (1 / 2 * realFns.log2pi) - 1 / 2 * mean ^ 2) ∧ m'.means = [mean] := by
  obtain ⟨m', p, h1, h2⟩ := em_zero real_isExpLog ex1_setup ex1_env.sched ex1_allowed ex1_env.post rfl (ex1_is mean) ⟨0, by omega, by norm_num⟩
  refine ⟨m', p, ?_, ?_⟩
  · rw [h1, ex1_LL]
  · have := h2.means.len
    have h0 := h2.means.get 0 (by omega) 0 (by omega)
    match hm : m'.means, this with
    | [a], _ => rw [hm] at h0; simpa using h0

/-- Two repetitions: the second one starts from the contents of the memory allocated. -/
theorem ex1_cluster (mean g : ℝ) : ∃ s, gmmCluster (fun _ => initCustom) realFns (fun _ => ex1_env) 2 0 1 1 1 [1] [0] (ex1 g) (ex1 mean) () = some s ∧ s.best.means = [if g ^ 2 < mean ^ 2 then g else mean] := by
  obtain ⟨m1, p1, a1, a2⟩ := ex1_em mean
  obtain ⟨m2, p2, b1, b2⟩ := ex1_em g
  have h1 : repetition initCustom realFns ex1_env 0 1 1 1 [1] [0] 0 { self := ex1 mean, best := ex1 g, bestPost := [], bestLL := ⊥, rng := () } =
      some { self := ex1 g, best := m1, bestPost := p1, bestLL := ((- (1 / 2 * realFns.log2pi) - 1 / 2 * mean ^ 2 : ℝ) : WithBot ℝ), rng := () } := by
    unfold repetition initCustom
    simp only [Option.bind_eq_bind, Option.bind_some]
    rw [a1]
    simp
  have h2 : ∃ s, repetition initCustom realFns ex1_env 0 1 1 1 [1] [0] 1 { self := ex1 g, best := m1, bestPost := p1, bestLL := ((- (1 / 2 * realFns.log2pi) - 1 / 2 * mean ^ 2 : ℝ) : WithBot ℝ), rng := () } =
      some s ∧ s.best.means = [if g ^ 2 < mean ^ 2 then g else mean] := by
    unfold repetition initCustom
    simp only [Option.bind_eq_bind, Option.bind_some]
    rw [b1]
    simp only [Option.bind_some]
    refine ⟨_, rfl, ?_⟩
    by_cases h : g ^ 2 < mean ^ 2
    · rw [if_pos, if_pos h]
      · exact b2
      · left
        rw [WithBot.coe_lt_coe]
        linarith
    · rw [if_neg, if_neg h]
      · exact a2
      · rintro (h' | h')
        · rw [WithBot.coe_lt_coe] at h'
          apply h
          linarith
        · omega
  obtain ⟨s, h2, h3⟩ := h2
  refine ⟨s, ?_, h3⟩
  unfold gmmCluster
  rw [show assert' (decide (2 ≥ 1)) = some () from rfl]
  simp only [Option.bind_eq_bind, Option.bind_some, iter]
  rw [h1, Option.bind_some, h2]

/-- **C188 (refuted).** From the second repetition on, the starting point given by the user is lost: the clustering starts from memory that was never written. -/
theorem custom_claim_false : ¬ CustomClaim := by
  intro h
  have := h 1 1 1 2 0 [1] [0] _ _ ex1_setup (by omega) (fun _ => ex1_env) (fun _ => ex1_allowed) (fun _ => rfl) (ex1 1) _ _ _ (ex1_is 1) ⟨fun _ _ => zero_le_one, by simp⟩ (ex1 0) (ex1 1) ⟨rfl, rfl, rfl⟩ ⟨rfl, rfl, rfl⟩
  obtain ⟨s, a1, a2⟩ := ex1_cluster 1 0
  obtain ⟨s', b1, b2⟩ := ex1_cluster 1 1
  rw [a1, b1] at this
  simp only [Option.map_some, Option.some.injEq] at this
  rw [this, b2] at a2
  norm_num at a2

/-! ## Concrete cases -/

/-- Two components and three points; the first index drawn is 1, the threshold takes the next point at a positive distance. -/
example : (initRand 1 2 3 ([1, 3, 8] : List ℚ) [9, 9] (fun r n => (1 % n, r)) (fun r => (1, r)) { priors := [5, 5], means := [5, 5], cov := [5, 5] } ()).map (fun r => (r.1.priors, r.1.means, r.1.cov)) =
    some ([1 / 2, 1 / 2], [3, 8], [13, 13]) := by decide +kernel

/-- Centres at 0 and 10: the groups are the first two points and the last one; the lower bound is 1/2. -/
example : (initKmeans (fun r => some ([0, 10], r)) .l2 [[2, 0], [1]] 1 2 3 ([1 / 2] : List ℚ) [1, 5, 8] { asgn := [7, 7, 7], dists := [0, 0, 0], tmp := [0, 0] } ()).map (fun r => (r.1.priors, r.1.means, r.1.cov)) =
    some ([2 / 3, 1 / 3], [3, 8], [4, 1 / 2]) := by decide +kernel

/-- The hypotheses of `gmmCluster_correct` are met: three repetitions, random initialisation. -/
example : ∃ s, gmmCluster (fun _ => initRand 1 1 1 [0] [0] (fun r n => (7 % n, r)) (fun r => (0, r))) realFns (fun _ => ex1_env) 3 4 1 1 1 [1] [0] (ex1 5) (ex1 6) () = some s := by
  obtain ⟨s, -, h, -⟩ := gmmCluster_correct real_isExpLog ex1_setup (init := fun _ => initRand 1 1 1 [0] [0] (fun r n => (7 % n, r)) (fun r => (0, r)))
    (fun _ => initRand_ok (le_refl 1) (by norm_num) (le_refl 1) ex1_setup.hx rfl (fun r n hn => Nat.mod_lt _ hn) (fun r => (0, r))) (env := fun _ => ex1_env) (fun _ => ex1_allowed) (fun _ => rfl) (numReps := 3) (by omega) 4
    (g := ex1 5) (m := ex1 6) ⟨rfl, rfl, rfl⟩ ⟨rfl, rfl, rfl⟩ ()
  exact ⟨s, h⟩

end Verif.Gmm
