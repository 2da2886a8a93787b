import Verif.Gmm.EmModel
import Verif.Kmeans.AnnModel
import Verif.Kmeans.SeedModel

/-!
# Model of the initialisation of Gaussian mixtures and of the repetitions, vl/gmm.c

The blocks that are allocated have arbitrary contents, which are parameters.  Printing and the life of the k-means objects are not modelled.  `posteriors` has exactly `N * C` entries
(vl/gmm.c:336-344 keeps a larger block of a previous run, of which only the first entries are used).
-/

namespace Verif.Gmm

variable {K ρ : Type} [Field K] [LinearOrder K]

/-! ## Random initialisation -/

/-- `_vl_gmm_compute_init_sigma`, vl/gmm.c:1376-1412; `sigma` is the block of the covariances, of which the first `D` entries are set. -/
def initSigma (D N : Nat) (data sigma : List K) : Option (List K) := do
  let sigma ← iter D (fun d s => wr s d 0) sigma
  if N ≤ 1 then pure sigma else do
    let mean ← iter D (fun d (mean : List K) => do
      let mean ← iter N (fun i (mean : List K) => do
        let v ← rd mean d
        let x ← rd data (i * D + d)
        wr mean d (v + x)) mean
      let v ← rd mean d
      wr mean d (v / (N : K))) (List.replicate D 0)
    iter D (fun d (sigma : List K) => do
      let sigma ← iter N (fun i (sigma : List K) => do
        let x ← rd data (i * D + d)
        let mu ← rd mean d
        let v ← rd sigma d
        wr sigma d (v + (x - mu) * (x - mu))) sigma
      let v ← rd sigma d
      wr sigma d (v / ((N - 1 : Nat) : K))) sigma

/-- Copies of the first covariance, vl/gmm.c:1431-1436; `k` is one less than in the code. -/
def copySigma (D C : Nat) (cov : List K) : Option (List K) :=
  iter (C - 1) (fun k cov => iter D (fun d cov => do
    let v ← rd cov d
    wr cov ((k + 1) * D + d) v) cov) cov

/-- `_vl_gmm_init_with_rand_data`, vl/gmm.c:1415-1443; `g` is the block of the centres of the k-means object, `u` and `real1` the generators of indices and thresholds. -/
def initRand (D C N : Nat) (data g : List K) (u : ρ → Nat → Nat × ρ) (real1 : ρ → K × ρ) (m : Mix K) (r : ρ) : Option (Mix K × ρ) := do
  let priors ← iter C (fun k p => wr p k (1 / (C : K))) m.priors
  let cov ← initSigma D N data m.cov
  let cov ← copySigma D C cov
  let c ← Kmeans.ppSeed .l2 D C N data g u real1 r
  pure ({ priors := priors, means := c.1.take (D * C), cov := cov }, c.2)

/-! ## Initialisation by k-means -/

/-- The k-means object created by default, vl/gmm.c:1339-1358, used once, vl/gmm.c:1361: random seeding (vl/kmeans.c:527-582) and 5 iterations with approximate neighbours, a tree and `max(N / 4, 10)` comparisons.  The
tolerance is that of vl/kmeans.c:416; with one repetition `vl_kmeans_cluster` returns the centres of this repetition.  `g`, `asgn`, `dists` are the contents of blocks. -/
def defaultKmeans (env : Kmeans.AnnEnv K ρ) (u : ρ → Nat → Nat × ρ) (D C N : Nat) (data g : List K) (asgn : List Nat) (dists : List K) (r : ρ) : Option (List K × ρ) := do
  let c ← Kmeans.randSeed .l2 D C N data g (fun r n => some (u r n)) r
  let a ← Kmeans.ann env u .l2 D C N 1 (max (N / 4) 10) data (1 / 10000) 5 { centers := c.1, asgn := asgn, dists := dists, rng := c.2 }
  pure (a.2.2.centers, a.2.2.rng)

/-- Posteriors of the assignments, vl/gmm.c:1331, 1365-1367. -/
def oneHot (C N : Nat) (asgn : List Nat) : Option (List K) :=
  iter N (fun i post => do
    let a ← rd asgn i
    wr post (a + i * C) 1) (List.replicate (C * N) 0)

/-- `_vl_gmm_init_with_kmeans`, vl/gmm.c:1315-1373.  `kmeans` is the run of the k-means object, default or given, which returns the centres; `q` are the blocks of the quantisation (the code requests no distances; here they
are computed and dropped); `chunks` the shares of the threads in the maximisation. -/
def initKmeans (kmeans : ρ → Option (List K × ρ)) (metric : Kmeans.Metric) (chunks : List (List Nat)) (D C N : Nat) (lbs data : List K) (q : Kmeans.Quant K) (r : ρ) : Option (Mix K × ρ) := do
  let c ← kmeans r
  let q ← Kmeans.quantize metric D C N c.1 data q
  let post ← oneHot C N q.asgn
  let m ← maximization chunks D C lbs post data (zeros K C D)
  pure (m, c.2)

/-! ## Repetitions -/

/-- The mixture of the object, and the best one so far with its posteriors and log-likelihood. -/
structure Reps (K ρ : Type) where
  self : Mix K
  best : Mix K
  bestPost : List K
  bestLL : WithBot K
  rng : ρ

/-- Choices of the scheduler and the allocator in a repetition: schedules of the expectation-maximisation and contents of the posteriors. -/
structure RepEnv (K : Type) where
  sched : Nat → Sched K
  post : List (WithBot K)

/-- One repetition, vl/gmm.c:1589-1644: `init` is the initialisation, the identity for `VlGMMCustom`.  The blocks of the object and the best ones are exchanged. -/
def repetition (init : Mix K → ρ → Option (Mix K × ρ)) (E : Fns K) (env : RepEnv K) (maxIter D C N : Nat) (lbs data : List K) (rep : Nat) (s : Reps K ρ) : Option (Reps K ρ) := do
  let i ← init s.self s.rng
  let r ← em E env.sched maxIter D C N lbs data env.post i.1
  pure (if s.bestLL < (r.2.2 : WithBot K) ∨ rep = 0 then
    { self := s.best, best := r.1, bestPost := r.2.1, bestLL := (r.2.2 : WithBot K), rng := i.2 }
  else { s with self := r.1, rng := i.2 })

/-- `vl_gmm_cluster`, vl/gmm.c:1559-1663; `g` is the contents of the blocks allocated for the best mixture. -/
def gmmCluster (init : Nat → Mix K → ρ → Option (Mix K × ρ)) (E : Fns K) (env : Nat → RepEnv K) (numReps maxIter D C N : Nat) (lbs data : List K) (g : Mix K) (m : Mix K) (r : ρ) :
    Option (Reps K ρ) := do
  assert' (decide (numReps ≥ 1))
  iter numReps (fun rep s => repetition (init rep) E (env rep) maxIter D C N lbs data rep s) { self := m, best := g, bestPost := [], bestLL := ⊥, rng := r }

end Verif.Gmm
