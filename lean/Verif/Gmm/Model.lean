import Verif.Rows
import Mathlib.Algebra.Field.Defs
import Mathlib.Order.WithBot

/-!
# Model of the expectation-maximisation of Gaussian mixtures, vl/gmm.c

`K` stands for `float` or `double`; rounding is not modelled.  Logarithm, exponential and `log(2 pi)` are parameters.  Values that may be minus infinity have type `WithBot K`.  Operations
whose IEEE result would be an infinity or not a number where the rest of the program needs a number (division by zero, logarithm of zero, difference of infinities) give `none`.
Loops that run in parallel take the order of their iterations as a parameter.
The vectorised versions of the distance and of the sums are not modelled.
-/

namespace Verif.Gmm

variable {K : Type} [Field K] [LinearOrder K]

/-- Functions of the C library. -/
structure Fns (K : Type) where
  log : K → K
  exp : K → K
  log2pi : K

/-- The temporary arrays of `vl_get_gmm_data_posteriors`, vl/gmm.c:727-729. -/
structure Prep (K : Type) where
  logCov : List K
  invCov : List K
  logW : List (WithBot K)

/-- Body of the first loop, vl/gmm.c:745-755. -/
def prepCluster (E : Fns K) (D : Nat) (priors cov : List K) (k : Nat) (s : Prep K) : Option (Prep K) := do
  let p ← rd priors k
  let logW ← wr s.logW k (if p < 1 / 10 ^ 6 then ⊥ else ((E.log p : K) : WithBot K))
  let r ← iter D (fun d (r : K × List K) => do
    let c ← rd cov (k * D + d)
    let _ ← assert' (decide (0 < c))
    let inv ← wr r.2 (k * D + d) (1 / c)
    pure (r.1 + E.log c, inv)) (0, s.invCov)
  let logCov ← wr s.logCov k r.1
  pure { logCov := logCov, invCov := r.2, logW := logW }

/-- `_vl_distance_mahalanobis_sq`, vl/mathop.c:457-468. -/
def mahalanobis (D : Nat) (x : List K) (xo : Nat) (mu : List K) (mo : Nat) (s : List K) (so : Nat) : Option K :=
  iter D (fun d acc => do
    let a ← rd x (xo + d)
    let b ← rd mu (mo + d)
    let c ← rd s (so + d)
    pure (acc + (a - b) * (a - b) * c)) 0

/-- Body of the second loop over the clusters, vl/gmm.c:779-784; the state is the array and `clusterPosteriorsSum`. -/
def expCluster (E : Fns K) (C i : Nat) (m : K) (k : Nat) (r : List (WithBot K) × K) : Option (List (WithBot K) × K) := do
  let p ← rd r.1 (k + i * C)
  let e := match p with
    | none => 0
    | some p => E.exp (p - m)
  let post ← wr r.1 (k + i * C) ((e : K) : WithBot K)
  pure (post, r.2 + e)

/-- Body of the loop over the data, vl/gmm.c:762-791; the state is `posteriors` and `LL`. -/
def datum (E : Fns K) (D C : Nat) (means data : List K) (s : Prep K) (i : Nat) (t : List (WithBot K) × K) : Option (List (WithBot K) × K) := do
  let r ← iter C (fun k (r : List (WithBot K) × WithBot K) => do
    let w ← rd s.logW k
    let lc ← rd s.logCov k
    let dist ← mahalanobis D data (i * D) means (k * D) s.invCov (k * D)
    let p : WithBot K := w.map (fun w => w - D / 2 * E.log2pi - 1 / 2 * lc - 1 / 2 * dist)
    let post ← wr r.1 (k + i * C) p
    pure (post, if p > r.2 then p else r.2)) (t.1, ⊥)
  let m : K ← r.2
  let r2 ← iter C (expCluster E C i m) (r.1, 0)
  let _ ← assert' (decide (r2.2 ≠ 0))
  let post ← iter C (fun k (post : List (WithBot K)) => do
    let p ← rd post (k + i * C)
    wr post (k + i * C) (p.map (fun p => p / r2.2))) r2.1
  pure (post, t.2 + (E.log r2.2 + m))

/-- `vl_get_gmm_data_posteriors`, vl/gmm.c:711-798.  Returns the posteriors and the log-likelihood.  `s` and `post` are the contents of the allocated arrays; `orderC` and `orderN` are the
orders in which the two parallel loops run. -/
def posteriors (E : Fns K) (orderC orderN : List Nat) (D C : Nat) (priors means cov data : List K) (s : Prep K) (post : List (WithBot K)) : Option (List K × K) := do
  let s ← orderC.foldlM (fun s k => prepCluster E D priors cov k s) s
  let t ← orderN.foldlM (fun t i => datum E D C means data s i t) (post, 0)
  let p : List K ← t.1.mapM (fun a => (a : Option K))
  pure (p, t.2)

/-! ### Maximisation -/

/-- Parameters of a mixture, or sums from which they are computed. -/
structure Mix (K : Type) where
  priors : List K
  means : List K
  cov : List K

/-- All zero: `memset`, vl/gmm.c:1060-1062, and `vl_calloc`, vl/gmm.c:1075-1077. -/
def zeros (K : Type) [Field K] (C D : Nat) : Mix K := { priors := List.replicate C 0, means := List.replicate (C * D) 0, cov := List.replicate (C * D) 0 }

/-- Body of the loop over the clusters, vl/gmm.c:1095-1147. -/
def accCluster (D C : Nat) (post data old : List K) (i k : Nat) (a : Mix K) : Option (Mix K) := do
  let p ← rd post (k + i * C)
  if p < 1 / 100 / C then pure a else do
    let m ← rd a.priors k
    let mass ← wr a.priors k (m + p)
    let r ← iter D (fun d (r : List K × List K) => do
      let x ← rd data (i * D + d)
      let mu ← rd old (k * D + d)
      let s ← rd r.1 (k * D + d)
      let means ← wr r.1 (k * D + d) (s + p * x)
      let c ← rd r.2 (k * D + d)
      let cov ← wr r.2 (k * D + d) (c + p * ((x - mu) * (x - mu)))
      pure (means, cov)) (a.means, a.cov)
    pure { priors := mass, means := r.1, cov := r.2 }

/-- The sums of one thread, over the data `chunk`, vl/gmm.c:1090-1149. -/
def accChunk (D C : Nat) (post data old : List K) (chunk : List Nat) : Option (Mix K) :=
  chunk.foldlM (fun a i => iter C (fun k a => accCluster D C post data old i k a) a) (zeros K C D)

/-- The critical section, vl/gmm.c:1155-1162. -/
def combine (D C : Nat) (a m : Mix K) : Option (Mix K) :=
  iter C (fun k (m : Mix K) => do
    let p ← rd m.priors k
    let p' ← rd a.priors k
    let priors ← wr m.priors k (p + p')
    let r ← iter D (fun d (r : List K × List K) => do
      let x ← rd r.1 (k * D + d)
      let x' ← rd a.means (k * D + d)
      let means ← wr r.1 (k * D + d) (x + x')
      let c ← rd r.2 (k * D + d)
      let c' ← rd a.cov (k * D + d)
      let cov ← wr r.2 (k * D + d) (c + c')
      pure (means, cov)) (m.means, m.cov)
    pure { priors := priors, means := r.1, cov := r.2 }) m

/-- vl/gmm.c:1170-1179 -/
def divide (D C : Nat) (m : Mix K) : Option (Mix K) :=
  iter C (fun k (m : Mix K) => do
    let mass ← rd m.priors k
    if mass ≥ 1 / 10 ^ 6 / C then do
      let r ← iter D (fun d (r : List K × List K) => do
        let x ← rd r.1 (k * D + d)
        let means ← wr r.1 (k * D + d) (x / mass)
        let c ← rd r.2 (k * D + d)
        let cov ← wr r.2 (k * D + d) (c / mass)
        pure (means, cov)) (m.means, m.cov)
      pure { m with means := r.1, cov := r.2 }
    else pure m) m

/-- vl/gmm.c:1182-1192 -/
def correct (D C : Nat) (old : List K) (m : Mix K) : Option (Mix K) :=
  iter C (fun k (m : Mix K) => do
    let mass ← rd m.priors k
    if mass ≥ 1 / 10 ^ 6 / C then do
      let cov ← iter D (fun d cov => do
        let mu ← rd m.means (k * D + d)
        let oldMu ← rd old (k * D + d)
        let c ← rd cov (k * D + d)
        wr cov (k * D + d) (c - (mu - oldMu) * (mu - oldMu))) m.cov
      pure { m with cov := cov }
    else pure m) m

/-- `_vl_gmm_apply_bounds`, vl/gmm.c:1005-1030 (without the count that is only printed). -/
def applyBounds (D C : Nat) (lbs : List K) (m : Mix K) : Option (Mix K) := do
  let cov ← iter C (fun k cov => iter D (fun d cov => do
    let c ← rd cov (k * D + d)
    let b ← rd lbs d
    if c < b then wr cov (k * D + d) b else pure cov) cov) m.cov
  pure { m with cov := cov }

/-- vl/gmm.c:1196-1205 -/
def normalizePriors (C : Nat) (m : Mix K) : Option (Mix K) := do
  let sum ← iter C (fun k s => do
    let p ← rd m.priors k
    pure (s + p)) 0
  let sum := max sum (1 / 10 ^ 12)
  let priors ← iter C (fun k l => do
    let p ← rd l k
    wr l k (p / sum)) m.priors
  pure { m with priors := priors }

/-- `_vl_gmm_maximization`, vl/gmm.c:1036-1213.  `chunks` are the data of the threads, in the order in which the threads enter the critical section at the end. -/
def maximization (chunks : List (List Nat)) (D C : Nat) (lbs post data : List K) (m : Mix K) : Option (Mix K) := do
  let old := m.means
  let m ← chunks.foldlM (fun m chunk => do
    let a ← accChunk D C post data old chunk
    combine D C a m) (zeros K C D)
  let m ← divide D C m
  let m ← correct D C old m
  let m ← applyBounds D C lbs m
  normalizePriors C m

end Verif.Gmm
