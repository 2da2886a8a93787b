import Verif.Life.Model

/-! The life of Gaussian mixtures (vl/gmm.c). -/

namespace Verif.Life

/-- The initialisation method of a mixture (vl/gmm.h: `VlGMMInitialization`). -/
inductive Start
  | kmeans
  | rand
  | custom

/-- The k-means object of a mixture: none, one that the mixture made and owns, or
a pointer to one of the client's objects (`kmeansInit` and `kmeansInitIsOwner`,
vl/gmm.c:325-328). -/
inductive Init
  | null
  | mine (k : KM)
  | theirs (p : Nat)

/-- The settings of a mixture. -/
structure GCfg where
  maxNumIterations : Nat
  numRepetitions : Nat
  verbosity : Nat
  start : Start
  ll : ℚ

/-- A Gaussian mixture (vl/gmm.c:311-329). -/
structure GM where
  self : Nat
  cfg : GCfg
  dim : Nat
  num : Nat
  numData : Nat
  priors : Nat
  means : Nat
  covs : Nat
  bounds : Nat
  posts : Option Nat
  init : Init

/-- The parameters of a mixture. -/
structure Par where
  priors : List ℚ
  means : List ℚ
  covs : List ℚ

/-- `vl_gmm_new` (vl/gmm.c:350-384). -/
def gNew (E : Env) (h : Heap) (dim num : Nat) : Option (GM × Heap) := do
  let (self, h) ← need E h 0
  let (priors, h) ← need E h num
  let (means, h) ← need E h (num * dim)
  let (covs, h) ← need E h (num * dim)
  let (bounds, h) ← need E h dim
  let h ← store h bounds (List.replicate dim (1 / 10000))
  some (⟨self, ⟨50, 1, 0, .rand, 0⟩, dim, num, 0, priors, means, covs, bounds, none, .null⟩, h)

/-- The deletion of the k-means object if the mixture owns it. -/
def dropInit (h : Heap) : Init → Option Heap
  | .mine k => kDelete h k
  | _ => some h

/-- What is left of the pointer after the deletion in `vl_gmm_reset`. -/
def resetInit : Init → Init
  | .mine _ => .null
  | i => i

/-- The number of data after `vl_gmm_reset`, which is cleared only together with
the posteriors. -/
def resetNum (numData : Nat) : Option Nat → Nat
  | some _ => 0
  | none => numData

/-- `vl_gmm_reset` (vl/gmm.c:392-406). -/
def gReset (h : Heap) (g : GM) : Option (GM × Heap) := do
  let _ ← load h g.self
  let h ← freeIf h g.posts
  let h ← dropInit h g.init
  some ({ g with posts := none, numData := resetNum g.numData g.posts, init := resetInit g.init }, h)

/-- `vl_gmm_delete` (vl/gmm.c:414-426). -/
def gDelete (h : Heap) (g : GM) : Option Heap := do
  let h ← free h g.means
  let h ← free h g.covs
  let h ← free h g.priors
  let h ← freeIf h g.posts
  let h ← dropInit h g.init
  free h g.self

/-- `_vl_gmm_prepare_for_data` (vl/gmm.c:334-342). -/
def gPrepare (E : Env) (h : Heap) (g : GM) (n : Nat) : Option (GM × Heap) :=
  if g.numData < n then do
    let h ← freeIf h g.posts
    let (p, h) ← need E h (n * g.num)
    some ({ g with posts := some p, numData := n }, h)
  else some ({ g with numData := n }, h)

/-- The pointer given to `vl_gmm_set_kmeans_init_object`. -/
def pointTo : Option Nat → Init
  | none => .null
  | some p => .theirs p

/-- `vl_gmm_set_kmeans_init_object` (vl/gmm.c:629-636). -/
def gSetInit (h : Heap) (g : GM) (p : Option Nat) : Option (GM × Heap) := do
  let h ← dropInit h g.init
  some ({ g with init := pointTo p }, h)

/-- `vl_gmm_set_covariance_lower_bounds` (vl/gmm.c:656-659). -/
def gSetBounds (h : Heap) (g : GM) (b : List ℚ) : Option Heap := store h g.bounds b

/-- Writing the parameters, by the steps of an algorithm or by `vl_gmm_set_means`,
`vl_gmm_set_covariances` and `vl_gmm_set_priors` (vl/gmm.c:1670-1705). -/
def putPar (h : Heap) (g : GM) (x : Par) : Option Heap := do
  let h ← store h g.priors x.priors
  let h ← store h g.means x.means
  store h g.covs x.covs

/-- Reading the parameters. -/
def getPar (h : Heap) (g : GM) : Option Par := do
  let p ← load h g.priors
  let m ← load h g.means
  let c ← load h g.covs
  some ⟨p, m, c⟩

/-- Writing the posteriors through a pointer that may be NULL. -/
def putPosts (h : Heap) (g : GM) (v : List ℚ) : Option Heap := do
  let p ← g.posts
  store h p v

/-- `vl_kmeans_cluster` on the k-means object of the mixture
(vl/gmm.c:1338-1358): one of its own, made if there is none, or the client's,
which must still exist. -/
def clusterInit (E : Env) (h : Heap) (ks : List KM) (g : GM) (reps : List KRep) :
    Option (GM × List KM × Heap) :=
  match g.init with
  | .null => do
    let (k, h) ← kNew E h 0 0
    let r ← kCluster E h k g.dim g.num reps
    some ({ g with init := .mine r.1 }, ks, r.2.1)
  | .mine k => do
    let r ← kCluster E h k g.dim g.num reps
    some ({ g with init := .mine r.1 }, ks, r.2.1)
  | .theirs p => do
    let i ← ks.findIdx? fun k => k.self == p
    let k ← ks[i]?
    let r ← kCluster E h k g.dim g.num reps
    some (g, ks.set i r.1, r.2.1)

/-- What one repetition computes: the repetitions of its k-means, the centers
that kmeans++ picks for the random initialisation, the initial parameters and
posteriors, and what EM makes of the parameters from which it starts. -/
structure GRep where
  kreps : List KRep
  kstart : List ℚ
  par : Par
  posts : List ℚ
  em : Par → Par × List ℚ × ℚ

/-- The object given to the initialisation, if any (vl/gmm.c:1333-1335). -/
def gGiven (h : Heap) (g : GM) : Option Nat → Option (GM × Heap)
  | none => some (g, h)
  | some p => gSetInit h g (some p)

/-- `vl_gmm_init_with_kmeans` (vl/gmm.c:1537-1560, 1315-1372). -/
def gKmeans (E : Env) (h : Heap) (ks : List KM) (g : GM) (n : Nat) (given : Option Nat)
    (r : GRep) : Option (GM × List KM × Heap) := do
  let (g, h) ← gReset h g
  let (g, h) ← gPrepare E h g n
  let (g, h) ← gGiven h g given
  let (g, ks, h) ← clusterInit E h ks g r.kreps
  let h ← putPosts h g r.posts
  let h ← putPar h g r.par
  some (g, ks, h)

/-- `vl_gmm_init_with_rand_data` (vl/gmm.c:1511-1528, 1415-1443); the k-means
object that picks the means is deleted at the end. -/
def gRand (E : Env) (h : Heap) (g : GM) (n : Nat) (r : GRep) : Option (GM × Heap) := do
  let (g, h) ← gReset h g
  let (g, h) ← gPrepare E h g n
  let (k, h) ← kNew E h 0 0
  let (k, h) ← kSet E h k g.dim g.num r.kstart
  let h ← putPar h g r.par
  let h ← kDelete h k
  some (g, h)

/-- `vl_gmm_em` (vl/gmm.c:1655-1668, 1225-1310). -/
def gEm (E : Env) (h : Heap) (g : GM) (n : Nat) (em : Par → Par × List ℚ × ℚ) :
    Option (GM × Heap × ℚ) := do
  let (g, h) ← gPrepare E h g n
  let x ← getPar h g
  let h ← putPosts h g (em x).2.1
  let h ← putPar h g (em x).1
  some (g, h, (em x).2.2)

/-- The initialisation of a repetition (vl/gmm.c:1598-1603). -/
def gStart (E : Env) (h : Heap) (ks : List KM) (g : GM) (n : Nat) (r : GRep) :
    Option (GM × List KM × Heap) :=
  match g.cfg.start with
  | .kmeans => gKmeans E h ks g n none r
  | .rand => do
    let (g, h) ← gRand E h g n r
    some (g, ks, h)
  | .custom => some (g, ks, h)

/-- `LL > bestLL || repetition == 0` (vl/gmm.c:1617). -/
def betterLL (ll : ℚ) : Option ℚ → Bool
  | none => true
  | some b => decide (ll > b)

/-- The blocks of the best solution. -/
structure Best where
  priors : Nat
  means : Nat
  covs : Nat
  posts : Option Nat
  ll : Option ℚ

/-- The exchange with the best solution (vl/gmm.c:1617-1638). -/
def gSwap (g : GM) (b : Best) (ll : ℚ) : GM × Best :=
  if betterLL ll b.ll then
    ({ g with priors := b.priors, means := b.means, covs := b.covs, posts := b.posts },
      ⟨g.priors, g.means, g.covs, g.posts, some ll⟩)
  else (g, b)

/-- The loop over the repetitions (vl/gmm.c:1588-1639). -/
def gLoop (E : Env) (n : Nat) : List GRep → Heap → List KM → GM → Best →
    Option (GM × List KM × Heap × Best)
  | [], h, ks, g, b => some (g, ks, h, b)
  | r :: rs, h, ks, g, b => do
    let (g, ks, h) ← gStart E h ks g n r
    let (g, h, ll) ← gEm E h g n r.em
    gLoop E n rs h ks (gSwap g b ll).1 (gSwap g b ll).2

/-- `vl_gmm_cluster` (vl/gmm.c:1570-1658).  Simplification: the log-likelihood
is left as it was when there is no repetition. -/
def gCluster (E : Env) (h : Heap) (ks : List KM) (g : GM) (n : Nat) (reps : List GRep) :
    Option (GM × List KM × Heap) := do
  let _ ← load h g.self
  let (bp, h) ← need E h g.num
  let (bm, h) ← need E h (g.dim * g.num)
  let (bc, h) ← need E h (g.dim * g.num)
  let (bq, h) ← need E h (g.num * n)
  let (g, ks, h, b) ← gLoop E n reps h ks g ⟨bp, bm, bc, some bq, none⟩
  let h ← free h g.priors
  let h ← free h g.means
  let h ← free h g.covs
  let h ← freeIf h g.posts
  some ({ g with priors := b.priors, means := b.means, covs := b.covs, posts := b.posts,
                 cfg := { g.cfg with ll := b.ll.getD g.cfg.ll } }, ks, h)

/-- `vl_gmm_new_copy` (vl/gmm.c:1484-1502). -/
def gCopy (E : Env) (h : Heap) (g : GM) : Option (GM × Heap) := do
  let (c, h) ← gNew E h g.dim g.num
  let h ← memcpy h c.means g.means (g.num * g.dim)
  let h ← memcpy h c.covs g.covs (g.num * g.dim)
  let h ← memcpy h c.priors g.priors g.num
  some ({ c with cfg := ⟨g.cfg.maxNumIterations, g.cfg.numRepetitions, g.cfg.verbosity,
    g.cfg.start, g.cfg.ll⟩ }, h)

/-! ## Histories -/

/-- What a client may do with a mixture. -/
inductive GOp
  | reset
  | setStart (s : Start)
  | setBounds (b : List ℚ)
  | setPar (x : Par)
  | setInit (p : Option Nat)
  | initKmeans (n : Nat) (given : Option Nat) (r : GRep)
  | initRand (n : Nat) (r : GRep)
  | em (n : Nat) (f : Par → Par × List ℚ × ℚ)
  | cluster (n : Nat) (reps : List GRep)

/-- A mixture, the client's k-means objects and the heap. -/
abbrev GState := GM × List KM × Heap

/-- One call of the client. -/
def gStep (E : Env) (s : GState) : GOp → Option GState
  | .reset => do
    let (g, h) ← gReset s.2.2 s.1
    some (g, s.2.1, h)
  | .setStart x => some ({ s.1 with cfg := { s.1.cfg with start := x } }, s.2)
  | .setBounds b => do
    let h ← gSetBounds s.2.2 s.1 b
    some (s.1, s.2.1, h)
  | .setPar x => do
    let h ← putPar s.2.2 s.1 x
    some (s.1, s.2.1, h)
  | .setInit p => do
    let (g, h) ← gSetInit s.2.2 s.1 p
    some (g, s.2.1, h)
  | .initKmeans n p r => gKmeans E s.2.2 s.2.1 s.1 n p r
  | .initRand n r => do
    let (g, h) ← gRand E s.2.2 s.1 n r
    some (g, s.2.1, h)
  | .em n f => do
    let (g, h, _) ← gEm E s.2.2 s.1 n f
    some (g, s.2.1, h)
  | .cluster n reps => gCluster E s.2.2 s.2.1 s.1 n reps

/-- A whole history. -/
def gRun (E : Env) : List GOp → GState → Option GState
  | [], s => some s
  | op :: ops, s => do
    let s ← gStep E s op
    gRun E ops s

end Verif.Life
