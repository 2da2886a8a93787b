import Mathlib.Data.Rat.Defs
import Mathlib.Algebra.Order.Ring.Rat
import Verif.Base

/-!
# The life of the objects of the library

The objects of the library are made of blocks of memory handed out by the
allocator.  This file models the functions that create, copy, reset and delete
k-means objects, Gaussian mixtures, SVMs and scale spaces, together with the
clustering functions that exchange blocks with a working copy.

A heap is the list of the live blocks with their contents.  Freeing a pointer
that is not a live block, reading or writing it, or reaching past its end, is
undefined behaviour and gives `none`.  The environment decides which requests
fail and what a fresh block contains.  Simplification: the fields of a
structure that are not pointers are kept in a Lean record next to the pointers,
and the block of the structure itself has no contents.  Scratch blocks that a
function allocates and frees before it returns are left out.
-/

namespace Verif.Life

/-- A block of memory: its address and its contents. -/
abbrev Block := Nat × List ℚ

/-- The allocator's choices: whether the n-th request succeeds, and what is
found at each position of the n-th block. -/
structure Env where
  ok : Nat → Bool
  junk : Nat → Nat → ℚ

/-- The live blocks and the number of requests made so far; the n-th request
gives a block at address `n`. -/
structure Heap where
  live : List Block
  next : Nat

/-- What the allocator leaves in a block of `n` elements at address `p`. -/
def fresh (E : Env) (p n : Nat) : List ℚ := (List.range n).map (E.junk p)

/-- `vl_malloc` / `vl_calloc` (vl/generic.c:1313-1350): a new block of `n`
elements or NULL.  Simplification: the zeros that `vl_calloc` writes are not
modelled. -/
def malloc (E : Env) (h : Heap) (n : Nat) : Option Nat × Heap :=
  if E.ok h.next then (some h.next, ⟨(h.next, fresh E h.next n) :: h.live, h.next + 1⟩)
  else (none, ⟨h.live, h.next + 1⟩)

/-- An allocation whose result is used without a check: NULL is undefined
behaviour. -/
def need (E : Env) (h : Heap) (n : Nat) : Option (Nat × Heap) :=
  match malloc E h n with
  | (some p, h') => some (p, h')
  | (none, _) => none

/-- The contents of the block at `p`. -/
def load (h : Heap) (p : Nat) : Option (List ℚ) :=
  (h.live.find? fun b => b.1 == p).map Prod.snd

/-- `vl_free` of a pointer that is not NULL (vl/generic.c:1359-1363). -/
def free (h : Heap) (p : Nat) : Option Heap :=
  match load h p with
  | some _ => some ⟨h.live.eraseP (fun b => b.1 == p), h.next⟩
  | none => none

/-- `vl_free` of any pointer; NULL is allowed. -/
def freeIf (h : Heap) : Option Nat → Option Heap
  | none => some h
  | some p => free h p

/-- Writing the list `v` at the start of the block at `p`. -/
def store (h : Heap) (p : Nat) (v : List ℚ) : Option Heap :=
  match load h p with
  | some w =>
    if v.length ≤ w.length then
      some ⟨(p, v ++ w.drop v.length) :: h.live.eraseP (fun b => b.1 == p), h.next⟩
    else none
  | none => none

/-- `memcpy (dst, src, n)` between two blocks. -/
def memcpy (h : Heap) (dst src n : Nat) : Option Heap := do
  let v ← load h src
  if n ≤ v.length then store h dst (v.take n) else none

/-! ## k-means -/

/-- The fields of a k-means object that are not pointers
(vl/kmeans.h:46-68). -/
structure KCfg where
  algorithm : Nat
  distance : Nat
  dataType : Nat
  verbosity : Nat
  maxNumIterations : Nat
  numRepetitions : Nat
  numTrees : Nat
  maxNumComparisons : Nat
  initialization : Nat
  minEnergyVariation : ℚ
  energy : ℚ

/-- A k-means object. -/
structure KM where
  self : Nat
  cfg : KCfg
  dimension : Nat
  numCenters : Nat
  centers : Option Nat
  dists : Option Nat

/-- `vl_kmeans_new` (vl/kmeans.c:404-424). -/
def kNew (E : Env) (h : Heap) (dataType distance : Nat) : Option (KM × Heap) := do
  let (p, h) ← need E h 0
  some (⟨p, ⟨0, distance, dataType, 0, 100, 1, 3, 100, 0, 1 / 10000, 0⟩, 0, 0, none, none⟩, h)

/-- `vl_kmeans_reset` (vl/kmeans.c:384-396). -/
def kReset (h : Heap) (k : KM) : Option (KM × Heap) := do
  let _ ← load h k.self
  let h ← freeIf h k.centers
  let h ← freeIf h k.dists
  some ({ k with dimension := 0, numCenters := 0, centers := none, dists := none }, h)

/-- `vl_kmeans_delete` (vl/kmeans.c:478-483). -/
def kDelete (h : Heap) (k : KM) : Option Heap := do
  let (k, h) ← kReset h k
  free h k.self

/-- `vl_kmeans_set_centers` (vl/kmeans.c:1800-1830, 508-521);
the same steps are made by both initialisations
(vl/kmeans.c:523-680, 1836-1900). -/
def kSet (E : Env) (h : Heap) (k : KM) (dimension numCenters : Nat) (cs : List ℚ) :
    Option (KM × Heap) := do
  let (k, h) ← kReset h k
  let (p, h) ← need E h (dimension * numCenters)
  let h ← store h p cs
  some ({ k with dimension := dimension, numCenters := numCenters, centers := some p }, h)

/-- The block that holds the distances between the centers, allocated at the
first call (vl/kmeans.c:975-985). -/
def kDists (E : Env) (h : Heap) (k : KM) : Option (Nat × Heap) :=
  match k.dists with
  | some p => some (p, h)
  | none => need E h (k.numCenters * k.numCenters)

/-- `_vl_kmeans_update_center_distances` (vl/kmeans.c:975-995); `ds` are the
distances. -/
def kUpdateDists (E : Env) (h : Heap) (k : KM) (ds : List ℚ) : Option (KM × Heap) := do
  let (p, h) ← kDists E h k
  let h ← store h p ds
  some ({ k with dists := some p }, h)

/-- The update of the distances between centers, made by Elkan's algorithm
only. -/
def kElkan (E : Env) (h : Heap) (k : KM) : Option (List ℚ) → Option (KM × Heap)
  | none => some (k, h)
  | some ds => kUpdateDists E h k ds

/-- `vl_kmeans_refine_centers` (vl/kmeans.c:1980-2003): the refined centers `cs`
replace the old ones in place; Elkan's algorithm also fills the distances. -/
def kRefine (E : Env) (h : Heap) (k : KM) (cs : List ℚ) (ds : Option (List ℚ)) :
    Option (KM × Heap) := do
  let _ ← load h k.self
  let p ← k.centers
  let h ← store h p cs
  kElkan E h k ds

/-- What one repetition computes. -/
structure KRep where
  start : List ℚ
  result : List ℚ
  dists : Option (List ℚ)
  energy : ℚ

/-- `energy < bestEnergy || repetition == 0`; `none` stands for infinity, the
value before the first repetition (vl/kmeans.c:2075). -/
def better (e : ℚ) : Option ℚ → Bool
  | none => true
  | some b => decide (e < b)

/-- The block of the best centers, allocated when it is first needed
(vl/kmeans.c:2079-2083). -/
def kBest (E : Env) (h : Heap) (k : KM) : Option Nat → Option (Nat × Heap)
  | some p => some (p, h)
  | none => need E h (k.dimension * k.numCenters)

/-- The exchange of the centers with the best ones (vl/kmeans.c:2075-2089). -/
def kSwap (E : Env) (h : Heap) (k : KM) (e : ℚ) (best : Option Nat) (bestE : Option ℚ) :
    Option (KM × Heap × Option Nat × Option ℚ) :=
  if better e bestE then do
    let (p, h) ← kBest E h k best
    some ({ k with centers := some p }, h, k.centers, some e)
  else some (k, h, best, bestE)

/-- The loop over the repetitions (vl/kmeans.c:2040-2090). -/
def kLoop (E : Env) (d n : Nat) : List KRep → Heap → KM → Option Nat → Option ℚ →
    Option (KM × Heap × Option Nat × Option ℚ)
  | [], h, k, best, bestE => some (k, h, best, bestE)
  | r :: rs, h, k, best, bestE => do
    let (k, h) ← kSet E h k d n r.start
    let (k, h) ← kRefine E h k r.result r.dists
    let (k, h, best, bestE) ← kSwap E h k r.energy best bestE
    kLoop E d n rs h k best bestE

/-- `vl_kmeans_cluster` (vl/kmeans.c:2023-2095). -/
def kCluster (E : Env) (h : Heap) (k : KM) (d n : Nat) (reps : List KRep) :
    Option (KM × Heap × Option ℚ) := do
  let _ ← load h k.self
  let (k, h, best, bestE) ← kLoop E d n reps h k none none
  let h ← freeIf h k.centers
  some ({ k with centers := best }, h, bestE)

/-- A copy of one block, if there is one (vl/kmeans.c:455-466). -/
def dup (E : Env) (h : Heap) (n : Nat) : Option Nat → Option (Option Nat × Heap)
  | none => some (none, h)
  | some src => do
    let (p, h) ← need E h n
    let h ← memcpy h p src n
    some (some p, h)

/-- `vl_kmeans_new_copy` (vl/kmeans.c:432-470).  The structure comes from
`vl_malloc`, so the fields that are not assigned keep what was in the memory,
`old`. -/
def kCopy (E : Env) (old : KCfg) (h : Heap) (k : KM) : Option (KM × Heap) := do
  let _ ← load h k.self
  let (p, h) ← need E h 0
  let (c, h) ← dup E h (k.dimension * k.numCenters) k.centers
  let (d, h) ← dup E h (k.numCenters * k.numCenters) k.dists
  some (⟨p, { old with
      algorithm := k.cfg.algorithm
      distance := k.cfg.distance
      dataType := k.cfg.dataType
      verbosity := k.cfg.verbosity
      maxNumIterations := k.cfg.maxNumIterations
      numRepetitions := k.cfg.numRepetitions
      numTrees := k.cfg.numTrees
      maxNumComparisons := k.cfg.maxNumComparisons }, k.dimension, k.numCenters, c, d⟩, h)

/-! ## Histories of k-means objects -/

/-- What a client may do with k-means objects; the numbers are positions in the
list of the objects the client holds. -/
inductive KOp
  | new (dataType distance : Nat)
  | copy (i : Nat) (old : KCfg)
  | reset (i : Nat)
  | set (i : Nat) (dimension numCenters : Nat) (cs : List ℚ)
  | refine (i : Nat) (cs : List ℚ) (ds : Option (List ℚ))
  | cluster (i : Nat) (d n : Nat) (reps : List KRep)
  | delete (i : Nat)

/-- Replaces the i-th object. -/
def putBack (ks : List KM) (i : Nat) (r : KM × Heap) : List KM × Heap := (ks.set i r.1, r.2)

/-- One call of the client. -/
def kStep (E : Env) (s : List KM × Heap) : KOp → Option (List KM × Heap)
  | .new t d => do
    let (k, h) ← kNew E s.2 t d
    some (s.1 ++ [k], h)
  | .copy i old => do
    let k ← s.1[i]?
    let (k', h) ← kCopy E old s.2 k
    some (s.1 ++ [k'], h)
  | .reset i => do
    let k ← s.1[i]?
    let r ← kReset s.2 k
    some (putBack s.1 i r)
  | .set i d n cs => do
    let k ← s.1[i]?
    let r ← kSet E s.2 k d n cs
    some (putBack s.1 i r)
  | .refine i cs ds => do
    let k ← s.1[i]?
    let r ← kRefine E s.2 k cs ds
    some (putBack s.1 i r)
  | .cluster i d n reps => do
    let k ← s.1[i]?
    let r ← kCluster E s.2 k d n reps
    some (putBack s.1 i (r.1, r.2.1))
  | .delete i => do
    let k ← s.1[i]?
    let h ← kDelete s.2 k
    some (s.1.eraseIdx i, h)

/-- A whole history. -/
def kRun (E : Env) : List KOp → List KM × Heap → Option (List KM × Heap)
  | [], s => some s
  | op :: ops, s => do
    let s ← kStep E s op
    kRun E ops s

end Verif.Life
