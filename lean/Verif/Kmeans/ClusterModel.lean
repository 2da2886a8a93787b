import Mathlib.Order.Defs.LinearOrder

/-!
# Model of the k-means object: repetitions and copies

The heap is a function from addresses to the contents of the live blocks; `none` of the option monad is undefined behaviour
(freeing a block that is not live, reading through a null pointer).
-/

namespace Verif.Kmeans

variable {E K ρ : Type}

/-- The heap: live blocks, and the first address never used. -/
structure Mem (K : Type) where
  blk : Nat → Option (List K)
  fresh : Nat

/-- `vl_malloc`; the contents `g` are arbitrary. -/
def Mem.malloc (h : Mem K) (g : List K) : Nat × Mem K :=
  (h.fresh, { blk := fun p => if p = h.fresh then some g else h.blk p, fresh := h.fresh + 1 })

/-- `vl_free` of a pointer; freeing the null pointer does nothing. -/
def Mem.free (h : Mem K) : Option Nat → Option (Mem K)
  | none => some h
  | some p => if (h.blk p).isSome then some { h with blk := fun q => if q = p then none else h.blk q } else none

/-- Overwrite a live block. -/
def Mem.store (h : Mem K) (p : Nat) (x : List K) : Option (Mem K) :=
  if (h.blk p).isSome then some { h with blk := fun q => if q = p then some x else h.blk q } else none

/-- The blocks owned by a k-means object, vl/kmeans.h:62-63. -/
structure Obj where
  centers : Option Nat
  cdist : Option Nat

/-- `vl_kmeans_reset`, vl/kmeans.c:386-396. -/
def reset (h : Mem K) (o : Obj) : Option (Mem K × Obj) := do
  let h ← h.free o.centers
  let h ← h.free o.cdist
  some (h, { centers := none, cdist := none })

/-- Where a refinement leaves the centres: in place (Lloyd, ANN), or with the second buffer of Elkan (vl/kmeans.c:1187, 1385-1388,
1743), which is exchanged with the first one an even or odd number of times. -/
inductive Buffer
  | inPlace
  | same
  | exchanged

/-- What a seeding and a refinement do, as functions of the state of the random number generator.  Temporary blocks freed by the
function that allocates them are not modelled. -/
structure Algo (E K ρ : Type) where
  /-- Centres chosen by the seeding. -/
  seed : ρ → List K × ρ
  /-- Energy, centres, buffer use, and the table of the distances of the centres if it is computed. -/
  refine : List K → ρ → (E × List K × Buffer × Option (List K)) × ρ

/-- `vl_kmeans_init_centers_*`, vl/kmeans.c:1841-1904 with 538-540 and 605-607: reset, allocate the centres, choose them. -/
def initCenters (a : Algo E K ρ) (g : List K) (h : Mem K) (o : Obj) (r : ρ) : Option (Mem K × Obj × ρ) := do
  let (h, o) ← reset h o
  let (p, h) := h.malloc g
  let h ← h.store p (a.seed r).1
  some (h, { o with centers := some p }, (a.seed r).2)

/-- The table of the distances of the centres, allocated on demand, `_vl_kmeans_update_center_distances`, vl/kmeans.c:980-1001. -/
def storeTable (h : Mem K) (o : Obj) : Option (List K) → Option (Mem K × Obj)
  | none => some (h, o)
  | some t => match o.cdist with
    | none => some ((h.malloc t).2, { o with cdist := some (h.malloc t).1 })
    | some q => do let h ← h.store q t; some (h, o)

/-- `vl_kmeans_refine_centers`, vl/kmeans.c:1983-2018. -/
def refineCenters (a : Algo E K ρ) (g : List K) (h : Mem K) (o : Obj) (r : ρ) : Option (E × Mem K × Obj × ρ) := do
  let p ← o.centers
  let x ← h.blk p
  let t := a.refine x r
  let ho ← storeTable h o t.1.2.2.2
  let h := ho.1
  match t.1.2.2.1 with
  | .inPlace => do
    let h ← h.store p t.1.2.1
    some (t.1.1, h, ho.2, t.2)
  | .same => do
    let (q, h) := h.malloc g
    let h ← h.store p t.1.2.1
    let h ← h.free (some q)
    some (t.1.1, h, ho.2, t.2)
  | .exchanged => do
    let (q, h) := h.malloc g
    let h ← h.store q t.1.2.1
    let h ← h.free (some p)
    some (t.1.1, h, { ho.2 with centers := some q }, t.2)

/-- State of the loop over the repetitions. -/
structure CState (E K ρ : Type) where
  h : Mem K
  o : Obj
  bestEnergy : E
  best : Option Nat
  rng : ρ

/-- One repetition, vl/kmeans.c:2035-2086; `lt` is the comparison of energies (false if one is not a number), `g` the contents of
newly allocated blocks. -/
def repetition (a : Algo E K ρ) (lt : E → E → Bool) (g : List K) (rep : Nat) (s : CState E K ρ) : Option (CState E K ρ) := do
  let (h, o, r) ← initCenters a g s.h s.o s.rng
  let (e, h, o, r) ← refineCenters a g h o r
  if lt e s.bestEnergy || rep == 0 then do
    let (b, h) := match s.best with
      | none => h.malloc g
      | some b => (b, h)
    some { h := h, o := { o with centers := some b }, bestEnergy := e, best := o.centers, rng := r }
  else some { s with h := h, o := o, rng := r }

/-- The loop over the repetitions from `rep` on, `n` left. -/
def repetitions (a : Algo E K ρ) (lt : E → E → Bool) (g : List K) : Nat → Nat → CState E K ρ → Option (CState E K ρ)
  | _, 0, s => some s
  | rep, n + 1, s => do
    let s ← repetition a lt g rep s
    repetitions a lt g (rep + 1) n s

/-- `vl_kmeans_cluster`, vl/kmeans.c:2023-2093; `inf` is the initial best energy. -/
def cluster (a : Algo E K ρ) (lt : E → E → Bool) (inf : E) (g : List K) (numRepetitions : Nat) (h : Mem K) (o : Obj) (r : ρ) :
    Option (E × Mem K × Obj × ρ) := do
  let s ← repetitions a lt g 0 numRepetitions { h := h, o := o, bestEnergy := inf, best := none, rng := r }
  let h ← s.h.free s.o.centers
  some (s.bestEnergy, h, { s.o with centers := s.best }, s.rng)

/-! ## Copies -/

/-- The fields of the object, vl/kmeans.h:45-68, with the contents of the two blocks. -/
structure Full (K : Type) where
  dataType : Nat
  dimension : Nat
  numCenters : Nat
  numTrees : Nat
  maxNumComparisons : Nat
  initialization : Nat
  algorithm : Nat
  distance : Nat
  maxNumIterations : Nat
  minEnergyVariation : K
  numRepetitions : Nat
  verbosity : Int
  centers : Option (List K)
  centerDistances : Option (List K)

/-- `vl_kmeans_new_copy`, vl/kmeans.c:433-470; the new object is allocated with arbitrary contents `g`. -/
def newCopy (g k : Full K) : Full K :=
  { g with
    algorithm := k.algorithm
    distance := k.distance
    dataType := k.dataType
    verbosity := k.verbosity
    maxNumIterations := k.maxNumIterations
    numRepetitions := k.numRepetitions
    dimension := k.dimension
    numCenters := k.numCenters
    numTrees := k.numTrees
    maxNumComparisons := k.maxNumComparisons
    centers := k.centers.map (fun c => c.take (k.dimension * k.numCenters))
    centerDistances := k.centerDistances.map (fun c => c.take (k.numCenters * k.numCenters)) }

end Verif.Kmeans
