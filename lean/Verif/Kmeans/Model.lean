import Verif.AllPairs.Model
import Verif.Qsort.Model
import Verif.KdTree.QueryModel

/-!
# Model of the k-means refinement (vl/kmeans.c)

Data and centres are flat blocks, one vector of `dim` components after another, over an ordered field (rounding is not
modelled).  Simplifications: the number of centres is less than `2^32`, so that assignments do not wrap around; the random
number generator is a parameter `u`, where `u r n` is the result of `vl_rand_uindex (rand, n)` in state `r` with the next
state.  `none` is undefined behaviour.
-/

namespace Verif.Kmeans

variable {K ρ : Type} [Field K] [LinearOrder K]

/-- The two distances of k-means. -/
inductive Metric
  | l1
  | l2
  deriving DecidableEq

/-- `vl_get_vector_comparison_function_*`, vl/mathop.c:477-478. -/
def Metric.dist : Metric → List K → List K → K
  | .l1 => KdTree.distL1
  | .l2 => KdTree.distL2

/-! ## Quantization -/

/-- State of the scan over the centres for one point; `best = none` is an infinite `bestDistance`. -/
structure Scan (K : Type) where
  asgn : List Nat
  best : Option K

/-- vl/kmeans.c:693-698. -/
def scanStep (tmp : List K) (i k : Nat) (s : Scan K) : Option (Scan K) := do
  let dk ← rd tmp k
  if (match s.best with | none => true | some b => decide (dk < b)) then do
    let asgn ← wr s.asgn i k
    some { asgn := asgn, best := some dk }
  else some s

/-- Assignments, distances and the buffer `distanceToCenters`. -/
structure Quant (K : Type) where
  asgn : List Nat
  dists : List K
  tmp : List K

/-- Body of the loop over the points, vl/kmeans.c:685-700 (with `distances` not `NULL`).  An infinite distance (no centres) is
not modelled: `none`. -/
def quantizeStep (m : Metric) (dim nC : Nat) (centers data : List K) (i : Nat) (q : Quant K) : Option (Quant K) := do
  let x ← AllPairs.slice data ((i * dim : Nat) : Int) dim
  let tmp ← AllPairs.allPairs q.tmp dim x 1 (some centers) nC m.dist
  let s ← iter nC (scanStep tmp i) { asgn := q.asgn, best := none }
  match s.best with
  | none => none
  | some b => do
    let dists ← wr q.dists i b
    some { asgn := s.asgn, dists := dists, tmp := tmp }

/-- `_vl_kmeans_quantize`, vl/kmeans.c:655-704, executed by one thread. -/
def quantize (m : Metric) (dim nC N : Nat) (centers data : List K) (q : Quant K) : Option (Quant K) :=
  iter N (quantizeStep m dim nC centers data) q

/-- `energy += distances[x]`, vl/kmeans.c:865-866. -/
def energy (N : Nat) (dists : List K) : Option K :=
  iter N (fun x e => do let d ← rd dists x; some (e + d)) 0

/-! ## Centre update -/

/-- vl/kmeans.c:904-907; the block has `numData` entries (vl/kmeans.c:841). -/
def countMasses (N : Nat) (asgn : List Nat) : Option (List Nat) :=
  iter N (fun x ms => do
    let a ← rd asgn x
    let v ← rd ms a
    wr ms a (v + 1)) (List.replicate N 0)

/-- Copy data point `x` to centre `c`, vl/kmeans.c:929-931. -/
def copyPoint (dim : Nat) (data : List K) (x c : Nat) (cs : List K) : Option (List K) :=
  iter dim (fun d cs => do
    let w ← rd data (x * dim + d)
    wr cs (c * dim + d) w) cs

/-- vl/kmeans.c:912-918. -/
def accumulate (dim N : Nat) (data : List K) (asgn : List Nat) (cs : List K) : Option (List K) :=
  iter N (fun x cs => do
    let a ← rd asgn x
    iter dim (fun d cs => do
      let v ← rd cs (a * dim + d)
      let w ← rd data (x * dim + d)
      wr cs (a * dim + d) (v + w)) cs) cs

/-- vl/kmeans.c:919-933. -/
def normalizeStep (u : ρ → Nat → Nat × ρ) (dim N : Nat) (data : List K) (masses : List Nat) (c : Nat) (s : List K × ρ) :
    Option (List K × ρ) := do
  let ms ← rd masses c
  if ms > 0 then do
    let cs ← iter dim (fun d cs => do
      let v ← rd cs (c * dim + d)
      wr cs (c * dim + d) (v / (ms : K))) s.1
    some (cs, s.2)
  else do
    let cs ← copyPoint dim data (u s.2 N).1 c s.1
    some (cs, (u s.2 N).2)

/-- Update of the centres for the Euclidean distance, vl/kmeans.c:911-934 and 1309-1334. -/
def updateL2 (u : ρ → Nat → Nat × ρ) (dim nC N : Nat) (data : List K) (asgn masses : List Nat) (rng : ρ) :
    Option (List K × ρ) := do
  let cs ← accumulate dim N data asgn (List.replicate (nC * dim) 0)
  iter nC (normalizeStep u dim N data masses) (cs, rng)

/-- Comparison of two entries of the permutation by component `d` of the data, vl/kmeans.c:781-789.  Entries are point
indexes, so the reads are in bounds. -/
def cmpColumn (data : List K) (dim d : Nat) (a b : Nat) : Int :=
  if data.getD (a * dim + d) 0 < data.getD (b * dim + d) 0 then -1
  else if data.getD (b * dim + d) 0 < data.getD (a * dim + d) 0 then 1 else 0

/-- The rows of `permutations` from `0` on, `_vl_kmeans_sort_data_helper`, vl/kmeans.c:806-822; simplification: the block of
`dim` rows is a list of rows. -/
def sortData (data : List K) (dim N : Nat) : Nat → Option (List (List Nat))
  | 0 => some []
  | n + 1 => do
    let rows ← sortData data dim N n
    let row ← Qsort.sort (cmpColumn data dim n) (List.range N) N
    some (rows ++ [row])

/-- Body of the loop over the sorted points, vl/kmeans.c:939-946. -/
def medianStep (dim : Nat) (data : List K) (asgn masses : List Nat) (perm : List Nat) (d x : Nat) (s : List K × List Nat) :
    Option (List K × List Nat) := do
  let p ← rd perm x
  let c ← rd asgn p
  let seen ← rd s.2 c
  let ms ← rd masses c
  let cs ← (if 2 * seen < ms then do
      let v ← rd data (p * dim + d)
      wr s.1 (c * dim + d) v
    else some s.1)
  let sn ← wr s.2 c (seen + 1)
  some (cs, sn)

/-- Component `d` of the medians, vl/kmeans.c:937-946. -/
def medianPass (dim nC N : Nat) (data : List K) (asgn masses : List Nat) (perms : List (List Nat)) (d : Nat) (cs : List K) :
    Option (List K) := do
  let perm ← rd perms d
  let s ← iter N (medianStep dim data asgn masses perm d) (cs, List.replicate nC 0)
  some s.1

/-- Restart of the empty centres, vl/kmeans.c:948-957, 1350-1358; the flag says whether a centre was restarted. -/
def restart (u : ρ → Nat → Nat × ρ) (dim nC N : Nat) (data : List K) (masses : List Nat) (s : List K × ρ) :
    Option ((List K × ρ) × Bool) :=
  iter nC (fun c s => do
    let ms ← rd masses c
    if ms = 0 then do
      let cs ← copyPoint dim data (u s.1.2 N).1 c s.1.1
      some ((cs, (u s.1.2 N).2), true)
    else some s) (s, false)

/-- Update of the centres for the `l^1` distance in Lloyd, vl/kmeans.c:935-959, for the last `rem` dimensions.  The loop
restarting the centres uses the variable `d` of the enclosing loop, so that the latter ends when a centre is restarted. -/
def updateL1Lloyd (u : ρ → Nat → Nat × ρ) (dim nC N : Nat) (data : List K) (asgn masses : List Nat) (perms : List (List Nat)) :
    Nat → List K × ρ → Option (List K × ρ)
  | 0, s => some s
  | rem + 1, s => do
    let cs ← medianPass dim nC N data asgn masses perms (dim - (rem + 1)) s.1
    let r ← restart u dim nC N data masses (cs, s.2)
    if r.2 then some r.1 else updateL1Lloyd u dim nC N data asgn masses perms rem r.1

/-- Update of the centres for the `l^1` distance in Elkan, vl/kmeans.c:1335-1359. -/
def updateL1Elkan (u : ρ → Nat → Nat × ρ) (dim nC N : Nat) (data : List K) (asgn masses : List Nat) (perms : List (List Nat))
    (s : List K × ρ) : Option (List K × ρ) := do
  let cs ← iter dim (medianPass dim nC N data asgn masses perms) s.1
  let r ← restart u dim nC N data masses (cs, s.2)
  some r.1

/-! ## Lloyd -/

/-- State of Lloyd's algorithm. -/
structure LState (K ρ : Type) where
  centers : List K
  q : Quant K
  rng : ρ

/-- The update of one iteration, vl/kmeans.c:903-962. -/
def lloydUpdate (u : ρ → Nat → Nat × ρ) (m : Metric) (dim nC N : Nat) (data : List K) (perms : List (List Nat))
    (s : LState K ρ) : Option (LState K ρ) := do
  let masses ← countMasses N s.q.asgn
  match m with
  | .l2 => do
    let r ← updateL2 u dim nC N data s.q.asgn masses s.rng
    some { s with centers := r.1, rng := r.2 }
  | .l1 => do
    let r ← updateL1Lloyd u dim nC N data s.q.asgn masses perms dim (s.centers, s.rng)
    some { s with centers := r.1, rng := r.2 }

/-- The stopping rules, vl/kmeans.c:873-898; `none` are the infinite initial values of `previousEnergy`, `initialEnergy`. -/
def lloydStop (minVar : K) (init prev : Option K) (e : K) : Bool :=
  match init, prev with
  | some i, some p => decide (e = p) || decide ((p - e) / (i - e) < minVar)
  | _, _ => false

/-- The iterations, vl/kmeans.c:856-968; `rem` is `maxNumIterations - iteration`.  Returns the energies printed, the energy
returned and the final state. -/
def lloydLoop (u : ρ → Nat → Nat × ρ) (m : Metric) (dim nC N : Nat) (data : List K) (perms : List (List Nat)) (minVar : K) :
    Nat → Option K → Option K → LState K ρ → Option (List K × K × LState K ρ)
  | rem, init, prev, s => do
    let q ← quantize m dim nC N s.centers data s.q
    let s := { s with q := q }
    let e ← energy N q.dists
    match rem with
    | 0 => some ([e], e, s)
    | rem + 1 =>
      if lloydStop minVar init prev e then some ([e], e, s)
      else do
        let s ← lloydUpdate u m dim nC N data perms s
        let r ← lloydLoop u m dim nC N data perms minVar rem (init.or (some e)) (some e) s
        some (e :: r.1, r.2)

/-- `_vl_kmeans_refine_centers_lloyd`, vl/kmeans.c:828-978. -/
def lloyd (u : ρ → Nat → Nat × ρ) (m : Metric) (dim nC N : Nat) (data : List K) (minVar : K) (maxIt : Nat) (s : LState K ρ) :
    Option (List K × K × LState K ρ) := do
  let perms ← (match m with | .l1 => sortData data dim N dim | .l2 => some [])
  lloydLoop u m dim nC N data perms minVar maxIt none none s

/-! ## Elkan -/

/-- What Elkan's algorithm stores about one point; simplification: the arrays indexed by the points are one list of records,
with the row of the point in `pointToCenterLB`. -/
structure Pt (K : Type) where
  asgn : Nat
  ub : K
  strict : Bool
  lb : List K

/-- `((self->distance == VlDistanceL1) ? 2.0 : 4.0)`. -/
def factor : Metric → K
  | .l1 => 2
  | .l2 => 4

/-- Body of the loop over the other centres of the initial assignment, vl/kmeans.c:1232-1255, for centre `i + 1`. -/
def initStep (m : Metric) (dim nC : Nat) (centers cdist v : List K) (i : Nat) (p : Pt K) : Option (Pt K) := do
  let cd ← rd cdist (i + 1 + p.asgn * nC)
  if factor m * p.ub ≤ cd then some p
  else do
    let w ← AllPairs.slice centers (((i + 1) * dim : Nat) : Int) dim
    let d := m.dist v w
    let lb ← wr p.lb (i + 1) d
    if d < p.ub then some { p with lb := lb, ub := d, asgn := i + 1 } else some { p with lb := lb }

/-- Initial assignment of a point, vl/kmeans.c:1218-1256. -/
def initPoint (m : Metric) (dim nC : Nat) (centers cdist v : List K) : Option (Pt K) := do
  let w ← AllPairs.slice centers 0 dim
  let d := m.dist v w
  let lb ← wr (List.replicate nC 0) 0 d
  iter (nC - 1) (initStep m dim nC centers cdist v) { asgn := 0, ub := d, strict := true, lb := lb }

/-- Update of the bounds of a point by the motion of the centres, vl/kmeans.c:1395-1411 and 1423-1441. -/
def moveBounds (sqrt : K → K) (m : Metric) (nC : Nat) (c2n : List K) (p : Pt K) : Option (Pt K) := do
  let b ← rd c2n p.asgn
  let ub := match m with
    | .l1 => p.ub + b
    | .l2 => p.ub + b + 2 * sqrt (p.ub * b)
  let lb ← iter nC (fun c lb => do
    let a ← rd lb c
    let b ← rd c2n c
    if a < b then wr lb c 0
    else match m with
      | .l1 => wr lb c (a - b)
      | .l2 => wr lb c (a + b - 2 * sqrt (a * b))) p.lb
  some { p with ub := ub, strict := false, lb := lb }

/-- The true comparison with centre `c`, vl/kmeans.c:1548-1561. -/
def compareCenter (m : Metric) (dim : Nat) (centers v : List K) (c : Nat) (s : Pt K × Bool) : Option (Pt K × Bool) := do
  let w ← AllPairs.slice centers ((c * dim : Nat) : Int) dim
  let d := m.dist v w
  let lb ← wr s.1.lb c d
  if d < s.1.ub then some ({ s.1 with lb := lb, asgn := c, ub := d }, true) else some ({ s.1 with lb := lb }, s.2)

/-- Body of the loop over the centres of a reassignment, vl/kmeans.c:1493-1563; the flag is set when the point is reassigned. -/
def reassignStep (m : Metric) (dim nC : Nat) (centers cdist v : List K) (c : Nat) (s : Pt K × Bool) : Option (Pt K × Bool) := do
  let cx := s.1.asgn
  if cx = c then some s
  else do
    let cd ← rd cdist (c + cx * nC)
    if factor m * s.1.ub ≤ cd then some s
    else do
      let l ← rd s.1.lb c
      if s.1.ub ≤ l then some s
      else if s.1.strict then compareCenter m dim centers v c s
      else do
        let w ← AllPairs.slice centers ((cx * dim : Nat) : Int) dim
        let d := m.dist v w
        let lb ← wr s.1.lb cx d
        let s := ({ s.1 with ub := d, strict := true, lb := lb }, s.2)
        if factor m * d ≤ cd then some s
        else do
          let l ← rd s.1.lb c
          if d ≤ l then some s else compareCenter m dim centers v c s

/-- Reassignment of a point, vl/kmeans.c:1482-1564; an infinite `nextCenterDistances` (a single centre) is `none`. -/
def reassign (m : Metric) (dim nC : Nat) (centers cdist : List K) (next : List (Option K)) (v : List K) (p : Pt K) :
    Option (Pt K × Bool) := do
  let nx ← rd next p.asgn
  if (match nx with | none => true | some nx => decide (factor m * p.ub ≤ nx)) then some (p, false)
  else iter nC (reassignStep m dim nC centers cdist v) (p, false)

/-- `VL_MIN` with an infinite first argument. -/
def minInf (a : Option K) (b : K) : Option K :=
  match a with
  | none => some b
  | some a => some (if a < b then a else b)

/-- Distance of each centre to the closest other centre, vl/kmeans.c:1387-1395. -/
def nextDistances (nC : Nat) (cdist : List K) (next : List (Option K)) : Option (List (Option K)) :=
  iter nC (fun c next => do
    let v ← iter nC (fun j (v : Option K) =>
      if j = c then some v else do
        let d ← rd cdist (j + c * nC)
        some (minInf v d)) none
    wr next c v) next

/-- State of Elkan's algorithm. -/
structure EState (K ρ : Type) where
  centers : List K
  newCenters : List K
  cdist : List K
  c2n : List K
  next : List (Option K)
  pts : List (Pt K)
  rng : ρ

/-- Distances of the old centres to the new ones, vl/kmeans.c:1365-1371. -/
def motions (m : Metric) (dim nC : Nat) (newCenters centers : List K) (c2n : List K) : Option (List K) :=
  iter nC (fun c c2n => do
    let a ← AllPairs.slice newCenters ((c * dim : Nat) : Int) dim
    let b ← AllPairs.slice centers ((c * dim : Nat) : Int) dim
    wr c2n c (m.dist a b)) c2n

/-- The update of the centres, vl/kmeans.c:1302-1362. -/
def elkanUpdate (u : ρ → Nat → Nat × ρ) (m : Metric) (dim nC N : Nat) (data : List K) (perms : List (List Nat))
    (asgn : List Nat) (newCenters : List K) (rng : ρ) : Option (List K × ρ) := do
  let masses ← countMasses N asgn
  match m with
  | .l2 => updateL2 u dim nC N data asgn masses rng
  | .l1 => updateL1Elkan u dim nC N data asgn masses perms (newCenters, rng)

/-- One iteration, vl/kmeans.c:1294-1566; also says whether no point was reassigned (`allDone`). -/
def elkanIter (sqrt : K → K) (u : ρ → Nat → Nat × ρ) (m : Metric) (dim nC N : Nat) (data : List K) (perms : List (List Nat))
    (s : EState K ρ) : Option (EState K ρ × Bool) := do
  let nc ← elkanUpdate u m dim nC N data perms (s.pts.map Pt.asgn) s.newCenters s.rng
  let c2n ← motions m dim nC nc.1 s.centers s.c2n
  let cdist ← AllPairs.allPairs s.cdist dim nc.1 nC none 0 m.dist
  let next ← nextDistances nC cdist s.next
  let pts ← iter N (fun x pts => do
    let p ← rd pts x
    let p ← moveBounds sqrt m nC c2n p
    wr pts x p) s.pts
  let r ← iter N (fun x (r : List (Pt K) × Bool) => do
    let p ← rd r.1 x
    let v ← AllPairs.slice data ((x * dim : Nat) : Int) dim
    let p' ← reassign m dim nC nc.1 cdist next v p
    let pts ← wr r.1 x p'.1
    some (pts, r.2 && !p'.2)) (pts, true)
  some ({ centers := nc.1, newCenters := s.centers, cdist := cdist, c2n := c2n, next := next, pts := r.1, rng := nc.2 }, r.2)

/-- The iterations, vl/kmeans.c:1294-1660; `rem` is `maxNumIterations - iteration` (the first iteration is number 1).  Returns
the state at the end of each iteration. -/
def elkanLoop (sqrt : K → K) (u : ρ → Nat → Nat × ρ) (m : Metric) (dim nC N : Nat) (data : List K) (perms : List (List Nat)) :
    Nat → EState K ρ → Option (List (EState K ρ) × EState K ρ)
  | rem, s => do
    let r ← elkanIter sqrt u m dim nC N data perms s
    match rem with
    | 0 => some ([r.1], r.1)
    | rem + 1 =>
      if r.2 then some ([r.1], r.1)
      else do
        let t ← elkanLoop sqrt u m dim nC N data perms rem r.1
        some (r.1 :: t.1, t.2)

/-- The energy of the assignments, vl/kmeans.c:1663-1670. -/
def trueEnergy (m : Metric) (dim N : Nat) (data : List K) (centers : List K) (pts : List (Pt K)) : Option K :=
  iter N (fun x e => do
    let p ← rd pts x
    let v ← AllPairs.slice data ((x * dim : Nat) : Int) dim
    let w ← AllPairs.slice centers ((p.asgn * dim : Nat) : Int) dim
    some (e + m.dist v w)) 0

/-- `_vl_kmeans_refine_centers_elkan`, vl/kmeans.c:1162-1747.  The blocks allocated are those of the state. Returns the states
after the initial assignment and each iteration, the energy and the final state. -/
def elkan (sqrt : K → K) (u : ρ → Nat → Nat × ρ) (m : Metric) (dim nC N : Nat) (data : List K) (maxIt : Nat) (s : EState K ρ) :
    Option (List (EState K ρ) × K × EState K ρ) := do
  let perms ← (match m with | .l1 => sortData data dim N dim | .l2 => some [])
  let cdist ← AllPairs.allPairs s.cdist dim s.centers nC none 0 m.dist
  let pts ← iter N (fun x pts => do
    let v ← AllPairs.slice data ((x * dim : Nat) : Int) dim
    let p ← initPoint m dim nC s.centers cdist v
    wr pts x p) s.pts
  let s := { s with cdist := cdist, pts := pts }
  let t ← elkanLoop sqrt u m dim nC N data perms (maxIt - 1) s
  let e ← trueEnergy m dim N data t.2.centers t.2.pts
  some (s :: t.1, e, t.2)

end Verif.Kmeans
