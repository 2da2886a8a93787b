import Verif.Ikm.Model

/-!
# Model of the seeding and of the Lloyd training of integer k-means

vl/ikmeans_init.tc, vl/ikmeans_lloyd.tc.  Signed 32-bit arithmetic as in `Verif.Ikm.Model`.
-/

namespace Verif.Ikm

/-! ## Seeding from random data -/

/-- `calc_dist2(centers + k * M, data + p, M) == 0`, vl/ikmeans_init.tc:33-42 and 133-136. -/
def sameAt (centers : List Int) (data : List UInt8) (M p k : Nat) : Option Bool := do
  let d ← iter M (fun i acc => do
    let a ← rd centers (k * M + i)
    let b ← rd data (p + i)
    accStep a b.toNat acc) 0
  some (d == 0)

/-- Whether one of the centres `k` to `k + n - 1` equals the datum at `p`, vl/ikmeans_init.tc:132-137: the loop is left at the
first one. -/
def isDup (centers : List Int) (data : List UInt8) (M p : Nat) : Nat → Nat → Option Bool
  | 0, _ => some false
  | n + 1, k => do
    let b ← sameAt centers data M p k
    if b then some true else isDup centers data M p n (k + 1)

/-- Search of the next candidate from position `j`, `n` positions before the last one, vl/ikmeans_init.tc:130-139. -/
def nextCandidate (centers : List Int) (data : List UInt8) (M : Nat) (perm : List Nat) (k : Nat) : Nat → Nat → Option Nat
  | 0, j => some j
  | n + 1, j => do
    let x ← rd perm j
    let b ← isDup centers data M (x * M) k 0
    if b then nextCandidate centers data M perm k n (j + 1) else some j

/-- One centre, vl/ikmeans_init.tc:127-146; the state is `j` and the block of the centres. -/
def seedStep (data : List UInt8) (M N : Nat) (perm : List Nat) (k : Nat) (s : Nat × List Int) : Option (Nat × List Int) := do
  let j ← nextCandidate s.2 data M perm k (N - 1 - s.1) s.1
  let x ← rd perm j
  let cs ← iter M (fun i cs => do
    let b ← rd data (x * M + i)
    wr cs (k * M + i) (b.toNat : Int)) s.2
  some (if j < N - 1 then j + 1 else j, cs)

/-- `vl_ikm_init_rand_data`, vl/ikmeans_init.tc:110-151.  Simplification: `perm` is the second component of the sorted pairs,
a permutation of the indexes; `g` is what the block of the centres contains when allocated. -/
def initRandData (data : List UInt8) (M N K : Nat) (perm : List Nat) (g : List Int) : Option (List Int) := do
  let s ← iter K (seedStep data M N perm) (0, g)
  some s.2

/-! ## Lloyd training -/

/-- Assignment of one datum, vl/ikmeans_lloyd.tc:47-70.  Without centres `best` is `-1` and the training indexes `counts` out of
bounds; this is `none` here. -/
def trainBest (centers : List Int) (data : List UInt8) (M p K : Nat) : Option Nat := do
  let s ← iter K (scanStep centers data M p) { best := none, dist := 0 }
  match s.best with
  | none => none
  | some k => some (k % 4294967296)

/-- Assignments, vl/ikmeans_lloyd.tc:47-71; the second component is `done`. -/
def trainAssign (centers : List Int) (data : List UInt8) (M K N : Nat) (asgn : List Nat) : Option (List Nat × Bool) :=
  iter N (fun j s => do
    let k ← trainBest centers data M (j * M) K
    let a ← rd s.1 j
    if a ≠ k then do
      let asgn ← wr s.1 j k
      some (asgn, false)
    else some s) (asgn, true)

/-- Accumulation, vl/ikmeans_lloyd.tc:81-89. -/
def trainAccumulate (data : List UInt8) (M N : Nat) (asgn : List Nat) (s : List Int × List Nat) :
    Option (List Int × List Nat) :=
  iter N (fun j s => do
    let a ← rd asgn j
    let n ← rd s.2 a
    let cn ← wr s.2 a ((n + 1) % 4294967296)
    let cs ← iter M (fun i cs => do
      let v ← rd cs (a * M + i)
      let d ← rd data (j * M + i)
      let w ← i32 (v + (d.toNat : Int))
      wr cs (a * M + i) w) s.1
    some (cs, cn)) s

/-- Division by the counts, vl/ikmeans_lloyd.tc:91-106 (the error code is not modelled). -/
def trainDivide (M K : Nat) (counts : List Nat) (cs : List Int) : Option (List Int) :=
  iter K (fun k cs => do
    let n ← rd counts k
    if n > 0 then
      iter M (fun i cs => do
        let v ← rd cs (k * M + i)
        wr cs (k * M + i) (v.tdiv n)) cs
    else some cs) cs

/-- New centres, vl/ikmeans_lloyd.tc:79-106: centres and counts are cleared first.  Simplification: the block of the centres is
replaced by a new one of `K * M` entries. -/
def trainUpdate (data : List UInt8) (M K N : Nat) (asgn counts : List Nat) : Option (List Int × List Nat) := do
  let counts ← iter K (fun k c => wr c k 0) counts
  let s ← trainAccumulate data M N asgn (List.replicate (K * M) 0, counts)
  let cs ← trainDivide M K s.2 s.1
  some (cs, s.2)

/-- Result of the training: centres, last assignments, and whether these did not change in the last iteration. -/
structure Trained where
  centers : List Int
  asgn : List Nat
  done : Bool
  deriving DecidableEq

/-- Iterations, vl/ikmeans_lloyd.tc:40-107, `n` of them left. -/
def trainLoop (data : List UInt8) (M K N : Nat) : Nat → List Int → List Nat → List Nat → Option Trained
  | n, centers, asgn, counts => do
    let a ← trainAssign centers data M K N asgn
    if a.2 then some { centers := centers, asgn := a.1, done := true }
    else match n with
      | 0 => some { centers := centers, asgn := a.1, done := false }
      | n + 1 => do
        let u ← trainUpdate data M K N a.1 counts
        trainLoop data M K N n u.1 a.1 u.2

/-- `vl_ikm_train_lloyd`, vl/ikmeans_lloyd.tc:32-112; `ga` and `gc` are what `asgn` and `counts`, of `N` entries each, contain
when allocated. -/
def trainLloyd (data : List UInt8) (M K N maxIters : Nat) (centers : List Int) (ga gc : List Nat) : Option Trained :=
  trainLoop data M K N maxIters centers ga gc

end Verif.Ikm
