import Verif.Rows
import Mathlib.Algebra.Field.Defs
import Mathlib.Order.WithBot

/-!
# Model of the agglomerative information bottleneck, vl/aib.c

`K` stands for `double`; rounding is not modelled and the logarithm is the parameter `log`.  `BETA_MAX`, the largest `double`, is `⊤`: it is assumed that no cost is as large.
`vl_uint` is a natural number: it is assumed that `2 * nvalues` does not overflow.  A division by zero or the logarithm of a number that is not positive gives `none`.  Printing is not modelled.
-/

namespace Verif.Aib

variable {K : Type} [Field K] [LinearOrder K]

/-- `VlAIB`, vl/aib.h:30-58.  The blocks `Pcx`, `Px`, `nodes`, `beta`, `bidx`, `which` and `costs` have `nvalues` entries (rows for the first), `parents` has `2 * nvalues - 1`.
A cost is `none` if it is not a number. -/
structure St (K : Type) where
  Pcx : List K
  Px : List K
  Pc : List K
  nentries : Nat
  nodes : List Nat
  beta : List (WithTop K)
  bidx : List Nat
  which : List Nat
  nwhich : Nat
  parents : List Nat
  costs : List (Option K)

/-- `log(x)` -/
def logv (log : K → K) (x : K) : Option K := if 0 < x then some (log x) else none

/-- `x / y` -/
def divv (x y : K) : Option K := if y = 0 then none else some (x / y)

/-- `PLOGP(x)`, vl/aib.c:354. -/
def plogp (log : K → K) (x : K) : Option K := do
  let l ← logv log x
  pure (x * l)

/-- `vl_aib_normalize_P`, vl/aib.c:139-147. -/
def normalizeP (P : List K) (n : Nat) : Option (List K) := do
  let sum ← iter n (fun i s => do
    let x ← rd P i
    pure (s + x)) 0
  iter n (fun i P => do
    let x ← rd P i
    let y ← divv x sum
    wr P i y) P

/-- `vl_aib_new_nodelist`, vl/aib.c:158-166. -/
def newNodelist (n : Nat) : List Nat := List.range n

/-- `vl_aib_new_Px`, vl/aib.c:180-192; `Px` is the content of the allocated array. -/
def newPx (Pcx : List K) (n L : Nat) (Px : List K) : Option (List K) :=
  iter n (fun r Px => do
    let sum ← iter L (fun c s => do
      let x ← rd Pcx (r * L + c)
      pure (s + x)) 0
    wr Px r sum) Px

/-- `vl_aib_new_Pc`, vl/aib.c:205-217; `Pc` is the content of the allocated array. -/
def newPc (Pcx : List K) (n L : Nat) (Pc : List K) : Option (List K) :=
  iter L (fun c Pc => do
    let sum ← iter n (fun r s => do
      let x ← rd Pcx (r * L + c)
      pure (s + x)) 0
    wr Pc c sum) Pc

/-- `vl_aib_min_beta`, vl/aib.c:232-249: `minbeta`, `besti` and `bestj`. -/
def minBeta (s : St K) : Option (WithTop K × Nat × Nat) := do
  let b ← rd s.beta 0
  let q ← rd s.bidx 0
  iter s.nentries (fun i (m : WithTop K × Nat × Nat) => do
    let b ← rd s.beta i
    if b < m.1 then do
      let q ← rd s.bidx i
      pure (b, i, q)
    else pure m) (b, 0, q)

/-- The scan of the entries to update, vl/aib.c:323-332. -/
def scan (i j last : Nat) (s : St K) : Option (St K) :=
  iter s.nentries (fun n (s : St K) => do
    let q ← rd s.bidx n
    if q = i ∨ q = j then do
      let bidx ← wr s.bidx n 0
      let beta ← wr s.beta n ⊤
      let which ← wr s.which s.nwhich n
      pure { s with bidx := bidx, beta := beta, which := which, nwhich := s.nwhich + 1 }
    else if q = last then do
      let bidx ← wr s.bidx n j
      pure { s with bidx := bidx }
    else pure s) s

/-- `vl_aib_merge_nodes` after the exchange of `i` and `j`, vl/aib.c:287-332.  `nentries` is not zero, so that the subtractions are exact. -/
def mergeOrdered (L : Nat) (s : St K) (i j new : Nat) : Option (St K) := do
  let last := s.nentries - 1
  let xi ← rd s.Px i
  let xj ← rd s.Px j
  let Px ← wr s.Px i (xi + xj)
  let beta ← wr s.beta i ⊤
  let nodes ← wr s.nodes i new
  let Pcx ← iter L (fun c P => do
    let a ← rd P (i * L + c)
    let b ← rd P (j * L + c)
    wr P (i * L + c) (a + b)) s.Pcx
  let xl ← rd Px last
  let Px ← wr Px j xl
  let bl ← rd beta last
  let beta ← wr beta j bl
  let ql ← rd s.bidx last
  let bidx ← wr s.bidx j ql
  let nl ← rd nodes last
  let nodes ← wr nodes j nl
  let Pcx ← iter L (fun c P => do
    let a ← rd P (last * L + c)
    wr P (j * L + c) a) Pcx
  scan i j last { s with Px := Px, beta := beta, nodes := nodes, Pcx := Pcx, bidx := bidx, nentries := s.nentries - 1, nwhich := 0 }

/-- `vl_aib_merge_nodes`, vl/aib.c:272-333. -/
def mergeNodes (L : Nat) (s : St K) (i j new : Nat) : Option (St K) := if i > j then mergeOrdered L s j i new else mergeOrdered L s i j new

/-- The quantities `A` and `B`, vl/aib.c:375-381: `tmp[a]`. -/
def precalc (log : K → K) (L : Nat) (s : St K) (a : Nat) : Option K :=
  iter L (fun c t => do
    let p ← rd s.Pcx (a * L + c)
    if p ≠ 0 then do
      let x ← rd s.Px a
      let q ← divv p x
      let l ← logv log q
      pure (t + p * l)
    else pure t) 0

/-- The cost of merging two entries, vl/aib.c:394-402. -/
def pairCost (log : K → K) (L : Nat) (s : St K) (tmp : List K) (a b : Nat) (xa xb : K) : Option K := do
  let t ← plogp log (xa + xb)
  let ta ← rd tmp a
  let tb ← rd tmp b
  iter L (fun c t => do
    let pa ← rd s.Pcx (a * L + c)
    let pb ← rd s.Pcx (b * L + c)
    if pa = 0 ∧ pb = 0 then pure t
    else do
      let u ← plogp log (pa + pb)
      pure (t + (- u))) (t + (ta + tb))

/-- `if (beta < aib->beta[a]) ...`, vl/aib.c:411-415 and 416-420. -/
def improve (beta : K) (a b : Nat) (s : St K) : Option (St K) := do
  let ba ← rd s.beta a
  if (beta : WithTop K) < ba then do
    let l ← wr s.beta a (beta : WithTop K)
    let q ← wr s.bidx a b
    pure { s with beta := l, bidx := q }
  else pure s

/-- Body of the loop over the other entries, vl/aib.c:388-422. -/
def updatePair (log : K → K) (L : Nat) (tmp : List K) (a b : Nat) (s : St K) : Option (St K) := do
  let xa ← rd s.Px a
  let xb ← rd s.Px b
  if a = b ∨ xa = 0 ∨ xb = 0 then pure s
  else do
    let beta ← pairCost log L s tmp a b xa xb
    let s ← improve beta a b s
    improve beta b a s

/-- `vl_aib_update_beta`, vl/aib.c:350-425.  The content of the block `tmp` does not matter, since each element is set before it is read; it is taken to be zero. -/
def updateBeta (log : K → K) (L : Nat) (s : St K) : Option (St K) := do
  let tmp ← iter s.nentries (fun a tmp => do
    let t ← precalc log L s a
    wr tmp a t) (List.replicate s.nentries 0)
  iter s.nwhich (fun i (t : St K) => do
    let a ← rd t.which i
    iter t.nentries (fun b t => updatePair log L tmp a b t) t) s

/-- `vl_aib_calculate_information`, vl/aib.c:437-460, without the entropy, which is only printed. -/
def information (log : K → K) (L : Nat) (s : St K) : Option K :=
  iter s.nentries (fun r I => do
    let x ← rd s.Px r
    if x = 0 then pure I
    else iter L (fun c I => do
      let p ← rd s.Pcx (r * L + c)
      if p = 0 then pure I
      else do
        let pc ← rd s.Pc c
        let q ← divv p (x * pc)
        let l ← logv log q
        pure (I + p * l)) I) 0

/-- `vl_aib_new`, vl/aib.c:489-526, with the contents of the allocated arrays. -/
def new (Pcx : List K) (n L : Nat) (Px Pc : List K) (bidx : List Nat) (costs : List (Option K)) : Option (St K) := do
  let Pcx ← normalizeP Pcx (n * L)
  let Px ← newPx Pcx n L Px
  let Pc ← newPc Pcx n L Pc
  pure { Pcx := Pcx, Px := Px, Pc := Pc, nentries := n, nodes := newNodelist n, beta := List.replicate n ⊤, bidx := bidx, which := newNodelist n, nwhich := n, parents := List.replicate (2 * n - 1) (2 * n), costs := costs }

/-- Fill with NaNs, vl/aib.c:641-642: `k` entries from `i + 1`. -/
def fillNan (k i : Nat) (s : St K) : Option (St K) := do
  let costs ← iter k (fun t costs => wr costs (i + t + 1) none) s.costs
  pure { s with costs := costs }

/-- The parent pointers of the new node, vl/aib.c:614-620. -/
def link (n i besti bestj : Nat) (s : St K) : Option (St K) := do
  let ni ← rd s.nodes besti
  let nj ← rd s.nodes bestj
  let p ← wr s.parents ni (n + i)
  let p ← wr p nj (n + i)
  let p ← wr p (n + i) 0
  pure { s with parents := p }

/-- The loop over the merges, vl/aib.c:601-642; the first argument is the number of merges left, so that `i + k = nvalues - 1`. -/
def processLoop (log : K → K) (n L : Nat) : Nat → Nat → St K → Option (St K)
  | 0, _, s => some s
  | k + 1, i, s => do
    let s ← updateBeta log L s
    let m ← minBeta s
    if m.1 = ⊤ then fillNan (k + 1) i s
    else do
      let s ← link n i m.2.1 m.2.2 s
      let s ← mergeNodes L s m.2.1 m.2.2 (n + i)
      let I ← information log L s
      let costs ← wr s.costs (i + 1) (some I)
      processLoop log n L k (i + 1) { s with costs := costs }

/-- `vl_aib_process`, vl/aib.c:588-643.  If `nvalues` is zero the loop runs out of bounds: `none`. -/
def process (log : K → K) (n L : Nat) (s : St K) : Option (St K) := do
  let _ ← assert' (decide (n ≠ 0))
  let I ← information log L s
  let costs ← wr s.costs 0 (some I)
  processLoop log n L (n - 1) 0 { s with costs := costs }

end Verif.Aib
