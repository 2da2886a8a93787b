import Verif.Gmm.Model

/-!
# Model of `vl_fisher_encode`

`K` stands for `float` or `double`; rounding is not modelled, and the square root is the parameter `sq`.  A division by zero, which would give an infinity, is `none`.
-/

namespace Verif.Fisher

variable {K : Type} [Field K] [LinearOrder K]

/-- The bits of `flags`, vl/fisher.h:23-26; `VL_FISHER_FLAG_IMPROVED` is the first two. -/
structure Flags where
  root : Bool
  normalized : Bool
  fast : Bool

/-- Position of the largest posterior of datum `i`, vl/fisher.c:402-410; the state is `best` and `bestValue`. -/
def findBest (C : Nat) (post : List K) (i : Nat) : Option (Nat × K) := do
  let p ← rd post (i * C)
  iter (C - 1) (fun j (s : Nat × K) => do
    let p ← rd post (j + 1 + i * C)
    pure (if p > s.2 then (j + 1, p) else s)) (0, p)

/-- Body of the loop over the data, vl/fisher.c:400-416. -/
def sparsify (C i : Nat) (post : List K) : Option (List K) := do
  let b ← findBest C post i
  iter C (fun k post => wr post (k + i * C) (if k = b.1 then 1 else 0)) post

/-- `sqrtInvSigma`, vl/fisher.c:386-390; `s` is the content of the allocated array. -/
def sqrtInv (sq : K → K) (D C : Nat) (cov s : List K) : Option (List K) :=
  iter C (fun k s => iter D (fun d s => do
    let c ← rd cov (k * D + d)
    let _ ← assert' (decide (c ≠ 0))
    wr s (k * D + d) (sq (1 / c))) s) s

/-- Body of the loop over the data, vl/fisher.c:438-448; the state is `enc` and `numTerms`. -/
def addDatum (D C : Nat) (means data sis post : List K) (k i : Nat) (s : List K × Nat) : Option (List K × Nat) := do
  let p ← rd post (k + i * C)
  if p < 1 / 10 ^ 6 then pure s else do
    let enc ← iter D (fun d enc => do
      let x ← rd data (i * D + d)
      let m ← rd means (k * D + d)
      let r ← rd sis (k * D + d)
      let diff := (x - m) * r
      let u ← rd enc (k * D + d)
      let v ← rd enc (k * D + C * D + d)
      let enc ← wr enc (k * D + d) (u + p * diff)
      wr enc (k * D + C * D + d) (v + p * (diff * diff - 1))) s.1
    pure (enc, s.2 + 1)

/-- vl/fisher.c:450-457 -/
def scale (sq : K → K) (D C N k : Nat) (w : K) (enc : List K) : Option (List K) :=
  if N > 0 then do
    let _ ← assert' (decide (N * sq w ≠ 0 ∧ N * sq (2 * w) ≠ 0))
    let up := 1 / (N * sq w)
    let vp := 1 / (N * sq (2 * w))
    iter D (fun d enc => do
      let u ← rd enc (k * D + d)
      let v ← rd enc (k * D + C * D + d)
      let enc ← wr enc (k * D + d) (u * up)
      wr enc (k * D + C * D + d) (v * vp)) enc
  else some enc

/-- Body of the loop over the clusters, vl/fisher.c:422-458. -/
def cluster (sq : K → K) (D C N : Nat) (priors means data sis post : List K) (k : Nat) (s : List K × Nat) : Option (List K × Nat) := do
  let w ← rd priors k
  if w < 1 / 10 ^ 6 then pure s else do
    let s ← iter N (addDatum D C means data sis post k) s
    let enc ← scale sq D C N k w s.1
    pure (enc, s.2)

/-- vl/fisher.c:463-472 -/
def rootAll (sq : K → K) (n : Nat) (enc : List K) : Option (List K) :=
  iter n (fun d enc => do
    let z ← rd enc d
    wr enc d (if z ≥ 0 then sq z else - sq (- z))) enc

/-- vl/fisher.c:474-485 -/
def normalizeAll (sq : K → K) (n : Nat) (enc : List K) : Option (List K) := do
  let s ← iter n (fun d s => do
    let z ← rd enc d
    pure (s + z * z)) 0
  let m := max (sq s) (1 / 10 ^ 12)
  iter n (fun d enc => do
    let z ← rd enc d
    wr enc d (z / m)) enc

/-- `_vl_fisher_encode`, vl/fisher.c:363-488.  `tmp`, `post` and `sis` are the contents of the allocated arrays (`tmp` those of `vl_get_gmm_data_posteriors`); `orderC`, `orderN` and `order` are the orders
in which the parallel loops run.  (The iterations of the last one only write in their own rows of `enc`, and add to the reduction variable `numTerms`.)
Returns the encoding, of exactly `2 * dimension * numClusters` elements, and the number of terms. -/
def encode (F : Flags) (E : Gmm.Fns K) (sq : K → K) (orderC orderN order : List Nat) (D C N : Nat) (priors means cov data : List K) (tmp : Gmm.Prep K) (post : List (WithBot K)) (sis : List K) : Option (List K × Nat) := do
  let _ ← assert' (decide (C ≥ 1))
  let _ ← assert' (decide (D ≥ 1))
  let sis ← sqrtInv sq D C cov sis
  let p ← Gmm.posteriors E orderC orderN D C priors means cov data tmp post
  let post ← whenB F.fast (iter N (sparsify C)) p.1
  let s ← order.foldlM (fun s k => cluster sq D C N priors means data sis post k s) (List.replicate (2 * D * C) 0, 0)
  let enc ← whenB F.root (rootAll sq (2 * D * C)) s.1
  let enc ← whenB F.normalized (normalizeAll sq (2 * D * C)) enc
  pure (enc, s.2)

end Verif.Fisher
