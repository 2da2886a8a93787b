import Verif.Gmm.Model

/-!
# Model of the expectation-maximisation loop, vl/gmm.c

Printing is not modelled.
-/

namespace Verif.Gmm

variable {K : Type} [Field K] [LinearOrder K]

/-- Statistics of the modes, vl/gmm.c:828, 836-844. -/
def modeMass (C N : Nat) (post : List K) : Option (List K) :=
  iter N (fun i mass => iter C (fun k mass => do
    let p ← rd post (k + i * C)
    let m ← rd mass k
    wr mass k (m + p)) mass) (List.replicate C 0)

/-- Search for the mode to split, vl/gmm.c:885-886, 920-939; the state is `size` and `best`. -/
def worstMode (E : Fns K) (D C : Nat) (m : Mix K) : Option (WithBot K × Option Nat) :=
  iter C (fun j (s : WithBot K × Option Nat) => do
    let p ← rd m.priors j
    if p < 1 / 10 ^ 6 then pure s else do
      let size ← iter D (fun d size => do
        let c ← rd m.cov (j * D + d)
        let _ ← assert' (decide (0 < c))
        pure (size + 1 / 2 * E.log c)) (1 / 2 * D * (1 + E.log2pi))
      let size := p * (size - E.log p)
      pure (if (size : WithBot K) > s.1 then ((size : WithBot K), some j) else s)) (⊥, none)

/-- Search for the dimension of largest variance, vl/gmm.c:960-969. -/
def widest (D : Nat) (cov : List K) (j : Nat) : Option (WithBot K × Option Nat) :=
  iter D (fun d (s : WithBot K × Option Nat) => do
    let c ← rd cov (j * D + d)
    pure (if (c : WithBot K) > s.1 then ((c : WithBot K), some d) else s)) (⊥, none)

/-- Share the points of mode `j` between modes `i` and `j`, vl/gmm.c:974-989. -/
def reassign (D C N : Nat) (data : List K) (i j best : Nat) (mu : K) (post : List K) : Option (List K) :=
  iter N (fun n post => do
    let p ← rd post (j + C * n)
    let q ← rd post (i + C * n)
    let x ← rd data (best + n * D)
    if x < mu then do
      let post ← wr post (i + C * n) (p + q)
      wr post (j + C * n) 0
    else do
      let post ← wr post (i + C * n) 0
      wr post (j + C * n) (p + q)) post

/-- Body of the loop over the modes, vl/gmm.c:884-996; the state is `posteriors` and the mixture.  If there is no dimension the index of the mean is `-1`: `none`. -/
def restartMode (E : Fns K) (chunks : List (List Nat)) (D C N : Nat) (lbs data mass : List K) (i : Nat) (s : List K × Mix K) : Option (List K × Mix K) := do
  let m ← rd mass i
  if m ≥ 1 / 100 * max 1 ((N : K) / C) then pure s else do
    let b ← worstMode E D C s.2
    match b.2 with
    | none => pure s
    | some j =>
      if j = i then pure s else do
        let d ← widest D s.2.cov j
        let best : Nat ← d.2
        let mu ← rd s.2.means (best + j * D)
        let post ← reassign D C N data i j best mu s.1
        let mix ← maximization chunks D C lbs post data s.2
        pure (post, mix)

/-- `_vl_gmm_restart_empty_modes`, vl/gmm.c:814-999.  `chunks` gives the shares of the threads for each maximisation. -/
def restart (E : Fns K) (chunks : Nat → List (List Nat)) (D C N : Nat) (lbs data : List K) (s : List K × Mix K) : Option (List K × Mix K) :=
  if C ≤ 1 then some s else do
    let mass ← modeMass C N s.1
    iter C (fun i s => restartMode E (chunks i) D C N lbs data mass i s) s

/-- What the scheduler and the allocator choose in an iteration: orders of the loops, shares of the threads, contents of the allocated arrays. -/
structure Sched (K : Type) where
  orderC : List Nat
  orderN : List Nat
  tmp : Prep K
  restart : Nat → List (List Nat)
  chunks : List (List Nat)

/-- The convergence test, vl/gmm.c:1279-1280.  The quotient by a zero log-likelihood is infinite or not a number, and minus infinity gives one of these too: the test is then negative. -/
def converged (LL : K) : Option K → Bool
  | none => false
  | some prev => decide (LL ≠ 0 ∧ |(LL - prev) / LL| < 1 / 100000)

/-- The `for` loop, vl/gmm.c:1235-1306.  `fuel` bounds the number of iterations; when it runs out the result is `none`.  `prev` is `previousLL`, `none` standing for minus infinity.
Returns the mixture, the posteriors and the log-likelihood. -/
def emLoop (E : Fns K) (sched : Nat → Sched K) (maxIter D C N : Nat) (lbs data : List K) : Nat → Nat → Option K → List (WithBot K) → Mix K → Option (Mix K × List K × K)
  | 0, _, _, _, _ => none
  | fuel + 1, iteration, prev, post, m => do
    let t := sched iteration
    let r ← posteriors E t.orderC t.orderN D C m.priors m.means m.cov data t.tmp post
    if iteration ≥ maxIter then pure (m, r.1, r.2)
    else if iteration > 0 ∧ converged r.2 prev = true then pure (m, r.1, r.2)
    else do
      let s ← whenB (decide (iteration > 1)) (restart E t.restart D C N lbs data) (r.1, m)
      let m ← maximization t.chunks D C lbs s.1 data s.2
      emLoop E sched maxIter D C N lbs data fuel (iteration + 1) (some r.2) (s.1.map (fun p : K => (p : WithBot K))) m

/-- `_vl_gmm_em`, vl/gmm.c:1220-1308; `post` is the content of the array allocated by `_vl_gmm_prepare_for_data`, vl/gmm.c:336-344. -/
def em (E : Fns K) (sched : Nat → Sched K) (maxIter D C N : Nat) (lbs data : List K) (post : List (WithBot K)) (m : Mix K) : Option (Mix K × List K × K) := do
  let m ← applyBounds D C lbs m
  emLoop E sched maxIter D C N lbs data (maxIter + 1) 0 none post m

end Verif.Gmm
