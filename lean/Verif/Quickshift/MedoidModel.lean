import Verif.Quickshift.Model

/-!
# Model of medoid shift

vl/quickshift.c, with `medoid` set.  `double` is `ℚ` and rounding is not modelled; `exp` is a parameter.
-/

namespace Verif.Quickshift

/-- `vl_quickshift_inner`, vl/quickshift.c:196-212. -/
def inner (I : List ℚ) (N1 N2 K : Nat) (i1 i2 j1 j2 : Int) : Option ℚ :=
  iter K (fun k ker => do
    let a ← rdI I (i1 + N1 * i2 + (N1 * N2) * k)
    let b ← rdI I (j1 + N1 * j2 + (N1 * N2) * k)
    some (ker + a * b)) ((i1 * j1 + i2 * j2 : Int) : ℚ)

/-- The loop that computes `n`, vl/quickshift.c:296-304. -/
def norms (I : List ℚ) (N1 N2 K : Nat) (n : List ℚ) : Option (List ℚ) :=
  iter N2 (fun (i2 : Nat) n => iter N1 (fun (i1 : Nat) n => do
    let v ← inner I N1 N2 K i1 i2 i1 i2
    wrI n (i1 + N1 * i2) v) n) n

/-- `M [p] += v`. -/
def addTo (M : List ℚ) (p : Int) (v : ℚ) : Option (List ℚ) := do
  let m ← rdI M p
  wrI M p (m + v)

/-- The votes of one pixel, vl/quickshift.c:335-341. -/
def vote (I : List ℚ) (N1 N2 K : Nat) (i1 i2 : Nat) (j1 j2 : Int) (Fij : ℚ) (M : List ℚ) : Option (List ℚ) := do
  let M ← addTo M (i1 + N1 * i2 + (N1 * N2) * 0) (j1 * Fij)
  let M ← addTo M (i1 + N1 * i2 + (N1 * N2) * 1) (j2 * Fij)
  iter K (fun k M => do
    let a ← rdI I (j1 + N1 * j2 + (N1 * N2) * k)
    addTo M (i1 + N1 * i2 + (N1 * N2) * (k + 2)) (a * Fij)) M

/-- One pixel of the window, vl/quickshift.c:327-342; the state is `E` and `M`. -/
def voteStep (ex : ℚ → ℚ) (I : List ℚ) (N1 N2 K : Nat) (sigma : ℚ) (i1 i2 : Nat) (j1 j2 : Int) (s : List ℚ × List ℚ) :
    Option (List ℚ × List ℚ) := do
  let Dij ← distance I N1 N2 K i1 i2 j1 j2
  let Fij := - ex (- Dij / (2 * sigma * sigma))
  let e ← rdI s.1 (i1 + N1 * i2)
  let E ← wrI s.1 (i1 + N1 * i2) (e - Fij)
  let M ← vote I N1 N2 K i1 i2 j1 j2 Fij s.2
  some (E, M)

/-- The loop that computes `E` and `M`, vl/quickshift.c:324-358.  A `sigma` of zero is a division by zero. -/
def votes (ex : ℚ → ℚ) (I : List ℚ) (N1 N2 K : Nat) (sigma : ℚ) (R : Int) (s : List ℚ × List ℚ) : Option (List ℚ × List ℚ) :=
  if sigma = 0 then none else
  iter N2 (fun (i2 : Nat) s => iter N1 (fun (i1 : Nat) s =>
    forInt (max ((i2 : Int) - R) 0) (min ((i2 : Int) + R) (N2 - 1)) (fun j2 s =>
      forInt (max ((i1 : Int) - R) 0) (min ((i1 : Int) + R) (N1 - 1)) (fun j1 s =>
        voteStep ex I N1 N2 K sigma i1 i2 j1 j2 s) s) s) s) s

/-- `Qij`, vl/quickshift.c:378-387. -/
def score (I : List ℚ) (N1 N2 K : Nat) (n E M : List ℚ) (i1 i2 : Nat) (j1 j2 : Int) : Option ℚ := do
  let a ← rdI n (j1 + j2 * N1)
  let e ← rdI E (i1 + i2 * N1)
  let m0 ← rdI M (i1 + i2 * N1 + (N1 * N2) * 0)
  let m1 ← rdI M (i1 + i2 * N1 + (N1 * N2) * 1)
  iter K (fun k Q => do
    let b ← rdI I (j1 + j2 * N1 + (N1 * N2) * k)
    let m ← rdI M (i1 + i2 * N1 + (N1 * N2) * (k + 2))
    some (Q - 2 * b * m)) (- a * e - 2 * j1 * m0 - 2 * j2 * m1)

/-- `sc_best`, `j1_best` and `j2_best`. -/
structure MBest where
  sc : ℚ
  j1 : Int
  j2 : Int

/-- The search of one medoid, vl/quickshift.c:365-395. -/
def medoidSearch (I : List ℚ) (N1 N2 K : Nat) (R : Int) (n E M : List ℚ) (i1 i2 : Nat) : Option MBest :=
  forInt (max ((i2 : Int) - R) 0) (min ((i2 : Int) + R) (N2 - 1)) (fun j2 best =>
    forInt (max ((i1 : Int) - R) 0) (min ((i1 : Int) + R) (N1 - 1)) (fun j1 best => do
      let Q ← score I N1 N2 K n E M i1 i2 j1 j2
      if Q > best.sc then some ⟨Q, j1, j2⟩ else some best) best) ⟨0, i1, i2⟩

/-- `vl_quickshift_process`, vl/quickshift.c:262-461, with `medoid` set. -/
def processMedoid (ex : ℚ → ℚ) (q : QS) : Option QS := do
  let N1 := q.height
  let N2 := q.width
  let R := ⌈3 * q.sigma⌉
  let n ← norms q.image N1 N2 q.channels (List.replicate (N1 * N2) 0)
  let s ← votes ex q.image N1 N2 q.channels q.sigma R (q.density, List.replicate (N1 * N2 * (2 + q.channels)) 0)
  let (parents, dists) ← iter N2 (fun (i2 : Nat) (t : List Int × List (WithTop ℚ)) => iter N1 (fun (i1 : Nat) (t : List Int × List (WithTop ℚ)) => do
    let b ← medoidSearch q.image N1 N2 q.channels R n s.1 s.2 i1 i2
    let parents ← wrI t.1 (i1 + N1 * i2) (b.j1 + N1 * b.j2)
    let dists ← wrI t.2 (i1 + N1 * i2) (b.sc : ℚ)
    some (parents, dists)) t) (q.parents, q.dists)
  some { q with density := s.1, parents := parents, dists := dists }

end Verif.Quickshift
