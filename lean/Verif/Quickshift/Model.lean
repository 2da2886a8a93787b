import Verif.Loop
import Verif.ForInt
import Mathlib.Algebra.Order.Floor.Ring
import Mathlib.Data.Rat.Floor
import Mathlib.Algebra.Order.Ring.Rat
import Mathlib.Algebra.Field.Rat
import Mathlib.Order.WithBot

/-!
# Model of quick shift

vl/quickshift.c, without the medoid variant.  `double` is `ℚ` and rounding is not modelled; `exp` and `sqrt` are parameters.
-/

namespace Verif.Quickshift

/-- `vl_quickshift_distance`, vl/quickshift.c:152-173. -/
def distance (I : List ℚ) (N1 N2 K : Nat) (i1 i2 j1 j2 : Int) : Option ℚ := do
  let d1 := j1 - i1
  let d2 := j2 - i2
  iter K (fun k dist => do
    let a ← rdI I (i1 + N1 * i2 + (N1 * N2) * k)
    let b ← rdI I (j1 + N1 * j2 + (N1 * N2) * k)
    let d := a - b
    some (dist + d * d)) ((d1 * d1 + d2 * d2 : Int) : ℚ)

/-- The object: `VlQS`, vl/quickshift.h. -/
structure QS where
  image : List ℚ
  height : Nat
  width : Nat
  channels : Nat
  sigma : ℚ
  tau : ℚ
  density : List ℚ
  parents : List Int
  dists : List (WithTop ℚ)

/-- `vl_quickshift_new`, vl/quickshift.c:232-255; `VL_MAX(height,width)/50` is a division of integers. -/
def new (image : List ℚ) (height width channels : Nat) : QS :=
  { image := image, height := height, width := width, channels := channels
    sigma := max 2 (((max height width / 50 : Nat) : ℚ) / 3)
    tau := ((max height width / 50 : Nat) : ℚ)
    density := List.replicate (height * width) 0
    parents := List.replicate (height * width) 0
    dists := List.replicate (height * width) 0 }

/-- The loop that computes the densities, vl/quickshift.c:324-358; `ex` is the exponential.  A `sigma` of zero is a division by zero. -/
def densities (ex : ℚ → ℚ) (I : List ℚ) (N1 N2 K : Nat) (sigma : ℚ) (R : Int) (E : List ℚ) : Option (List ℚ) :=
  if sigma = 0 then none else
  iter N2 (fun (i2 : Nat) E => iter N1 (fun (i1 : Nat) E =>
    forInt (max ((i2 : Int) - R) 0) (min ((i2 : Int) + R) (N2 - 1)) (fun j2 E =>
      forInt (max ((i1 : Int) - R) 0) (min ((i1 : Int) + R) (N1 - 1)) (fun j1 E => do
        let Dij ← distance I N1 N2 K i1 i2 j1 j2
        let Fij := - ex (- Dij / (2 * sigma * sigma))
        let e ← rdI E (i1 + N1 * i2)
        wrI E (i1 + N1 * i2) (e - Fij)) E) E) E) E

/-- `d_best`, `j1_best` and `j2_best`. -/
structure Best where
  d : WithTop ℚ
  j1 : Int
  j2 : Int

/-- The search of one parent, vl/quickshift.c:427-449. -/
def search (I : List ℚ) (N1 N2 K : Nat) (tau2 : ℚ) (tR : Int) (E : List ℚ) (i1 i2 : Nat) : Option Best := do
  let E0 ← rdI E (i1 + N1 * i2)
  forInt (max ((i2 : Int) - tR) 0) (min ((i2 : Int) + tR) (N2 - 1)) (fun j2 best =>
    forInt (max ((i1 : Int) - tR) 0) (min ((i1 : Int) + tR) (N1 - 1)) (fun j1 best => do
      let e ← rdI E (j1 + N1 * j2)
      if e > E0 then do
        let Dij ← distance I N1 N2 K i1 i2 j1 j2
        if Dij ≤ tau2 ∧ (Dij : WithTop ℚ) < best.d then some ⟨Dij, j1, j2⟩ else some best
      else some best) best) ⟨⊤, i1, i2⟩

/-- `vl_quickshift_process`, vl/quickshift.c:262-461, with `medoid` false. -/
def process (ex sq : ℚ → ℚ) (q : QS) : Option QS := do
  let tau2 := q.tau * q.tau
  let N1 := q.height
  let N2 := q.width
  let R := ⌈3 * q.sigma⌉
  let tR := ⌈q.tau⌉
  let E ← densities ex q.image N1 N2 q.channels q.sigma R q.density
  let (parents, dists) ← iter N2 (fun (i2 : Nat) (s : List Int × List (WithTop ℚ)) => iter N1 (fun (i1 : Nat) (s : List Int × List (WithTop ℚ)) => do
    let b ← search q.image N1 N2 q.channels tau2 tR E i1 i2
    let parents ← wrI s.1 (i1 + N1 * i2) (b.j1 + N1 * b.j2)
    let dists ← wrI s.2 (i1 + N1 * i2) (b.d.map sq)
    some (parents, dists)) s) (q.parents, q.dists)
  some { q with density := E, parents := parents, dists := dists }

end Verif.Quickshift
