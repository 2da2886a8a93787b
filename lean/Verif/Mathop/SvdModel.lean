import Verif.Mathop.CompareModel
import Mathlib.Algebra.Field.Rat

/-!
# Model of the singular value decomposition of 2 × 2 matrices (vl/mathop.c:640-821)

Arithmetic is exact; `sqrt` is a parameter; a division by zero is `none`.  Matrices are stored by columns.
-/

namespace Verif.Mathop

variable {K : Type} [Field K] [LinearOrder K]

/-- `sign` and `isign`, vl/mathop.c:709-710. -/
def sgn (x : K) : K := if x < 0 then -1 else 1

/-- The results of `vl_lapack_dlasv2`. -/
structure Svd (K : Type) where
  smin : K
  smax : K
  sv : K
  cv : K
  su : K
  cu : K

/-- The variables of the normal case, vl/mathop.c:776-809: the entries `ft`, `gt`, `ht` are those after the exchange, and
`fa`, `ha` their absolute values.  The result has the temporaries `svt, cvt, sut, cut`. -/
def normalCase (sqrt : K → K) (ft gt ht fa ha : K) : Option (Svd K) := do
  let fmh := fa - ha
  let d ← (if fmh = fa then some 1 else quot fmh fa)
  let q ← quot gt ft
  let s := 2 - d
  let dd := d * d
  let qq := q * q
  let ss := s * s
  let spq := sqrt (ss + qq)
  let dpq := if d = 0 then |q| else sqrt (dd + qq)
  let a := 1 / 2 * (spq + dpq)
  let smin ← quot ha a
  let smax := fa * a
  let tmp ← (if qq = 0 then
      (if d = 0 then some (sgn ft * 2 * sgn gt)
       else do
        let x ← quot gt (sgn ft * fmh)
        let y ← quot q s
        some (x + y))
    else do
      let x ← quot q (spq + s)
      let y ← quot q (dpq + d)
      some ((x + y) * (1 + a)))
  let tt := sqrt (tmp * tmp + 4)
  let cvt ← quot 2 tt
  let svt ← quot tmp tt
  let cut ← quot (cvt + svt * q) a
  let r ← quot ht ft
  let sut ← quot (r * svt) a
  some ⟨smin, smax, svt, cvt, sut, cut⟩

/-- The case of a very large `g`, vl/mathop.c:761-771. -/
def largeCase (ft gt ht fa ga ha : K) : Option (Svd K) := do
  let smin ← (if ha > 1 then do
      let x ← quot ga ha
      quot fa x
    else do
      let x ← quot fa ga
      some (x * ha))
  let sut ← quot ht gt
  let svt ← quot ft gt
  some ⟨smin, ga, svt, 1, sut, 1⟩

/-- `vl_lapack_dlasv2`, vl/mathop.c:712-821; `eps` is `VL_EPSILON_D`. -/
def dlasv2 (sqrt : K → K) (eps f g h : K) : Option (Svd K) := do
  let fa := |f|
  let ga := |g|
  let ha := |h|
  let swap := decide (fa < ha)
  let (ft, ht, fa, ha) := if swap then (h, f, ha, fa) else (f, h, fa, ha)
  let pmax := if swap then 3 else 1
  let gt := g
  let (t, pmax) ← (if ga = 0 then some ((⟨ha, fa, 0, 1, 0, 1⟩ : Svd K), pmax)
    else do
      let pmax := if ga > fa then 2 else pmax
      let glarge ← (if ga > fa then do
          let x ← quot fa ga
          some (decide (x < eps))
        else some false)
      let t ← (if glarge then largeCase ft gt ht fa ga ha else normalCase sqrt ft gt ht fa ha)
      some (t, pmax))
  let cu := if swap then t.sv else t.cu
  let su := if swap then t.cv else t.su
  let cv := if swap then t.su else t.cv
  let sv := if swap then t.cu else t.sv
  let tsign := if pmax = 1 then sgn cv * sgn cu * sgn f
    else if pmax = 2 then sgn sv * sgn cu * sgn g
    else sgn sv * sgn su * sgn h
  some ⟨sgn (tsign * sgn f * sgn h) * t.smin, sgn tsign * t.smax, sv, cv, su, cu⟩

/-- `vl_svd2`, vl/mathop.c:640-688, with both `U` and `V`; the result is `(S, U, V)`. -/
def svd2 (sqrt : K → K) (eps : K) (M : List K) : Option (List K × List K × List K) := do
  let m11 ← rd M 0
  let m21 ← rd M 1
  let m12 ← rd M 2
  let m22 ← rd M 3
  let cu1 := m11
  let su1 := m21
  let norm := sqrt (cu1 * cu1 + su1 * su1)
  let cu1 ← quot cu1 norm
  let su1 ← quot su1 norm
  let f := cu1 * m11 + su1 * m21
  let g := cu1 * m12 + su1 * m22
  let h := -su1 * m12 + cu1 * m22
  let r ← dlasv2 sqrt eps f g h
  some ([r.smax, 0, 0, r.smin],
    [r.cu * cu1 - r.su * su1, r.su * cu1 + r.cu * su1, -r.cu * su1 - r.su * cu1, -r.su * su1 + r.cu * cu1],
    [r.cv, r.sv, -r.sv, r.cv])

end Verif.Mathop
