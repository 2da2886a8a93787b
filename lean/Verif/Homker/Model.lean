import Verif.Loop
import Mathlib.Algebra.Field.Defs
import Mathlib.Algebra.Order.Ring.Defs

/-!
# Model of the homogeneous kernel map, vl/homkermap.c

`K` stands for `double`; rounding is not modelled.  The functions of the C library are the fields of `Fns`.
A division by zero, the square root of a negative number and the logarithm of a number that is not positive give `none`.
-/

namespace Verif.Homker

variable {K : Type} [Field K] [LinearOrder K]

/-- `VlHomogeneousKernelType`, vl/homkermap.h:19-23. -/
inductive Kernel
  | intersection
  | chi2
  | js
  deriving DecidableEq

/-- `VlHomogeneousKernelMapWindowType`, vl/homkermap.h:26-29. -/
inductive Window
  | uniform
  | rectangular
  deriving DecidableEq

/-- The functions of the C library and `VL_PI`. -/
structure Fns (K : Type) where
  pi : K
  exp : K → K
  log : K → K
  sqrt : K → K
  sin : K → K
  cos : K → K
  pow : K → K → K

/-- `x / y` -/
def divv (x y : K) : Option K := if y = 0 then none else some (x / y)

/-- `sqrt(x)` -/
def sqrtv (F : Fns K) (x : K) : Option K := if x < 0 then none else some (F.sqrt x)

/-- `log(x)` -/
def logv (F : Fns K) (x : K) : Option K := if 0 < x then some (F.log x) else none

/-- `vl_homogeneouskernelmap_get_spectrum`, vl/homkermap.c:239-255. -/
def spectrum (F : Fns K) : Kernel → K → Option K
  | .intersection, w => do
    let a ← divv 2 F.pi
    divv a (1 + 4 * w * w)
  | .chi2, w => divv 2 (F.exp (F.pi * w) + F.exp (-F.pi * w))
  | .js, w => do
    let l ← logv F 4
    let a ← divv 2 l
    let b ← divv (a * 2) (F.exp (F.pi * w) + F.exp (-F.pi * w))
    divv b (1 + 4 * w * w)

/-- `sinc`, vl/homkermap.c:258-262. -/
def sinc (F : Fns K) (x : K) : Option K := if x = 0 then some 1 else divv (F.sin x) x

/-- The loop over the frequencies, vl/homkermap.c:284-288. -/
def smoothLoop (F : Fns K) (k : Kernel) (period omega range step : K) : Nat → K → K → Option K
  | 0, _, _ => none
  | fuel + 1, p, acc =>
    if p ≤ range then do
      let win ← sinc F (period / 2 * p)
      let d ← divv period (2 * F.pi)
      let s ← spectrum F k (p + omega)
      smoothLoop F k period omega range step fuel (p + step) (acc + win * d * s)
    else some acc

/-- `vl_homogeneouskernelmap_get_smooth_spectrum`, vl/homkermap.c:270-297. -/
def smoothSpectrum (F : Fns K) (k : Kernel) (w : Window) (period omega : K) : Option K := do
  let range ← divv 2 (period * (1 / 100))
  let step ← divv (2 * range) (2 * 1024 + 1)
  match w with
  | .uniform => spectrum F k omega
  | .rectangular => do
    let s ← smoothLoop F k period omega range step 2051 (-range) 0
    pure (max (s * step) 0)

/-- The period used if the caller gives a negative one, vl/homkermap.c:345-363. -/
def defaultPeriod (F : Fns K) (k : Kernel) (w : Window) (order : Nat) : Option K := do
  let p ← match w, k with
    | .uniform, .chi2 => do
      let s ← sqrtv F (order + 0)
      pure (586 / 100 * s + 365 / 100)
    | .uniform, .js => do
      let s ← sqrtv F (order + 0)
      pure (664 / 100 * s + 724 / 100)
    | .uniform, .intersection => do
      let s ← logv F (order + 8 / 10)
      pure (238 / 100 * s + 56 / 10)
    | .rectangular, .chi2 => do
      let s ← sqrtv F (order + 444 / 100)
      pure (880 / 100 * s - 126 / 10)
    | .rectangular, .js => do
      let s ← sqrtv F (order + 1)
      pure (963 / 100 * s - 293 / 100)
    | .rectangular, .intersection => do
      let s ← logv F (order + 99 / 100)
      pure (2 * s + 352 / 100)
  pure (max p 1)

/-- The period in use: the default one only if the given one is negative, vl/homkermap.c:345-363. -/
def periodOf (F : Fns K) (k : Kernel) (w : Window) (order : Nat) (period : K) : Option K :=
  if period < 0 then defaultPeriod F k w order else some period

/-- The state of `vl_homogeneouskernelmap_new` while it samples the spectrum: the allocated block and the indices `i` and `j`. -/
structure Sampling (K : Type) where
  block : List K
  i : Nat
  j : Nat

/-- The loop that samples the spectrum, vl/homkermap.c:402-409.  `kappa` and `freq` are the positions of the two arrays in the block. -/
def sampleLoop (F : Fns K) (k : Kernel) (w : Window) (period L : K) (order kappa freq : Nat) : Nat → Sampling K → Option (List K)
  | 0, _ => none
  | fuel + 1, s =>
    if s.i ≤ order then do
      let b ← wr s.block (freq + s.i) (s.j : K)
      let x ← smoothSpectrum F k w period (s.j * L)
      let b ← wr b (kappa + s.i) x
      let y ← rd b (kappa + s.i)
      sampleLoop F k w period L order kappa freq fuel { block := b, i := if y > 0 ∨ s.j + 1 ≥ 3 * s.i then s.i + 1 else s.i, j := s.j + 1 }
    else some s.block

/-- One sample of the table, vl/homkermap.c:420-431: the block and the position of `tablep`. -/
def fillOne (F : Fns K) (gamma L : K) (order kappa freq : Nat) (exponent : Int) (mantissa : K) (s : List K × Nat) : Option (List K × Nat) := do
  let x := mantissa * 2 ^ exponent
  let Lxgamma := L * F.pow x gamma
  let lx ← logv F x
  let Llogx := L * lx
  let k0 ← rd s.1 kappa
  let v ← sqrtv F (Lxgamma * k0)
  let b ← wr s.1 s.2 v
  iter order (fun j (s : List K × Nat) => do
    let kj ← rd s.1 (kappa + (j + 1))
    let v ← sqrtv F (2 * Lxgamma * kj)
    let fj ← rd s.1 (freq + (j + 1))
    let b ← wr s.1 s.2 (v * F.cos (fj * Llogx))
    let b ← wr b (s.2 + 1) (v * F.sin (fj * Llogx))
    pure (b, s.2 + 2)) (b, s.2 + 1)

/-- The object; `minExponent` is -20 and `maxExponent` is 8.  vl/homkermap.c:219-231. -/
structure Map (K : Type) where
  order : Nat
  numSubdivisions : Nat
  subdivision : K
  table : List K

/-- `vl_homogeneouskernelmap_new`, vl/homkermap.c:325-436; `block` is the content of the allocated memory.  The overflow of the integer computation of the size of the table is not modelled. -/
def new (F : Fns K) (kernel : Kernel) (gamma : K) (order : Nat) (period : K) (window : Window) (block : List K) : Option (Map K) := do
  let _ ← assert' (decide (gamma > 0))
  let period ← periodOf F kernel window order period
  let num := 8 + 8 * order
  let subdivision ← divv 1 (num : K)
  let h := 2 * order + 1
  let w := num * 29
  let _ ← assert' (decide (block.length = h * w + 2 * (1 + order)))
  let kappa := h * w
  let freq := kappa + (1 + order)
  let L ← divv (2 * F.pi) period
  let block ← sampleLoop F kernel window period L order kappa freq (3 * order + 2) ⟨block, 0, 0⟩
  let s ← iter 29 (fun e (s : List K × Nat) => do
    let t ← iter num (fun _ (t : K × List K × Nat) => do
      let s ← fillOne F gamma L order kappa freq (e - 20) t.1 t.2
      pure (t.1 + subdivision, s)) (1, s)
    pure t.2) (block, 0)
  pure ⟨order, num, subdivision, s.1⟩

/-- The search of the subdivision, vl/homkermap.c:562-566: the mantissa that is left and the position of `v1`. -/
def descend (subdivision : K) (dim : Nat) : Nat → K → Nat → Option (K × Nat)
  | 0, _, _ => none
  | fuel + 1, m, v => if m ≥ subdivision then descend subdivision dim fuel (m - subdivision) (v + dim) else some (m, v)

/-- `vl_homogeneouskernelmap_evaluate`, vl/homkermap.c:532-576.  `frexp` is the function of the C library. -/
def evaluate (frexp : K → K × Int) (M : Map K) (dest : List K) (stride : Nat) (x : K) : Option (List K) :=
  let mantissa := (frexp x).1
  let sign : K := if mantissa ≥ 0 then 1 else -1
  let mantissa := mantissa * (2 * sign)
  let exponent := (frexp x).2 - 1
  let dim := 2 * M.order + 1
  if mantissa = 0 ∨ exponent ≤ -20 ∨ exponent ≥ 8 then iter dim (fun j d => wr d (j * stride) 0) dest
  else do
    let v ← descend M.subdivision dim (M.numSubdivisions + 1) (mantissa - 1) ((exponent + 20).toNat * M.numSubdivisions * dim)
    iter dim (fun j d => do
      let f1 ← rd M.table (v.2 + j)
      let f2 ← rd M.table (v.2 + dim + j)
      wr d (j * stride) (sign * ((f2 - f1) * (M.numSubdivisions * v.1) + f1))) dest

end Verif.Homker
