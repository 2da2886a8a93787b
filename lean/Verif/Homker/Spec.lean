import Verif.Homker.Model
import Mathlib.Algebra.BigOperators.Group.Finset.Basic
import Mathlib.Algebra.Order.Field.Basic

/-!
# What the homogeneous kernel map computes
-/

namespace Verif.Homker.Spec

variable {K : Type} [Field K] [LinearOrder K] [IsStrictOrderedRing K]

/-- The facts about the functions of the C library that are used. -/
structure IsFns (F : Fns K) : Prop where
  pi : 0 < F.pi
  exp : ∀ x, 0 < F.exp x
  log4 : 0 < F.log 4
  sqrt : ∀ x, 0 ≤ x → 0 ≤ F.sqrt x ∧ F.sqrt x * F.sqrt x = x
  pow : ∀ x y, 0 < x → 0 < F.pow x y

/-- `frexp` splits a number into a mantissa, whose absolute value is in `[1/2, 1)`, and an exponent. -/
def IsFrexp (frexp : K → K × Int) : Prop :=
  ∀ x, x = (frexp x).1 * 2 ^ (frexp x).2 ∧ (x ≠ 0 → 1 / 2 ≤ |(frexp x).1| ∧ |(frexp x).1| < 1)

/-- The spectrum of the kernel signature. -/
def spectrum (F : Fns K) : Kernel → K → K
  | .intersection, w => 2 / F.pi / (1 + 4 * w * w)
  | .chi2, w => 2 / (F.exp (F.pi * w) + F.exp (-F.pi * w))
  | .js, w => 2 / F.log 4 * 2 / (F.exp (F.pi * w) + F.exp (-F.pi * w)) / (1 + 4 * w * w)

/-- `sin(x) / x` -/
def sinc (F : Fns K) (x : K) : K := if x = 0 then 1 else F.sin x / x

/-- The spectrum of the periodised kernel: itself, or the positive part of its convolution with the transform of the rectangular window of width `T`, approximated by a Riemann sum of 2050 terms between `-200 / T` and `200 / T`. -/
def smooth (F : Fns K) (k : Kernel) (T w : K) : Window → K
  | .uniform => spectrum F k w
  | .rectangular =>
    max ((∑ t ∈ Finset.range 2050, sinc F (T / 2 * (-(200 / T) + t * (400 / T / 2049))) * (T / (2 * F.pi)) * spectrum F k (-(200 / T) + t * (400 / T / 2049) + w)) * (400 / T / 2049)) 0

/-- The period used by default: the best one found for the kernel, the window and the order, at least 1. -/
def defaultPeriod (F : Fns K) (order : Nat) : Kernel → Window → K
  | .chi2, .uniform => max (586 / 100 * F.sqrt order + 365 / 100) 1
  | .js, .uniform => max (664 / 100 * F.sqrt order + 724 / 100) 1
  | .intersection, .uniform => max (238 / 100 * F.log (order + 8 / 10) + 56 / 10) 1
  | .chi2, .rectangular => max (880 / 100 * F.sqrt (order + 444 / 100) - 126 / 10) 1
  | .js, .rectangular => max (963 / 100 * F.sqrt (order + 1) - 293 / 100) 1
  | .intersection, .rectangular => max (2 * F.log (order + 99 / 100) + 352 / 100) 1

/-- The frequencies at which the spectrum `S` is sampled: null samples are skipped, as long as the frequency `i` remains less than `3 i`. -/
structure IsSampling (S : Nat → K) (order : Nat) (freq : Nat → Nat) : Prop where
  zero : freq 0 = 0
  incr : ∀ i < order, freq i < freq (i + 1)
  bound : ∀ i ≤ order, 0 < i → freq i < 3 * i
  skip : ∀ i < order, ∀ j, freq i < j → j < freq (i + 1) → S j ≤ 0
  pos : ∀ i ≤ order, 0 < S (freq i) ∨ 3 * i ≤ freq i + 1

/-- The feature map, in closed form: `S` is the sampled spectrum. -/
def psi (F : Fns K) (gamma L : K) (S : Nat → K) (freq : Nat → Nat) (x : K) : Nat → K
  | 0 => F.sqrt (L * F.pow x gamma * S (freq 0))
  | j + 1 =>
    F.sqrt (2 * (L * F.pow x gamma) * S (freq (j / 2 + 1))) * (if j % 2 = 0 then F.cos (freq (j / 2 + 1) * (L * F.log x)) else F.sin (freq (j / 2 + 1) * (L * F.log x)))

/-- The value at `x` of the straight line through `(a, u)` and `(b, v)` -/
def line (a b u v x : K) : K := (u * (b - x) + v * (x - a)) / (b - a)

end Verif.Homker.Spec
