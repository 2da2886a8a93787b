import Verif.Loop
import Mathlib.Algebra.Field.Defs

/-!
# Model of the image gradients

`vl_imgradient_{f,d}` and `vl_imgradient_polar_{f,d}` have the same control flow and compute the same differences `gx` and `gy`; the former stores them and the latter stores their modulus and angle.  In the model the two values that are stored are arbitrary functions `outA` and `outB` of `gx` and `gy`.  The two outputs are two blocks.  Rounding is not modelled.
-/

namespace Verif.Imop

variable {K : Type} [Field K]

/-- The two output blocks, the pointer `src` and the two output pointers. -/
structure GradSt (K : Type) where
  a : List K
  b : List K
  src : Int
  pa : Int
  pb : Int

/-- Two values are stored and the pointers advance, vl/imopv.c:746-750 and `SAVE_BACK`, vl/imopv.c:893-898. -/
def gradSave (outA outB : K → K → K) (ws : Nat) (gx gy : K) (s : GradSt K) : Option (GradSt K) := do
  let a ← wrI s.a s.pa (outA gx gy)
  let b ← wrI s.b s.pb (outB gx gy)
  some ⟨a, b, s.src + 1, s.pa + ws, s.pb + ws⟩

/-- One row, vl/imopv.c:745-769, 780-803, 813-832 and 904-921, 932-949, 959-974; `dy` computes the vertical difference at `src`. -/
def gradRow (outA outB : K → K → K) (ws : Nat) (dy : Int → Option K) (img : List K) (w : Nat) (s : GradSt K) : Option (GradSt K) := do
  let r ← rdI img (s.src + 1)
  let c ← rdI img s.src
  let gy ← dy s.src
  let s ← gradSave outA outB ws (r - c) gy s
  let s ← iter (w - 2) (fun _ s => do
    let r ← rdI img (s.src + 1)
    let l ← rdI img (s.src - 1)
    let gy ← dy s.src
    gradSave outA outB ws (1 / 2 * (r - l)) gy s) s
  let c ← rdI img s.src
  let l ← rdI img (s.src - 1)
  let gy ← dy s.src
  gradSave outA outB ws (c - l) gy s

/-- `src[+yo] - src[0]` in the first row. -/
def gradTop (img : List K) (stride : Nat) (src : Int) : Option K := do
  let d ← rdI img (src + stride)
  let c ← rdI img src
  some (d - c)

/-- `0.5 * (src[+yo] - src[-yo])` in the middle rows. -/
def gradMid (img : List K) (stride : Nat) (src : Int) : Option K := do
  let d ← rdI img (src + stride)
  let u ← rdI img (src - stride)
  some (1 / 2 * (d - u))

/-- `src[0] - src[-yo]` in the last row. -/
def gradBottom (img : List K) (stride : Nat) (src : Int) : Option K := do
  let c ← rdI img src
  let u ← rdI img (src - stride)
  some (c - u)

/-- At the end of a row: the pointers go to the start of the next row, vl/imopv.c:771-776 and 805-810; `row` is the number of the row that has ended. -/
def gradNext (hs stride row : Nat) (s : GradSt K) : GradSt K :=
  ⟨s.a, s.b, ((row + 1) * stride : Nat), ((row + 1) * hs : Nat), ((row + 1) * hs : Nat)⟩

/-- `vl_imgradient_{f,d}` and `vl_imgradient_polar_{f,d}`, vl/imopv.c:723-838 and 875-977. -/
def imgradient (outA outB : K → K → K) (a b : List K) (ws hs : Nat) (img : List K) (w h stride : Nat) : Option (List K × List K) := do
  let s ← gradRow outA outB ws (gradTop img stride) img w ⟨a, b, 0, 0, 0⟩
  let s ← iter (h - 2) (fun y s => do
    let s ← gradRow outA outB ws (gradMid img stride) img w s
    some (gradNext hs stride (y + 1) s)) (gradNext hs stride 0 s)
  let s ← gradRow outA outB ws (gradBottom img stride) img w s
  some (s.a, s.b)

end Verif.Imop
