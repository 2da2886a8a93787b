import Verif.Loop
import Mathlib.Algebra.Group.Defs

/-!
# `vl_binsum`: model

toolbox/misc/vl_binsum.def:76-268, for one pair of numeric types.  The outer `none` is an access outside an array, the inner one an
error reported by `vlmxError`, which leaves the function.  An array of Matlab is the list of its elements by columns and the list of its
dimensions.  Values are added without rounding or saturation.
-/

namespace Verif.Toolbox

variable {K : Type} [AddCommMonoid K]

/-- `H_pt [i] += *X_pt`, toolbox/misc/vl_binsum.def:123 and 246. -/
def binsumAdd (X H : List K) (x : Nat) (i : Int) : Option (List K) := do
  let y ← rdI H i
  let v ← rd X x
  wrI H i (y + v)

/-- All dimensions mode, toolbox/misc/vl_binsum.def:108-129; `x` is the offset of `X_pt`. -/
def binsumAll (X : List K) (KX KH : Nat) : List Int → Nat → List K → Option (Option (List K))
  | [], _, H => some (some H)
  | v :: B, x, H => do
    let j := v - 1
    if j < -1 ∨ j ≥ (KH : Int) then some none
    else do
      let H ← if j ≥ 0 then binsumAdd X H x j else some H
      binsumAll X KX KH B (if KX > 1 then x + 1 else x) H

/-- One comparison of dimensions, which is made if `cond` holds, toolbox/misc/vl_binsum.def:180 and 184. -/
def binsumDiffer (cond : Bool) (dims dims' : List Nat) (k : Nat) : Option Bool :=
  if cond then do
    let m ← rd dims k
    let n ← rd dims' k
    some (decide (m ≠ n))
  else some false

/-- The stride, and the comparison of the dimensions, toolbox/misc/vl_binsum.def:177-191. -/
def binsumStride (KX d : Nat) (Xdims Bdims Hdims : List Nat) : Option (Option Nat) :=
  iter Xdims.length (fun k r => match r with
    | none => some none
    | some srd => do
      let bad ← binsumDiffer (decide (KX > 1)) Xdims Bdims k
      if bad then some none
      else do
        let bad ← binsumDiffer (decide (k ≠ d)) Bdims Hdims k
        if bad then some none
        else if k < d then do
          let b ← rd Bdims k
          some (some (srd * b))
        else some (some srd)) (some 1)

/-- The offsets of the pointers `X_pt`, `H_pt`, `B_brk` and `B_nbrk`, and the accumulator. -/
structure Sums (K : Type) where
  x : Nat
  h : Int
  brk : Nat
  nbrk : Nat
  H : List K

/-- The pointers move to the next element, toolbox/misc/vl_binsum.def:249-262; `b` is the offset of `B_pt` after the step. -/
def Sums.next (KX srd Bd Hd b : Nat) (H : List K) (s : Sums K) : Sums K :=
  let x := if KX > 1 then s.x + 1 else s.x
  let h := s.h + 1
  if b = s.brk then
    if b = s.nbrk then ⟨x, h - srd + srd * Hd, s.brk + srd, s.nbrk + srd * Bd, H⟩
    else ⟨x, h - srd, s.brk + srd, s.nbrk, H⟩
  else ⟨x, h, s.brk, s.nbrk, H⟩

/-- One dimension mode, toolbox/misc/vl_binsum.def:232-264; `b` is the offset of `B_pt`, `srd`, `Bd`, `Hd` the stride, `Bdims[d]` and
`Hdims[d]`, which is also `KH`. -/
def binsumDim (X : List K) (KX srd Bd Hd : Nat) : List Int → Nat → Sums K → Option (Option (List K))
  | [], _, s => some (some s.H)
  | v :: B, b, s => do
    let j := v - 1
    if j < -1 ∨ j ≥ (Hd : Int) then some none
    else do
      let H ← if j ≥ 0 then binsumAdd X s.H s.x (s.h + j * srd) else some s.H
      binsumDim X KX srd Bd Hd B (b + 1) (s.next KX srd Bd Hd (b + 1) H)

/-- `vl_binsum`, toolbox/misc/vl_binsum.def:83-268; a null or negative `dim` is the mode for all dimensions. -/
def binsum (dim : Int) (Hdims Xdims Bdims : List Nat) (H X : List K) (B : List Int) : Option (Option (List K)) :=
  let KX := X.length
  if KX ≠ B.length ∧ KX > 1 then some none
  else if dim ≤ 0 then binsumAll X KX H.length B 0 H
  else
    let d := (dim - 1).toNat
    let HD := Hdims.length
    let XD := Xdims.length
    let BD := Bdims.length
    if d ≥ HD then some none
    else if HD ≠ BD ∧ (¬ d = HD - 1 ∧ BD = HD - 1) then some none
    else if BD ≠ XD ∧ KX > 1 then some none
    else do
      let r ← binsumStride KX d Xdims Bdims Hdims
      match r with
      | none => some none
      | some srd => do
        let Hd ← rd Hdims d
        let Bd ← rd Bdims d
        binsumDim X KX srd Bd Hd B 0 ⟨0, 0, srd, srd * Bd, H⟩

end Verif.Toolbox
