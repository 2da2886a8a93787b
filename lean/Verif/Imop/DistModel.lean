import Verif.Loop
import Mathlib.Algebra.Field.Defs
import Mathlib.Order.WithBot

/-!
# Model of the distance transform (vl/imopv.c:328-445, `vl_image_distance_transform_{f,d}`)

Image values are elements of a linearly ordered field (finite values, no rounding).  The entries of `from` also take the
values `-inf` and `+inf`.  The live part of the arrays `from`, `which`, `base`, `baseIndexes` (the first `num` entries) is a
list of records; while the parabolas are scanned the list is kept with the last entry first.
-/

namespace Verif.Imop

variable {K : Type} [Field K] [LinearOrder K]

/-- Values of `from`: `-inf`, finite, `+inf`. -/
abbrev Ext (K : Type) := WithBot (WithTop K)

/-- A finite value. -/
def fin' (a : K) : Ext K := ((a : WithTop K) : WithBot (WithTop K))

/-- Entry of the arrays `from`, `which`, `base`, `baseIndexes`. -/
structure Par (K : Type) where
  from' : Ext K
  which : Nat
  base : K
  index : Nat

/-- The intersection `inters` of the parabolas of the pixels `x_ < x`, vl/imopv.c:379-402; `eps` is `VL_EPSILON_*`. -/
def cut (eps coeff offset : K) (x x_ : Nat) (r r_ : K) : Ext K :=
  if r = r_ then fin' (((x : K) + (x_ : K)) / 2 + offset)
  else if coeff > eps then
    fin' (((r - r_) + coeff * ((x : K) * x - (x_ : K) * x_)) / ((x : K) - x_) / (2 * coeff) + offset)
  else if r < r_ then ⊥ else ⊤

/-- The loop deleting the parabolas hidden by the new one, vl/imopv.c:375-410, followed by the value of `from_`.  `img x`
reads the pixel `x` of the current row. -/
def popLoop (img : Nat → Option K) (eps coeff offset : K) (x : Nat) (r : K) :
    List (Par K) → Option (List (Par K) × Ext K)
  | [] => some ([], ⊥)
  | p :: rest => do
    let r_ ← img p.which
    let inters := cut eps coeff offset x p.which r r_
    if inters ≤ p.from' then popLoop img eps coeff offset x r rest else some (p :: rest, inters)

/-- Body of the column loop, vl/imopv.c:357-418.  `idx x` reads `indexes` (0 when there is no such array).  The arrays have
room for `n` parabolas. -/
def scanStep (img : Nat → Option K) (idx : Nat → Option Nat) (eps coeff offset : K) (n : Nat) (x : Nat)
    (st : List (Par K)) : Option (List (Par K)) := do
  let r ← img x
  let (st, from_) ← popLoop img eps coeff offset x r st
  let i ← idx x
  let _ ← assert' (decide (st.length < n))
  some ({ from' := from_, which := x, base := r, index := i } :: st)

/-- `while (x >= from[num + 1]) ++ num`, vl/imopv.c:430; the list holds the entries of `from` after `num`, with the final
`+inf` (vl/imopv.c:420-424). -/
def advance (x : K) : List (Ext K) → Nat → Option Nat
  | [], _ => none
  | f :: rest, num => if f ≤ fin' x then advance x rest (num + 1) else some num

/-- State of the two output arrays; `idx` is `none` when `indexes` is `NULL`. -/
structure DtSt (K : Type) where
  mem : List K
  idx : Option (List Nat)

/-- `if (indexes) indexes[a] = i`, vl/imopv.c:435-438. -/
def wrIdx (o : Option (List Nat)) (a i : Nat) : Option (Option (List Nat)) :=
  match o with
  | none => some none
  | some l => (wr l a i).map some

/-- `indexes[a]`, vl/imopv.c:416 (0 when there is no such array). -/
def rdIdx (o : Option (List Nat)) (a : Nat) : Option Nat :=
  match o with
  | none => some 0
  | some l => rd l a

/-- Body of the fill in loop, vl/imopv.c:428-439; the state also holds `num`. -/
def fillStep (arr : List (Par K)) (coeff offset : K) (addr : Nat → Nat) (x : Nat) (s : Nat × DtSt K) :
    Option (Nat × DtSt K) := do
  let froms := arr.map Par.from' ++ [⊤]
  let num ← advance (x : K) (froms.drop (s.1 + 1)) s.1
  let p ← arr[num]?
  let delta := (x : K) - (p.which : K) - offset
  let mem ← wr s.2.mem (addr x) (p.base + coeff * delta * delta)
  let idx ← wrIdx s.2.idx (addr x) p.index
  some (num, { mem := mem, idx := idx })

/-- One row, vl/imopv.c:355-440.  `image = none` means that `image` and `distanceTransform` are the same array, as in the
second call of the two-dimensional transform (vl/imopv.c:265-268). -/
def dtRow (image : Option (List K)) (numColumns columnStride rowStride : Nat) (eps coeff offset : K) (y : Nat)
    (s : DtSt K) : Option (DtSt K) := do
  let addr := fun x => x * columnStride + y * rowStride
  let img := fun x => rd (image.getD s.mem) (addr x)
  let idx := fun x => rdIdx s.idx (addr x)
  let st ← iter numColumns (scanStep img idx eps coeff offset numColumns) []
  let r ← iter numColumns (fillStep st.reverse coeff offset addr) (0, s)
  some r.2

/-- `vl_image_distance_transform_*`, vl/imopv.c:328-445. -/
def distanceTransform (image : Option (List K)) (numColumns numRows columnStride rowStride : Nat) (eps coeff offset : K)
    (s : DtSt K) : Option (DtSt K) :=
  iter numRows (dtRow image numColumns columnStride rowStride eps coeff offset) s

end Verif.Imop
