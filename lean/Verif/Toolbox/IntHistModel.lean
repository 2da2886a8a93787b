import Verif.Accum
import Verif.Loop
import Mathlib.Algebra.Ring.Defs

/-!
# Integral histograms: model

`vl_inthist` and `vl_sampleinthist`.  The numbers are the elements of a commutative ring: the integers modulo `2^32` are the class
UINT32, the rationals stand for DOUBLE without rounding.  Addresses are natural numbers without wrap around.  The outer `none`
stands for an access outside an array, the inner one for a MATLAB error.
-/

namespace Verif.Toolbox

variable {R : Type} [CommRing R]

/-- `integral_T`, toolbox/misc/inthist.tc:25-55, on the image of row length `W` and `H` rows at address `base` of the block `d`, in
place and with equal strides, as the only caller uses it. -/
def integralAt (W H base : Nat) (d : List R) : Option (List R) := do
  let v ← rd d base
  let d ← wr d base v
  let d ← iter (W - 1) (fun i d => do
    let x := i + 1
    let a ← rd d (base + x - 1)
    let v ← rd d (base + x)
    wr d (base + x) (a + v)) d
  iter (H - 1) (fun j d => do
    let y := j + 1
    let a ← rd d (base + y * W - W)
    let v ← rd d (base + y * W)
    let d ← wr d (base + y * W) (a + v)
    iter (W - 1) (fun i d => do
      let x := i + 1
      let a ← rd d (base + y * W + x - W)
      let b ← rd d (base + y * W + x - W - 1)
      let c ← rd d (base + y * W + x - 1)
      let v ← rd d (base + y * W + x)
      wr d (base + y * W + x) (a - b + c + v)) d) d

/-- Number of labels, toolbox/misc/vl_inthist.c:148-159: the maximum over the first map if the user gives none, else a check of the
first map. -/
def countLabels (labels : List Nat) (K given : Nat) : Option (Option Nat) :=
  if given = 0 then do
    let n ← iter K (fun k n => do
      let l ← rd labels k
      some (max n l)) 0
    some (some n)
  else iter K (fun k s => do
    let l ← rd labels k
    some (if given < l then none else s)) (some given)

/-- Mass of pixel `k`, toolbox/misc/vl_inthist.c:184,191-192. -/
def massAt (mass : Option (List R)) (k : Nat) : Option R :=
  match mass with
  | none => some 1
  | some m => rd m k

/-- Distribution of the masses, toolbox/misc/vl_inthist.c:180-195. -/
def distribute (labels : List Nat) (mass : Option (List R)) (K numMaps : Nat) (data : List R) : Option (List R) :=
  iter numMaps (fun q data =>
    iter K (fun k data => do
      let l ← rd labels (q * K + k)
      if l ≠ 0 then do
        let v ← massAt mass k
        addAt data (k + (l - 1) * K) v
      else some data) data) data

/-- `vl_inthist`, toolbox/misc/vl_inthist.c:148-206, of an array of labels of `height` rows (the fastest index), `width` columns
and `numMaps` layers; `given` is the option NUMLABELS, zero if absent.  The result is the number of labels and the array. -/
def inthist (labels : List Nat) (mass : Option (List R)) (height width numMaps given : Nat) : Option (Option (Nat × List R)) := do
  let K := width * height
  let n ← countLabels labels K given
  match n with
  | none => some none
  | some n => do
    let data ← distribute labels mass K numMaps (List.replicate (height * width * n) 0)
    let data ← iter n (fun k data => integralAt height width (k * K) data) data
    some (some (n, data))

/-- A corner of the box, if it is inside of the image, toolbox/misc/samplinthist.tc:53-59, 61-67 and 69-75. -/
def corner (inside : Bool) (op : R → R → R) (ih : List R) (start labelStride numLabels o : Nat) (hist : List R) : Option (List R) :=
  if inside then iter numLabels (fun k hist => do
    let h ← rd hist (o + k)
    let v ← rd ih (start + k * labelStride)
    wr hist (o + k) (op h v)) hist
  else some hist

/-- One box, toolbox/misc/samplinthist.tc:16-76; `o` is the offset of the pointer `histPt`. -/
def sampleBox (ih : List R) (width height numLabels : Nat) (x1 y1 x2 y2 : Nat) (o : Nat) (hist : List R) : Option (Option (List R)) := do
  if x2 < x1 ∨ y2 < y1 then do
    let hist ← iter numLabels (fun k hist => wr hist (o + k) 0) hist
    some (some hist)
  else if x1 < 1 ∨ y1 < 1 then some none
  else if width < x2 ∨ height < y2 then some none
  else do
    let x1 := x1 - 1
    let x2 := x2 - 1
    let y1 := y1 - 1
    let y2 := y2 - 1
    let hist ← iter numLabels (fun k hist => do
      let v ← rd ih (x2 + y2 * width + k * (width * height))
      wr hist (o + k) v) hist
    let hist ← corner (0 < x1) (· - ·) ih (x1 - 1 + y2 * width) (width * height) numLabels o hist
    let hist ← corner (0 < x1 ∧ 0 < y1) (· + ·) ih (x1 - 1 + (y1 - 1) * width) (width * height) numLabels o hist
    let hist ← corner (0 < y1) (· - ·) ih (x2 + (y1 - 1) * width) (width * height) numLabels o hist
    some (some hist)

/-- `sample_T`, toolbox/misc/samplinthist.tc:8-78.  An error ends the computation. -/
def sampleAll (ih : List R) (width height numLabels : Nat) (boxes : List Nat) (numBoxes : Nat) (hist : List R) :
    Option (Option (List R)) :=
  iter numBoxes (fun bi s =>
    match s with
    | none => some none
    | some hist => do
      let x1 ← rd boxes (bi * 4)
      let y1 ← rd boxes (bi * 4 + 1)
      let x2 ← rd boxes (bi * 4 + 2)
      let y2 ← rd boxes (bi * 4 + 3)
      sampleBox ih width height numLabels x1 y1 x2 y2 (bi * numLabels) hist) (some hist)

/-- `vl_sampleinthist`, toolbox/misc/vl_sampleinthist.c:84-130, on an integral histogram of `height` rows, `width` columns and
`numLabels` layers: the rows are the fastest index, so they are the `x` of the boxes. -/
def sampleinthist (ih : List R) (height width numLabels : Nat) (boxes : List Nat) : Option (Option (List R)) :=
  if boxes.length % 4 ≠ 0 then some none
  else sampleAll ih height width numLabels boxes (boxes.length / 4) (List.replicate (numLabels * (boxes.length / 4)) 0)

end Verif.Toolbox
