import Verif.Base
import Mathlib.Data.List.Sort
import Mathlib.Algebra.Order.Field.Basic
import Mathlib.Data.Rat.Defs

/-!
# Model of the evaluation curves of the toolbox: `vl_tpfp`, `vl_roc`, `vl_pr`

toolbox/plotop/vl_tpfp.m, vl_roc.m, vl_pr.m.  MATLAB vectors are lists; an index of MATLAB is one more than an index here.  The outer `none` is an error of MATLAB.  Scores are in a linear order whose least element is `-inf`
(no NaN); labels are integers, of which only the sign matters; rates are rational numbers.  Plots and warnings are not modelled.
-/

namespace Verif.Plotop

variable {S : Type} [LinearOrder S] [OrderBot S]

/-- `cumsum`, after the elements whose sum is `acc`. -/
def cumsum (acc : Nat) : List Nat → List Nat
  | [] => []
  | x :: l => (acc + x) :: cumsum (acc + x) l

/-- `diff`. -/
def diff : List Rat → List Rat
  | a :: b :: l => (b - a) :: diff (b :: l)
  | _ => []

/-- `max(find(v))`, the number of the last true element, counted from one; 0 is the empty result. -/
def maxFind (v : List Bool) : Nat := (v.zipIdx.foldl (fun m x => if x.1 then x.2 + 1 else m) 0)

/-- The second result of `sort(scores, 'descend')`: equal elements stay in order. -/
def sortDescend (scores : List S) : List Nat :=
  (List.range scores.length).insertionSort fun i j => scores.getD j ⊥ < scores.getD i ⊥ ∨ (scores.getD i ⊥ = scores.getD j ⊥ ∧ i ≤ j)

/-- The results of `vl_tpfp`. -/
structure TpFp where
  tp : List Nat
  fp : List Nat
  p : Nat
  n : Nat
  perm : List Nat
  deriving DecidableEq

/-- `vl_tpfp`, toolbox/plotop/vl_tpfp.m:20-62. -/
def tpfp (includeInf : Bool) (numPositives numNegatives : Option Nat) (labels : List Int) (scores : List S) : Option TpFp := do
  let p := labels.countP fun l => 0 < l
  let n := labels.countP fun l => l < 0
  let p := numPositives.getD p
  let n := numNegatives.getD n
  let perm := sortDescend scores
  let sorted := perm.map fun i => scores.getD i ⊥
  let stop := if includeInf then sorted.length else maxFind (sorted.map fun s => decide (⊥ < s))
  let perm := perm.take stop
  let labels ← perm.mapM (rd labels)
  some { tp := 0 :: cumsum 0 (labels.map fun l => if 0 < l then 1 else 0), fp := 0 :: cumsum 0 (labels.map fun l => if l < 0 then 1 else 0), p := p, n := n, perm := perm }

/-- `1e-10`. -/
def small : Rat := 1 / 10 ^ 10

/-- The values of the option `plot` of `vl_roc`. -/
inductive RocPlot
  | tntp | fptp | tptn | fpfn
  deriving DecidableEq

/-- The results of `vl_roc`: `eer` is `none` if it is NaN, with `eerThreshold`. -/
structure Roc (S : Type) where
  tpr : List Rat
  tnr : List Rat
  auc : Rat
  eer : Option (Rat × S)
  deriving DecidableEq

/-- `vl_roc`, toolbox/plotop/vl_roc.m:129-187, with three results and without `stable`. -/
def roc (plot : RocPlot) (includeInf : Bool) (numPositives numNegatives : Option Nat) (labels : List Int) (scores : List S) : Option (Roc S) := do
  let r ← tpfp includeInf numPositives numNegatives labels scores
  let tpr := r.tp.map fun (t : Nat) => (t : Rat) / max (r.p : Rat) small
  let fpr := r.fp.map fun (f : Nat) => (f : Rat) / max (r.n : Rat) small
  let fnr := tpr.map (1 - ·)
  let tnr := fpr.map (1 - ·)
  let auc := match plot with
    | .tntp => -(List.zipWith (· * ·) tpr (diff (0 :: tnr))).sum
    | .fptp => (List.zipWith (· * ·) tpr (diff (0 :: fpr))).sum
    | .tptn => (List.zipWith (· * ·) tnr (diff (0 :: tpr))).sum
    | .fpfn => (List.zipWith (· * ·) fnr (diff (0 :: fpr))).sum
  let s := maxFind (List.zipWith (fun a b => decide (b < a)) tnr tpr)
  assert' (decide (0 < s))
  if s = tpr.length then some { tpr := tpr, tnr := tnr, auc := auc, eer := none } else do
    let t ← rd tpr (s - 1)
    let t' ← rd tpr s
    let u ← rd tnr (s - 1)
    let i ← rd r.perm (s - 1)
    let thr ← rd scores i
    some { tpr := tpr, tnr := tnr, auc := auc, eer := some (if t = t' then 1 - t else 1 - u, thr) }

/-- The cumulative maximum of a row, `vl_cummax`. -/
def cummax : List Rat → List Rat
  | a :: b :: l => a :: cummax (max a b :: l)
  | l => l
termination_by l => l.length

/-- The results of `vl_pr`: `ap` is `none` if it is NaN (without positive labels). -/
structure Pr where
  recalls : List Rat
  precisions : List Rat
  auc : Option Rat
  ap : Option Rat
  ap11 : Rat
  deriving DecidableEq

/-- The precisions, toolbox/plotop/vl_pr.m:141-147. -/
def precisionOf (a : Option Rat) (r : TpFp) : List Rat := match a with
  | none => List.zipWith (fun (t f : Nat) => max (t : Rat) small / max ((t : Rat) + f) small) r.tp r.fp
  | some a => List.zipWith (fun (t f : Nat) => max ((t : Rat) * a / max (r.p : Rat) small) small / max ((t : Rat) * a / max (r.p : Rat) small + f * (1 - a) / max (r.n : Rat) small) small) r.tp r.fp

/-- `vl_pr`, toolbox/plotop/vl_pr.m:132-181, without `stable`; `a` is the option `normalizePrior`. -/
def pr (interpolate : Bool) (a : Option Rat) (includeInf : Bool) (numPositives numNegatives : Option Nat) (labels : List Int) (scores : List S) : Option Pr := do
  let r ← tpfp includeInf numPositives numNegatives labels scores
  let recall := r.tp.map fun (t : Nat) => (t : Rat) / max (r.p : Rat) small
  let precision := precisionOf a r
  let precision := if interpolate then (cummax precision.reverse).reverse else precision
  let area := 1 / 2 * (List.zipWith (· * ·) (List.zipWith (· + ·) precision.dropLast precision.tail) (diff recall)).sum
  let sel := (diff recall).zipIdx.filterMap fun x => if x.1 ≠ 0 then some (x.2 + 1) else none
  let chosen ← sel.mapM (rd precision)
  let ap := if r.p = 0 then none else some (chosen.sum / r.p)
  let ap11 := ((List.range 11).map fun (l : Nat) => (((recall.zip precision).filter fun (x : Rat × Rat) => decide ((l : Rat) / 10 ≤ x.1)).map (·.2)).foldl max 0 / 11).sum
  some { recalls := recall, precisions := precision, auc := if interpolate then ap else some area, ap := ap, ap11 := ap11 }

/-- `x(i) = v`: a vector that is too short is extended by zeros; `none` is NaN. -/
def assign (x : List (Option Rat)) (i : Nat) (v : Rat) : List (Option Rat) := (x ++ List.replicate (i + 1 - x.length) (some 0)).set i (some v)

/-- The stable output, toolbox/plotop/vl_pr.m:215-224 and vl_roc.m:250-259, of one vector. -/
def stable (perm : List Nat) (v : List Rat) : List (Option Rat) :=
  (perm.zip v.tail).foldl (fun x (iv : Nat × Rat) => assign x iv.1 iv.2) (List.replicate v.tail.length none)

end Verif.Plotop
