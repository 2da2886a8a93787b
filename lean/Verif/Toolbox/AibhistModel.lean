import Verif.Loop

/-!
# `vl_aibhist`: model

toolbox/aib/vl_aibhist.c:65-166.  The nodes and the data are natural numbers below `2 ^ 32`, the counts do not overflow.  The inner
`none` is an error that is reported.
-/

namespace Verif.Toolbox

/-- The check of the parents, toolbox/aib/vl_aibhist.c:103-127: is the node `node` accepted as parent of the element `i`? -/
def linkOk (P i node : Nat) : Bool := !(decide (node > P) || (decide (node ≠ 0) && decide (node ≠ 1) && decide (node < i)))

/-- The loop over the parents, toolbox/aib/vl_aibhist.c:103-127: `min_node` at the end, or an error. -/
def scanParents (P : Nat) : List Nat → Nat → Nat → Option Nat
  | [], _, minNode => some minNode
  | node :: rest, i, minNode =>
    let minNode := if node ≠ 0 ∧ node ≠ 1 then min node minNode else minNode
    if linkOk P i node then scanParents P rest (i + 1) minNode else none

/-- `last_leaf = min_node - 1` on 32 bits, toolbox/aib/vl_aibhist.c:134. -/
def lastLeaf (minNode : Nat) : Nat := (minNode + (2 ^ 32 - 1)) % 2 ^ 32

/-- The walk to the root, toolbox/aib/vl_aibhist.c:158-164. -/
def walkUp (parents : List Nat) : Nat → Nat → List Nat → Option (List Nat)
  | 0, _, _ => none
  | fuel + 1, x, tree => do
    let x' ← rd parents (x - 1)
    let c ← rd tree (x - 1)
    let tree ← wr tree (x - 1) (c + 1)
    if x' = x ∨ x' = 0 ∨ x' = 1 then some tree else walkUp parents fuel x' tree

/-- The loop over the data, toolbox/aib/vl_aibhist.c:140-165; `fuel` bounds the length of a walk. -/
def aibLoop (parents : List Nat) (hist : Bool) (last fuel : Nat) : List Nat → Nat → List Nat → Option (Option (List Nat))
  | [], _, tree => some (some tree)
  | x :: data, i, tree =>
    let x := if hist then i else x
    if x < 1 ∨ x > last then some none
    else do
      let tree ← walkUp parents fuel x tree
      aibLoop parents hist last fuel data (i + 1) tree

/-- `vl_aibhist`, toolbox/aib/vl_aibhist.c:65-167. -/
def aibhist (fuel : Nat) (parents data : List Nat) (hist : Bool) : Option (Option (List Nat)) :=
  match scanParents parents.length parents 0 0 with
  | none => some none
  | some minNode => aibLoop parents hist (lastLeaf minNode) fuel data 0 (List.replicate parents.length 0)

end Verif.Toolbox
