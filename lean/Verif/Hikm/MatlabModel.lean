import Verif.Hikm.Model
import Verif.Ikm.ElkanModel

/-!
# Model of the MATLAB drivers of hierarchical integer k-means

toolbox/kmeans/vl_hikmeans.c, toolbox/kmeans/vl_hikmeanspush.c.
-/

namespace Verif.Hikm

open Ikm

variable {ρ : Type}

/-- Seeding and training of one filter (vl/hikmeans.c:114-119 for `VL_IKM_ELKAN`): the seeding ends with `vl_ikm_init_elkan`,
vl/ikmeans_elkan.tc:45-53. -/
def fitElkan (M maxIters : Nat) (perm : ρ → Nat → List Nat × ρ) (memInt : Nat → List Int) (memNat : Nat → List Nat)
    (data : List UInt8) (N K : Nat) (r : ρ) : Option (Filt × ρ) := do
  let c ← initRandData data M N K (perm r N).1 (memInt (K * M))
  let inter ← updateInterDist c M K (memInt (K * K))
  let t ← trainElkan data M K N maxIters c inter (memNat N) (memInt K) (memNat N)
  some ({ centers := t.centers, inter := t.inter, K := K }, (perm r N).2)

/-- `vl_ikm_train` after the seeding, vl/ikmeans.c:131-149. -/
def fit (m : Method) (M maxIters : Nat) (perm : ρ → Nat → List Nat × ρ) (memInt : Nat → List Int) (memNat : Nat → List Nat) :
    List UInt8 → Nat → Nat → ρ → Option (Filt × ρ) :=
  match m with
  | .lloyd => fitLloyd M maxIters perm memInt memNat
  | .elkan => fitElkan M maxIters perm memInt memNat

/-- A node with a pointer to its children, which may be null, vl/hikmeans.h:27-31. -/
inductive GNode
  | mk (filter : Filt) (children : Option (List GNode))

/-- An element of a MATLAB structure with the fields `centers`, a matrix of `int32` by columns, and `sub`, a structure array or empty. -/
inductive MNode
  | mk (rows cols : Nat) (centers : List Int) (sub : Option (List MNode))

/-- `memcpy` of `n` entries of `l` to a new block. -/
def copyN (l : List Int) (n : Nat) : Option (List Int) := if n ≤ l.length then some (l.take n) else none

/-- `xcreate`, toolbox/kmeans/vl_hikmeans.c:46-77. -/
def save (M : Nat) : (h : Nat) → Node h → Option MNode
  | 0, f => do
    let c ← copyN f.centers (M * f.K)
    some (.mk M f.K c none)
  | h + 1, n => do
    let c ← copyN n.1.centers (M * n.1.K)
    let sub ← iter n.1.K (fun k (s : List MNode) => do
      let child ← rd n.2 k
      let t ← save M h child
      some (s ++ [t])) []
    some (.mk M n.1.K c (some sub))

/-- `vl_ikm_init`, vl/ikmeans_init.tc:80-86 with 51-73. -/
def initFilt (m : Method) (memInt : Nat → List Int) (centers : List Int) (M K : Nat) : Option Filt := do
  let c ← copyN centers (M * K)
  match m with
  | .lloyd => some { centers := c, inter := [], K := K }
  | .elkan => do
    let inter ← updateInterDist c M K (memInt (K * K))
    some { centers := c, inter := inter, K := K }

mutual
/-- `xcreate`, toolbox/kmeans/vl_hikmeanspush.c:46-102; `treeM` is `tree->M`, zero before the root is read.  An inner `none` is an
error reported to the user.  The classes of the fields are right. -/
def load (m : Method) (memInt : Nat → List Int) (treeK treeM : Nat) : MNode → Option (Option GNode)
  | .mk rows cols centers sub =>
    if rows = 0 then some none
    else if cols > treeK then some none
    else if treeM ≠ 0 ∧ rows ≠ treeM then some none
    else match initFilt m memInt centers rows cols with
      | none => none
      | some f =>
        match sub with
        | none => some (some (.mk f none))
        | some l =>
          if l.length ≠ cols then some none
          else match loadList m memInt treeK rows l with
            | none => none
            | some none => some none
            | some (some c) => some (some (.mk f (some c)))
/-- The loop over the children, toolbox/kmeans/vl_hikmeanspush.c:97-99. -/
def loadList (m : Method) (memInt : Nat → List Int) (treeK treeM : Nat) : List MNode → Option (Option (List GNode))
  | [] => some (some [])
  | t :: l =>
    match load m memInt treeK treeM t with
    | none => none
    | some none => some none
    | some (some n) =>
      match loadList m memInt treeK treeM l with
      | none => none
      | some none => some none
      | some (some c) => some (some (n :: c))
end

mutual
/-- The descent of datum `i` from a node at depth `d`, vl/hikmeans.c:259-272. -/
def descend (m : Method) (M depth : Nat) (data : List UInt8) (i : Nat) : GNode → Nat → List Nat → Option (List Nat)
  | .mk f children, d, asgn =>
    match (pushFilt m f [0] (data.drop (i * M)) M 1).bind (fun b => rd b 0) with
    | none => none
    | some best =>
      match wr asgn (i * depth + d) best with
      | none => none
      | some asgn =>
        match children with
        | none => some asgn
        | some l => descendTo m M depth data i best l (d + 1) asgn
/-- `node = node->children [best]` and the descent from there. -/
def descendTo (m : Method) (M depth : Nat) (data : List UInt8) (i : Nat) : Nat → List GNode → Nat → List Nat → Option (List Nat)
  | _, [], _, _ => none
  | 0, n :: _, d, asgn => descend m M depth data i n d asgn
  | k + 1, _ :: l, d, asgn => descendTo m M depth data i k l d asgn
end

/-- `vl_hikmeanspush`, toolbox/kmeans/vl_hikmeanspush.c:152-242.  `K` and `depth` are the fields of the tree after conversion to
integers, `data` is the matrix of `N` columns; the number of its rows is not looked at. -/
def hikmeanspush (m : Method) (memInt : Nat → List Int) (K depth : Nat) (tree : MNode) (data : List UInt8) (N : Nat) :
    Option (Option (List Nat)) :=
  if K < 1 then some none
  else if depth < 1 then some none
  else match load m memInt K 0 tree with
    | none => none
    | some none => some none
    | some (some root) => do
      let M := match tree with | .mk rows _ _ _ => rows
      let ids ← iter N (fun i ids => descend m M depth data i root 0 ids) (List.replicate (depth * N) 0)
      let ids ← iter (N * depth) (fun j ids => do
        let v ← rd ids j
        wr ids j ((v + 1) % 4294967296)) ids
      some (some ids)

/-- What `vl_hikmeans` returns: the structure and the assignments. -/
structure Saved where
  K : Nat
  depth : Nat
  tree : MNode
  asgn : List Nat

/-- `vl_hikmeans`, toolbox/kmeans/vl_hikmeans.c:106-225, with depth `h + 1`.  The value of the option `MaxIters` is checked (164-169)
and then not used: the trees of `vl_hikm_new` do 200 iterations.  Simplification: the depth, which is computed from the number of leaves
by logarithms, is a parameter. -/
def hikmeans (m : Method) (perm : ρ → Nat → List Nat × ρ) (mem : Nat → List UInt8) (memInt : Nat → List Int) (memNat : Nat → List Nat)
    (M K h maxNiters : Nat) (data : List UInt8) (N : Nat) (r : ρ) : Option (Option (Saved × ρ)) :=
  if K > N then some none
  else if maxNiters < 1 then some none
  else if M = 0 ∨ K = 0 then none
  else do
    let t ← train m (fit m M 200 perm memInt memNat) mem memNat M K h data N r
    let tree ← save M h t.1
    let asgn ← push m M h t.1 (List.replicate ((h + 1) * N) 0) data N
    let asgn ← iter (N * (h + 1)) (fun j asgn => do
      let v ← rd asgn j
      wr asgn j ((v + 1) % 4294967296)) asgn
    some (some (⟨K, h + 1, tree, asgn⟩, t.2))

end Verif.Hikm
