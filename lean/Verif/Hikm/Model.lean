import Verif.Ikm.TrainModel

/-!
# Model of hierarchical integer k-means (vl/hikmeans.c)
-/

namespace Verif.Hikm

open Ikm

/-- `VL_IKM_LLOYD`, `VL_IKM_ELKAN`, vl/ikmeans.h:35-38. -/
inductive Method
  | lloyd
  | elkan

/-- The fields of `VlIKMFilt` used for projecting data, vl/ikmeans.h:44-53. -/
structure Filt where
  centers : List Int
  inter : List Int
  K : Nat

/-- `vl_ikm_push`, vl/ikmeans.c:158-165. -/
def pushFilt (m : Method) (f : Filt) (asgn : List Nat) (data : List UInt8) (M N : Nat) : Option (List Nat) :=
  match m with
  | .lloyd => pushLloyd f.centers asgn data M f.K N
  | .elkan => pushElkan f.centers f.inter asgn data M f.K N

/-- `VlHIKMNode`, vl/hikmeans.h:27-31, at `h` levels above the leaves.  Simplification: all the leaves are at the same level, as
in every tree built by `xmeans`; the children of a leaf are the null pointer. -/
def Node : Nat → Type
  | 0 => Filt
  | h + 1 => Filt × List (Node h)

/-- The filter of a node. -/
def Node.filter : (h : Nat) → Node h → Filt
  | 0, f => f
  | _ + 1, n => n.1

/-- Number of entries of `ids` equal to `id`, vl/hikmeans.c:66-72. -/
def countIds (ids : List Nat) (N id : Nat) : Option Nat :=
  iter N (fun i c => do
    let a ← rd ids i
    some (if a = id then c + 1 else c)) 0

/-- `vl_hikm_copy_subset`, vl/hikmeans.c:56-88; `mem n` is what a new block of `n` bytes contains. -/
def copySubset (mem : Nat → List UInt8) (data : List UInt8) (ids : List Nat) (N M id : Nat) : Option (List UInt8 × Nat) := do
  let n ← countIds ids N id
  iter N (fun i s => do
    let a ← rd ids i
    if a = id then do
      let buf ← iter M (fun j buf => do
        let b ← rd data (i * M + j)
        wr buf (s.2 * M + j) b) s.1
      some (buf, s.2 + 1)
    else some s) (mem (M * n), 0)

variable {ρ : Type}

/-- `xmeans`, vl/hikmeans.c:105-151, with height `h + 1`.  `fit data N K` is `vl_ikm_init_rand_data` followed by `vl_ikm_train`;
`memIds n` is what a new block of `n` identifiers contains.  Simplification: nothing is printed. -/
def xmeans (m : Method) (fit : List UInt8 → Nat → Nat → ρ → Option (Filt × ρ)) (mem : Nat → List UInt8)
    (memIds : Nat → List Nat) (M : Nat) : (h : Nat) → List UInt8 → Nat → Nat → ρ → Option (Node h × ρ)
  | 0, data, N, K, r => do
    let f ← fit data N K r
    let _ids ← pushFilt m f.1 (memIds N) data M N
    some (f.1, f.2)
  | h + 1, data, N, K, r => do
    let f ← fit data N K r
    let ids ← pushFilt m f.1 (memIds N) data M N
    let s ← iter K (fun k (s : List (Node h) × ρ) => do
      let p ← copySubset mem data ids N M k
      let c ← xmeans m fit mem memIds M h p.1 p.2 (min K p.2) s.2
      some (s.1 ++ [c.1], c.2)) ([], f.2)
    some ((f.1, s.1), s.2)

/-- `vl_hikm_train`, vl/hikmeans.c:233-237, for a tree of depth `h + 1`. -/
def train (m : Method) (fit : List UInt8 → Nat → Nat → ρ → Option (Filt × ρ)) (mem : Nat → List UInt8)
    (memIds : Nat → List Nat) (M K h : Nat) (data : List UInt8) (N : Nat) (r : ρ) : Option (Node h × ρ) :=
  xmeans m fit mem memIds M h data N (min K N) r

/-- The descent of datum `i` from a node at depth `d`, vl/hikmeans.c:259-272; the pointer `data + i * M` is the list without its
first `i * M` elements, and `best` holds arbitrary contents before the projection. -/
def pushNode (m : Method) (M depth : Nat) (data : List UInt8) (i : Nat) :
    (h : Nat) → Node h → Nat → List Nat → Option (List Nat)
  | 0, f, d, asgn => do
    let b ← pushFilt m f [0] (data.drop (i * M)) M 1
    let best ← rd b 0
    wr asgn (i * depth + d) best
  | h + 1, n, d, asgn => do
    let b ← pushFilt m n.1 [0] (data.drop (i * M)) M 1
    let best ← rd b 0
    let asgn ← wr asgn (i * depth + d) best
    let c ← rd n.2 best
    pushNode m M depth data i h c (d + 1) asgn

/-- `vl_hikm_push`, vl/hikmeans.c:252-274. -/
def push (m : Method) (M h : Nat) (root : Node h) (asgn : List Nat) (data : List UInt8) (N : Nat) : Option (List Nat) :=
  iter N (fun i asgn => pushNode m M (h + 1) data i h root 0 asgn) asgn

/-- Seeding and Lloyd training of one filter (vl/hikmeans.c:114-119 for `VL_IKM_LLOYD`); the generator gives the order in which
the data is considered, the other arguments are what new blocks contain. -/
def fitLloyd (M maxIters : Nat) (perm : ρ → Nat → List Nat × ρ) (memInt : Nat → List Int) (memNat : Nat → List Nat)
    (data : List UInt8) (N K : Nat) (r : ρ) : Option (Filt × ρ) := do
  let c ← initRandData data M N K (perm r N).1 (memInt (K * M))
  let t ← trainLloyd data M K N maxIters c (memNat N) (memNat N)
  some ({ centers := t.centers, inter := [], K := K }, (perm r N).2)

end Verif.Hikm
