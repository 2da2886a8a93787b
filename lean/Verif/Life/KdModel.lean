import Verif.Life.Model
import Mathlib.Logic.Function.Basic

/-!
# The searchers of a kd-forest

The searchers of a forest are kept in a doubly linked list (vl/kdtree.c:380-482).
The links are kept in a map from the addresses of the searchers, so that a freed
searcher has none; the blocks are in a heap as for the other objects.
-/

namespace Verif.Life

/-- A searcher: its links and the addresses of its two arrays
(vl/kdtree.h:117-132). -/
structure Node where
  next : Option Nat
  prev : Option Nat
  states : Nat
  book : Nat

/-- The blocks of a tree: the structure, the index of the data and the nodes
(vl/kdtree.h:66-73). -/
structure TreeB where
  self : Nat
  index : Nat
  nodes : Nat

/-- A forest (vl/kdtree.h:85-114). -/
structure Forest where
  self : Nat
  numTrees : Nat
  numData : Nat
  maxNodes : Nat
  trees : Option (Nat × List TreeB)
  num : Nat
  head : Option Nat

/-- A forest with its searchers and the heap. -/
structure FS where
  forest : Forest
  nodes : Nat → Option Node
  heap : Heap

/-- `vl_kdforest_new` (vl/kdtree.c:330-369). -/
def fNew (E : Env) (h : Heap) (numTrees : Nat) : Option FS := do
  let (p, h) ← need E h 0
  some ⟨⟨p, numTrees, 0, 0, none, 0, none⟩, fun _ => none, h⟩

/-- The loop that looks for the last searcher (vl/kdtree.c:394-405), with a bound
on the number of steps; exceeding it, that is a list with a cycle, is `none`. -/
def lastOf (nodes : Nat → Option Node) : Nat → Nat → Option Nat
  | 0, _ => none
  | fuel + 1, p => do
    let n ← nodes p
    match n.next with
    | some q => lastOf nodes fuel q
    | none => some p

/-- The insertion of the searcher `p` in the list (vl/kdtree.c:389-406): the new
links, the new head and the searcher before `p`. -/
def link (s : FS) (p : Nat) : Option ((Nat → Option Node) × Option Nat × Option Nat) :=
  if s.forest.num = 0 then some (s.nodes, some p, none)
  else do
    let q ← s.forest.head
    let l ← lastOf s.nodes s.heap.next q
    let n ← s.nodes l
    some (Function.update s.nodes l (some { n with next := some p }), s.forest.head, some l)

/-- `vl_kdforest_new_searcher` (vl/kdtree.c:385-414). -/
def newSearcher (E : Env) (s : FS) : Option (Nat × FS) := do
  let (p, h) ← need E s.heap 0
  let (nodes, head, prev) ← link s p
  let (a, h) ← need E h s.forest.maxNodes
  let (b, h) ← need E h s.forest.numData
  some (p, ⟨{ s.forest with num := s.forest.num + 1, head := head },
    Function.update nodes p (some ⟨none, prev, a, b⟩), h⟩)

/-- The removal of a searcher with the links `n` from the list
(vl/kdtree.c:424-434): the new links and the new head. -/
def unlink (s : FS) (n : Node) : Option ((Nat → Option Node) × Option Nat) :=
  match n.prev, n.next with
  | some a, some b => do
    let x ← s.nodes a
    let nodes := Function.update s.nodes a (some { x with next := some b })
    let y ← nodes b
    some (Function.update nodes b (some { y with prev := some a }), s.forest.head)
  | some a, none => do
    let x ← s.nodes a
    some (Function.update s.nodes a (some { x with next := none }), s.forest.head)
  | none, some b => do
    let y ← s.nodes b
    some (Function.update s.nodes b (some { y with prev := none }), some b)
  | none, none => some (s.nodes, none)

/-- `vl_kdforestsearcher_delete` (vl/kdtree.c:421-439). -/
def delSearcher (s : FS) (p : Nat) : Option FS := do
  let n ← s.nodes p
  let (nodes, head) ← unlink s n
  let h ← free s.heap n.states
  let h ← free h n.book
  let h ← free h p
  some ⟨{ s.forest with num := s.forest.num - 1, head := head }, Function.update nodes p none, h⟩

/-- The loop of `vl_kdforest_get_searcher`. -/
def walk (nodes : Nat → Option Node) : Nat → Option Nat → Option (Option Nat)
  | 0, p => some p
  | _ + 1, none => some none
  | i + 1, some p => do
    let n ← nodes p
    walk nodes i n.next

/-- `vl_kdforest_get_searcher` (vl/kdtree.c:441-451). -/
def getSearcher (s : FS) (pos : Nat) : Option (Option Nat) := walk s.nodes pos s.forest.head

/-- The loop of `vl_kdforest_delete` that deletes the searchers
(vl/kdtree.c:465-467). -/
def dropAll : Nat → FS → Option FS
  | 0, _ => none
  | fuel + 1, s => do
    let r ← getSearcher s 0
    match r with
    | none => some s
    | some p => do
      let s ← delSearcher s p
      dropAll fuel s

/-- The loop that frees the trees (vl/kdtree.c:470-476). -/
def freeTrees : List TreeB → Heap → Option Heap
  | [], h => some h
  | t :: ts, h => do
    let h ← free h t.nodes
    let h ← free h t.index
    let h ← free h t.self
    freeTrees ts h

/-- The part of `vl_kdforest_delete` on trees (vl/kdtree.c:469-478). -/
def dropTrees (h : Heap) : Option (Nat × List TreeB) → Option Heap
  | none => some h
  | some (p, ts) => do
    let h ← freeTrees ts h
    free h p

/-- `vl_kdforest_delete` (vl/kdtree.c:459-480). -/
def fDelete (s : FS) : Option Heap := do
  let s ← dropAll (s.heap.next + 1) s
  let h ← dropTrees s.heap s.forest.trees
  free h s.forest.self

/-- The loop that allocates `k` trees for `n` data (vl/kdtree.c:545-561). -/
def allocTrees (E : Env) (n : Nat) : Nat → Heap → Option (List TreeB × Heap)
  | 0, h => some ([], h)
  | k + 1, h => do
    let (p, h) ← need E h 0
    let (i, h) ← need E h n
    let (q, h) ← need E h (2 * n - 1)
    let (ts, h) ← allocTrees E n k h
    some (⟨p, i, q⟩ :: ts, h)

/-- `vl_kdforest_build` (vl/kdtree.c:527-580); `used` is the number of nodes that
the trees have in the end.  Trees of an earlier build are forgotten.
Simplification: the contents of the trees are modelled in `Verif/KdTree`. -/
def fBuild (E : Env) (s : FS) (n used : Nat) : Option FS := do
  let (p, h) ← need E s.heap s.forest.numTrees
  let (ts, h) ← allocTrees E n s.forest.numTrees h
  some ⟨{ s.forest with numData := n, maxNodes := used, trees := some (p, ts) }, s.nodes, h⟩

/-- What a query of the searcher `p` does with the datum `di`: it reads and
writes the entry of the datum in the book (vl/kdtree.c:634-635). -/
def visit (s : FS) (p di : Nat) : Option FS := do
  let n ← s.nodes p
  let b ← load s.heap n.book
  if di < b.length then some s else none

/-- The searcher that `vl_kdforest_query` uses (vl/kdtree.c:745-748). -/
def querySearcher (E : Env) (s : FS) : Option (Nat × FS) := do
  let r ← getSearcher s 0
  match r with
  | some p => some (p, s)
  | none => newSearcher E s

/-! ## Histories -/

/-- What a client may do with a forest; a parallel query makes searchers and
deletes them in critical sections, in any order. -/
inductive FOp
  | build (n used : Nat)
  | new
  | query
  | delete (p : Nat)

/-- One call. -/
def fStep (E : Env) (s : FS) : FOp → Option FS
  | .build n used => fBuild E s n used
  | .new => do
    let r ← newSearcher E s
    some r.2
  | .query => do
    let r ← querySearcher E s
    some r.2
  | .delete p => delSearcher s p

/-- A history. -/
def fRun (E : Env) : List FOp → FS → Option FS
  | [], s => some s
  | op :: ops, s => do
    let s ← fStep E s op
    fRun E ops s

end Verif.Life
