import Verif.Loop

/-!
# Hash tables of label vectors: model

`vl_ihashsum` and `vl_ihashfind`.  A label vector is the list of its bytes, so that column `p` of `ID` is entry `p` of a list
(the offset `p * ndims` in the block of bytes is not modelled).  Indexes are natural numbers: tables have fewer than `2^32`
columns; the hash and the counts are 32-bit numbers.  `none` stands for an access outside an array, a loop that does not stop or a
MATLAB error.
-/

namespace Verif.Toolbox

/-- A label vector. -/
abbrev Key := List UInt8

/-- `fnv_hash`, toolbox/misc/vl_ihashsum.c:21-31. -/
def fnvHash (key : Key) : UInt32 :=
  key.foldl (fun h b => (h * 16777619) ^^^ b.toUInt32) 2166136261

/-- `is_null`, toolbox/misc/vl_ihashsum.c:33-41. -/
def isNull (key : Key) : Bool :=
  key.all (· == 0)

/-- The arrays `H`, `ID`, `NEXT`, with `last` of vl_ihashsum.c:154.  `res` of the code is the number of columns. -/
structure Table where
  h : List Nat
  id : List Key
  next : List Nat
  last : Nat
  deriving DecidableEq

/-- The probes, toolbox/misc/vl_ihashsum.c:186-192 and vl_ihashfind.c:166-172; `j` of the `K` iterations are left. -/
def probe (id : List Key) (x : Key) (K : Nat) (h2 : UInt32) : Nat → UInt32 → Option Nat
  | 0, h1 => some (h1.toNat % K)
  | j + 1, h1 => do
    let s ← rd id (h1.toNat % K)
    if isNull s || s == x then some (h1.toNat % K) else probe id x K h2 j (h1 + h2)

/-- Hash and probes, toolbox/misc/vl_ihashsum.c:182-192 and vl_ihashfind.c:162-172. -/
def start (id : List Key) (x : Key) (K : Nat) : Option Nat :=
  let h1 := UInt32.ofNat ((fnvHash x).toNat % K)
  probe id x K (h1 ||| 1) K h1

/-- Following the extended table, toolbox/misc/vl_ihashfind.c:175-179.  The first argument bounds the number of tests of the loop
condition. -/
def chain (id : List Key) (next : List Nat) (x : Key) : Nat → Nat → Option Nat
  | 0, _ => none
  | n + 1, p => do
    let s ← rd id p
    if isNull s || s == x then some p
    else do
      let q ← rd next p
      if q = 0 then some p else chain id next x n (q - 1)

/-- Search of one label vector, toolbox/misc/vl_ihashfind.c:152-189; zero when it is not found, the column (from one) otherwise. -/
def find1 (t : Table) (K : Nat) (x : Key) : Option Nat :=
  if isNull x then some 0
  else do
    let p ← start t.id x K
    let p ← chain t.id t.next x t.id.length p
    let s ← rd t.id p
    some (if s == x then p + 1 else 0)

/-- `vl_ihashfind`, toolbox/misc/vl_ihashfind.c:135-190: the checks on the table, then the search of each vector. -/
def ihashfind (t : Table) (K : Nat) (X : List Key) : Option (List Nat) :=
  if K ≤ t.id.length ∧ (∀ n ∈ t.next, n ≤ t.id.length) then X.mapM (find1 t K) else none

/-- Growth of the table, toolbox/misc/vl_ihashsum.c:204-213. -/
def grow (t : Table) (ndims : Nat) : Table :=
  if t.id.length ≤ t.last then
    let d := max (t.id.length / 2) 2
    { t with h := t.h ++ List.replicate d 0, id := t.id ++ List.replicate d (List.replicate ndims 0),
             next := t.next ++ List.replicate d 0 }
  else t

/-- Following and extending the extended table, toolbox/misc/vl_ihashsum.c:197-217.  The first argument bounds the number of tests
of the loop condition. -/
def chainAdd (ndims : Nat) (x : Key) : Nat → Table → Nat → Option (Table × Nat)
  | 0, _, _ => none
  | n + 1, t, p => do
    let s ← rd t.id p
    if isNull s || s == x then some (t, p)
    else do
      let q ← rd t.next p
      if t.id.length < q then none
      else if q = 0 then do
        let t := grow t ndims
        let next ← wr t.next p (t.last + 1)
        chainAdd ndims x n { t with next := next, last := t.last + 1 } t.last
      else chainAdd ndims x n t (q - 1)

/-- Insertion of one label vector, toolbox/misc/vl_ihashsum.c:171-223. -/
def add1 (ndims K : Nat) (x : Key) (t : Table) : Option Table :=
  if isNull x then none
  else do
    let p ← start t.id x K
    let r ← chainAdd ndims x (t.id.length + 1) t p
    let c ← rd r.1.h r.2
    let h ← wr r.1.h r.2 ((c + 1) % 4294967296)
    let id ← wr r.1.id r.2 x
    some { r.1 with h := h, id := id }

/-- `vl_ihashsum`, toolbox/misc/vl_ihashsum.c:153-240: the checks on the table, the insertions, and the reallocation to the
columns in use. -/
def ihashsum (t : Table) (ndims K : Nat) (X : List Key) : Option Table :=
  if K ≤ t.id.length ∧ (∀ n ∈ t.next, n ≤ t.id.length) then do
    let t ← X.foldlM (fun t x => add1 ndims K x t) { t with last := t.id.length }
    some { h := t.h.take t.last, id := t.id.take t.last, next := t.next.take t.last, last := t.last }
  else none

/-- An empty table of `n` columns, as the user creates it (toolbox/misc/vl_ihashsum.m). -/
def emptyTable (ndims n : Nat) : Table :=
  { h := List.replicate n 0, id := List.replicate n (List.replicate ndims 0), next := List.replicate n 0, last := n }

/-- A sequence of calls on a table. -/
def calls (t : Table) (ndims K : Nat) (Xs : List (List Key)) : Option Table :=
  Xs.foldlM (fun t X => ihashsum t ndims K X) t

end Verif.Toolbox
