import Verif.Erfill.Model
import Mathlib.Data.Rat.Defs
import Mathlib.Algebra.Order.Field.Rat

/-!
# Model of the maximally stable extremal regions

vl/mser.c and vl/mser.h.  `int` and `vl_uint` are unbounded; `float` and `double` are rational numbers.  The buffers obtained from `vl_malloc` are parameters, of arbitrary contents.
`none` is an access outside an array, or a loop that does not end.
-/

namespace Verif.Mser

/-- `VlMserReg`, vl/mser.h:147-153. -/
structure Reg where
  parent : Nat
  shortcut : Nat
  height : Int
  area : Nat
deriving DecidableEq

/-- `VL_MSER_VOID_NODE`, vl/mser.h:119. -/
def void : Nat := 2 ^ 32 - 1

/-! ### Sorting of the pixels -/

/-- The sizes of the buckets, vl/mser.c:455-463. -/
def countPixels (im : List Nat) (nel : Nat) : Option (List Nat) :=
  iter nel (fun i b => do
    let v ← rd im i
    let c ← rd b v
    wr b v (c + 1)) (List.replicate 256 0)

/-- The cumulative sizes, vl/mser.c:466-468. -/
def cumulate (b : List Nat) : Option (List Nat) :=
  iter 255 (fun i b => do
    let x ← rd b (i + 1)
    let y ← rd b i
    wr b (i + 1) (x + y)) b

/-- The loop that empties the buckets, vl/mser.c:471-475; `none` also when a bucket gets below zero, which makes the index of the next write out of bounds. -/
def emptyBuckets (im : List Nat) (nel : Nat) (b perm : List Nat) : Option (List Nat × List Nat) :=
  iter nel (fun t st => do
    let i := nel - t - 1
    let v ← rd im i
    let c ← rd st.1 v
    if c = 0 then none else do
    let b ← wr st.1 v (c - 1)
    let perm ← wr st.2 (c - 1) i
    pure (b, perm)) (b, perm)

/-- The sorting of the pixels by intensity, vl/mser.c:452-476. -/
def sortPixels (im : List Nat) (nel : Nat) (perm : List Nat) : Option (List Nat) := do
  let b ← countPixels im nel
  let b ← cumulate b
  let st ← emptyBuckets im nel b perm
  pure st.2

/-! ### The forest of regions -/

/-- The first loop of `climb`, vl/mser.c:270-284: the regions and the root. -/
def climbUp : Nat → List Reg → Nat → Nat → Option (List Reg × Nat)
  | 0, _, _, _ => none
  | fuel + 1, r, prev, idx => do
    let x ← rd r idx
    let r ← wr r idx { x with shortcut := prev }
    if x.shortcut = idx then some (r, idx) else climbUp fuel r idx x.shortcut

/-- The second loop of `climb`, vl/mser.c:289-302. -/
def climbDown : Nat → List Reg → Nat → Nat → Option (List Reg)
  | 0, _, _, _ => none
  | fuel + 1, r, root, idx => do
    let x ← rd r idx
    let r ← wr r idx { x with shortcut := root }
    if x.shortcut = idx then some r else climbDown fuel r root x.shortcut

/-- `climb`, vl/mser.c:261-305: the regions with the shortcuts updated, and the root. -/
def climb (r : List Reg) (idx : Nat) : Option (List Reg × Nat) := do
  let (r1, root) ← climbUp (r.length + 1) r idx idx
  let r2 ← climbDown (r.length + 1) r1 root root
  pure (r2, root)

/-- All the nodes are void, vl/mser.c:479-481. -/
def initForest (nel : Nat) (r : List Reg) : Option (List Reg) :=
  iter nel (fun i r => do
    let x ← rd r i
    wr r i { x with parent := void }) r

/-- The regions, the part in use of the array `joins`, the number of extremal regions found, and `r_idx`. -/
structure St where
  r : List Reg
  joins : List Nat
  ner : Nat
  root : Nat

/-- `joins [njoins++] = a`, in an array of `nel` elements. -/
def push (nel : Nat) (joins : List Nat) (a : Nat) : Option (List Nat) := if joins.length < nel then some (joins ++ [a]) else none

/-- The visit of one neighbour, vl/mser.c:526-624.  The height `n_hgt` is the one of the pixel 0, because `nr_idx` is still 0 when it is read. -/
def visit (im dims strides : List Nat) (nel idx val : Nat) (subs : List Nat) (off : List Int) (s : St) : Option St :=
  match Erfill.neighbour off subs dims strides 0 with
  | none => some s
  | some n =>
    if n = idx then some s else do
    let x ← rdI s.r n
    if x.parent = void then some s else do
    let xr ← rd s.r s.root
    let x0 ← rd s.r 0
    let hgt := xr.height
    let nhgt := x0.height
    let (r, ri) ← climb s.r idx
    let (r, ni) ← climb r n.toNat
    if ri = ni then some { s with r := r, root := ri } else do
    let nval ← rd im ni
    let a ← rd r ri
    let b ← rd r ni
    if nval = val ∧ hgt < nhgt then do
      let r ← wr r ri { a with parent := ni, shortcut := ni }
      let r ← wr r ni { b with area := b.area + a.area, height := max nhgt (hgt + 1) }
      let joins ← push nel s.joins ri
      some { s with r := r, joins := joins, root := ri }
    else do
      let r ← wr r ni { b with parent := ri, shortcut := ri }
      let r ← wr r ri { a with area := a.area + b.area, height := max hgt (nhgt + 1) }
      let joins ← push nel s.joins ni
      some { r := r, joins := joins, ner := if nval ≠ val then s.ner + 1 else s.ner, root := ri }

/-- The loop over the neighbours, vl/mser.c:525-632; the offsets are advanced by the same code as in toolbox/mser/vl_erfill.c. -/
def neighbours (body : List Int → St → Option St) : Nat → List Int → St → Option St
  | 0, _, _ => none
  | fuel + 1, off, s => do
    let s ← body off s
    match Erfill.nextOffset off with
    | none => some s
    | some off => neighbours body fuel off s

/-- The processing of one pixel, vl/mser.c:501-633. -/
def addPixel (im dims strides : List Nat) (nel : Nat) (perm : List Nat) (i : Nat) (s : St) : Option St := do
  let idx ← rd perm i
  let val ← rd im idx
  let r ← wr s.r idx { parent := idx, shortcut := idx, area := 1, height := 1 }
  let subs := (Erfill.subscripts strides idx).2
  neighbours (visit im dims strides nel idx val subs) (3 ^ dims.length) (List.replicate dims.length (-1)) { s with r := r, root := idx }

/-- The loop over the first `n` pixels, vl/mser.c:498-634. -/
def grow (im dims strides : List Nat) (nel : Nat) (perm : List Nat) (r : List Reg) (n : Nat) : Option St :=
  iter n (addPixel im dims strides nel perm) { r := r, joins := [], ner := 0, root := 0 }

/-! ### Extremal regions -/

/-- `VlMserExtrReg`, vl/mser.h:184-193. -/
structure Er where
  parent : Nat
  index : Nat
  value : Nat
  shortcut : Nat
  area : Nat
  variation : ℚ
  maxStable : Bool
deriving DecidableEq

/-- The extraction of the extremal regions, vl/mser.c:666-697: the regions, the array of extremal regions and their number. -/
def extract (im : List Nat) (nel : Nat) (perm : List Nat) (r : List Reg) (er : List Er) : Option (List Reg × List Er × Nat) :=
  iter nel (fun i st => do
    let idx ← rd perm i
    let val ← rd im idx
    let x ← rd st.1 idx
    let pval ← rd im x.parent
    if pval > val ∨ idx = x.parent then do
      let e ← rd st.2.1 st.2.2
      let er ← wr st.2.1 st.2.2 { e with index := idx, parent := st.2.2, value := val, area := x.area }
      let r ← wr st.1 idx { x with shortcut := st.2.2 }
      pure (r, er, st.2.2 + 1)
    else do
      let r ← wr st.1 idx { x with shortcut := void }
      pure (r, st.2.1, st.2.2)) (r, er, 0)

/-- The loop that looks for an extremal ancestor, vl/mser.c:708-710. -/
def ancestor (r : List Reg) : Nat → Nat → Option Nat
  | 0, _ => none
  | fuel + 1, idx => do
    let x ← rd r idx
    let y ← rd r x.parent
    if y.shortcut = void then ancestor r fuel x.parent else some y.shortcut

/-- The linking of the extremal regions, vl/mser.c:704-714. -/
def link (r : List Reg) (ner : Nat) (er : List Er) : Option (List Er) :=
  iter ner (fun i er => do
    let e ← rd er i
    let p ← ancestor r (r.length + 1) e.index
    wr er i { e with parent := p, shortcut := i }) er

/-- The loop that looks for the top parent, vl/mser.c:730-743. -/
def topParent (er : List Er) (topVal : Nat) : Nat → Nat → Option Nat
  | 0, _ => none
  | fuel + 1, top => do
    let e ← rd er top
    let f ← rd er e.parent
    if e.parent = top ∨ f.value > topVal then some top else topParent er topVal fuel e.parent

/-- The variations, vl/mser.c:723-763. -/
def variations (delta ner : Nat) (er : List Er) : Option (List Er) :=
  iter ner (fun i er => do
    let e ← rd er i
    let top ← topParent er (e.value + delta) (er.length + 1) e.shortcut
    let t ← rd er top
    let er ← wr er i { e with variation := ((t.area : ℚ) - e.area) / e.area, maxStable := true }
    let e ← rd er i
    let p ← rd er e.parent
    wr er e.parent { p with shortcut := max top p.shortcut }) er

/-- The selection of the maximally stable branches, vl/mser.c:769-792: the extremal regions and the number of the maximally stable ones. -/
def selectStable (ner : Nat) (er : List Er) : Option (List Er × Int) :=
  iter ner (fun i st => do
    let e ← rd st.1 i
    let p ← rd st.1 e.parent
    if p.value > e.value + 1 then some st else do
    let loser := if e.variation < p.variation then e.parent else i
    let l ← rd st.1 loser
    if l.maxStable then do
      let er ← wr st.1 loser { l with maxStable := false }
      pure (er, st.2 - 1)
    else some st) (er, (ner : Int))

/-- The parameters of the filter, vl/mser.h:245-249. -/
structure Params where
  delta : Nat
  maxArea : ℚ
  minArea : ℚ
  maxVariation : ℚ
  minDiversity : ℚ

/-- The number of regions kept and the counts of the regions removed, in the order bad, big, small, duplicate. -/
structure Counts where
  nmer : Int
  nbad : Nat
  nbig : Nat
  nsmall : Nat
  ndup : Nat

/-- The loop that looks for the maximally stable parent region, vl/mser.c:829-833. -/
def stableParent (er : List Er) : Nat → Nat → Option Nat
  | 0, _ => none
  | fuel + 1, parent => do
    let e ← rd er parent
    if e.maxStable then some parent else
    if e.parent = parent then some parent else stableParent er fuel e.parent

/-- One turn of the filtering of the maximally stable regions, vl/mser.c:810-849; the area of a parent is not zero. -/
def filterStep (P : Params) (nel : Nat) (i : Nat) (st : List Er × Counts) : Option (List Er × Counts) := do
  let e ← rd st.1 i
  if e.maxStable = false then some st else
  if e.variation ≥ P.maxVariation then do
    let er ← wr st.1 i { e with maxStable := false }
    pure (er, { st.2 with nbad := st.2.nbad + 1, nmer := st.2.nmer - 1 })
  else if (e.area : ℚ) > P.maxArea * nel then do
    let er ← wr st.1 i { e with maxStable := false }
    pure (er, { st.2 with nbig := st.2.nbig + 1, nmer := st.2.nmer - 1 })
  else if (e.area : ℚ) < P.minArea * nel then do
    let er ← wr st.1 i { e with maxStable := false }
    pure (er, { st.2 with nsmall := st.2.nsmall + 1, nmer := st.2.nmer - 1 })
  else if P.minDiversity < 1 then
    if e.parent ≠ i then do
      let p ← stableParent st.1 (st.1.length + 1) e.parent
      let f ← rd st.1 p
      if ((f.area : ℚ) - e.area) / f.area < P.minDiversity then do
        let er ← wr st.1 i { e with maxStable := false }
        pure (er, { st.2 with ndup := st.2.ndup + 1, nmer := st.2.nmer - 1 })
      else some st
    else some st
  else some st

/-- The filtering of the maximally stable regions, vl/mser.c:801-855, from the last extremal region to the first one. -/
def filterStable (P : Params) (nel ner : Nat) (er : List Er) (nmer : Int) : Option (List Er × Counts) :=
  iter ner (fun t st => filterStep P nel (ner - t - 1) st) (er, { nmer := nmer, nbad := 0, nbig := 0, nsmall := 0, ndup := 0 })

/-- The list of the maximally stable regions, vl/mser.c:870-873, in an array of `cap` elements; only the part in use is kept. -/
def saveStable (cap : Nat) (ner : Nat) (er : List Er) : Option (List Nat) :=
  iter ner (fun i mer => do
    let e ← rd er i
    if e.maxStable then if mer.length < cap then some (mer ++ [e.index]) else none
    else some mer) []

/-- What `vl_mser_process` leaves in the filter. -/
structure Out where
  perm : List Nat
  joins : List Nat
  r : List Reg
  er : List Er
  ner : Nat
  mer : List Nat
  nextremal : Nat
  nunstable : Int
  counts : Counts

/-- The number of pixels, vl/mser.c:340-347. -/
def numPixels (dims : List Nat) : Nat := dims.foldl (fun s d => s * d) 1

/-- `vl_mser_process`, vl/mser.c:418-874, on a filter of dimensions `dims`.  `perm` and `r` are the buffers of the filter, `erBuf n` the array of extremal regions once it has been enlarged
for `n` regions (vl/mser.c:655-660); the array of the result is enlarged to the number of regions (vl/mser.c:860-865). -/
def process (P : Params) (dims im : List Nat) (perm : List Nat) (r : List Reg) (erBuf : Nat → List Er) : Option Out := do
  let nel := numPixels dims
  let strides := Erfill.stridesFrom 1 dims
  let perm ← sortPixels im nel perm
  let r ← initForest nel r
  let s ← grow im dims strides nel perm r nel
  let nextremal := s.ner + 1
  let (r, er, ner) ← extract im nel perm s.r (erBuf nextremal)
  let er ← link r ner er
  let er ← variations P.delta ner er
  let (er, n) ← selectStable ner er
  let (er, c) ← filterStable P nel ner er n
  if c.nmer < 0 then none else do
  let mer ← saveStable c.nmer.toNat ner er
  pure { perm := perm, joins := s.joins, r := r, er := er, ner := ner, mer := mer, nextremal := nextremal, nunstable := (ner : Int) - n, counts := c }

/-! ### Ellipsoids -/

/-- `adv`, vl/mser.c:236-244. -/
def adv : List Nat → List Nat → List Nat
  | d :: dims, s :: subs => if s + 1 < d then (s + 1) :: subs else 0 :: adv dims subs
  | _, subs => subs

/-- The loop that maps a degree of freedom to a pair of coordinates, vl/mser.c:944-949 and 987-992. -/
def pairOf : Nat → Nat → Nat → Option (Nat × Nat)
  | 0, _, _ => none
  | fuel + 1, i, j => if i > j then pairOf fuel (i - (j + 1)) (j + 1) else some (i, j)

/-- The initialization of the accumulators for the degree of freedom `d`, vl/mser.c:928-955: the accumulators. -/
def fillAcc (dims : List Nat) (nel d : Nat) (acc : List ℚ) : Option (List ℚ) :=
  let ndims := dims.length
  if d < ndims then do
    let st ← iter nel (fun index (st : List ℚ × List Nat) => do
      let x ← rd st.2 d
      let acc ← wr st.1 index (x : ℚ)
      pure (acc, adv dims st.2)) (acc, List.replicate ndims 0)
    pure st.1
  else do
    let (i, j) ← pairOf (d - ndims + 1) (d - ndims) 0
    let st ← iter nel (fun index (st : List ℚ × List Nat) => do
      let x ← rd st.2 i
      let y ← rd st.2 j
      let acc ← wr st.1 index (x * y : ℚ)
      pure (acc, adv dims st.2)) (acc, List.replicate ndims 0)
    pure st.1

/-- The integration, vl/mser.c:958-962. -/
def integrate (joins : List Nat) (r : List Reg) (acc : List ℚ) : Option (List ℚ) :=
  iter joins.length (fun i acc => do
    let index ← rd joins i
    let x ← rd r index
    let p ← rd acc x.parent
    let a ← rd acc index
    wr acc x.parent (p + a)) acc

/-- The moments of the regions, vl/mser.c:925-970: the accumulators and the ellipsoids. -/
def moments (dims : List Nat) (nel dof : Nat) (joins : List Nat) (r : List Reg) (mer : List Nat) (acc ell : List ℚ) : Option (List ℚ × List ℚ) :=
  iter dof (fun d st => do
    let acc ← fillAcc dims nel d st.1
    let acc ← integrate joins r acc
    let ell ← iter mer.length (fun i ell => do
      let idx ← rd mer i
      let a ← rd acc idx
      wr ell (d + dof * i) a) st.2
    pure (acc, ell)) (acc, ell)

/-- The central moments, vl/mser.c:976-998; the area of a region is not zero. -/
def central (dims : List Nat) (dof : Nat) (r : List Reg) (mer : List Nat) (ell : List ℚ) : Option (List ℚ) :=
  let ndims := dims.length
  iter mer.length (fun index ell => do
    let idx ← rd mer index
    let x ← rd r idx
    if x.area = 0 then none else
    iter dof (fun d ell => do
      let a ← rd ell (index * dof + d)
      let ell ← wr ell (index * dof + d) (a / (x.area : ℚ))
      if d ≥ ndims then do
        let (i, j) ← pairOf (d - ndims + 1) (d - ndims) 0
        let a ← rd ell (index * dof + d)
        let b ← rd ell (index * dof + i)
        let c ← rd ell (index * dof + j)
        wr ell (index * dof + d) (a - b * c)
      else some ell) ell) ell

/-- `vl_mser_ell_fit`, vl/mser.c:885-1002, after `vl_mser_process`: `ell` and `acc` are the buffers once they have been enlarged, vl/mser.c:907-916. -/
def ellFit (dims : List Nat) (o : Out) (acc ell : List ℚ) : Option (List ℚ) := do
  let ndims := dims.length
  let dof := ndims * (ndims + 1) / 2 + ndims
  if o.mer.length = 0 then some ell else do
  let (_, ell) ← moments dims (numPixels dims) dof o.joins o.r o.mer acc ell
  central dims dof o.r o.mer ell

end Verif.Mser
