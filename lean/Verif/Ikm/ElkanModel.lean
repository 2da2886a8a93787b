import Verif.Ikm.TrainModel
import Verif.Isqrt.Model

/-!
# Model of the accelerated training of integer k-means

vl/ikmeans_elkan.tc.  Signed 32-bit arithmetic as in `Verif.Ikm.Model`.
-/

namespace Verif.Ikm

/-- `vl_fast_sqrt_ui64` applied to a value of type `vl_ikmacc_t`, which is converted to 64 bits without sign. -/
def sqrt64 (x : Int) : Int := ((Verif.Isqrt.sqrtUi64 (BitVec.ofInt 64 x)).toNat : Int)

/-- Conversion of a 64-bit number without sign to `vl_ikmacc_t`: the low 32 bits, with sign. -/
def toAcc (z : Int) : Int := Int.bmod z 4294967296

/-- The lower bound after the centre has moved by `dist`, vl/ikmeans_elkan.tc:190-194. -/
def lowerBound (l dist : Int) : Option Int :=
  if dist < l then do
    let s ← i32 (l + dist)
    some (toAcc (s - 2 * (sqrt64 l + 1) * (sqrt64 dist + 1)))
  else some 0

/-- The upper bound after the centre has moved by `dist`, vl/ikmeans_elkan.tc:200. -/
def upperBound (u dist : Int) : Option Int := do
  let s ← i32 (u + dist)
  some (toAcc (s + 2 * (sqrt64 u + 1) * (sqrt64 dist + 1)))

/-! ## First assignment -/

/-- One of the other centres, vl/ikmeans_elkan.tc:105-124; the state is `l_pt`, `cx` and `best_dist`. -/
def firstStep (centers inter : List Int) (data : List UInt8) (M K N x c : Nat) (s : List Int × Nat × Int) :
    Option (List Int × Nat × Int) := do
  let h ← rd inter (K * s.2.1 + c)
  if h < s.2.2 then do
    let d ← distLoop centers data M (x * M) c
    let l ← wr s.1 (N * c + x) d
    if d < s.2.2 then some (l, c, d) else some (l, s.2.1, s.2.2)
  else some s

/-- The bounds and the assignments: `l_pt`, `u_pt`, `r_pt` and `asgn`. -/
structure Bounds where
  l : List Int
  u : List Int
  r : List Bool
  asgn : List Nat

/-- One datum, vl/ikmeans_elkan.tc:91-128. -/
def firstOne (centers inter : List Int) (data : List UInt8) (M K N x : Nat) (s : Bounds) : Option Bounds := do
  let d ← distLoop centers data M (x * M) 0
  let l ← wr s.l x d
  let t ← iter (K - 1) (fun c t => firstStep centers inter data M K N x (c + 1) t) (l, 0, d)
  let asgn ← wr s.asgn x (t.2.1 % 4294967296)
  let u ← wr s.u x t.2.2
  some ⟨t.1, u, s.r, asgn⟩

/-! ## Update of the bounds -/

/-- The centre `c` is replaced by its mean; the distance between the two, vl/ikmeans_elkan.tc:176-182. -/
def moveCenter (m : List Int) (M c : Nat) (centers : List Int) : Option (List Int × Int) :=
  iter M (fun i s => do
    let a ← rd m (c * M + i)
    let b ← rd s.1 (c * M + i)
    let cs ← wr s.1 (c * M + i) a
    let d ← accStep a b s.2
    some (cs, d)) (centers, 0)

/-- The upper bound of a datum assigned to `c`, vl/ikmeans_elkan.tc:197-203. -/
def raiseUpper (c a x : Nat) (dist : Int) (s : Bounds) : Option Bounds :=
  if c = a then do
    let u ← rd s.u x
    let u' ← upperBound u dist
    let us ← wr s.u x u'
    let rs ← wr s.r x true
    some { s with u := us, r := rs }
  else some s

/-- The bounds of one datum, vl/ikmeans_elkan.tc:183-204. -/
def boundStep (N c : Nat) (dist : Int) (x : Nat) (s : Bounds) : Option Bounds := do
  let v ← rd s.l (c * N + x)
  let a ← rd s.asgn x
  let v' ← lowerBound v dist
  let l ← wr s.l (c * N + x) v'
  raiseUpper c a x dist { s with l := l }

/-- All centres, vl/ikmeans_elkan.tc:173-205. -/
def updateBounds (m : List Int) (M K N : Nat) (centers : List Int) (s : Bounds) : Option (List Int × Bounds) :=
  iter K (fun c t => do
    let r ← moveCenter m M c t.1
    let b ← iter N (boundStep N c r.2) t.2
    some (r.1, b)) (centers, s)

/-! ## Closest centres -/

/-- The entry of the closest of the other centres, vl/ikmeans_elkan.tc:224-228. -/
def closestOne (inter : List Int) (K c : Nat) : Option Int :=
  iter K (fun cp best => do
    let d ← rd inter (c * K + cp)
    if c ≠ cp ∧ d < best then some d else some best) accMax

/-- `s_pt`, vl/ikmeans_elkan.tc:223-230. -/
def closest (inter : List Int) (K : Nat) (s : List Int) : Option (List Int) :=
  iter K (fun c s => do
    let b ← closestOne inter K c
    wr s c (b >>> 2)) s

/-! ## Assignments -/

/-- The state of a pass over the data: the bounds, `ux` and `done`. -/
structure Pass where
  b : Bounds
  ux : Int
  done : Bool

/-- `ux <= l_pt[N * c + x] || ux <= d_pt[f->K * c + cx]`, vl/ikmeans_elkan.tc:259-260 and 277-278. -/
def excluded (inter : List Int) (K N x cx c : Nat) (s : Pass) : Option Bool := do
  let v ← rd s.b.l (N * c + x)
  if s.ux ≤ v then some true
  else do
    let h ← rd inter (K * c + cx)
    some (decide (s.ux ≤ h))

/-- The upper bound is computed again if it is stale, and the tests repeated, vl/ikmeans_elkan.tc:267-280; the second component says that
the centre is excluded. -/
def refresh (centers inter : List Int) (data : List UInt8) (M K N x cx c : Nat) (stale : Bool) (s : Pass) : Option (Pass × Bool) :=
  if stale then do
    let d ← distLoop centers data M (x * M) cx
    let u ← wr s.b.u x d
    let r ← wr s.b.r x false
    let s' : Pass := { s with b := { s.b with u := u, r := r }, ux := d }
    let e ← excluded inter K N x cx c s'
    some (s', e)
  else some (s, false)

/-- The distance to centre `c`, and the new assignment if it is less, vl/ikmeans_elkan.tc:284-297.  `cx` is not changed. -/
def compareTo (centers : List Int) (data : List UInt8) (M N x c : Nat) (s : Pass) : Option Pass := do
  let d ← distLoop centers data M (x * M) c
  let l ← wr s.b.l (N * c + x) d
  if d < s.ux then do
    let u ← wr s.b.u x d
    let asgn ← wr s.b.asgn x (c % 4294967296)
    some ⟨⟨l, u, s.b.r, asgn⟩, d, false⟩
  else some { s with b := { s.b with l := l } }

/-- One centre, vl/ikmeans_elkan.tc:249-298. -/
def passStep (centers inter : List Int) (data : List UInt8) (M K N x cx c : Nat) (s : Pass) : Option Pass :=
  if c = cx then some s
  else do
    let e ← excluded inter K N x cx c s
    if e then some s
    else do
      let stale ← rd s.b.r x
      let t ← refresh centers inter data M K N x cx c stale s
      if t.2 then some t.1
      else compareTo centers data M N x c t.1

/-- One datum, vl/ikmeans_elkan.tc:238-299. -/
def passOne (centers inter near : List Int) (data : List UInt8) (M K N x : Nat) (s : Bounds × Bool) : Option (Bounds × Bool) := do
  let cx ← rd s.1.asgn x
  let ux ← rd s.1.u x
  let h ← rd near cx
  if ux ≤ h then some s
  else do
    let t ← iter K (passStep centers inter data M K N x cx) ⟨s.1, ux, s.2⟩
    some (t.b, t.done)

/-! ## Training -/

/-- Result of the training: centres, table of the distances of the centres, last assignments, and whether these did not change in the
last pass. -/
structure TrainedElkan where
  centers : List Int
  inter : List Int
  asgn : List Nat
  done : Bool
  deriving DecidableEq

/-- One pass, vl/ikmeans_elkan.tc:136-299; the means (137-164) and the distances of the centres (208-220) are computed by the same loops
as in `trainUpdate` and `updateInterDist`.  The result is the centres, the table, the bounds, `done`, `s_pt` and `counts`. -/
def elkanPass (data : List UInt8) (M K N : Nat) (centers inter near : List Int) (counts : List Nat) (b : Bounds) :
    Option (List Int × List Int × (Bounds × Bool) × List Int × List Nat) := do
  let m ← trainUpdate data M K N b.asgn counts
  let t ← updateBounds m.1 M K N centers b
  let inter ← updateInterDist t.1 M K inter
  let near ← closest inter K near
  let r ← iter N (passOne t.1 inter near data M K N) (t.2, true)
  some (t.1, inter, r, near, m.2)

/-- Passes, vl/ikmeans_elkan.tc:134-305, `n` of them left after this one. -/
def elkanLoop (data : List UInt8) (M K N : Nat) : Nat → List Int → List Int → List Int → List Nat → Bounds → Option TrainedElkan
  | n, centers, inter, near, counts, b => do
    let p ← elkanPass data M K N centers inter near counts b
    if p.2.2.1.2 then some ⟨p.1, p.2.1, p.2.2.1.1.asgn, true⟩
    else match n with
      | 0 => some ⟨p.1, p.2.1, p.2.2.1.1.asgn, false⟩
      | n + 1 => elkanLoop data M K N n p.1 p.2.1 p.2.2.2.1 p.2.2.2.2 p.2.2.1.1

/-- `vl_ikm_train_elkan`, vl/ikmeans_elkan.tc:62-319; `ga`, `gs` and `gc` are what `asgn`, `s_pt` and `counts`, of `N`, `K` and `N`
entries, contain when allocated, `inter` what the table contains before. -/
def trainElkan (data : List UInt8) (M K N maxIters : Nat) (centers inter : List Int) (ga : List Nat) (gs : List Int) (gc : List Nat) :
    Option TrainedElkan := do
  let inter ← updateInterDist centers M K inter
  let b ← iter N (firstOne centers inter data M K N)
    ⟨List.replicate (N * K) 0, List.replicate N 0, List.replicate N false, ga⟩
  elkanLoop data M K N maxIters centers inter gs gc b

end Verif.Ikm
