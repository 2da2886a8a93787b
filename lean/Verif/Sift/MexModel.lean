import Verif.Sift.OctaveModel
import Verif.Sift.DescrModel
import Verif.Loop

/-!
# Model of the MATLAB driver of SIFT

toolbox/sift/vl_sift.c.  `double` and `float` are `ℚ`.  The four numbers of a frame and the 128 of a descriptor are one element of their buffers.  The detector, the orientations and the
descriptors are functions of the octave given as parameters (they have their own models).  Parsing of the options and verbose output are not modelled.
-/

namespace Verif.Sift

/-- A frame as MATLAB sees it: the four rows of a column of `frames` and of `ikeys`. -/
structure MFrame where
  x : ℚ
  y : ℚ
  sigma : ℚ
  theta : ℚ
deriving DecidableEq

/-- `transpose_descriptor`, toolbox/sift/vl_sift.c:68-86. -/
def transposeDescr {α : Type} (dst src : List α) : Option (List α) :=
  iter 4 (fun j dst => iter 4 (fun i dst => do
    let v ← rd src (8 * i + 32 * j)
    let dst ← wr dst (8 * i + 32 * (4 - 1 - j)) v
    iter 7 (fun t dst => do
      let v ← rd src ((t + 1) + (8 * i + 32 * j))
      wr dst (8 - (t + 1) + (8 * i + 32 * (4 - 1 - j))) v) dst) dst) dst

/-- `korder`, toolbox/sift/vl_sift.c:98-104. -/
def korder (a b : MFrame) : Int :=
  let x := a.sigma - b.sigma
  if x < 0 then -1 else if x > 0 then 1 else 0

/-- `check_sorted`, toolbox/sift/vl_sift.c:116-127. -/
def checkSorted : List MFrame → Bool
  | a :: b :: l => if korder a b > 0 then false else checkSorted (b :: l)
  | _ => true

/-- The frames of the option, toolbox/sift/vl_sift.c:247-249; `qsort` is the library function with the comparison `korder`. -/
def sourceFrames (qsort : List MFrame → List MFrame) (l : List MFrame) : List MFrame := if checkSorted l then l else qsort l

/-- What the driver uses: the operations on octaves, `log2 ((sigma + VL_EPSILON_D) / sigma0)`, the powers of two, π/2, the detector, the orientations, the descriptors, the content of
fresh memory; `Orientations`, `nout > 1` and `FloatDescriptors`.  `descr` is `none` when `vl_sift_calc_keypoint_descriptor` returns at the check of the bounds, vl/sift.c:1976-1984: it leaves
`buf`, a variable of the block without a value, as it is, and the driver reads it. -/
structure MexCfg where
  ops : Ops
  phi : ℚ → ℚ
  xper : Int → ℚ
  halfPi : ℚ
  detect : Int → List (List ℚ) → List Keypoint
  orient : Int → List (List ℚ) → Keypoint → List ℚ
  descr : Int → List (List ℚ) → Keypoint → ℚ → Option (List ℚ)
  junkF : MFrame
  junkD : List ℚ
  rbuf : List ℚ
  force : Bool
  want : Bool
  float : Bool

/-- The buffers `frames` and `descr`, both of `reserved` elements, and `nframes`. -/
structure MexOut where
  frames : List MFrame
  descr : List (List ℚ)
  n : Nat

/-- The element of a descriptor as it is saved, toolbox/sift/vl_sift.c:421-432; a `float` below zero has no value as a `vl_uint8`. -/
def saveElt (float : Bool) (r : ℚ) : Option ℚ :=
  let x := 512 * r
  if float then some x
  else
    let x := if x < 255 then x else 255
    if x ≤ -1 then none else some (trunc x)

/-- Room for one more, toolbox/sift/vl_sift.c:400-411. -/
def MexOut.grow (c : MexCfg) (nkeys : Nat) (st : MexOut) : MexOut :=
  if st.frames.length < st.n + 1 then
    { st with frames := st.frames ++ List.replicate (2 * nkeys) c.junkF
              descr := if c.want then st.descr ++ List.replicate (2 * nkeys) c.junkD else st.descr }
  else st

/-- The descriptor, toolbox/sift/vl_sift.c:394-398 and 420-433. -/
def saveDescr (c : MexCfg) (o : Int) (oct : List (List ℚ)) (k : Keypoint) (angle : ℚ) (n : Nat) (descr : List (List ℚ)) : Option (List (List ℚ)) :=
  if c.want then do
    let buf ← c.descr o oct k angle
    let rbuf ← transposeDescr c.rbuf buf
    let row ← rbuf.mapM (saveElt c.float)
    wr descr n row
  else some descr

/-- One orientation of a keypoint, toolbox/sift/vl_sift.c:389-436. -/
def emit (c : MexCfg) (nkeys : Nat) (o : Int) (oct : List (List ℚ)) (k : Keypoint) (angle : ℚ) (st : MexOut) : Option MexOut := do
  let st := st.grow c nkeys
  let frames ← wr st.frames st.n ⟨k.y + 1, k.x + 1, k.sigma, c.halfPi - angle⟩
  let descr ← saveDescr c o oct k angle st.n st.descr
  some ⟨frames, descr, st.n + 1⟩

/-- The orientations of a keypoint of the user, toolbox/sift/vl_sift.c:375-382. -/
def userAngles (c : MexCfg) (f : Filt) (k : Keypoint) (fr : MFrame) : List ℚ := if c.force then c.orient f.oCur f.octave k else [c.halfPi - fr.theta]

/-- The loop on the frames of the user in one octave, from frame `i` on, toolbox/sift/vl_sift.c:356-437; the first argument is the number of frames left. -/
def userLoop (c : MexCfg) (f : Filt) (ikeys : List MFrame) : Nat → Nat → MexOut → Option (Nat × MexOut)
  | 0, i, st => some (i, st)
  | m + 1, i, st => do
    let fr ← rd ikeys i
    let k ← keypointInit c.xper (-1) (f.S + 1) f.oMin f.O f.S (c.phi fr.sigma) (fr.y - 1) (fr.x - 1) fr.sigma
    if k.o ≠ f.oCur then some (i, st)
    else do
      let st ← (userAngles c f k fr).foldlM (fun st a => emit c ikeys.length f.oCur f.octave k a st) st
      userLoop c f ikeys m (i + 1) st

/-- The loop on the keypoints detected in one octave, toolbox/sift/vl_sift.c:340-346, 356-437. -/
def detectLoop (c : MexCfg) (f : Filt) (st : MexOut) : Option MexOut :=
  let keys := c.detect f.oCur f.octave
  keys.foldlM (fun st k => (c.orient f.oCur f.octave k).foldlM (fun st a => emit c keys.length f.oCur f.octave k a st) st) st

/-- One octave, toolbox/sift/vl_sift.c:340-437. -/
def mexOctave (c : MexCfg) (f : Filt) (ikeys : Option (List MFrame)) (i : Nat) (st : MexOut) : Option (Nat × MexOut) :=
  match ikeys with
  | some l => userLoop c f l (l.length - i) i st
  | none => (detectLoop c f st).map fun st => (0, st)

/-- The loop on the octaves after the first call, toolbox/sift/vl_sift.c:315-438; the first argument bounds the number of rounds. -/
def mexOctaves (c : MexCfg) (ikeys : Option (List MFrame)) : Nat → Filt → Nat → MexOut → Option MexOut
  | 0, _, _, _ => none
  | m + 1, f, i, st => do
    let s ← mexOctave c f ikeys i st
    match processNext c.ops f with
    | (.eof, _) => some s.2
    | (.ok, f) => mexOctaves c ikeys m f s.1 s.2

/-- The driver, toolbox/sift/vl_sift.c:312-479: the columns of the outputs. -/
def mexSift (c : MexCfg) (rounds : Nat) (f : Filt) (im : List ℚ) (ikeys : Option (List MFrame)) : Option (List MFrame × List (List ℚ)) := do
  let st ← match processFirst c.ops f im with
    | (.eof, _) => some ⟨[], [], 0⟩
    | (.ok, f) => mexOctaves c ikeys rounds f 0 ⟨[], [], 0⟩
  some (st.frames.take st.n, st.descr.take st.n)

end Verif.Sift
