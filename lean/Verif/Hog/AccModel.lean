import Verif.Hog.PermModel
import Verif.Sift.DescrModel
import Verif.Accum

/-!
# Model of the HOG features

vl/hog.c, from the image or the gradient field to the features, and the rendering.  `float` and `double` are rational numbers.  The square root, the arc cosine, the number pi and the orientation vectors
(vl/hog.c:195-204) are parameters.  `none` is a failed assertion, an access outside an array, a division by zero or a loop that does not end.
-/

namespace Verif.Hog

/-- The configuration of a HOG object, vl/hog.h:23-40, and the elementary functions it uses. -/
structure Cfg where
  variant : Variant
  O : Nat
  transposed : Bool
  bilinear : Bool
  ox : List ℚ
  oy : List ℚ
  sq : ℚ → ℚ
  acos : ℚ → ℚ
  pi : ℚ

/-- The buffers of a HOG object, vl/hog.h:42-46. -/
structure Bufs where
  hog : List ℚ
  norm : List ℚ
  w : Nat
  h : Nat

/-- `memset (l, 0, n * sizeof(float))`. -/
def zeroFill (l : List ℚ) (n : Nat) : Option (List ℚ) := iter n (fun i l => wr l i 0) l

/-- `vl_hog_prepare_buffers`, vl/hog.c:539-573; `old` is `none` when `self->hog` is null. -/
def prepare (O : Nat) (old : Option Bufs) (W H c : Nat) : Option Bufs := do
  if c = 0 then none else do
  let w := (W + c / 2) / c
  let h := (H + c / 2) / c
  assert' (W > 3)
  assert' (H > 3)
  assert' (w > 0)
  assert' (h > 0)
  match old with
  | some b =>
    if b.w = w ∧ b.h = h then do
      let hog ← zeroFill b.hog (w * h * O * 2)
      let norm ← zeroFill b.norm (w * h)
      pure { b with hog := hog, norm := norm }
    else pure { hog := List.replicate (w * h * O * 2) 0, norm := List.replicate (w * h) 0, w := w, h := h }
  | none => pure { hog := List.replicate (w * h * O * 2) 0, norm := List.replicate (w * h) 0, w := w, h := h }

/-- The gradient of the channel of largest gradient, vl/hog.c:626-646: the two components and the squared norm. -/
def maxGradient (im : List ℚ) (W H C x y : Nat) : Option (ℚ × ℚ × ℚ) :=
  iter C (fun k (g : ℚ × ℚ × ℚ) => do
    let i := y * W + x + k * (W * H)
    let a ← rd im (i + 1)
    let b ← rd im (i - 1)
    let c ← rd im (i + W)
    let d ← rd im (i - W)
    let gx := a - b
    let gy := c - d
    let n := gx * gx + gy * gy
    pure (if n > g.2.2 then (gx, gy, n) else g)) (0, 0, 0)

/-- `orientationWeights` and `orientationBins`. -/
structure Bins where
  w0 : ℚ
  w1 : ℚ
  b0 : Int
  b1 : Int

/-- The closest and second closest orientation bins, vl/hog.c:654-670. -/
def closest (E : Cfg) (gx gy : ℚ) : Option Bins :=
  iter E.O (fun k b => do
    let u ← rd E.ox k
    let v ← rd E.oy k
    let s := gx * u + gy * v
    let score := if s < 0 then -s else s
    let bin : Int := if s < 0 then k + E.O else k
    pure (if score > b.w0 then { w0 := score, w1 := b.w0, b0 := bin, b1 := b.b0 }
      else if score > b.w1 then { b with w1 := score, b1 := bin } else b)) { w0 := -1, w1 := -1, b0 := -1, b1 := -1 }

/-- The weights of the two bins, vl/hog.c:672-680. -/
def interpolate (E : Cfg) (norm : ℚ) (b : Bins) : Bins :=
  if E.bilinear then
    let angle := E.acos (min (b.w0 / max norm (1 / 10 ^ 10)) 1)
    let w1 := angle / (E.pi / E.O)
    { b with w1 := w1, w0 := 1 - w1 }
  else { b with w0 := 1, b1 := -1 }

/-- `at(x,y,k) += v`, vl/hog.c:613. -/
def atAdd (b : Bufs) (x y k : Int) (v : ℚ) : Option Bufs :=
  let i := x + y * b.w + k * (b.w * b.h : Nat)
  if i < 0 then none else do
  let hog ← addAt b.hog i.toNat v
  pure { b with hog := hog }

/-- `if (p) at(x,y,k) += v`, vl/hog.c:709-720. -/
def condAdd (p : Prop) [Decidable p] (b : Bufs) (x y k : Int) (v : ℚ) : Option Bufs := if p then atAdd b x y k v else some b

/-- The accumulation of a pixel in the four cells around it, vl/hog.c:695-720 and 810-837; `f` gives the increment from the weights of the cell in the two directions. -/
def splat (c x y : Nat) (k : Int) (f : ℚ → ℚ → ℚ) (b : Bufs) : Option Bufs := do
  let hx : ℚ := (x + 1 / 2) / c - 1 / 2
  let hy : ℚ := (y + 1 / 2) / c - 1 / 2
  let binx := Sift.vlFloor hx
  let biny := Sift.vlFloor hy
  let wx2 := hx - binx
  let wy2 := hy - biny
  let wx1 := 1 - wx2
  let wy1 := 1 - wy2
  let w : Int := b.w
  let h : Int := b.h
  let b ← condAdd (binx ≥ 0 ∧ biny ≥ 0) b binx biny k (f wx1 wy1)
  let b ← condAdd (binx < w - 1 ∧ biny ≥ 0) b (binx + 1) biny k (f wx2 wy1)
  let b ← condAdd (binx < w - 1 ∧ biny < h - 1) b (binx + 1) (biny + 1) k (f wx2 wy2)
  condAdd (binx ≥ 0 ∧ biny < h - 1) b binx (biny + 1) k (f wx1 wy2)

/-- The turns of the loop over the two orientations, vl/hog.c:682-721 and 798-838; `f` also receives the weight of the orientation. -/
def splatBin (c x y : Nat) (bin : Int) (ow : ℚ) (f : ℚ → ℚ → ℚ → ℚ) (b : Bufs) : Option Bufs := if bin < 0 then some b else splat c x y bin (f ow) b

/-- The processing of a pixel, vl/hog.c:618-721. -/
def putPixel (E : Cfg) (im : List ℚ) (W H C c x y : Nat) (b : Bufs) : Option Bufs := do
  let (gx, gy, n2) ← maxGradient im W H C x y
  let norm := E.sq n2
  let o ← closest E gx gy
  let o := interpolate E norm o
  let b ← splatBin c x y o.b0 o.w0 (fun ow wx wy => norm * ow * wx * wy) b
  splatBin c x y o.b1 o.w1 (fun ow wx wy => norm * ow * wx * wy) b

/-- `vl_hog_put_image`, vl/hog.c:595-724. -/
def putImage (E : Cfg) (old : Option Bufs) (im : List ℚ) (W H C c : Nat) : Option Bufs := do
  let b ← prepare E.O old W H c
  iter (H - 2) (fun ty => iter (W - 2) (fun tx => putPixel E im W H C c (tx + 1) (ty + 1))) b

/-- The loop at vl/hog.c:785. -/
def wrapUp (O : Nat) : Nat → Int → Option Int
  | 0, _ => none
  | fuel + 1, bin => if bin < 0 then wrapUp O fuel (bin + O * 2) else some bin

/-- The processing of a vector of the field, vl/hog.c:768-838. -/
def putVector (E : Cfg) (modulus angle : List ℚ) (directed : Bool) (W c x y : Nat) (b : Bufs) : Option Bufs := do
  let period : Int := E.O * (if directed then 2 else 1)
  let a ← rd angle (y * W + x)
  let m ← rd modulus (y * W + x)
  if m ≤ 0 then some b else do
  let ho := a / (E.pi / E.O)
  let bin := Sift.vlFloor ho
  let wo2 := ho - bin
  let wo1 := 1 - wo2
  let bin ← wrapUp E.O (bin.natAbs + 1) bin
  let o : Bins := if E.bilinear then { b0 := bin.tmod period, b1 := (bin + 1).tmod period, w0 := wo1, w1 := wo2 }
    else { b0 := (bin + (if wo1 > wo2 then 0 else 1)).tmod period, w0 := 1, b1 := -1, w1 := 0 }
  let b ← splatBin c x y o.b0 o.w0 (fun ow wx wy => m * (wx * ow) * (wy * ow)) b
  splatBin c x y o.b1 o.w1 (fun ow wx wy => m * (wx * ow) * (wy * ow)) b

/-- `vl_hog_put_polar_field`, vl/hog.c:742-841. -/
def putPolarField (E : Cfg) (old : Option Bufs) (modulus angle : List ℚ) (directed : Bool) (W H c : Nat) : Option Bufs := do
  let b ← prepare E.O old W H c
  iter H (fun y => iter W (fun x => putVector E modulus angle directed W c x y)) b

/-! ### Extraction -/

/-- The squared norms of the folded histograms, vl/hog.c:870-885. -/
def foldNorms (O : Nat) (b : Bufs) : Option (List ℚ) :=
  iter O (fun k norm => iter (b.w * b.h) (fun i norm => do
    let h1 ← rd b.hog (k * (b.w * b.h) + i)
    let h2 ← rd b.hog (k * (b.w * b.h) + i + b.w * b.h * O)
    let h := h1 + h2
    addAt norm i (h * h)) norm) b.norm

/-- `1.0 / x`. -/
def inverse (x : ℚ) : Option ℚ := if x = 0 then none else some (1 / x)

/-- The four factors of a cell, vl/hog.c:938-992. -/
def factors (E : Cfg) (norm : List ℚ) (w h x y : Nat) : Option (ℚ × ℚ × ℚ × ℚ) := do
  let xm := x - 1
  let xp := min (x + 1) (w - 1)
  let ym := y - 1
  let yp := min (y + 1) (h - 1)
  let n1 ← rd norm (xm + ym * w)
  let n2 ← rd norm (x + ym * w)
  let n3 ← rd norm (xp + ym * w)
  let n4 ← rd norm (xm + y * w)
  let n5 ← rd norm (x + y * w)
  let n6 ← rd norm (xp + y * w)
  let n7 ← rd norm (xm + yp * w)
  let n8 ← rd norm (x + yp * w)
  let n9 ← rd norm (xp + yp * w)
  let f1 ← inverse (E.sq (n1 + n2 + n4 + n5 + 1 / 10 ^ 4))
  let fa ← inverse (E.sq (n2 + n3 + n5 + n6 + 1 / 10 ^ 4))
  let fb ← inverse (E.sq (n4 + n5 + n7 + n8 + 1 / 10 ^ 4))
  let f4 ← inverse (E.sq (n5 + n6 + n8 + n9 + 1 / 10 ^ 4))
  pure (if E.transposed then (f1, fb, fa, f4) else (f1, fa, fb, f4))

/-- The features, and the accumulators `t1` to `t4`. -/
structure Ext where
  out : List ℚ
  t1 : ℚ
  t2 : ℚ
  t3 : ℚ
  t4 : ℚ

/-- The features of one orientation of a cell, vl/hog.c:994-1053. -/
def extractOrient (E : Cfg) (b : Bufs) (x y : Nat) (F : ℚ × ℚ × ℚ × ℚ) (k : Nat) (e : Ext) : Option Ext := do
  let s := b.w * b.h
  let ha ← rd b.hog (x + b.w * y + s * k)
  let hb ← rd b.hog (x + b.w * y + s * (k + E.O))
  let (f1, f2, f3, f4) := F
  let ha1 := f1 * ha
  let ha2 := f2 * ha
  let ha3 := f3 * ha
  let ha4 := f4 * ha
  let hb1 := f1 * hb
  let hb2 := f2 * hb
  let hb3 := f3 * hb
  let hb4 := f4 * hb
  let hc1 := min (1 / 5) (ha1 + hb1)
  let hc2 := min (1 / 5) (ha2 + hb2)
  let hc3 := min (1 / 5) (ha3 + hb3)
  let hc4 := min (1 / 5) (ha4 + hb4)
  let o := x + b.w * y + s * k
  let out ← match E.variant with
    | .uoctti => do
      let out ← wr e.out o (1 / 2 * (min (1 / 5) ha1 + min (1 / 5) ha2 + min (1 / 5) ha3 + min (1 / 5) ha4))
      let out ← wr out (o + s * E.O) (1 / 2 * (min (1 / 5) hb1 + min (1 / 5) hb2 + min (1 / 5) hb3 + min (1 / 5) hb4))
      wr out (o + 2 * s * E.O) (1 / 2 * (hc1 + hc2 + hc3 + hc4))
    | .dalalTriggs => do
      let out ← wr e.out o hc1
      let out ← wr out (o + s * E.O) hc2
      let out ← wr out (o + 2 * s * E.O) hc3
      wr out (o + 3 * s * E.O) hc4
  pure { out := out, t1 := e.t1 + hc1, t2 := e.t2 + hc2, t3 := e.t3 + hc3, t4 := e.t4 + hc4 }

/-- The features of a cell, vl/hog.c:938-1067. -/
def extractCell (E : Cfg) (b : Bufs) (x y : Nat) (out : List ℚ) : Option (List ℚ) := do
  let F ← factors E b.norm b.w b.h x y
  let e ← iter E.O (extractOrient E b x y F) { out := out, t1 := 0, t2 := 0, t3 := 0, t4 := 0 }
  match E.variant with
  | .uoctti => do
    let s := b.w * b.h
    let o := x + b.w * y + s * E.O + 2 * s * E.O
    let r ← inverse (E.sq 18)
    let out ← wr e.out o (r * e.t1)
    let out ← wr out (o + s) (r * e.t2)
    let out ← wr out (o + 2 * s) (r * e.t3)
    wr out (o + 3 * s) (r * e.t4)
  | .dalalTriggs => some e.out

/-- `vl_hog_extract`, vl/hog.c:853-1071: the buffers and the features. -/
def extract (E : Cfg) (b : Bufs) (out : List ℚ) : Option (Bufs × List ℚ) := do
  let norm ← foldNorms E.O b
  let b := { b with norm := norm }
  let out ← iter b.h (fun y => iter b.w (fun x => extractCell E b x y)) out
  pure (b, out)

end Verif.Hog
