import Verif.Covdet.ExtremaModel
import Verif.Imop.GradModel
import Verif.Imop.ConvModel

set_option linter.unusedSectionVars false

/-!
# Model of the responses of the covariant detector

Numbers are elements of an ordered field; rounding is not modelled.  `factor` is `pow(sigma/step, 4)`.
-/

namespace Verif.Covdet

variable {K : Type} [Field K] [LinearOrder K]

/-- The output, the pointers `in` and `out`, and the registers of `_vl_det_hessian_response`. -/
structure HessSt (K : Type) where
  mem : List K
  inp : Int
  out : Int
  p11 : K
  p12 : K
  p21 : K
  p22 : K
  p31 : K
  p32 : K

/-- One pixel, vl/covdet.c:1785-1808. -/
def hessPixel (factor : K) (img : List K) (w : Nat) (s : HessSt K) : Option (HessSt K) := do
  let p13 ← rdI img (s.inp - w)
  let p23 ← rdI img s.inp
  let p33 ← rdI img (s.inp + w)
  let lxx := - s.p21 + 2 * s.p22 - p23
  let lyy := - s.p12 + 2 * s.p22 - s.p32
  let lxy := (s.p11 - s.p31 - p13 + p33) / 4
  let mem ← wrI s.mem s.out ((lxx * lyy - lxy * lxy) * factor)
  some ⟨mem, s.inp + 1, s.out + 1, s.p12, p13, s.p22, p23, s.p32, p33⟩

/-- One row, vl/covdet.c:1777-1811; the state is the output with the two pointers. -/
def hessRow (factor : K) (img : List K) (w : Nat) (st : List K × Int × Int) : Option (List K × Int × Int) := do
  let inp := st.2.1
  let p11 ← rdI img (inp - w)
  let p12 ← rdI img (inp + 1 - w)
  let p21 ← rdI img inp
  let p22 ← rdI img (inp + 1)
  let p31 ← rdI img (inp + w)
  let p32 ← rdI img (inp + 1 + w)
  let s ← iter (w - 2) (fun _ s => hessPixel factor img w s) ⟨st.1, inp + 2, st.2.2, p11, p12, p21, p22, p31, p32⟩
  some (s.mem, s.inp, s.out + 2)

/-- `*dst = *src` -/
def copy1 (mem : List K) (dst src : Int) : Option (List K) := do
  let v ← rdI mem src
  wrI mem dst v

/-- `memcpy` of `n` elements within the output; the blocks that the code copies do not overlap. -/
def copyN (mem : List K) (dst src : Int) (n : Nat) : Option (List K) := iter n (fun k mem => copy1 mem (dst + k) (src + k)) mem

/-- `_vl_det_hessian_response`, vl/covdet.c:1759-1837; the image has at least two columns and rows, so that `width - 2` and `height - 1` do not wrap around. -/
def detHessian (factor : K) (mem img : List K) (w h : Nat) : Option (List K) := do
  let st ← iter (h - 2) (fun _ st => hessRow factor img w st) (mem, (w : Int), 1 + (w : Int))
  let inp : Int := w + 1
  let out : Int := 1
  let mem ← copyN st.1 out inp (w - 2)
  let out := out - 1
  let inp := inp - w
  let r ← iter (h - 1) (fun _ (s : List K × Int × Int) => do
    let mem ← copy1 s.1 s.2.2 s.2.1
    let mem ← copy1 mem (s.2.2 + w - 1) (s.2.1 + w - 3)
    some (mem, s.2.1 + w, s.2.2 + w)) (mem, inp, out)
  let inp := r.2.1 - w
  let out := r.2.2
  let mem ← copy1 r.1 out inp
  let mem ← copy1 mem (out + w - 1) (inp + w - 3)
  copyN mem (out + 1) inp (w - 2)

/-- `_vl_dog_response`, vl/covdet.c:1911-1921. -/
def dogResponse (mem level1 level2 : List K) (w h : Nat) : Option (List K) :=
  iter (w * h) (fun k mem => do
    let a ← rd level2 k
    let b ← rd level1 k
    wr mem k (a - b)) mem

/-- `_vl_harris_response`, vl/covdet.c:1850-1901; `filt` is the smoothing filter of `2 * n + 1` samples for `sigmaI / step`, `jx`, `jy`, `jxy` and `jb` are the contents of the new blocks and of the buffers of `vl_imsmooth_f`. -/
def harris (factor alpha : K) (filt : List K) (n : Nat) (jx jy jxy jb : List K) (mem img : List K) (w h : Nat) : Option (List K) := do
  let g ← Imop.imgradient (fun gx _ => gx) (fun _ gy => gy) jx jy 1 w img w h w
  let p ← iter (w * h) (fun k (s : List K × List K × List K) => do
    let dx ← rd s.1 k
    let dy ← rd s.2.1 k
    let xx ← wr s.1 k (dx * dx)
    let yy ← wr s.2.1 k (dy * dy)
    let xy ← wr s.2.2 k (dx * dy)
    some (xx, yy, xy)) (g.1, g.2, jxy)
  let xx ← Imop.imsmooth p.1 w p.1 w h w filt n filt n jb
  let yy ← Imop.imsmooth p.2.1 w p.2.1 w h w filt n filt n jb
  let xy ← Imop.imsmooth p.2.2 w p.2.2 w h w filt n filt n jb
  iter (w * h) (fun k mem => do
    let a ← rd xx k
    let b ← rd yy k
    let c ← rd xy k
    let determinant := a * b - c * c
    let trace := a + b
    wr mem k (factor * (determinant - alpha * (trace * trace)))) mem

/-- `VlCovDetMethod`, vl/covdet.h:161-170. -/
inductive Method where
  | dog
  | hessian
  | hessianLaplace
  | harrisLaplace
  | multiscaleHessian
  | multiscaleHarris
  deriving DecidableEq

/-- The methods that search in space and scale, vl/covdet.c:2018-2020. -/
def Method.joint : Method → Bool
  | .dog | .hessian => true
  | _ => false

/-- Level `s` of an octave whose levels have `n` pixels, vl/scalespace.c:390-402. -/
def levelOf (data : List K) (n s : Nat) : List K := (data.drop (s * n)).take n

/-- What a level needs besides the images: the factor, and the filter of the integration scale with its width. -/
structure LevelPar (K : Type) where
  factor : K
  filt : List K
  width : Nat

/-- The contents of the new blocks in `_vl_harris_response` -/
structure HarrisJunk (K : Type) where
  jx : List K
  jy : List K
  jxy : List K
  jb : List K

/-- The response of one level, vl/covdet.c:1973-2000; `gss` is the octave of the Gaussian scale space. -/
def respLevel (m : Method) (junk : HarrisJunk K) (par : LevelPar K) (gss : List K) (w h s : Nat) (clevel : List K) : Option (List K) :=
  match m with
  | .dog => dogResponse clevel (levelOf gss (w * h) (s + 1)) (levelOf gss (w * h) s) w h
  | .harrisLaplace | .multiscaleHarris => harris par.factor (5 / 100) par.filt par.width junk.jx junk.jy junk.jxy junk.jb clevel (levelOf gss (w * h) s) w h
  | .hessian | .hessianLaplace | .multiscaleHessian => detHessian par.factor clevel (levelOf gss (w * h) s) w h

/-- The responses of one octave of `depth` levels, vl/covdet.c:1970-2002; `css` is the octave of the response, of which the model hands over one level at a time as a block of its own. -/
def respOctave (m : Method) (junk : HarrisJunk K) (par : Nat → LevelPar K) (gss : List K) (w h depth : Nat) (css : List K) : Option (List K) :=
  iter depth (fun s css => do
    let l ← respLevel m junk (par s) gss w h s (levelOf css (w * h) s)
    some (css.take (s * (w * h)) ++ l ++ css.drop ((s + 1) * (w * h)))) css

end Verif.Covdet
