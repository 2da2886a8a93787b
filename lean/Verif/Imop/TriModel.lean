import Verif.Imop.ConvModel

/-!
# Model of the triangular filter (vl/imopv.c:510-592, `vl_imconvcoltri_{f,d}`)

`buf` is the block of `imageHeight + filterSize` elements; the C variable `buffer` points `filterSize` elements after its
beginning (vl/imopv.c:523), so the C expression `buffer[y]` is the entry `y + filterSize` of `buf`.
-/

namespace Verif.Imop

variable {K : Type} [Field K]

/-- Variables of one column: the moving pointer `imagei` and the buffer. -/
structure TriSt (K : Type) where
  imagei : Int
  buf : List K

/-- Backward integration, rows `h - 2` to `0`, vl/imopv.c:546-549; iteration `k` handles `y = h - 2 - k`. -/
def triBack (image : List K) (h stride fs : Nat) (k : Nat) (s : TriSt K) : Option (TriSt K) := do
  let y : Int := (h : Int) - 2 - k
  let imagei := s.imagei - stride
  let b ← rdI s.buf (y + 1 + fs)
  let v ← rdI image imagei
  let buf ← wrI s.buf (y + fs) (b + v)
  some { imagei := imagei, buf := buf }

/-- Padding rows `-1` to `-filterSize`, vl/imopv.c:550-558; iteration `k` handles `y = -1 - k`. -/
def triPad (image : List K) (fs : Nat) (zeropad : Bool) (k : Nat) (s : TriSt K) : Option (TriSt K) := do
  let y : Int := -1 - (k : Int)
  let b ← rdI s.buf (y + 1 + fs)
  let v ← (if zeropad then some 0 else rdI image s.imagei)
  let buf ← wrI s.buf (y + fs) (b + v)
  some { s with buf := buf }

/-- `buffer[y] = buffer[y] - buffer[y + filterSize]`, vl/imopv.c:561-564; iteration `k` handles `y = -filterSize + k`. -/
def triDiff (fs : Nat) (k : Nat) (buf : List K) : Option (List K) := do
  let y : Int := -(fs : Int) + k
  let a ← rdI buf (y + fs)
  let b ← rdI buf (y + fs + fs)
  wrI buf (y + fs) (a - b)

/-- Boundary rows with padding by continuity, vl/imopv.c:565-572; iteration `k` handles `y = h - filterSize + k`. -/
def triEdge (h fs : Nat) (k : Nat) (buf : List K) : Option (List K) := do
  let y : Int := (h : Int) - fs + k
  let a ← rdI buf (y + fs)
  let b ← rdI buf ((h : Int) - 1 + fs)
  wrI buf (y + fs) (a - b * (((h : Int) - fs - y : Int) : K))

/-- Forward integration, vl/imopv.c:575-578; iteration `k` handles `y = -filterSize + 1 + k`. -/
def triFwd (fs : Nat) (k : Nat) (buf : List K) : Option (List K) := do
  let y : Int := -(fs : Int) + 1 + k
  let a ← rdI buf (y + fs)
  let b ← rdI buf (y - 1 + fs)
  wrI buf (y + fs) (a + b)

/-- Final differences, vl/imopv.c:584-587; iteration `k` handles `y = step * (dheight - 1 - k)`. -/
def triOut (buf : List K) (h fs step destStride : Nat) (transp : Bool) (scale : K) (k : Nat) (s : DstSt K) :
    Option (DstSt K) := do
  let y : Int := (step : Int) * (dheight h step - 1) - (k : Int) * step
  let dest := s.dst - (if transp then (1 : Int) else destStride)
  let a ← rdI buf (y + fs)
  let b ← rdI buf (y - fs + fs)
  let mem ← wrI s.mem dest (scale * (a - b))
  some { dst := dest, mem := mem }

/-- The content of the buffer before the final differences, vl/imopv.c:533-578. -/
def triBuffer (image : List K) (h stride fs : Nat) (zeropad : Bool) (x : Nat) (buf : List K) : Option (List K) := do
  let imagei : Int := (x : Int) + stride * ((h : Int) - 1)
  let v ← rdI image imagei
  let buf ← wrI buf ((h : Int) - 1 + fs) v
  let s ← iter (h - 1) (triBack image h stride fs) { imagei := imagei, buf := buf }
  let s ← iter fs (triPad image fs zeropad) s
  let buf ← iter h (triDiff fs) s.buf
  let buf ← (if zeropad then some buf else iter fs (triEdge h fs) buf)
  iter (h + fs - 1) (triFwd fs) buf

/-- One column, vl/imopv.c:533-590. -/
def triColumn (image : List K) (h stride fs step destStride : Nat) (transp zeropad : Bool) (x : Nat)
    (s : DstSt K × List K) : Option (DstSt K × List K) := do
  let scale : K := 1 / ((fs : K) * (fs : K))
  let buf ← triBuffer image h stride fs zeropad x s.2
  let st : Int := if transp then 1 else destStride
  let d ← iter (dheight h step) (triOut buf h fs step destStride transp scale)
    { s.1 with dst := s.1.dst + (dheight h step) * st }
  some ({ d with dst := d.dst + (if transp then (destStride : Int) else 1) }, buf)

/-- `vl_imconvcoltri_*`, vl/imopv.c:510-592; `buf` is the freshly allocated block.  (When `imageHeight` is 0 the C function
returns at once, without releasing the block.) -/
def imconvcoltri (dest : List K) (destStride : Nat) (image : List K) (w h stride fs step : Nat) (transp zeropad : Bool)
    (buf : List K) : Option (List K) :=
  if h = 0 then some dest
  else do
    let s ← iter w (triColumn image h stride fs step destStride transp zeropad) ({ dst := 0, mem := dest }, buf)
    some s.1.mem

end Verif.Imop
