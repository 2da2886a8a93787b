import Verif.Base
import Verif.Loop
import Verif.Pgm.Model
import Mathlib.Algebra.Order.Floor.Semiring
import Mathlib.Data.Rat.Floor

/-!
# Model of the functions of `vl/pgm.c` that open files

vl/pgm.c:393-542.  The world has the files, the streams that are open and the blocks that are allocated.  Closing a stream that is not open, and freeing an address that is no allocated block, are undefined (`none`).  Allocations succeed.
Pixels as floats are rational numbers.
-/

namespace Verif.Pgm

/-- What the functions act on; streams and blocks have numbers, `fresh` is a number that was not used yet. -/
structure World where
  files : String → Option (List UInt8)
  streams : List Nat
  blocks : List Nat
  fresh : Nat

/-- The medium: which files can be opened for writing, how many bytes it has room for, and whether the library keeps what is written in its buffer until the stream is closed. -/
structure Disk where
  writable : String → Bool
  room : Nat
  buffered : Bool

/-- Error codes, vl/pgm.h:23-26, vl/generic.h:94-101. -/
inductive Code
  | ok | io | badArg | pgm (e : Err)
  deriving DecidableEq

/-- A new stream. -/
def World.open (w : World) : Nat × World := (w.fresh, { w with streams := w.fresh :: w.streams, fresh := w.fresh + 1 })

/-- `fclose`, as far as the streams are concerned. -/
def World.close (w : World) (h : Nat) : Option World := if h ∈ w.streams then some { w with streams := w.streams.erase h } else none

/-- `vl_malloc`. -/
def World.malloc (w : World) : Nat × World := (w.fresh, { w with blocks := w.fresh :: w.blocks, fresh := w.fresh + 1 })

/-- `vl_free`. -/
def World.free (w : World) (p : Nat) : Option World := if p ∈ w.blocks then some { w with blocks := w.blocks.erase p } else none

/-- `vl_pgm_extract_data` with one byte per pixel, vl/pgm.c:263-326. -/
def extractData (little : Bool) (im : Image) (f : List UInt8) : Except Err (List UInt8) :=
  if im.isRaw then extractRaw little im f
  else match extractAscii im f with
    | .error e => .error e
    | .ok l => .ok (l.map UInt8.ofNat)

/-- The data part of `vl_pgm_read_new`, vl/pgm.c:412-423: `h` is the stream, `addr` the argument `data`, which is the address of a variable of the caller. -/
def readData (little : Bool) (w : World) (h addr : Nat) (im : Image) (rest : List UInt8) : Option (Code × World × Option (Image × Nat × List UInt8)) :=
  let r := w.malloc
  match extractData little im rest with
  | .error e => do
    let w ← r.2.free addr
    let w ← w.close h
    let w ← w.close h
    some (.pgm e, w, none)
  | .ok d => do
    let w ← r.2.close h
    some (.ok, w, some (im, r.1, d))

/-- `vl_pgm_read_new`, vl/pgm.c:393-424: the code, and with code 0 the image, the block and its contents. -/
def readNew (little : Bool) (addr : Nat) (w : World) (name : String) : Option (Code × World × Option (Image × Nat × List UInt8)) :=
  match w.files name with
  | none => some (.io, w, none)
  | some f =>
    let o := w.open
    match extractHead f with
    | .error e => do
      let w ← o.2.close o.1
      some (.pgm e, w, none)
    | .ok (im, rest) => if bpp im > 1 then some (.badArg, o.2, none) else readData little o.2 o.1 addr im rest

/-- `vl_pgm_read_new_f`, vl/pgm.c:442-465. -/
def readNewF (little : Bool) (addr : Nat) (w : World) (name : String) : Option (Code × World × Option (Image × Nat × List ℚ)) := do
  let r ← readNew little addr w name
  match r.2.2 with
  | none => some (r.1, r.2.1, none)
  | some (im, p, d) => do
    let q := r.2.1.malloc
    let l ← (List.range (npixels im)).mapM fun k => do
      let v ← rd d k
      some (1 / (im.maxValue : ℚ) * v.toNat)
    let w ← q.2.free p
    some (.ok, w, some (im, q.1, l))

/-- The bytes on the medium after `bytes` were written to an empty file and the stream was closed. -/
def Disk.stored (d : Disk) (bytes : List UInt8) : List UInt8 := bytes.take d.room

/-- The number of bytes that `fwrite` of `data` reports after `before` bytes were written. -/
def Disk.reported (d : Disk) (before : Nat) (data : List UInt8) : Nat := if d.buffered then data.length else min data.length (d.room - before)

/-- `vl_pgm_write`, vl/pgm.c:479-501; fewer pixels than the size says are read outside the block. -/
def write (disk : Disk) (w : World) (name : String) (data : List UInt8) (width height : Int) : Option (Code × World) :=
  if disk.writable name then do
    let o := w.open
    let im : Image := { width := (width % 2 ^ 64).toNat, height := (height % 2 ^ 64).toNat, maxValue := 255, isRaw := true }
    if data.length < npixels im then none else do
      let c := disk.reported (preamble im).length (data.take (npixels im))
      let w ← o.2.close o.1
      some (if c ≠ npixels im then .io else .ok, { w with files := fun n => if n = name then some (disk.stored (preamble im ++ data.take (npixels im))) else w.files n })
  else some (.io, w)

/-- Smallest and largest pixel, vl/pgm.c:526-529; `none` is infinite. -/
def extremes (data : List ℚ) : Option ℚ × Option ℚ :=
  data.foldl (fun m x => (some (match m.1 with | none => x | some a => min a x), some (match m.2 with | none => x | some a => max a x))) (none, none)

/-- The conversion to `vl_uint8` of a number that fits. -/
def toByte (v : ℚ) : Option UInt8 := if 0 ≤ v ∧ v < 256 then some (UInt8.ofNat ⌊v⌋₊) else none

/-- The loop over the pixels, vl/pgm.c:531-535; `VL_EPSILON_F` is 2^-23, vl/mathop.h:70. -/
def rescale (m : Option ℚ × Option ℚ) (data : List ℚ) : Option (List UInt8) :=
  match m with
  | (some a, some b) => data.mapM fun x => toByte ((x - a) * (255 / (b - a + 1 / 2 ^ 23)))
  | _ => some []

/-- `vl_pgm_write_f`, vl/pgm.c:516-543; a number of pixels that is no `int` is an overflow. -/
def writeF (disk : Disk) (w : World) (name : String) (data : List ℚ) (width height : Int) : Option (Code × World) :=
  if 2 ^ 31 ≤ width * height ∨ width * height < -2 ^ 31 then none
  else if data.length < (width * height).toNat then none
  else do
    let q := w.malloc
    let b ← rescale (extremes (data.take (width * height).toNat)) (data.take (width * height).toNat)
    let r ← write disk q.2 name b width height
    let w ← r.2.free q.1
    some (r.1, w)

end Verif.Pgm
