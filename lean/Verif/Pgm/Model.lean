import Verif.Base

/-!
# Model of `vl/pgm.c`

A stream is the list of bytes that remain to be read.  `fprintf "%d"`, `fscanf "%d"` and `fscanf " %u"` are modelled by their C
standard meaning; a number that does not fit `int` is limited to 64 bits and then cut to 32 bits, as in the GNU library (the standard leaves it undefined).
-/

namespace Verif.Pgm

/-- `VlPgmImage`, vl/pgm.h:36-42. -/
structure Image where
  width : Nat
  height : Nat
  maxValue : Nat
  isRaw : Bool
deriving DecidableEq, Repr

/-- Error codes, vl/pgm.h:23-26. -/
inductive Err where
  | invHead | invMeta | invData
deriving DecidableEq, Repr

/-- `remove_line`, vl/pgm.c:51-72: count and remaining stream. -/
def removeLine : List UInt8 → Nat × List UInt8
  | [] => (0, [])
  | c :: f => if c = 10 then (1, f) else let (n, f') := removeLine f; (n + 1, f')

theorem removeLine_length (f : List UInt8) : (removeLine f).2.length ≤ f.length := by
  induction f with
  | nil => simp [removeLine]
  | cons c f ih => simp only [removeLine]; split <;> simp; omega

/-- `remove_blanks`, vl/pgm.c:80-110: count and remaining stream. -/
def removeBlanks : List UInt8 → Nat × List UInt8
  | [] => (0, [])
  | c :: f =>
    if c = 9 ∨ c = 10 ∨ c = 13 ∨ c = 32 then let (n, f') := removeBlanks f; (n + 1, f')
    else if c = 35 then
      let r := removeLine f
      let (n, f') := removeBlanks r.2
      (n + 1 + r.1, f')
    else (0, c :: f)
termination_by f => f.length
decreasing_by
  · simp
  · have := removeLine_length f; simp; omega

/-- Decimal digit. -/
def isDigit (c : UInt8) : Bool := 48 ≤ c ∧ c ≤ 57

/-- C `isspace` (C locale). -/
def isSpace (c : UInt8) : Bool := c = 32 ∨ (9 ≤ c ∧ c ≤ 13)

/-- Digits accumulated by `fscanf`. -/
def readDigits (acc : Nat) : List UInt8 → Nat × List UInt8
  | [] => (acc, [])
  | c :: f => if isDigit c then readDigits (acc * 10 + (c.toNat - 48)) f else (acc, c :: f)

/-- Unsigned part of a number: at least one digit. -/
def scanNat : List UInt8 → Option (Nat × List UInt8)
  | [] => none
  | c :: f => if isDigit c then some (readDigits 0 (c :: f)) else none

/-- `fscanf (f, "%d", &x)`: `none` when no item is converted (the stream left behind is not used by the caller). -/
def scanInt (f : List UInt8) : Option (Int × List UInt8) :=
  match f.dropWhile isSpace with
  | [] => none
  | c :: f =>
    if c = 45 then (scanNat f).map (fun r => (-(r.1 : Int), r.2))
    else if c = 43 then (scanNat f).map (fun r => ((r.1 : Int), r.2))
    else (scanNat (c :: f)).map (fun r => ((r.1 : Int), r.2))

/-- The `int` that `fscanf "%d"` stores for a decimal number. -/
def scanned (i : Int) : Int := (max (-2 ^ 63) (min (2 ^ 63 - 1) i) + 2 ^ 31) % 2 ^ 32 - 2 ^ 31

/-- One `remove_blanks` + `fscanf "%d"` pair, vl/pgm.c:206-222; `none` when `good` becomes 0. -/
def field (f : List UInt8) : Option (Int × List UInt8) :=
  let r := removeBlanks f
  if r.1 > 0 then (scanInt r.2).map (fun x => (scanned x.1, x.2)) else none

/-- `vl_pgm_extract_head`, vl/pgm.c:160-246.  The three conversions are cut short at the first failure, which the C code only
reports at line 232; the error is the same.  Negative fields are converted to `vl_size` by the assignments of lines 241-243. -/
def extractHead (f : List UInt8) : Except Err (Image × List UInt8) :=
  match f with
  | m0 :: m1 :: f =>
    if m0 = 80 ∧ (m1 = 50 ∨ m1 = 53) then
      match (do
        let (w, f) ← field f
        let (h, f) ← field f
        let (m, f) ← field f
        match f with
        | [] => none
        | c :: f => if c = 10 ∨ c = 9 ∨ c = 32 ∨ c = 13 then some (w, h, m, f) else none) with
      | none => .error .invMeta
      | some (w, h, m, f) =>
        if ¬ (m ≥ 65536) then .error .invMeta
        else .ok (⟨(w % 2 ^ 64).toNat, (h % 2 ^ 64).toNat, (m % 2 ^ 64).toNat, m1 = 53⟩, f)
    else .error .invHead
  | _ => .error .invHead

/-- `vl_pgm_get_npixels`, vl/pgm.c:124-128 (no 64-bit overflow of the product). -/
def npixels (im : Image) : Nat := im.width * im.height

/-- `vl_pgm_get_bpp`, vl/pgm.c:139-143. -/
def bpp (im : Image) : Nat := (if im.maxValue ≥ 256 then 1 else 0) + 1

/-- The byte exchange loop, vl/pgm.c:293-297 and 356-360. -/
def swapPairs : List UInt8 → List UInt8
  | a :: b :: l => b :: a :: swapPairs l
  | l => l

/-- `fscanf (f, " %ud", &v)`: white space, unsigned number, then the literal `d` if it is there.
Signs, and numbers of 2^32 or more, are not modelled. -/
def scanUd (f : List UInt8) : Option (Nat × List UInt8) :=
  match scanNat (f.dropWhile isSpace) with
  | none => none
  | some (v, f) => match f with
    | [] => some (v, [])
    | c :: f' => if c = 100 then some (v, f') else some (v, c :: f')

/-- The ASCII pixel loop, vl/pgm.c:308-318, pixels stored modulo the pixel size. -/
def readAscii (modulus : Nat) : Nat → List UInt8 → Option (List Nat)
  | 0, _ => some []
  | n + 1, f => do
    let (v, f) ← scanUd f
    let l ← readAscii modulus n f
    pure (v % modulus :: l)

/-- Raw branch of `vl_pgm_extract_data`, vl/pgm.c:280-300: the bytes of the data buffer. -/
def extractRaw (little : Bool) (im : Image) (f : List UInt8) : Except Err (List UInt8) :=
  if f.length < bpp im * npixels im then .error .invData
  else
    let data := f.take (bpp im * npixels im)
    .ok (if little ∧ bpp im = 2 then swapPairs data else data)

/-- ASCII branch of `vl_pgm_extract_data`, vl/pgm.c:305-319: the pixels of the data buffer. -/
def extractAscii (im : Image) (f : List UInt8) : Except Err (List Nat) :=
  match readAscii (256 ^ bpp im) (npixels im) f with
  | none => .error .invData
  | some l => .ok l

/-- Decimal digits printed by `%d` for a non-negative number. -/
def decDigits (n : Nat) : List UInt8 :=
  if n < 10 then [48 + UInt8.ofNat n] else decDigits (n / 10) ++ [48 + UInt8.ofNat (n % 10)]

/-- `(signed) x`: conversion of a `vl_size` to `int`. -/
def toInt32 (n : Nat) : Int := if n % 2 ^ 32 < 2 ^ 31 then ((n % 2 ^ 32 : Nat) : Int) else ((n % 2 ^ 32 : Nat) : Int) - 2 ^ 32

/-- `fprintf "%d"`. -/
def printInt (i : Int) : List UInt8 := if i < 0 then 45 :: decDigits i.natAbs else decDigits i.natAbs

/-- The preamble written by `vl_pgm_insert`, vl/pgm.c:344-348. -/
def preamble (im : Image) : List UInt8 :=
  [80, 53, 10] ++ printInt (toInt32 im.width) ++ [10] ++ printInt (toInt32 im.height) ++ [10] ++
    printInt (toInt32 im.maxValue) ++ [10]

/-- The data bytes written by `vl_pgm_insert`, vl/pgm.c:351-369. -/
def payload (little : Bool) (im : Image) (data : List UInt8) : List UInt8 :=
  if little ∧ bpp im = 2 then swapPairs (data.take (2 * npixels im)) else data.take (bpp im * npixels im)

/-- `vl_pgm_insert`, vl/pgm.c:337-375: the bytes appended to the stream (write errors are not modelled). -/
def insert (little : Bool) (im : Image) (data : List UInt8) : List UInt8 := preamble im ++ payload little im data

end Verif.Pgm
