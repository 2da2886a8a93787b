import Mathlib.Data.Nat.Notation

/-!
# Specification of MT19937 (Matsumoto, Nishimura 1998), independent of the implementation

`x_{k+624} = x_{k+397} ⊕ (upper bit of x_k | lower 31 bits of x_{k+1}) A`, with the multiplication by `A` given by
`y A = (y >> 1) ⊕ (a if y is odd)`.
-/

namespace Verif.Random.Spec

/-- Multiplication by the matrix `A`. -/
def mulA (y : BitVec 32) : BitVec 32 :=
  (y >>> 1) ^^^ (if y.getLsbD 0 then 0x9908b0df#32 else 0#32)

/-- Top bit of `u` followed by the 31 low bits of `l`. -/
def join (u l : BitVec 32) : BitVec 32 :=
  (u &&& 0x80000000#32) ||| (l &&& 0x7fffffff#32)

/-- The infinite MT19937 word sequence with first 624 words `w 0, …, w 623`. -/
def words (w : ℕ → BitVec 32) (k : ℕ) : BitVec 32 :=
  if k < 624 then w k
  else words w (k - 227) ^^^ mulA (join (words w (k - 624)) (words w (k - 623)))
termination_by k

/-- The initial words prescribed for a 32-bit seed. -/
def seedWords (s : BitVec 32) : ℕ → BitVec 32
  | 0 => s
  | i + 1 => 1812433253#32 * (seedWords s i ^^^ (seedWords s i >>> 30)) + BitVec.ofNat 32 (i + 1)

/-- The words computed, in the order of time, by the prescribed initialisation by an array (`init_by_array`): the words 1, …, 623
of the state seeded with 19650218 are visited cyclically, `max 624 (length of the key)` times with the key and 623 times
without.  At time `t` the word is computed from its former value and the word computed just before. -/
def arrayWords (key : List (BitVec 32)) (t : ℕ) : BitVec 32 :=
  let prev := if t = 0 then seedWords 19650218#32 0 else arrayWords key (t - 1)
  let old := if t < 623 then seedWords 19650218#32 (t + 1) else arrayWords key (t - 623)
  if t < max 624 key.length then
    (old ^^^ ((prev ^^^ (prev >>> 30)) * 1664525#32)) + key.getD (t % key.length) 0 + BitVec.ofNat 32 (t % key.length)
  else (old ^^^ ((prev ^^^ (prev >>> 30)) * 1566083941#32)) - BitVec.ofNat 32 (1 + t % 623)
termination_by t

/-- `w` are the initial words prescribed for a key. -/
def IsArraySeed (key : List (BitVec 32)) (w : ℕ → BitVec 32) : Prop :=
  w 0 = 0x80000000#32 ∧ ∀ t, max 624 key.length ≤ t → t < max 624 key.length + 623 → w (1 + t % 623) = arrayWords key t

/-- The prescribed output transformation. -/
def output (y0 : BitVec 32) : BitVec 32 :=
  let y1 := y0 ^^^ (y0 >>> 11)
  let y2 := y1 ^^^ ((y1 <<< 7) &&& 0x9d2c5680#32)
  let y3 := y2 ^^^ ((y2 <<< 15) &&& 0xefc60000#32)
  y3 ^^^ (y3 >>> 18)

end Verif.Random.Spec
