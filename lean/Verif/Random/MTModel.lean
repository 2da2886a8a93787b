import Verif.Base
import Mathlib.Data.Rat.Defs

/-!
# Model of the random number generator `vl/random.c`, `vl/random.h`

`vl_uint32` and `vl_uint64` are 32 and 64 bit words.  `mti` is a natural number (it never exceeds `N + 1`).  The real-valued
generators are modelled by exact rationals (the rounding of the double precision product is not modelled).
-/

namespace Verif.Random

/-- vl/random.c:119 -/
def N : Nat := 624
/-- vl/random.c:120 -/
def M : Nat := 397
/-- vl/random.c:121 -/
def matrixA : BitVec 32 := 0x9908b0df#32
/-- vl/random.c:122 -/
def upperMask : BitVec 32 := 0x80000000#32
/-- vl/random.c:123 -/
def lowerMask : BitVec 32 := 0x7fffffff#32

/-- `VlRand`, vl/random.h:20-23. -/
structure VlRand where
  mt : List (BitVec 32)
  mti : Nat

/-- `vl_rand_init`, vl/random.c:131-136. -/
def randInit : VlRand := ⟨List.replicate N 0, N + 1⟩

/-- The loop `for (mti=1; mti<N; mti++)`, vl/random.c:149-158, with `m = N - mti` iterations left. -/
def seedLoop (mt : List (BitVec 32)) (mti : Nat) : Nat → Option (List (BitVec 32))
  | 0 => some mt
  | m + 1 => do
    let p ← rd mt (mti - 1)
    let mt ← wr mt mti (1812433253#32 * (p ^^^ (p >>> 30)) + BitVec.ofNat 32 mti)
    seedLoop mt (mti + 1) m

/-- `vl_rand_seed`, vl/random.c:143-161.  The masks `& 0xffffffff` do nothing on 32-bit words. -/
def randSeed (self : VlRand) (s : BitVec 32) : Option VlRand := do
  let mt ← wr self.mt 0 s
  let mt ← seedLoop mt 1 (N - 1)
  pure ⟨mt, N⟩

/-- First loop of `vl_rand_seed_by_array`, vl/random.c:178-185; the last argument is `k`. -/
def seedArray1 (key : List (BitVec 32)) (mt : List (BitVec 32)) (i j : Nat) : Nat → Option (List (BitVec 32) × Nat)
  | 0 => some (mt, i)
  | k + 1 => do
    let x ← rd mt i
    let p ← rd mt (i - 1)
    let y ← rd key j
    let mt ← wr mt i ((x ^^^ ((p ^^^ (p >>> 30)) * 1664525#32)) + y + BitVec.ofNat 32 j)
    let i := i + 1
    let j := j + 1
    let r ← (if i ≥ N then do
        let l ← rd mt (N - 1)
        let mt ← wr mt 0 l
        some (mt, 1)
      else some (mt, i))
    let j := if j ≥ key.length then 0 else j
    seedArray1 key r.1 r.2 j k

/-- Second loop of `vl_rand_seed_by_array`, vl/random.c:186-192. -/
def seedArray2 (mt : List (BitVec 32)) (i : Nat) : Nat → Option (List (BitVec 32))
  | 0 => some mt
  | k + 1 => do
    let x ← rd mt i
    let p ← rd mt (i - 1)
    let mt ← wr mt i ((x ^^^ ((p ^^^ (p >>> 30)) * 1566083941#32)) - BitVec.ofNat 32 i)
    let i := i + 1
    let r ← (if i ≥ N then do
        let l ← rd mt (N - 1)
        let mt ← wr mt 0 l
        some (mt, 1)
      else some (mt, i))
    seedArray2 r.1 r.2 k

/-- `vl_rand_seed_by_array`, vl/random.c:169-197; `keySize` is the length of the key (assumed below 2^31). -/
def randSeedByArray (self : VlRand) (key : List (BitVec 32)) : Option VlRand := do
  let self ← randSeed self 19650218#32
  let k := if N > key.length then N else key.length
  let r ← seedArray1 key self.mt 1 0 k
  let mt ← seedArray2 r.1 r.2 (N - 1)
  let mt ← wr mt 0 0x80000000#32
  pure ⟨mt, self.mti⟩

/-- `mag01[y & 1]`, vl/random.c:228. -/
def mag01 (y : BitVec 32) : BitVec 32 := if y &&& 1#32 = 0#32 then 0#32 else matrixA

/-- One word of the block regeneration: `mt[dst] = mt[far] ^ (y >> 1) ^ mag01[y & 1]` with
`y = (mt[dst] & UPPER) | (mt[nxt] & LOWER)`, vl/random.c:241-242, 245-246, 248-249. -/
def regenWord (mt : List (BitVec 32)) (dst nxt far : Nat) : Option (List (BitVec 32)) := do
  let u ← rd mt dst
  let l ← rd mt nxt
  let y := (u &&& upperMask) ||| (l &&& lowerMask)
  let f ← rd mt far
  wr mt dst (f ^^^ (y >>> 1) ^^^ mag01 y)

/-- First regeneration loop, vl/random.c:240-243 (`m` iterations left). -/
def regen1 (mt : List (BitVec 32)) (kk : Nat) : Nat → Option (List (BitVec 32))
  | 0 => some mt
  | m + 1 => do
    let mt ← regenWord mt kk (kk + 1) (kk + M)
    regen1 mt (kk + 1) m

/-- Second regeneration loop, vl/random.c:244-247 (`m` iterations left; the index `kk+(M-N)` is written `kk + M - N`). -/
def regen2 (mt : List (BitVec 32)) (kk : Nat) : Nat → Option (List (BitVec 32))
  | 0 => some mt
  | m + 1 => do
    let mt ← regenWord mt kk (kk + 1) (kk + M - N)
    regen2 mt (kk + 1) m

/-- Tempering, vl/random.c:257-260. -/
def temper (y : BitVec 32) : BitVec 32 :=
  let y := y ^^^ (y >>> 11)
  let y := y ^^^ ((y <<< 7) &&& 0x9d2c5680#32)
  let y := y ^^^ ((y <<< 15) &&& 0xefc60000#32)
  y ^^^ (y >>> 18)

/-- The block regeneration in `vl_rand_uint32`, vl/random.c:234-252. -/
def regenerate (self : VlRand) : Option VlRand := do
  let self ← (if self.mti = N + 1 then randSeed self 5489#32 else some self)
  let mt ← regen1 self.mt 0 (N - M)
  let mt ← regen2 mt (N - M) (M - 1)
  let mt ← regenWord mt (N - 1) 0 (M - 1)
  pure ⟨mt, 0⟩

/-- `vl_rand_uint32`, vl/random.c:224-266. -/
def randUint32 (self : VlRand) : Option (BitVec 32 × VlRand) := do
  let self ← (if self.mti ≥ N then regenerate self else some self)
  let y ← rd self.mt self.mti
  pure (temper y, { self with mti := self.mti + 1 })

/-- The results of `k` successive calls of `vl_rand_uint32`. -/
def draws (self : VlRand) : Nat → Option (List (BitVec 32) × VlRand)
  | 0 => some ([], self)
  | k + 1 => do
    let (y, self) ← randUint32 self
    let (ys, self) ← draws self k
    pure (y :: ys, self)

/-- `vl_rand_uint64`, vl/random.h:81-87. -/
def randUint64 (self : VlRand) : Option (BitVec 64 × VlRand) := do
  let (a, self) ← randUint32 self
  let (b, self) ← randUint32 self
  pure ((a.setWidth 64 <<< 32) ||| b.setWidth 64, self)

/-- `vl_rand_int63`, vl/random.h:94-98 (the result interpreted as a signed 64-bit number). -/
def randInt63 (self : VlRand) : Option (Int × VlRand) := do
  let (a, self) ← randUint64 self
  pure ((a >>> 1).toInt, self)

/-- `vl_rand_int31`, vl/random.h:105-109 (the result interpreted as a signed 32-bit number). -/
def randInt31 (self : VlRand) : Option (Int × VlRand) := do
  let (a, self) ← randUint32 self
  pure ((a >>> 1).toInt, self)

/-- `vl_rand_uindex`, vl/random.h:64-74; `range` is a 64-bit unsigned number, a zero range divides by zero. -/
def randUindex (self : VlRand) (range : BitVec 64) : Option (BitVec 64 × VlRand) := do
  if range ≤ 0xffffffff#64 then do
    let (a, self) ← randUint32 self
    let r := range.setWidth 32
    assert' (r ≠ 0)
    pure ((a % r).setWidth 64, self)
  else do
    let (a, self) ← randUint64 self
    pure (a % range, self)

/-- `vl_rand_real1`, vl/random.h:116-121. -/
def randReal1 (self : VlRand) : Option (ℚ × VlRand) := do
  let (a, self) ← randUint32 self
  pure ((a.toNat : ℚ) * (1 / 4294967295), self)

/-- `vl_rand_real2`, vl/random.h:128-133. -/
def randReal2 (self : VlRand) : Option (ℚ × VlRand) := do
  let (a, self) ← randUint32 self
  pure ((a.toNat : ℚ) * (1 / 4294967296), self)

/-- `vl_rand_real3`, vl/random.h:140-145. -/
def randReal3 (self : VlRand) : Option (ℚ × VlRand) := do
  let (a, self) ← randUint32 self
  pure (((a.toNat : ℚ) + 1 / 2) * (1 / 4294967296), self)

/-- `vl_rand_res53`, vl/random.h:152-159. -/
def randRes53 (self : VlRand) : Option (ℚ × VlRand) := do
  let (a, self) ← randUint32 self
  let (b, self) ← randUint32 self
  pure ((((a >>> 5).toNat : ℚ) * 67108864 + ((b >>> 6).toNat : ℚ)) * (1 / 9007199254740992), self)

end Verif.Random
