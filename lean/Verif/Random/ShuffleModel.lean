import Verif.Base

/-!
# Model of the two shuffling routines, `vl/shuffle-def.h` and `vl_rand_permute_indexes`

The random number generator enters through the indexes that `vl_rand_uindex` returns.  Two views are given: with an explicit
list of the returned indexes (to count outcomes), and with an arbitrary generator with internal state.
-/

namespace Verif.Random

variable {α σ : Type}

/-- `VL_SHUFFLE_shuffle`, vl/shuffle-def.h:81-91, for `n` remaining elements; the list holds the values returned by the
successive calls of `vl_rand_uindex`.  `none` if the list is too short. -/
def shuffleWith (a : List α) : Nat → List Nat → Option (List α)
  | n + 2, k :: ks => do
    let a ← swp a (n + 1) k
    shuffleWith a (n + 1) ks
  | _ + 2, [] => none
  | _, _ => some a

/-- `VL_SHUFFLE_shuffle`, vl/shuffle-def.h:81-91, drawing the indexes from a generator (`uindex s range` returns the
value and the next generator state, vl/random.h:64-74). -/
def shuffle (uindex : σ → Nat → Option (Nat × σ)) (s : σ) (a : List α) : Nat → Option (List α × σ)
  | n + 2 => do
    let (k, s) ← uindex s (n + 2)
    let a ← swp a (n + 1) k
    shuffle uindex s a (n + 1)
  | _ => some (a, s)

/-- Conversion of a `vl_uindex` to `vl_int` (32-bit two's complement) as in vl/random.c:213. -/
def toVlInt (j : Nat) : Int := (BitVec.ofNat 32 j).toInt

/-- `vl_rand_permute_indexes`, vl/random.c:207-216, for `i = n - 1` down to `1`; a negative index is out of bounds. -/
def permuteIndexes (uindex : σ → Nat → Option (Nat × σ)) (s : σ) (a : List Int) : Nat → Option (List Int × σ)
  | n + 2 => do
    let (u, s) ← uindex s (n + 2)
    let j := toVlInt u
    assert' (0 ≤ j)
    let a ← swp a (n + 1) j.toNat
    permuteIndexes uindex s a (n + 1)
  | _ => some (a, s)

end Verif.Random
