import Verif.Loop

/-!
# Model of the permutation that mirrors a HOG descriptor

vl/hog.c, part of `vl_hog_new`.  `vl_index` values are natural numbers: `o < numOrientations`, so no difference is
negative.  The block allocated at vl/hog.c:233 is a parameter with arbitrary contents.
-/

namespace Verif.Hog

/-- `VlHogVariant`, vl/hog.h:19. -/
inductive Variant where
  | dalalTriggs
  | uoctti
  deriving DecidableEq

/-- Size of the descriptor of a cell, vl/hog.c:212-223. -/
def dimension (v : Variant) (O : Nat) : Nat :=
  match v with
  | .uoctti => 3 * O + 4
  | .dalalTriggs => 4 * O

/-- The block exchanged with block `k`, vl/hog.c:245-247 and 256-258. -/
def swapBlock (k : Nat) : Nat := (1 - k % 2) + k / 2 * 2

/-- Orientation components of the UoCTTI permutation, vl/hog.c:236-241. -/
def uocttiOrient (O : Nat) (perm : List Nat) : Option (List Nat) :=
  iter O (fun o perm => do
    let perm ← wr perm o (O - o)
    let perm ← wr perm (o + O) ((O - o + O) % (2 * O))
    wr perm (o + 2 * O) ((O - o) % O + 2 * O)) perm

/-- Texture components of the UoCTTI permutation, vl/hog.c:242-249. -/
def uocttiTexture (O : Nat) (perm : List Nat) : Option (List Nat) :=
  iter 4 (fun k perm => wr perm (k + O * 3) (swapBlock k + O * 3)) perm

/-- Dalal-Triggs permutation, vl/hog.c:253-263. -/
def dalalPerm (O : Nat) (perm : List Nat) : Option (List Nat) :=
  iter 4 (fun k perm => iter O (fun o perm => wr perm (o + k * O) ((O - o) % O + swapBlock k * O)) perm) perm

/-- The permutation stored by `vl_hog_new` (and returned by `vl_hog_get_permutation`, vl/hog.c:382-386),
vl/hog.c:179 and 233-268. -/
def permutation (v : Variant) (O : Nat) (perm : List Nat) : Option (List Nat) := do
  let _ ← assert' (decide (1 ≤ O))
  match v with
  | .uoctti => do
    let perm ← uocttiOrient O perm
    uocttiTexture O perm
  | .dalalTriggs => dalalPerm O perm

end Verif.Hog
