import Verif.Covdet.FeatModel

/-!
# What the features of the covariant detector should be
-/

namespace Verif.Covdet

/-- A call on the list of features: `vl_covdet_append_feature` (with the answer of the memory manager and the content of new memory), or the start of `vl_covdet_detect`. -/
inductive Op (α : Type) where
  | append (ok : Bool) (junk : Nat → α) (f : α)
  | clear

/-- The effect of a call on the list the user has in mind, given whether it reported an error -/
def Op.expected {α : Type} (xs : List α) : Op α → Bool → List α
  | .append _ _ f, false => xs ++ [f]
  | .append _ _ _, true => xs
  | .clear, _ => []

/-- A sequence of calls with the errors they reported -/
def expected {α : Type} (h : List (Op α × Bool)) : List α := h.foldl (fun xs c => c.1.expected xs c.2) []

/-- A call reports an error only if the memory manager failed. -/
def Op.ErrorOk {α : Type} : Op α × Bool → Prop
  | (.append ok _ _, e) => e = true → ok = false
  | (.clear, e) => e = false

variable {K : Type} [Field K] [LinearOrder K]

/-- `f` is close to `g` in position and in scale and has a larger score. -/
def Beats (tol : K) (f g : Feature K) : Prop :=
  f.frame.a11 < (1 + tol) * g.frame.a11 ∧ g.frame.a11 < (1 + tol) * f.frame.a11 ∧
  |g.frame.x - f.frame.x| < tol * f.frame.a11 ∧ |g.frame.y - f.frame.y| < tol * f.frame.a11 ∧ |g.peakScore| < |f.peakScore|

/-- The point of the image at `(u, v)` in the coordinates of the frame -/
def Frame.image (f : Frame K) (u v : K) : K × K := (f.x + (f.a11 * u + f.a12 * v), f.y + (f.a21 * u + f.a22 * v))

/-- The square of half side `m` around the frame lies in the image. -/
def SquareInside (width height : Nat) (m : K) (f : Frame K) : Prop :=
  ∀ u v, |u| ≤ m → |v| ≤ m → 0 ≤ (f.image u v).1 ∧ (f.image u v).1 ≤ (width : K) - 1 ∧ 0 ≤ (f.image u v).2 ∧ (f.image u v).2 ≤ (height : K) - 1

end Verif.Covdet
