import Verif.Imop.DistModel

/-!
# `vl_imdisttf`: model

toolbox/imop/vl_imdisttf.c:33-135.  A Matlab matrix with `M` rows and `N` columns is stored by columns.  The inner `none` is an error
that is reported.
-/

namespace Verif.Toolbox

open Verif.Imop

variable {K : Type} [Field K] [LinearOrder K]

/-- The initial indexes, toolbox/imop/vl_imdisttf.c:68-73; `want` tells if the second result is asked for. -/
def imdistIndexes (n : Nat) (want : Bool) : Option (List Nat) := if want then some ((List.range n).map (· + 1)) else none

/-- `vl_imdisttf`, toolbox/imop/vl_imdisttf.c:51-135: the errors, and the two calls of the transform.  `eps` is the machine epsilon. -/
def imdisttf (eps : K) (I : List K) (M N : Nat) (p0 p1 p2 p3 : K) (want : Bool) : Option (Option (List K × Option (List Nat))) :=
  if p0 < 0 ∨ p2 < 0 then some none
  else do
    let s : DtSt K := { mem := List.replicate (M * N) 0, idx := imdistIndexes (M * N) want }
    let s ← distanceTransform (some I) M N 1 M eps p2 p3 s
    let s ← distanceTransform none N M M 1 eps p0 p1 s
    some (some (s.mem, s.idx))

end Verif.Toolbox
