import Verif.Base

/-!
# Specification of the string functions (independent of the model)
-/

namespace Verif.Strings.Spec

/-- The string has no zero byte. -/
def NoNul (s : List UInt8) : Prop := ∀ c ∈ s, c ≠ 0

instance (s : List UInt8) : Decidable (NoNul s) := by unfold NoNul; infer_instance

/-- Contents of a buffer `d` after the string `ideal` has been stored in its first `n` bytes as a zero terminated string,
truncated to `n - 1` characters; with `n = 0` nothing is written. -/
def stored (d : List UInt8) (n : Nat) (ideal : List UInt8) : List UInt8 :=
  if n = 0 then d else ideal.take (n - 1) ++ 0 :: d.drop ((ideal.take (n - 1)).length + 1)

/-- Wildcard substitution: the escape character `e` makes the next character literal (a trailing one disappears), an unescaped
wildcard `w` stands for `repl`, other characters stand for themselves. -/
def subst (w e : UInt8) (repl : List UInt8) : List UInt8 → List UInt8
  | [] => []
  | c :: cs =>
    if c = e then
      match cs with
      | [] => []
      | x :: xs => x :: subst w e repl xs
    else if c = w then repl ++ subst w e repl cs
    else c :: subst w e repl cs

/-- The part of a path after the last `/` or `\`. -/
def fileName (s : List UInt8) : List UInt8 := (s.reverse.takeWhile (fun c => c ≠ 47 ∧ c ≠ 92)).reverse

/-- Remove the last dot and what follows; unchanged if there is no dot. -/
def dropExt (s : List UInt8) : List UInt8 :=
  if (46 : UInt8) ∈ s then (s.reverse.dropWhile (· ≠ 46)).tail.reverse else s

/-- Remove up to `k` extensions. -/
def dropExts : Nat → List UInt8 → List UInt8
  | 0, s => s
  | k + 1, s => dropExts k (dropExt s)

/-- Lower case of an ASCII letter. -/
def lower (c : UInt8) : UInt8 := if 65 ≤ c ∧ c ≤ 90 then c + 32 else c

/-- `"://"`. -/
def sep : List UInt8 := [58, 47, 47]

/-- `p` precedes the first occurrence of `://` in `s`, and `rest` follows it. -/
def SplitsAt (s p rest : List UInt8) : Prop :=
  s = p ++ sep ++ rest ∧ ∀ p' rest', s = p' ++ sep ++ rest' → p.length ≤ p'.length

end Verif.Strings.Spec
