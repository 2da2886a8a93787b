import Verif.Base

/-!
# Model of `vl/stringop.c`

Memory holding a C string is a list of bytes; reading on past its end gives `none`.  The string is what precedes the first
zero byte.  A destination buffer is `none` for the NULL pointer and `some d` for a buffer of `d.length` bytes;
`destinationSize` is a separate argument, as in C.
-/

namespace Verif.Strings

abbrev Byte := UInt8
abbrev Mem := List Byte

/-- `if (destination && k + 1 < destinationSize) destination[k] = c`, vl/stringop.c:237-239, 245-247, 281-283, 320-322. -/
def emit (dest : Option Mem) (n k : Nat) (c : Byte) : Option (Option Mem) :=
  match dest with
  | none => some none
  | some d => if k + 1 < n then (wr d k c).map some else some (some d)

/-- `if (destinationSize > 0) destination[VL_MIN(k, destinationSize - 1)] = 0`, vl/stringop.c:254-256, 288-290, 327-329. -/
def finalize (dest : Option Mem) (n k : Nat) : Option (Option Mem) :=
  if n > 0 then
    match dest with
    | none => none
    | some d => (wr d (min k (n - 1)) 0).map some
  else some dest

/-- The loop of `vl_string_copy`, vl/stringop.c:280-285. -/
def copyLoop (dest : Option Mem) (n k : Nat) : Mem → Option (Option Mem × Nat)
  | [] => none
  | c :: src =>
    if c = 0 then some (dest, k)
    else do
      let dest ← emit dest n k c
      copyLoop dest n (k + 1) src

/-- `vl_string_copy`, vl/stringop.c:273-292: final destination and returned value. -/
def copy (dest : Option Mem) (n : Nat) (src : Mem) : Option (Option Mem × Nat) := do
  let (dest, k) ← copyLoop dest n 0 src
  let dest ← finalize dest n k
  pure (dest, k)

/-- The loop of `vl_string_copy_sub`, vl/stringop.c:319-324; `m` is `end - beginning` (0 if negative). -/
def copySubLoop (dest : Option Mem) (n k : Nat) : Nat → Mem → Option (Option Mem × Nat)
  | 0, _ => some (dest, k)
  | _ + 1, [] => none
  | m + 1, c :: src =>
    if c = 0 then some (dest, k)
    else do
      let dest ← emit dest n k c
      copySubLoop dest n (k + 1) m src

/-- `vl_string_copy_sub`, vl/stringop.c:310-331; `src` is the memory at `beginning`, `m` the value of `end - beginning`. -/
def copySub (dest : Option Mem) (n : Nat) (src : Mem) (m : Nat) : Option (Option Mem × Nat) := do
  let (dest, k) ← copySubLoop dest n 0 m src
  let dest ← finalize dest n k
  pure (dest, k)

/-- The loop finding the beginning in `vl_string_basename`, vl/stringop.c:172-175: returns `beg`. -/
def baseBeg (k beg : Nat) : Mem → Option Nat
  | [] => none
  | c :: src =>
    if c = 0 then some beg
    else baseBeg (k + 1) (if c = 92 ∨ c = 47 then k + 1 else beg) src

/-- `strlen` / `vl_string_length`, vl/stringop.c:361-367. -/
def length : Mem → Option Nat
  | [] => none
  | c :: src => if c = 0 then some 0 else (length src).map (· + 1)

/-- The loop finding the end in `vl_string_basename`, vl/stringop.c:179-184, for `k = beg + j` down to `beg + 1`. -/
def baseEnd (src : Mem) (beg : Nat) : Nat → Nat → Nat → Option Nat
  | 0, _, e => some e
  | j + 1, maxExt, e => do
    let c ← rd src (beg + j)
    if c = 46 ∧ maxExt > 0 then baseEnd src beg j (maxExt - 1) (beg + j)
    else baseEnd src beg j maxExt e

/-- `vl_string_basename`, vl/stringop.c:162-188. -/
def basename (dest : Option Mem) (n : Nat) (src : Mem) (maxExt : Nat) : Option (Option Mem × Nat) := do
  let beg ← baseBeg 0 0 src
  let e ← length src
  let e ← baseEnd src beg (e - beg) maxExt e
  copySub dest n (src.drop beg) (e - beg)

/-- The inner loop `while ((c = *repl++))`, vl/stringop.c:236-241. -/
def replLoop (dest : Option Mem) (n k : Nat) (repl : Mem) : Option (Option Mem × Nat) := copyLoop dest n k repl

/-- The loop of `vl_string_replace_wildcard`, vl/stringop.c:225-251. -/
def wildcardLoop (dest : Option Mem) (n k : Nat) (escape : Bool) (w e : Byte) (repl : Mem) :
    Mem → Option (Option Mem × Nat)
  | [] => none
  | c :: src =>
    if c = 0 then some (dest, k)
    else if !escape && c = e then wildcardLoop dest n k true w e repl src
    else if !escape && c = w then do
      let (dest, k) ← replLoop dest n k repl
      wildcardLoop dest n k false w e repl src
    else do
      let dest ← emit dest n k c
      wildcardLoop dest n (k + 1) false w e repl src

/-- `vl_string_replace_wildcard`, vl/stringop.c:213-258. -/
def replaceWildcard (dest : Option Mem) (n : Nat) (src : Mem) (w e : Byte) (repl : Mem) :
    Option (Option Mem × Nat) := do
  let (dest, k) ← wildcardLoop dest n 0 false w e repl src
  let dest ← finalize dest n k
  pure (dest, k)

/-- `vl_string_find_char_rev`, vl/stringop.c:344-353; `m = end - beginning`; returns the offset of the character found. -/
def findCharRev (mem : Mem) (c : Byte) : Nat → Option (Option Nat)
  | 0 => some none
  | m + 1 => do
    let x ← rd mem m
    if x = c then some (some m) else findCharRev mem c m

/-- `tolower` of the C locale. -/
def tolower (c : Byte) : Byte := if 65 ≤ c ∧ c ≤ 90 then c + 32 else c

/-- `vl_string_casei_cmp`, vl/stringop.c:376-391. -/
def caseiCmp : Mem → Mem → Option Int
  | c1 :: s1, c2 :: s2 =>
    if tolower c1 = tolower c2 then
      if c1 = 0 then some 0 else caseiCmp s1 s2
    else some (((tolower c1).toNat : Int) - ((tolower c2).toNat : Int))
  | _, _ => none

/-- `VlEnumerator`, vl/stringop.h: a name (NULL for the terminator) and a value. -/
structure Enumerator where
  name : Option Mem
  value : Int

/-- C `strcmp (a, b) == 0` on memories. -/
def strEq : Mem → Mem → Option Bool
  | c1 :: s1, c2 :: s2 => if c1 = c2 then (if c1 = 0 then some true else strEq s1 s2) else some false
  | _, _ => none

/-- The common loop of `vl_enumeration_get` (vl/stringop.c:408-417), `_get_casei` (430-439), `_get_by_value` (452-461):
returns the index of the first member accepted by the test, `some none` for NULL. -/
def enumLoop (test : Mem → Int → Option Bool) (i : Nat) : List Enumerator → Option (Option Nat)
  | [] => none
  | m :: ms =>
    match m.name with
    | none => some none
    | some nm => do
      let b ← test nm m.value
      if b then some (some i) else enumLoop test (i + 1) ms

/-- `vl_enumeration_get`, vl/stringop.c:408-417. -/
def enumGet (table : List Enumerator) (name : Mem) : Option (Option Nat) :=
  enumLoop (fun nm _ => strEq name nm) 0 table

/-- `vl_enumeration_get_casei`, vl/stringop.c:430-439. -/
def enumGetCasei (table : List Enumerator) (name : Mem) : Option (Option Nat) :=
  enumLoop (fun nm _ => (caseiCmp name nm).map (· == 0)) 0 table

/-- `vl_enumeration_get_by_value`, vl/stringop.c:452-461. -/
def enumGetByValue (table : List Enumerator) (value : Int) : Option (Option Nat) :=
  enumLoop (fun _ v => some (v == value)) 0 table

/-! ### Protocols -/

/-- Protocol codes, vl/stringop.h:20-25. -/
inductive Protocol where
  | unknown | none | ascii | binary
deriving DecidableEq, Repr

/-- C `strstr (string, "://")`: offset of the first occurrence, `some none` for NULL. -/
def strstrSep (k : Nat) : Mem → Option (Option Nat)
  | [] => Option.none
  | c :: rest =>
    if c = 58 ∧ rest[0]? = some 47 ∧ rest[1]? = some 47 then some (some k)
    else if c = 0 then some Option.none
    else strstrSep (k + 1) rest

/-- C `strncmp (a, b, n) == 0`. -/
def strnEq : Nat → Mem → Mem → Option Bool
  | 0, _, _ => some true
  | n + 1, c1 :: s1, c2 :: s2 => if c1 = c2 then (if c1 = 0 then some true else strnEq n s1 s2) else some false
  | _ + 1, _, _ => Option.none

/-- `"ascii"` with its terminator. -/
def asciiLit : Mem := [97, 115, 99, 105, 105, 0]
/-- `"bin"` with its terminator. -/
def binLit : Mem := [98, 105, 110, 0]

/-- `vl_string_parse_protocol`, vl/stringop.c:82-112: protocol written and offset of the pointer returned. -/
def parseProtocol (s : Mem) : Option (Protocol × Nat) := do
  let r ← strstrSep 0 s
  match r with
  | Option.none => some (.none, 0)
  | some k => do
    let isA ← strnEq k s asciiLit
    if isA then some (.ascii, k + 3)
    else do
      let isB ← strnEq k s binLit
      if isB then some (.binary, k + 3) else some (.unknown, k + 3)

/-- `vl_string_protocol_name`, vl/stringop.c:125-138; `none` is the NULL pointer. -/
def protocolName : Protocol → Option Mem
  | .ascii => some asciiLit
  | .binary => some binLit
  | .none => some [0]
  | .unknown => Option.none

end Verif.Strings
