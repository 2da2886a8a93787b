import Verif.Loop

/-!
# Model of `getopt_long`

vl/getopt_long.c.  Strings are lists of non-zero bytes; the entry `argv[argc]` is the null pointer, `none` in the list of the
arguments.  `int` variables that are never negative are natural numbers.  Messages on the standard error are not modelled, and the
string of the short options is not null.
-/

namespace Verif.Getopt

/-- A string without its terminating zero. -/
abbrev Str := List UInt8

/-- `struct option`, vl/getopt_long.h:27-33; `hasArg` is 0, 1 (required) or 2 (optional), `flag` is the address of a variable. -/
structure LongOpt where
  name : Str
  hasArg : Nat
  flag : Option Nat
  val : Int

/-- The arguments of all the calls but the vector of the arguments. -/
structure Ctx where
  argc : Nat
  optstring : Str
  longopts : List LongOpt

/-- The vector of the arguments, the static variables (vl/getopt_long.c:30-34, 79-81), `*longindex` and the stores through `flag`
so far. -/
structure St where
  argv : List (Option Str)
  place : Str
  optbegin : Nat
  optend : Nat
  optind : Nat
  optarg : Option Str
  optopt : Int
  optreset : Bool
  longindex : Option Nat
  flags : List (Nat × Int)
  deriving DecidableEq

/-- A `char` as an `int`; `char` is signed. -/
def chr (c : UInt8) : Int := if c.toNat < 128 then c.toNat else (c.toNat : Int) - 256

/-- One circular shift, vl/getopt_long.c:316-321. -/
def shift (optind optend : Nat) (argv : List (Option Str)) : Option (List (Option Str)) := do
  let tmp ← rd argv (optend - 1)
  let argv ← iter (optend - 1 - optind) (fun k argv => do
    let i := optend - 1 - k
    let a ← rd argv (i - 1)
    wr argv i a) argv
  wr argv optind tmp

/-- `done_option`, vl/getopt_long.c:309-325. -/
def doneOption (s : St) (ret : Int) : Option (Int × St) := do
  let pos := s.optend - s.optbegin
  let argv ← iter pos (fun _ argv => shift s.optind s.optend argv) s.argv
  some (ret, { s with argv := argv, optind := s.optind + pos })

/-- `strchr(optstring, c)` and the test `oli[1] != ':'`, vl/getopt_long.c:243 and 266. -/
def findShort : Str → UInt8 → Option Bool
  | [], _ => none
  | x :: r, c => if x = c then some (r.head? == some 58) else findShort r c

/-- The next letter of a sequence of short options, vl/getopt_long.c:240-308.  A sequence is empty only for the argument `-`; then `strchr` finds the
terminating zero of `optstring` and `oli[1]` is behind its end. -/
def short (c : Ctx) (hasColon : Bool) (optstring : Str) (s : St) : Option (Int × St) :=
  match s.place with
  | [] => none
  | ch :: place =>
    let s := { s with place := place, optopt := chr ch }
    match findShort optstring ch with
    | none => if place ≠ [] then some (63, s) else doneOption { s with place := [] } 63
    | some false => if place ≠ [] then some (chr ch, s) else doneOption { s with place := [] } (chr ch)
    | some true =>
      if place ≠ [] then doneOption { s with optarg := some place, place := [] } (chr ch)
      else if s.optbegin + 1 ≥ c.argc then doneOption { s with place := [] } (if hasColon then 58 else 63)
      else do
        let a ← rd s.argv s.optend
        doneOption { s with optarg := a, optend := s.optend + 1, place := [] } (chr ch)

/-- The loop over the long options, vl/getopt_long.c:177-180, from index `i`. -/
def findLong : List LongOpt → Str → Nat → Option (Nat × LongOpt)
  | [], _, _ => none
  | o :: l, name, i => if o.name.length = name.length ∧ o.name = name then some (i, o) else findLong l name (i + 1)

/-- The return value of a long option, vl/getopt_long.c:212-222. -/
def longDone (o : LongOpt) (s : St) : Option (Int × St) :=
  match o.flag with
  | none => doneOption { s with place := [] } o.val
  | some f => doneOption { s with place := [], flags := s.flags ++ [(f, o.val)] } 0

/-- A long option, vl/getopt_long.c:171-234; `place` is behind the two dashes. -/
def long (c : Ctx) (hasColon : Bool) (place : Str) (s : St) : Option (Int × St) :=
  let name := place.takeWhile (· ≠ 61)
  match findLong c.longopts name 0 with
  | none => doneOption { s with place := [] } 63
  | some (i, o) =>
    let s := { s with longindex := some i }
    if o.hasArg = 1 ∨ o.hasArg = 2 then
      match place.drop name.length with
      | _ :: value => longDone o { s with optarg := some value }
      | [] =>
        if o.hasArg = 1 then
          if s.optbegin + 1 ≥ c.argc then doneOption { s with place := [] } (if hasColon then 58 else 63)
          else do
            let a ← rd s.argv s.optend
            longDone o { s with optarg := a, optend := s.optend + 1 }
        else longDone o s
    else longDone o s

/-- The search of an argument that starts with a dash, vl/getopt_long.c:112-136, from `b` with `n + 1` arguments left; the inner `none` is that
there is none. -/
def scan (argv : List (Option Str)) : Nat → Nat → Option (Option (Nat × Str))
  | n, b => do
    let a ← rd argv b
    let a ← a
    if a.head? ≠ some 45 then
      match n with
      | 0 => some none
      | n + 1 => scan argv n (b + 1)
    else some (some (b, a.tail))

/-- The argument `place`, without its first dash, at `b`, vl/getopt_long.c:136-234. -/
def option (c : Ctx) (hasColon : Bool) (optstring : Str) (b : Nat) (place : Str) (s : St) : Option (Int × St) :=
  let s := { s with optbegin := b, optend := b + 1, optarg := none, place := place }
  match place with
  | [45] => doneOption { s with optind := s.optend, place := [] } (-1)
  | 45 :: x :: name => long c hasColon (x :: name) s
  | _ => short c hasColon optstring s

/-- `getopt_long`, vl/getopt_long.c:73-326. -/
def getopt (c : Ctx) (s : St) : Option (Int × St) :=
  let hasColon := c.optstring.head? == some 58
  let optstring := if hasColon then c.optstring.tail else c.optstring
  if s.optreset = true ∨ s.place = [] then
    let s := { s with optreset := false }
    if s.optind ≥ c.argc then some (-1, { s with place := [] })
    else do
      let r ← scan s.argv (c.argc - 1 - s.optind) s.optind
      match r with
      | none => some (-1, { s with place := [], optbegin := c.argc })
      | some (b, place) => option c hasColon optstring b place s
  else short c hasColon optstring s

/-- Calls until -1 is returned: the values returned with `optarg` and `*longindex`, and the state at the end. -/
inductive Drive (c : Ctx) : St → List (Int × Option Str × Option Nat) → St → Prop
  | stop {s s' : St} : getopt c s = some (-1, s') → Drive c s [] s'
  | more {s s' t : St} {r : Int} {l : List (Int × Option Str × Option Nat)} : getopt c s = some (r, s') → r ≠ -1 → Drive c s' l t →
      Drive c s ((r, s'.optarg, s'.longindex) :: l) t

/-- The state before the first call, vl/getopt_long.c:30-34, 79-81. -/
def init (prog : Str) (args : List Str) : St :=
  { argv := some prog :: args.map some ++ [none], place := [], optbegin := 0, optend := 0, optind := 1, optarg := none, optopt := 0,
    optreset := false, longindex := none, flags := [] }

end Verif.Getopt
