import Verif.Base

/-!
# Model of the description of the host, vl/host.c and vl/generic.c

`none` is undefined behaviour.  Texts are lists of bytes; a text is shorter than
2^31 - 1.
-/

namespace Verif.Host

/-- The registers after the instruction `cpuid`. -/
structure Regs where
  eax : BitVec 32
  ebx : BitVec 32
  ecx : BitVec 32
  edx : BitVec 32

/-- `VlX86CpuInfo`, vl/host.h:559-572; `vendor` has 32 bytes. -/
structure CpuInfo where
  vendor : List UInt8
  hasAVX : BitVec 32
  hasSSE42 : BitVec 32
  hasSSE41 : BitVec 32
  hasSSE3 : BitVec 32
  hasSSE2 : BitVec 32
  hasSSE : BitVec 32
  hasMMX : BitVec 32

/-- The field `cpuInfo` of the static variable `_vl_state`, vl/generic.c:850-858, before
the library is initialised. -/
def CpuInfo.zero : CpuInfo := ⟨List.replicate 32 0, 0, 0, 0, 0, 0, 0, 0⟩

/-- The bytes of a word on a little endian machine. -/
def wordBytes (w : BitVec 32) : List UInt8 :=
  [UInt8.ofNat (w.toNat % 256), UInt8.ofNat (w.toNat / 256 % 256), UInt8.ofNat (w.toNat / 65536 % 256), UInt8.ofNat (w.toNat / 16777216 % 256)]

/-- `self->vendor.words[i] = w` -/
def setWord (v : List UInt8) (i : Nat) (w : BitVec 32) : List UInt8 := v.take (4 * i) ++ (wordBytes w ++ v.drop (4 * i + 4))

/-- `_vl_x86cpu_info_init`, vl/host.c:442-464; `cpuid` is the answer of the processor to each function. -/
def infoInit (cpuid : Nat → Regs) (s : CpuInfo) : CpuInfo :=
  let i := cpuid 0
  let s := { s with vendor := setWord (setWord (setWord s.vendor 0 i.ebx) 1 i.edx) 2 i.ecx }
  if i.eax.toInt ≥ 1 then
    let i := cpuid 1
    { s with
      hasMMX := i.edx &&& (1#32 <<< 23)
      hasSSE := i.edx &&& (1#32 <<< 25)
      hasSSE2 := i.edx &&& (1#32 <<< 26)
      hasSSE3 := i.ecx &&& (1#32 <<< 0)
      hasSSE41 := i.ecx &&& (1#32 <<< 19)
      hasSSE42 := i.ecx &&& (1#32 <<< 20)
      hasAVX := i.ecx &&& (1#32 <<< 28) }
  else s

/-- The text at a pointer: the bytes before the first null byte. -/
def cText (b : List UInt8) : Option (List UInt8) := if (0 : UInt8) ∈ b then some (b.takeWhile (· ≠ 0)) else none

/-- A conditional text of the argument list, vl/host.c:480-486. -/
def ifText (x : BitVec 32) (t : List UInt8) : List UInt8 := if x ≠ 0 then t else []

/-- What is printed at vl/host.c:478-486. -/
def cpuText (s : CpuInfo) : Option (List UInt8) := do
  let v ← cText s.vendor
  some (v ++ (ifText s.hasMMX " MMX".toUTF8.toList ++ (ifText s.hasSSE " SSE".toUTF8.toList ++ (ifText s.hasSSE2 " SSE2".toUTF8.toList ++
    (ifText s.hasSSE3 " SSE3".toUTF8.toList ++ (ifText s.hasSSE41 " SSE41".toUTF8.toList ++ (ifText s.hasSSE42 " SSE42".toUTF8.toList ++
      ifText s.hasAVX " AVX".toUTF8.toList)))))))

/-- A pointer that may be freed: null, a block, or a literal of the program. -/
inductive Ptr
  | null
  | lit (t : List UInt8)
  | block (n : Nat) (b : List UInt8)

/-- The allocator: whether the n-th request succeeds and what a new block contains; the
number of requests so far, and the blocks that are allocated. -/
structure Mem where
  ok : Nat → Bool
  junk : Nat → Nat → UInt8
  next : Nat
  live : List Nat

/-- `vl_malloc (n)` -/
def Mem.alloc (m : Mem) (n : Nat) : Ptr × Mem :=
  if m.ok m.next then (.block m.next ((List.range n).map (m.junk m.next)), { m with next := m.next + 1, live := m.next :: m.live })
  else (.null, { m with next := m.next + 1 })

/-- `if (p) vl_free (p)`: a literal, or a block that is not allocated, must not be freed. -/
def Mem.freeIf (m : Mem) : Ptr → Option Mem
  | .null => some m
  | .lit _ => none
  | .block n _ => if n ∈ m.live then some { m with live := m.live.erase n } else none

/-- `snprintf (p, size, ...)` of the text `t`: the pointer with its new contents, and the length of the text. -/
def snprintf (p : Ptr) (size : Nat) (t : List UInt8) : Option (Ptr × Nat) :=
  if size = 0 then some (p, t.length)
  else match p with
    | .block n b =>
      if size ≤ b.length then some (.block n (t.take (size - 1) ++ [0] ++ b.drop ((t.take (size - 1)).length + 1)), t.length)
      else none
    | _ => none

/-- The loop that prints the text `t` to a new string, vl/host.c:473-488, 571-583 and vl/generic.c:899-925.  Simplification: at most
`fuel` rounds. -/
def textLoop (t : List UInt8) : Nat → Ptr → Nat → Mem → Option (Ptr × Mem)
  | 0, _, _, _ => none
  | fuel + 1, .null, length, m =>
    if length > 0 then
      match m.alloc length with
      | (.null, m) => some (.null, m)
      | (p, m) => do
        let (p, r) ← snprintf p length t
        textLoop t fuel p (r + 1) m
    else do
      let (p, r) ← snprintf .null length t
      textLoop t fuel p (r + 1) m
  | _ + 1, p, _, m => some (p, m)

/-- `_vl_x86cpu_info_to_string_copy`, vl/host.c:467-489. -/
def cpuCopy (s : CpuInfo) (m : Mem) : Option (Ptr × Mem) := do
  let t ← cpuText s
  textLoop t 3 .null 0 m

/-- `vl_static_configuration_to_string_copy`, vl/host.c:500-584, of which the text is a parameter. -/
def staticCopy (t : List UInt8) (m : Mem) : Option (Ptr × Mem) := textLoop t 3 .null 0 m

/-- The argument of `%s`: null is undefined. -/
def argText : Ptr → Option (List UInt8)
  | .null => none
  | .lit t => some t
  | .block _ b => cText b

/-- `vl_configuration_to_string_copy`, vl/generic.c:879-932.  `x86` tells whether the library is compiled for x86, `render` is the text
that is printed, given the static configuration and the processor. -/
def confCopy (x86 : Bool) (s : CpuInfo) (st : List UInt8) (render : List UInt8 → List UInt8 → List UInt8) (m : Mem) : Option (Ptr × Mem) := do
  let (a, m) ← staticCopy st m
  let (c, m) ← if x86 then cpuCopy s m else some (.lit "Generic CPU".toUTF8.toList, m)
  let ta ← argText a
  let tc ← argText c
  let (r, m) ← textLoop (render ta tc) 3 .null 0 m
  let m ← m.freeIf a
  let m ← m.freeIf c
  some (r, m)

end Verif.Host
