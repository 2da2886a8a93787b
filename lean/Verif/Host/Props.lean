import Verif.Host.Model
import Mathlib.Data.List.Basic

/-! # C227, C228: the description of the host -/

namespace Verif.Host

/-! ## Specification -/

/-- Byte `k` of a word. -/
def byteOf (w : BitVec 32) (k : Nat) : UInt8 := UInt8.ofNat (w.toNat / 256 ^ k % 256)

/-- The name of the vendor: the bytes of EBX, EDX and ECX. -/
def vendorBytes (r : Regs) : List UInt8 :=
  (List.range 4).map (byteOf r.ebx) ++ (List.range 4).map (byteOf r.edx) ++ (List.range 4).map (byteOf r.ecx)

/-- The instruction sets, and the register and the bit of function 1 that announces them (Intel's manual, volume 2, CPUID). -/
def sets (r : Regs) : List (String × Bool) :=
  [(" MMX", r.edx.getLsbD 23), (" SSE", r.edx.getLsbD 25), (" SSE2", r.edx.getLsbD 26), (" SSE3", r.ecx.getLsbD 0),
   (" SSE41", r.ecx.getLsbD 19), (" SSE42", r.ecx.getLsbD 20), (" AVX", r.ecx.getLsbD 28)]

/-- The description: the name up to a null byte, and the instruction sets. -/
def describe (cpuid : Nat → Regs) : List UInt8 :=
  (vendorBytes (cpuid 0)).takeWhile (· ≠ 0) ++
    (if (cpuid 0).eax.toInt ≥ 1 then ((sets (cpuid 1)).filter (·.2)).flatMap (fun x => x.1.toUTF8.toList) else [])

/-! ## Proofs -/

theorem mask_ne (w : BitVec 32) (k : Nat) (hk : k < 32) : (w &&& (1#32 <<< k)) ≠ 0 ↔ w.getLsbD k = true := by
  rw [show (1#32 <<< k) = BitVec.twoPow 32 k from rfl, BitVec.and_twoPow]
  cases h : w.getLsbD k with
  | false => simp
  | true =>
    simp only [if_true, iff_true]
    intro h
    have := congrArg (fun x => x.getLsbD k) h
    simp [hk] at this

theorem ifText_mask (w : BitVec 32) (k : Nat) (hk : k < 32) (t : List UInt8) :
    ifText (w &&& (1#32 <<< k)) t = if w.getLsbD k then t else [] := by
  unfold ifText
  cases h : w.getLsbD k with
  | false => rw [if_neg (by rw [mask_ne w k hk, h]; simp)]; rfl
  | true => rw [if_pos (by rw [mask_ne w k hk, h])]; rfl

/-- C227: the flags are the bits of the processor; without function 1 they are not set. -/
theorem cpu_flags (cpuid : Nat → Regs) :
    let i := infoInit cpuid CpuInfo.zero
    ∀ x ∈ [(i.hasMMX, (cpuid 1).edx.getLsbD 23), (i.hasSSE, (cpuid 1).edx.getLsbD 25), (i.hasSSE2, (cpuid 1).edx.getLsbD 26),
      (i.hasSSE3, (cpuid 1).ecx.getLsbD 0), (i.hasSSE41, (cpuid 1).ecx.getLsbD 19), (i.hasSSE42, (cpuid 1).ecx.getLsbD 20),
      (i.hasAVX, (cpuid 1).ecx.getLsbD 28)], x.1 ≠ 0 ↔ (cpuid 0).eax.toInt ≥ 1 ∧ x.2 = true := by
  intro i x hx
  by_cases h : (cpuid 0).eax.toInt ≥ 1
  · simp only [i, infoInit, if_pos h, List.mem_cons, List.not_mem_nil, or_false] at hx
    rcases hx with rfl | rfl | rfl | rfl | rfl | rfl | rfl <;> simp only [h, true_and] <;> exact mask_ne _ _ (by decide)
  · simp only [i, infoInit, if_neg h, List.mem_cons, List.not_mem_nil, or_false, CpuInfo.zero] at hx
    rcases hx with rfl | rfl | rfl | rfl | rfl | rfl | rfl <;> simp [h]

theorem wordBytes_eq (w : BitVec 32) : wordBytes w = (List.range 4).map (byteOf w) := by
  simp [wordBytes, byteOf, List.range_succ]

theorem vendor_eq (cpuid : Nat → Regs) : (infoInit cpuid CpuInfo.zero).vendor = vendorBytes (cpuid 0) ++ List.replicate 20 0 := by
  have h : (infoInit cpuid CpuInfo.zero).vendor =
      setWord (setWord (setWord (List.replicate 32 0) 0 (cpuid 0).ebx) 1 (cpuid 0).edx) 2 (cpuid 0).ecx := by
    unfold infoInit
    by_cases h : (cpuid 0).eax.toInt ≥ 1 <;> simp only [h, if_true, if_false] <;> rfl
  rw [h, vendorBytes, ← wordBytes_eq, ← wordBytes_eq, ← wordBytes_eq]
  rfl

theorem cText_vendor (cpuid : Nat → Regs) :
    cText (infoInit cpuid CpuInfo.zero).vendor = some ((vendorBytes (cpuid 0)).takeWhile (· ≠ 0)) := by
  rw [vendor_eq, cText, if_pos (by simp)]
  congr 1

theorem cpuText_eq (cpuid : Nat → Regs) : cpuText (infoInit cpuid CpuInfo.zero) = some (describe cpuid) := by
  unfold cpuText
  rw [cText_vendor]
  simp only [Option.bind_eq_bind, Option.bind_some, describe, Option.some.injEq, List.append_cancel_left_eq]
  by_cases h : (cpuid 0).eax.toInt ≥ 1
  · simp only [infoInit, if_pos h]
    rw [ifText_mask _ _ (by decide), ifText_mask _ _ (by decide), ifText_mask _ _ (by decide), ifText_mask _ _ (by decide),
      ifText_mask _ _ (by decide), ifText_mask _ _ (by decide), ifText_mask _ _ (by decide)]
    unfold sets
    cases (cpuid 1).edx.getLsbD 23 <;> cases (cpuid 1).edx.getLsbD 25 <;> cases (cpuid 1).edx.getLsbD 26 <;> cases (cpuid 1).ecx.getLsbD 0 <;>
      cases (cpuid 1).ecx.getLsbD 19 <;> cases (cpuid 1).ecx.getLsbD 20 <;> cases (cpuid 1).ecx.getLsbD 28 <;> simp
  · simp only [infoInit, if_neg h, CpuInfo.zero]
    simp [ifText]

/-- The loop gives a block that holds exactly the text and a null byte, or null if the block cannot be allocated. -/
theorem textLoop_eq (t : List UInt8) (fuel : Nat) (m : Mem) :
    textLoop t (fuel + 3) .null 0 m =
      if m.ok m.next then some (.block m.next (t ++ [0]), { m with next := m.next + 1, live := m.next :: m.live })
      else some (.null, { m with next := m.next + 1 }) := by
  rw [textLoop, if_neg (by simp)]
  simp only [snprintf, if_true, Option.bind_eq_bind, Option.bind_some]
  rw [textLoop, if_pos (by omega)]
  by_cases h : m.ok m.next = true
  · rw [if_pos h]
    simp only [Mem.alloc, if_pos h, snprintf]
    rw [if_neg (by omega), if_pos (by simp)]
    simp only [Option.bind_eq_bind, Option.bind_some, textLoop]
    simp
  · rw [if_neg h]
    simp only [Mem.alloc, if_neg h]

/-- C227: whatever the processor, the description is complete, terminated, and in a block of its own that fits it; it is null exactly if
there is no memory. -/
theorem cpu_text (cpuid : Nat → Regs) (m : Mem) :
    cpuCopy (infoInit cpuid CpuInfo.zero) m =
      if m.ok m.next then some (.block m.next (describe cpuid ++ [0]), { m with next := m.next + 1, live := m.next :: m.live })
      else some (.null, { m with next := m.next + 1 }) := by
  unfold cpuCopy
  rw [cpuText_eq]
  simp only [Option.bind_eq_bind, Option.bind_some]
  exact textLoop_eq _ 0 m

theorem cText_term {t : List UInt8} (h : (0 : UInt8) ∉ t) : cText (t ++ [0]) = some t := by
  rw [cText, if_pos (by simp), List.takeWhile_append_of_pos]
  · simp
  · intro a ha
    have : a ≠ 0 := fun e => h (by rw [← e]; exact ha)
    simpa using this

theorem describe_nonzero (cpuid : Nat → Regs) : (0 : UInt8) ∉ describe cpuid := by
  unfold describe
  rw [List.mem_append, not_or]
  constructor
  · intro h
    have : ∀ l : List UInt8, (0 : UInt8) ∉ l.takeWhile (· ≠ 0) := by
      intro l
      induction l with
      | nil => simp
      | cons a l ih =>
        by_cases ha : a = 0
        · simp [ha]
        · rw [List.takeWhile_cons_of_pos (by simpa using ha), List.mem_cons, not_or]
          exact ⟨fun e => ha e.symm, ih⟩
    exact this _ h
  · split
    · intro h
      obtain ⟨x, hx, h0⟩ := List.mem_flatMap.mp h
      have hx := (List.mem_filter.mp hx).1
      simp only [sets, List.mem_cons, List.not_mem_nil, or_false] at hx
      rcases hx with rfl | rfl | rfl | rfl | rfl | rfl | rfl <;> dsimp only at h0 <;> revert h0 <;> decide +kernel
    · simp

/-- C228, on x86: if there is memory for the parts, the result is the complete text in a block of its own, or null, and every other
block is as it was. -/
theorem conf_text_partial (cpuid : Nat → Regs) (st : List UInt8) (hst : (0 : UInt8) ∉ st) (render : List UInt8 → List UInt8 → List UInt8)
    (m : Mem) (hm : ∀ n ∈ m.live, n < m.next) (h0 : m.ok m.next = true) (h1 : m.ok (m.next + 1) = true) :
    confCopy true (infoInit cpuid CpuInfo.zero) st render m =
      if m.ok (m.next + 2) then
        some (.block (m.next + 2) (render st (describe cpuid) ++ [0]), { m with next := m.next + 3, live := (m.next + 2) :: m.live })
      else some (.null, { m with next := m.next + 3 }) := by
  unfold confCopy staticCopy
  rw [textLoop_eq st 0 m, if_pos h0]
  simp only [Option.bind_eq_bind, Option.bind_some, if_true]
  rw [cpu_text]
  simp only [h1, if_true, Option.bind_some, argText]
  rw [cText_term hst, cText_term (describe_nonzero cpuid)]
  simp only [Option.bind_some]
  rw [textLoop_eq _ 0]
  have n0 : m.next ∉ m.live := fun h => Nat.lt_irrefl _ (hm _ h)
  have n1 : m.next + 1 ∉ m.live := fun h => by have := hm _ h; omega
  by_cases h2 : m.ok (m.next + 2) = true
  · simp only [Nat.add_assoc, h2, if_true, Option.bind_some, Mem.freeIf]
    simp
  · simp only [Nat.add_assoc, h2, Mem.freeIf]
    simp

/-- The configuration can be printed on every platform, and null is returned if there is no memory. -/
def ConfClaim : Prop :=
  ∀ (x86 : Bool) (cpuid : Nat → Regs) (st : List UInt8) (render : List UInt8 → List UInt8 → List UInt8) (m : Mem), (0 : UInt8) ∉ st →
    (∀ n ∈ m.live, n < m.next) → ∃ r m', confCopy x86 (infoInit cpuid CpuInfo.zero) st render m = some (r, m')

/-- On other processors the literal `"Generic CPU"` is freed, whatever the memory. -/
theorem conf_generic_undefined (s : CpuInfo) (st : List UInt8) (render : List UInt8 → List UInt8 → List UInt8) (m : Mem) :
    confCopy false s st render m = none := by
  unfold confCopy staticCopy
  rw [textLoop_eq st 0 m]
  by_cases h0 : m.ok m.next = true
  · simp only [h0, if_true, Option.bind_eq_bind, Option.bind_some, argText, Bool.false_eq_true, if_false]
    cases cText (st ++ [0]) with
    | none => rfl
    | some ta =>
      simp only [Option.bind_some]
      rw [textLoop_eq _ 0]
      by_cases h1 : m.ok (m.next + 1) = true <;> simp [h1, Mem.freeIf]
  · simp [h0, argText]

/-- On x86, null is printed as a text if there is no memory for one of the parts. -/
theorem conf_null_undefined (cpuid : Nat → Regs) (st : List UInt8) (render : List UInt8 → List UInt8 → List UInt8) (m : Mem)
    (h : m.ok m.next = false ∨ m.ok (m.next + 1) = false) : confCopy true (infoInit cpuid CpuInfo.zero) st render m = none := by
  unfold confCopy staticCopy
  rw [textLoop_eq st 0 m]
  by_cases h0 : m.ok m.next = true
  · have h1 : m.ok (m.next + 1) = false := by
      rcases h with h | h
      · rw [h0] at h; cases h
      · exact h
    simp only [h0, if_true, Option.bind_eq_bind, Option.bind_some]
    rw [cpu_text]
    simp [h1, argText]
  · simp only [h0, Option.bind_eq_bind, Option.bind_some, if_true]
    simp only [Bool.false_eq_true, if_false, Option.bind_some]
    rw [cpu_text]
    by_cases h1 : m.ok (m.next + 1) = true <;> simp [h1, argText]

theorem conf_claim_false : ¬ ConfClaim := by
  intro h
  obtain ⟨r, m', e⟩ := h false (fun _ => ⟨0, 0, 0, 0⟩) [] (fun a b => a ++ b) ⟨fun _ => true, fun _ _ => 0, 0, []⟩ (by simp) (by simp)
  rw [conf_generic_undefined] at e
  cases e

/-- A processor whose vendor is "GenuineIntel", with SSE2 and AVX. -/
def exCpu : Nat → Regs
  | 0 => ⟨13#32, 0x756e6547#32, 0x6c65746e#32, 0x49656e69#32⟩
  | _ => ⟨0#32, 0#32, 0x10000000#32, 0x04000000#32⟩

example : describe exCpu = "GenuineIntel SSE2 AVX".toUTF8.toList := by decide +kernel

example : confCopy true (infoInit exCpu CpuInfo.zero) [65] (fun a b => a ++ b) ⟨fun _ => true, fun _ _ => 7, 5, [3]⟩ =
    some (.block 7 ([65] ++ "GenuineIntel SSE2 AVX".toUTF8.toList ++ [0]), ⟨fun _ => true, fun _ _ => 7, 8, [7, 3]⟩) := by
  have e : describe exCpu = "GenuineIntel SSE2 AVX".toUTF8.toList := by decide +kernel
  have := conf_text_partial exCpu [65] (by decide) (fun a b => a ++ b) ⟨fun _ => true, fun _ _ => 7, 5, [3]⟩ (by simp) rfl rfl
  rw [e] at this
  simpa using this

end Verif.Host
