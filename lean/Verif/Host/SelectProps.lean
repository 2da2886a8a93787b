import Verif.Host.Props
import Verif.Host.SelectModel

/-! # C235: the library executes only instructions that the machine can execute -/

namespace Verif.Host

/-! ## Specification -/

/-- A machine: the answers of the processor, and whether the operating system has enabled the state of AVX (bits 1 and 2 of XCR0). -/
structure Machine where
  cpuid : Nat → Regs
  ymm : Bool

/-- Bit `k` of a register of function 1, if the processor has this function. -/
def Machine.bit (m : Machine) (r : Regs → BitVec 32) (k : Nat) : Prop := (m.cpuid 0).eax.toInt ≥ 1 ∧ (r (m.cpuid 1)).getLsbD k = true

/-- Which instructions can be executed (Intel's manual, volume 1, 11.6.2 and 14.3): AVX needs the bit of the processor, OSXSAVE, and the
operating system. -/
def Machine.Runs (m : Machine) : Code → Prop
  | .plain => True
  | .sse2 => m.bit Regs.edx 26
  | .avx => m.bit Regs.ecx 28 ∧ m.bit Regs.ecx 27 ∧ m.ymm = true

/-- Calls that do not abort: pairs are not compared with the distance that needs three vectors. -/
def LibLegal : LibOp → Prop
  | .compare t => t ≠ .dMahalanobis
  | _ => True

/-- How many times a call should execute a version of its function. -/
def uses : LibOp → Nat
  | .setSimd _ => 0
  | _ => 1

/-- C235: whatever the machine and the calls, only instructions that the machine can execute are executed. -/
def SelectClaim : Prop :=
  ∀ (m : Machine) (ops : List LibOp), (∀ op ∈ ops, LibLegal op) → ∃ l, libRun ops (libInit m.cpuid) = some l ∧ ∀ c ∈ l, m.Runs c

/-! ## Proofs -/

theorem hasSse2_iff (m : Machine) (x : Bool) : hasSse2 (setSimd (libInit m.cpuid) x) = true ↔ m.bit Regs.edx 26 := by
  have := cpu_flags m.cpuid ((infoInit m.cpuid CpuInfo.zero).hasSSE2, (m.cpuid 1).edx.getLsbD 26) (by simp)
  simp only [hasSse2, setSimd, libInit, Machine.bit]
  exact decide_eq_true_iff.trans this

theorem hasAvx_iff (m : Machine) (x : Bool) : hasAvx (setSimd (libInit m.cpuid) x) = true ↔ m.bit Regs.ecx 28 := by
  have := cpu_flags m.cpuid ((infoInit m.cpuid CpuInfo.zero).hasAVX, (m.cpuid 1).ecx.getLsbD 28) (by simp)
  simp only [hasAvx, setSimd, libInit, Machine.bit]
  exact decide_eq_true_iff.trans this

/-- The setting after a call. -/
def nextSimd : LibOp → Bool → Bool
  | .setSimd x, _ => x
  | _, y => y

/-- What one call executes. -/
theorem libRun_cons (s : Lib) (op : LibOp) (hl : LibLegal op) :
    ∃ l, (∀ ops, libRun (op :: ops) s = (libRun ops (setSimd s (nextSimd op s.simd))).map (l ++ ·)) ∧ l.length = uses op ∧
      ∀ c ∈ l, (c = .sse2 → hasSse2 s = true ∧ s.simd = true) ∧ (c = .avx → hasAvx s = true ∧ s.simd = true) := by
  have e : setSimd s s.simd = s := rfl
  cases op with
  | setSimd x => exact ⟨[], fun ops => by simp [libRun, nextSimd], rfl, fun c hc => by cases hc⟩
  | compare t =>
    have ht : t ≠ .dMahalanobis := hl
    obtain ⟨c, hc, h⟩ : ∃ c, select2 s t = some c ∧ ((c = .sse2 → hasSse2 s = true ∧ s.simd = true) ∧ (c = .avx → hasAvx s = true ∧ s.simd = true)) := by
      rw [select2, if_neg ht]
      refine ⟨_, rfl, ?_⟩
      cases h1 : hasSse2 s <;> cases h2 : hasAvx s <;> cases h3 : s.simd <;> cases t <;> simp_all
    refine ⟨[c], fun ops => ?_, rfl, fun d hd => by rw [List.mem_singleton.mp hd]; exact h⟩
    rw [show ∀ y, nextSimd _ y = y from fun _ => rfl, e]
    cases h : libRun ops s <;> simp [libRun, hc, h]
  | compare3 =>
    obtain ⟨c, hc, h⟩ : ∃ c, select3 s .dMahalanobis = some c ∧
        ((c = .sse2 → hasSse2 s = true ∧ s.simd = true) ∧ (c = .avx → hasAvx s = true ∧ s.simd = true)) := by
      rw [select3, if_neg (by simp)]
      refine ⟨_, rfl, ?_⟩
      cases h1 : hasSse2 s <;> cases h2 : hasAvx s <;> cases h3 : s.simd <;> simp_all
    refine ⟨[c], fun ops => ?_, rfl, fun d hd => by rw [List.mem_singleton.mp hd]; exact h⟩
    rw [show ∀ y, nextSimd _ y = y from fun _ => rfl, e]
    cases h : libRun ops s <;> simp [libRun, hc, h]
  | update =>
    refine ⟨gmmUpdates s, fun ops => ?_, ?_, ?_⟩
    · rw [show ∀ y, nextSimd _ y = y from fun _ => rfl, e]
      cases h : libRun ops s <;> simp [libRun, h]
    · unfold gmmUpdates uses
      cases h1 : hasSse2 s <;> cases h2 : hasAvx s <;> cases h3 : s.simd <;> simp
    · unfold gmmUpdates
      cases h1 : hasSse2 s <;> cases h2 : hasAvx s <;> cases h3 : s.simd <;> simp
  | convolve =>
    refine ⟨[convCode s], fun ops => ?_, rfl, ?_⟩
    · rw [show ∀ y, nextSimd _ y = y from fun _ => rfl, e]
      cases h : libRun ops s <;> simp [libRun, h]
    · unfold convCode
      cases h1 : hasSse2 s <;> cases h3 : s.simd <;> simp

/-- A machine with AVX can execute it. -/
def Machine.AvxReady (m : Machine) : Prop := m.bit Regs.ecx 28 → m.bit Regs.ecx 27 ∧ m.ymm = true

theorem libRun_runs (m : Machine) (hm : m.AvxReady) (ops : List LibOp) : ∀ x : Bool, (∀ op ∈ ops, LibLegal op) →
    ∃ l, libRun ops (setSimd (libInit m.cpuid) x) = some l ∧ (∀ c ∈ l, m.Runs c) ∧ l.length = (ops.map uses).sum := by
  induction ops with
  | nil => exact fun x _ => ⟨[], rfl, by simp, rfl⟩
  | cons op ops ih =>
    intro x hl
    obtain ⟨l, h1, h2, h3⟩ := libRun_cons (setSimd (libInit m.cpuid) x) op (hl op (by simp))
    obtain ⟨l', e, h4, h5⟩ := ih (nextSimd op x) (fun o ho => hl o (by simp [ho]))
    have e' : setSimd (setSimd (libInit m.cpuid) x) (nextSimd op (setSimd (libInit m.cpuid) x).simd) = setSimd (libInit m.cpuid) (nextSimd op x) := rfl
    refine ⟨l ++ l', by rw [h1, e', e]; rfl, fun c hc => ?_, by simp [h2, h5]⟩
    rcases List.mem_append.mp hc with hc | hc
    · cases c with
      | plain => trivial
      | sse2 => exact (hasSse2_iff m x).mp ((h3 _ hc).1 rfl).1
      | avx =>
        have := (hasAvx_iff m x).mp ((h3 _ hc).2 rfl).1
        exact ⟨this, hm this⟩
    · exact h4 c hc

theorem libRun_off (ops : List LibOp) : ∀ (s : Lib) (l : List Code), s.simd = false → (∀ op ∈ ops, LibLegal op ∧ op ≠ .setSimd true) →
    libRun ops s = some l → ∀ c ∈ l, c = .plain := by
  induction ops with
  | nil => intro s l _ _ e; cases e; simp
  | cons op ops ih =>
    intro s l hs hl e
    obtain ⟨l0, h1, -, h3⟩ := libRun_cons s op (hl op (by simp)).1
    rw [h1, Option.map_eq_some_iff] at e
    obtain ⟨l1, e1, rfl⟩ := e
    have hn : nextSimd op s.simd = false := by
      cases op with
      | setSimd x =>
        cases x with
        | true => exact absurd rfl (hl (.setSimd true) (by simp)).2
        | false => rfl
      | _ => exact hs
    intro c hc
    rcases List.mem_append.mp hc with hc | hc
    · have := h3 c hc
      rw [hs] at this
      cases c with
      | plain => rfl
      | sse2 => simp at this
      | avx => simp at this
    · exact ih (setSimd s (nextSimd op s.simd)) l1 hn (fun o ho => hl o (by simp [ho])) e1 c hc

/-! ## Theorems -/

/-- C235: on machines that can execute AVX if the processor announces it, whatever the calls and the settings, only instructions that the machine can
execute are executed, and each call executes exactly one version of its function. -/
theorem select_runs_partial (m : Machine) (hm : m.AvxReady) (ops : List LibOp) (hl : ∀ op ∈ ops, LibLegal op) :
    ∃ l, libRun ops (libInit m.cpuid) = some l ∧ (∀ c ∈ l, m.Runs c) ∧ l.length = (ops.map uses).sum := libRun_runs m hm ops true hl

/-- C235: once vector instructions are switched off, only plain code is executed until they are switched on, on all machines. -/
theorem select_off (s : Lib) (ops : List LibOp) (l : List Code) (hl : ∀ op ∈ ops, LibLegal op ∧ op ≠ .setSimd true)
    (e : libRun (.setSimd false :: ops) s = some l) : ∀ c ∈ l, c = .plain := libRun_off ops (setSimd s false) l rfl hl e

/-- C235: if the processor announces AVX and the operating system has not enabled it, the L2 distance executes AVX instructions nevertheless. -/
theorem select_avx_undefined (m : Machine) (ha : m.bit Regs.ecx 28) (hn : ¬ (m.bit Regs.ecx 27 ∧ m.ymm = true)) :
    ∃ c, libRun [.compare .dL2] (libInit m.cpuid) = some [c] ∧ ¬ m.Runs c := by
  refine ⟨.avx, ?_, fun h => hn h.2⟩
  have : hasAvx (libInit m.cpuid) = true := (hasAvx_iff m true).mpr ha
  have hs : (libInit m.cpuid).simd = true := rfl
  simp [libRun, select2, this, hs]

/-- A processor with SSE2 and AVX. -/
def avxRegs : Nat → Regs := fun _ => ⟨1, 0, 1#32 <<< 28 ||| 1#32 <<< 27, 1#32 <<< 26⟩

theorem select_claim_false : ¬ SelectClaim := by
  intro h
  have ha : (⟨avxRegs, false⟩ : Machine).bit Regs.ecx 28 := by unfold Machine.bit; decide
  obtain ⟨c, e, hc⟩ := select_avx_undefined ⟨avxRegs, false⟩ ha (by simp)
  obtain ⟨l, e', hl⟩ := h ⟨avxRegs, false⟩ [.compare .dL2] (by simp [LibLegal])
  rw [e] at e'
  cases e'
  exact hc (hl c (by simp))

/-- A machine that is ready. -/
example : (⟨avxRegs, true⟩ : Machine).AvxReady := fun _ => ⟨by unfold Machine.bit; decide, rfl⟩

example : libRun [.compare .dL2, .compare .kL1, .update, .convolve, .setSimd false, .update, .compare3] (libInit avxRegs) =
    some [.avx, .sse2, .avx, .sse2, .plain, .plain] := by decide

end Verif.Host
