import Verif.Imop.ConvSimdModel
import Verif.Imop.ConvProps
import Verif.Mathop.SimdProps

/-!
# The accelerated column convolution gives the result of the plain one

The destination is described by `dstAddr` and `DstOk` of `Verif.Imop.ConvProps`.
-/

namespace Verif.Imop

open Verif.Mathop Finset

variable {K : Type} [Field K] [LinearOrder K] [IsStrictOrderedRing K]

set_option linter.unusedSectionVars false

/-! ### The lanes of a register follow the plain version -/

/-- The lanes `k` of the state `s` are the states `ss k` of the plain version. -/
structure Lanes (T : Flt) (addr : Nat) (s : ConvSt (List K)) (ss : Nat → ConvSt K) : Prop where
  filti : ∀ k < lanes .sse2 T, (ss k).filti = s.filti
  srci : ∀ k < lanes .sse2 T, (ss k).srci = s.srci + k
  acc : s.acc = reg (lanes .sse2 T) (fun k => (ss k).acc)
  v : s.v = reg (lanes .sse2 T) (fun k => (ss k).v)
  al : ((addr : Int) + T.size * s.srci) % 16 = 0

theorem lanes_iter {T : Flt} {addr : Nat} {f : Nat → ConvSt K → Option (ConvSt K)}
    {fV : Nat → ConvSt (List K) → Option (ConvSt (List K))}
    (step : ∀ i s ss tt, Lanes T addr s ss → (∀ k < lanes .sse2 T, f i (ss k) = some (tt k)) → ∃ t, fV i s = some t ∧ Lanes T addr t tt)
    (n : Nat) : ∀ s ss tt, Lanes T addr s ss → (∀ k < lanes .sse2 T, iter n f (ss k) = some (tt k)) → ∃ t, iter n fV s = some t ∧ Lanes T addr t tt := by
  have hV := lanes_pos .sse2 T
  induction n with
  | zero =>
    intro s ss tt h e
    have e' : ∀ k < lanes .sse2 T, ss k = tt k := fun k hk => by simpa [iter] using e k hk
    refine ⟨s, rfl, ⟨fun k hk => e' k hk ▸ h.filti k hk, fun k hk => e' k hk ▸ h.srci k hk, ?_, ?_, h.al⟩⟩
    · rw [h.acc]; exact List.map_congr_left (fun k hk => by rw [e' k (List.mem_range.mp hk)])
    · rw [h.v]; exact List.map_congr_left (fun k hk => by rw [e' k (List.mem_range.mp hk)])
  | succ n ih =>
    intro s ss tt h e
    have hm : ∀ k, ∃ m, k < lanes .sse2 T → iter n f (ss k) = some m ∧ f n m = some (tt k) := by
      intro k
      by_cases hk : k < lanes .sse2 T
      · have := e k hk
        change (iter n f (ss k)).bind (f n) = _ at this
        cases hi : iter n f (ss k) with
        | none => rw [hi] at this; simp at this
        | some m => rw [hi] at this; exact ⟨m, fun _ => ⟨rfl, this⟩⟩
      · exact ⟨ss k, fun h => absurd h hk⟩
    choose mm hmm using hm
    obtain ⟨m, em, hm⟩ := ih s ss mm h (fun k hk => (hmm k hk).1)
    obtain ⟨t, et, ht⟩ := step n m mm tt hm (fun k hk => (hmm k hk).2)
    exact ⟨t, by show (iter n fV s).bind (fV n) = _; rw [em]; exact et, ht⟩

theorem load1_of {T : Flt} {filt : List K} {i : Int} {c : K} (h : rdI filt i = some c) : load1 T filt i = some (reg (lanes .sse2 T) (fun _ => c)) := by
  rw [load1, h]
  show some (List.replicate _ c) = _
  rw [replicate_reg]

theorem loadAI_of {T : Flt} {src : Blk K} {i : Int} {g : Nat → K} (ha : ((src.addr : Int) + T.size * i) % 16 = 0)
    (h : ∀ k < lanes .sse2 T, rdI src.data (i + k) = some (g k)) : loadAI T src i = some (reg (lanes .sse2 T) g) := by
  have h0 : 0 ≤ i := by
    have := h 0 (lanes_pos .sse2 T)
    by_contra hn
    simp [rdI] at this
    omega
  obtain ⟨m, rfl⟩ := Int.eq_ofNat_of_zero_le h0
  have ha' : (src.addr + T.size * m) % alignment .sse2 = 0 := by
    show (src.addr + T.size * m) % 16 = 0
    have : ((src.addr + T.size * m : Nat) : Int) % 16 = 0 := by push_cast; exact ha
    omega
  rw [loadAI, if_pos h0, Int.toNat_natCast, loadA, if_pos ha']
  exact mapM_range _ _ _ (fun k hk => by rw [← rdI_eq src.data ((m : Int) + k) (m + k) (by push_cast; rfl)]; exact h k hk)

theorem rdI_of_bind {α : Type} {l : List K} {i : Int} {g : K → Option α} {t : α} (h : (rdI l i).bind g = some t) : ∃ c, rdI l i = some c ∧ g c = some t := by
  cases e : rdI l i with
  | none => rw [e] at h; cases h
  | some c => rw [e] at h; exact ⟨c, rfl, h⟩

theorem al_step {T : Flt} {addr stride : Nat} {i : Int} (hs : stride % 16 = 0) (h : ((addr : Int) + T.size * i) % 16 = 0) :
    ((addr : Int) + T.size * (i + stride)) % 16 = 0 := by
  obtain ⟨q, hq⟩ := Nat.dvd_of_mod_eq_zero hs
  have e : (addr : Int) + T.size * (i + stride) = (addr + T.size * i) + 16 * (T.size * q) := by rw [hq]; push_cast; ring
  rw [e, Int.add_mul_emod_self_left, h]

theorem convAV_lanes {T : Flt} {addr stride : Nat} {filt : List K} (hs : stride % 16 = 0) (i : Nat) (s : ConvSt (List K)) (ss tt : Nat → ConvSt K)
    (h : Lanes T addr s ss) (e : ∀ k < lanes .sse2 T, convA filt stride i (ss k) = some (tt k)) :
    ∃ t, convAV T filt stride i s = some t ∧ Lanes T addr t tt := by
  obtain ⟨c, ec, -⟩ := rdI_of_bind (e 0 (lanes_pos .sse2 T))
  rw [h.filti 0 (lanes_pos .sse2 T)] at ec
  have et : ∀ k < lanes .sse2 T, tt k = { ss k with filti := s.filti - 1, acc := (ss k).acc + (ss k).v * c, srci := s.srci + k + stride } := by
    intro k hk
    have := e k hk
    rw [convA_of (c := c) (by rw [h.filti k hk]; exact ec), h.filti k hk, h.srci k hk] at this
    exact (Option.some.inj this).symm
  refine ⟨{ s with filti := s.filti - 1, acc := vadd s.acc (vmul s.v (reg (lanes .sse2 T) (fun _ => c))), srci := s.srci + stride }, ?_, ?_, ?_, ?_, ?_, ?_⟩
  · rw [convAV, load1_of ec]; rfl
  · intro k hk; rw [et k hk]
  · intro k hk; rw [et k hk]; show s.srci + k + stride = s.srci + stride + k; ring
  · show vadd s.acc _ = _
    rw [h.acc, h.v, vmul_reg, vadd_reg]
    exact List.map_congr_left (fun k hk => by rw [et k (List.mem_range.mp hk)])
  · show s.v = _
    rw [h.v]
    exact List.map_congr_left (fun k hk => by rw [et k (List.mem_range.mp hk)])
  · exact al_step hs h.al

theorem convBV_lanes {T : Flt} {stride : Nat} {filt : List K} {src : Blk K} (hs : stride % 16 = 0) (i : Nat) (s : ConvSt (List K)) (ss tt : Nat → ConvSt K)
    (h : Lanes T src.addr s ss) (e : ∀ k < lanes .sse2 T, convB filt src.data stride i (ss k) = some (tt k)) :
    ∃ t, convBV T filt src stride i s = some t ∧ Lanes T src.addr t tt := by
  have hv : ∀ k, ∃ v, k < lanes .sse2 T → rdI src.data (s.srci + k) = some v := by
    intro k
    by_cases hk : k < lanes .sse2 T
    · obtain ⟨v, ev, -⟩ := rdI_of_bind (e k hk)
      exact ⟨v, fun _ => by rw [← h.srci k hk]; exact ev⟩
    · exact ⟨0, fun h => absurd h hk⟩
  choose v ev using hv
  obtain ⟨c, ec⟩ : ∃ c, rdI filt s.filti = some c := by
    obtain ⟨v, -, e2⟩ := rdI_of_bind (e 0 (lanes_pos .sse2 T))
    obtain ⟨c, ec, -⟩ := rdI_of_bind e2
    exact ⟨c, by rw [← h.filti 0 (lanes_pos .sse2 T)]; exact ec⟩
  have et : ∀ k < lanes .sse2 T, tt k = { filti := s.filti - 1, acc := (ss k).acc + v k * c, srci := s.srci + k + stride, v := v k } := by
    intro k hk
    have := e k hk
    rw [convB_of (c := c) (v := v k) (by rw [h.srci k hk]; exact ev k hk) (by rw [h.filti k hk]; exact ec), h.filti k hk, h.srci k hk] at this
    exact (Option.some.inj this).symm
  refine ⟨{ filti := s.filti - 1, acc := vadd s.acc (vmul (reg (lanes .sse2 T) v) (reg (lanes .sse2 T) (fun _ => c))), srci := s.srci + stride, v := reg (lanes .sse2 T) v }, ?_, ?_, ?_, ?_, ?_, ?_⟩
  · rw [convBV, loadAI_of h.al ev, load1_of ec]; rfl
  · intro k hk; rw [et k hk]
  · intro k hk; rw [et k hk]; show s.srci + k + stride = s.srci + stride + k; ring
  · show vadd s.acc _ = _
    rw [h.acc, vmul_reg, vadd_reg]
    exact List.map_congr_left (fun k hk => by rw [et k (List.mem_range.mp hk)])
  · exact List.map_congr_left (fun k hk => by rw [et k (List.mem_range.mp hk)])
  · exact al_step hs h.al

theorem convCV_lanes {T : Flt} {addr : Nat} {filt : List K} (i : Nat) (s : ConvSt (List K)) (ss tt : Nat → ConvSt K)
    (h : Lanes T addr s ss) (e : ∀ k < lanes .sse2 T, convC filt i (ss k) = some (tt k)) :
    ∃ t, convCV T filt i s = some t ∧ Lanes T addr t tt := by
  obtain ⟨c, ec, -⟩ := rdI_of_bind (e 0 (lanes_pos .sse2 T))
  rw [h.filti 0 (lanes_pos .sse2 T)] at ec
  have et : ∀ k < lanes .sse2 T, tt k = { ss k with filti := s.filti - 1, acc := (ss k).acc + (ss k).v * c } := by
    intro k hk
    have := e k hk
    rw [convC_of (c := c) (by rw [h.filti k hk]; exact ec), h.filti k hk] at this
    exact (Option.some.inj this).symm
  refine ⟨{ s with filti := s.filti - 1, acc := vadd s.acc (vmul s.v (reg (lanes .sse2 T) (fun _ => c))) }, ?_, ?_, ?_, ?_, ?_, ?_⟩
  · rw [convCV, load1_of ec]; rfl
  · intro k hk; rw [et k hk]
  · intro k hk; rw [et k hk]; exact h.srci k hk
  · show vadd s.acc _ = _
    rw [h.acc, h.v, vmul_reg, vadd_reg]
    exact List.map_congr_left (fun k hk => by rw [et k (List.mem_range.mp hk)])
  · show s.v = _
    rw [h.v]
    exact List.map_congr_left (fun k hk => by rw [et k (List.mem_range.mp hk)])
  · exact h.al

/-- Inversion of a step of a computation. -/
theorem bind_inv {α β : Type} {o : Option α} {g : α → Option β} {t : β} (h : o.bind g = some t) : ∃ a, o = some a ∧ g a = some t := by
  cases o with
  | none => cases h
  | some a => exact ⟨a, rfl, h⟩

/-- A block of aligned columns gets the values of the plain version. -/
theorem convPixelV_eq {T : Flt} {src : Blk K} {h stride : Nat} {filt : List K} {fb fe : Int} {zeropad : Bool} {x y : Nat} {val : Nat → K}
    (ha : (src.addr + T.size * x) % 16 = 0) (hs : stride % 16 = 0)
    (e : ∀ k < lanes .sse2 T, convPixel src.data h stride filt fb fe zeropad (x + k) y = some (val k)) :
    convPixelV T src h stride filt fb fe zeropad x y = some (reg (lanes .sse2 T) val) := by
  have hV := lanes_pos .sse2 T
  have haI : ((src.addr : Int) + T.size * (x : Int)) % 16 = 0 := by
    have : ((src.addr + T.size * x : Nat) : Int) % 16 = 0 := by omega
    push_cast at this; exact this
  set s0 : ConvSt (List K) := { filti := fe - fb, srci := (x : Int) - (fe - y) * stride, acc := List.replicate (lanes .sse2 T) 0, v := List.replicate (lanes .sse2 T) 0 } with hs0
  set ss0 : Nat → ConvSt K := fun k : Nat => { filti := fe - fb, srci := ((x + k : Nat) : Int) - (fe - y) * stride, acc := 0, v := 0 } with hss0
  have al0 : ((src.addr : Int) + T.size * ((x : Int) - (fe - y) * stride)) % 16 = 0 := by
    obtain ⟨q, hq⟩ := Nat.dvd_of_mod_eq_zero hs
    have e : (src.addr : Int) + T.size * ((x : Int) - (fe - y) * stride) = (src.addr + T.size * x) + 16 * (-(T.size * (fe - y) * q)) := by rw [hq]; push_cast; ring
    rw [e, Int.add_mul_emod_self_left, haI]
  have h0 : Lanes T src.addr s0 ss0 := ⟨fun _ _ => rfl, fun k _ => by simp only [hs0, hss0]; push_cast; ring, replicate_reg _ _, replicate_reg _ _, al0⟩
  -- the three loops of the lanes
  have split : ∀ k, ∃ sA sB sC : ConvSt K, k < lanes .sse2 T →
      ((if fe - (y : Int) > 0 then do
          let v ← (if zeropad then some 0 else rd src.data (x + k))
          iter (steps (fe - fb) (fe - fb) (fe - y)) (convA filt stride) { ss0 k with v := v }
        else some (ss0 k) : Option (ConvSt K)) = some sA)
      ∧ iter (steps sA.filti (fe - fb) (fe - max fb ((y : Int) - h + 1) + 1)) (convB filt src.data stride) sA = some sB
      ∧ iter (steps (if zeropad then { sB with v := 0 } else sB : ConvSt K).filti (fe - fb) (fe - fb + 1)) (convC filt) (if zeropad then { sB with v := 0 } else sB) = some sC
      ∧ sC.acc = val k := by
    intro k
    by_cases hk : k < lanes .sse2 T
    · have := e k hk
      unfold convPixel at this
      obtain ⟨sA, eA, this⟩ := bind_inv this
      obtain ⟨sB, eB, this⟩ := bind_inv this
      obtain ⟨sC, eC, this⟩ := bind_inv this
      exact ⟨sA, sB, sC, fun _ => ⟨eA, eB, eC, Option.some.inj this⟩⟩
    · exact ⟨ss0 k, ss0 k, ss0 k, fun h => absurd h hk⟩
  choose sA sB sC hst using split
  -- first loop
  obtain ⟨tA, eA, hA⟩ : ∃ tA : ConvSt (List K), ((if fe - (y : Int) > 0 then do
          let v ← (if zeropad then some (List.replicate (lanes .sse2 T) 0) else loadAI T src x)
          iter (steps (fe - fb) (fe - fb) (fe - y)) (convAV T filt stride) { s0 with v := v }
        else some s0 : Option (ConvSt (List K))) = some tA) ∧ Lanes T src.addr tA sA := by
    by_cases hpos : fe - (y : Int) > 0
    · rw [if_pos hpos]
      obtain ⟨g, hg⟩ : ∃ g : Nat → K, ∀ k < lanes .sse2 T, (if zeropad then some 0 else rd src.data (x + k)) = some (g k)
          ∧ iter (steps (fe - fb) (fe - fb) (fe - y)) (convA filt stride) { ss0 k with v := g k } = some (sA k) := by
        have : ∀ k, ∃ g : K, k < lanes .sse2 T → (if zeropad then some 0 else rd src.data (x + k)) = some g
          ∧ iter (steps (fe - fb) (fe - fb) (fe - y)) (convA filt stride) { ss0 k with v := g } = some (sA k) := by
          intro k
          by_cases hk : k < lanes .sse2 T
          · have := (hst k hk).1
            rw [if_pos hpos] at this
            obtain ⟨g, e1, e2⟩ := bind_inv this
            exact ⟨g, fun _ => ⟨e1, e2⟩⟩
          · exact ⟨0, fun h => absurd h hk⟩
        choose g hg using this
        exact ⟨g, hg⟩
      have hld : (if zeropad then some (List.replicate (lanes .sse2 T) 0) else loadAI T src x) = some (reg (lanes .sse2 T) g) := by
        cases zeropad
        · refine loadAI_of haI (fun k hk => ?_)
          rw [rdI_eq src.data ((x : Int) + k) (x + k) (by push_cast; rfl)]
          exact (hg k hk).1
        · simp only [if_true]
          rw [replicate_reg]
          congr 1
          exact List.map_congr_left (fun k hk => by have := (hg k (List.mem_range.mp hk)).1; simpa using this)
      rw [hld]
      show ∃ tA, iter _ (convAV T filt stride) { s0 with v := reg (lanes .sse2 T) g } = some tA ∧ _
      exact lanes_iter (convAV_lanes hs) _ _ (fun k => { ss0 k with v := g k }) _
        ⟨h0.filti, h0.srci, h0.acc, rfl, h0.al⟩ (fun k hk => (hg k hk).2)
    · rw [if_neg hpos]
      have : ∀ k < lanes .sse2 T, ss0 k = sA k := by
        intro k hk
        have := (hst k hk).1
        rw [if_neg hpos] at this
        exact Option.some.inj this
      refine ⟨s0, rfl, ⟨fun k hk => this k hk ▸ h0.filti k hk, fun k hk => this k hk ▸ h0.srci k hk, ?_, ?_, h0.al⟩⟩
      · rw [h0.acc]; exact List.map_congr_left (fun k hk => by rw [this k (List.mem_range.mp hk)])
      · rw [h0.v]; exact List.map_congr_left (fun k hk => by rw [this k (List.mem_range.mp hk)])
  -- second loop
  obtain ⟨tB, eB, hB⟩ := lanes_iter (convBV_lanes (filt := filt) hs) (steps tA.filti (fe - fb) (fe - max fb ((y : Int) - h + 1) + 1)) tA sA sB hA
    (fun k hk => by rw [← hA.filti k hk]; exact (hst k hk).2.1)
  -- third loop
  have hB' : Lanes T src.addr (if zeropad then { tB with v := List.replicate (lanes .sse2 T) 0 } else tB) (fun k => if zeropad then { sB k with v := 0 } else sB k) := by
    cases zeropad
    · exact hB
    · exact ⟨hB.filti, hB.srci, hB.acc, replicate_reg _ _, hB.al⟩
  obtain ⟨tC, eC, hC⟩ := lanes_iter convCV_lanes (steps (if zeropad then { tB with v := List.replicate (lanes .sse2 T) 0 } else tB).filti (fe - fb) (fe - fb + 1)) _ _ sC hB'
    (fun k hk => by
      have := (hst k hk).2.2.1
      rw [show (if zeropad then { sB k with v := 0 } else sB k : ConvSt K).filti = _ from hB'.filti k hk] at this
      exact this)
  unfold convPixelV
  simp only
  show Option.bind _ _ = _
  rw [eA, Option.bind_some]
  show Option.bind _ _ = _
  rw [eB, Option.bind_some]
  show Option.bind _ _ = _
  rw [eC, Option.bind_some, hC.acc]
  congr 1
  exact List.map_congr_left (fun k hk => (hst k (List.mem_range.mp hk)).2.2.2)

/-! ### The destination -/

/-- The samples `(a, b)` that meet `P` are stored, and nothing else. -/
structure Stored (transp : Bool) (dst : List K) (stride w n : Nat) (val : Nat → Nat → K) (P : Nat → Nat → Prop) (m : List K) : Prop where
  len : m.length = dst.length
  done : ∀ a b, a < w → b < n → P a b → m[dstAddr transp stride a b]? = some (val a b)
  frame : ∀ k, (∀ a b, a < w → b < n → P a b → k ≠ dstAddr transp stride a b) → m[k]? = dst[k]?

theorem Stored.congr {transp : Bool} {dst : List K} {stride w n : Nat} {val : Nat → Nat → K} {P Q : Nat → Nat → Prop} {m : List K}
    (h : Stored transp dst stride w n val P m) (hPQ : ∀ a b, a < w → b < n → (P a b ↔ Q a b)) : Stored transp dst stride w n val Q m :=
  ⟨h.len, fun a b ha hb hq => h.done a b ha hb ((hPQ a b ha hb).2 hq), fun k hk => h.frame k (fun a b ha hb hp => hk a b ha hb ((hPQ a b ha hb).1 hp))⟩

theorem Stored.wr {transp : Bool} {dst : List K} {stride w n : Nat} {val : Nat → Nat → K} {P : Nat → Nat → Prop} {m : List K} {x j : Nat} {i : Int}
    (h : Stored transp dst stride w n val P m) (hd : DstOk transp dst.length stride w n) (hx : x < w) (hj : j < n) (hi : i = (dstAddr transp stride x j : Nat)) :
    ∃ m', wrI m i (val x j) = some m' ∧ Stored transp dst stride w n val (fun a b => P a b ∨ (a = x ∧ b = j)) m' := by
  have hl : dstAddr transp stride x j < m.length := by rw [h.len]; exact hd.1 x hx j hj
  refine ⟨m.set (dstAddr transp stride x j) (val x j), ?_, by simp [h.len], ?_, ?_⟩
  · rw [hi, wrI_nat, wr_of_lt hl]
  · intro a b ha hb hab
    by_cases e : a = x ∧ b = j
    · obtain ⟨rfl, rfl⟩ := e
      rw [List.getElem?_set_self hl]
    · have hne : dstAddr transp stride a b ≠ dstAddr transp stride x j := fun h => e (dstAddr_inj hd ha hx hb hj h)
      rw [List.getElem?_set_ne (Ne.symm hne)]
      exact h.done a b ha hb (hab.resolve_right e)
  · intro k hk
    have hne : k ≠ dstAddr transp stride x j := hk x j hx hj (Or.inr ⟨rfl, rfl⟩)
    rw [List.getElem?_set_ne (Ne.symm hne)]
    exact h.frame k (fun a b ha hb hab => hk a b ha hb (Or.inl hab))

section columns

variable {T : Flt} {src : Blk K} {dst filt : List K} {w h stride dstStride step : Nat} {fb fe : Int} {transp zeropad : Bool} {val : Nat → Nat → K}

/-- State of the plain version before column `x`. -/
def Before (transp : Bool) (dst : List K) (stride w n : Nat) (val : Nat → Nat → K) (x : Nat) (s : DstSt K) : Prop :=
  s.dst = (dstAddr transp stride x 0 : Nat) ∧ Stored transp dst stride w n val (fun a _ => a < x) s.mem

theorem column_step (hh : 0 < h) (hstep : 0 < step) (hd : DstOk transp dst.length dstStride w (dheight h step))
    (hval : ∀ x < w, ∀ j < dheight h step, convPixel src.data h stride filt fb fe zeropad x (j * step) = some (val x j))
    {x : Nat} (hx : x < w) {s : DstSt K} (hs : Before transp dst dstStride w (dheight h step) val x s) :
    ∃ t, convColumn src.data h stride filt fb fe step transp zeropad dstStride x s = some t ∧ Before transp dst dstStride w (dheight h step) val (x + 1) t := by
  obtain ⟨t, e, ht⟩ := iter_inv (n := dheight h step) (s := s)
    (f := fun j s => do
      let acc ← convPixel src.data h stride filt fb fe zeropad x (j * step)
      convStore transp dstStride s acc)
    (fun j (s : DstSt K) => s.dst = (dstAddr transp dstStride x j : Nat) ∧ Stored transp dst dstStride w (dheight h step) val (fun a b => a < x ∨ (a = x ∧ b < j)) s.mem)
    ⟨hs.1, hs.2.congr (fun a b _ _ => by omega)⟩
    (by
      intro j hj s ⟨h1, h2⟩
      obtain ⟨m', e', hm'⟩ := h2.wr hd hx hj h1
      refine ⟨{ dst := if transp then s.dst + 1 else s.dst + dstStride, mem := m' }, ?_, ?_, hm'.congr (fun a b _ _ => by omega)⟩
      · show (convPixel _ _ _ _ _ _ _ _ _).bind _ = _
        rw [hval x hx j hj, Option.bind_some, convStore, e']; rfl
      · simp only [h1, dstAddr]
        cases transp <;> simp <;> ring)
  refine ⟨{ t with dst := if transp then t.dst + ((dstStride : Int) - dheight h step)
                       else t.dst + (1 - (dheight h step : Int) * dstStride) }, ?_, ?_, ht.2.congr (fun a b _ hb => by omega)⟩
  · rw [convColumn, numRows_eq hh hstep, e]; rfl
  · simp only [ht.1, dstAddr]
    cases transp <;> simp <;> ring

theorem columnV_step (hh : 0 < h) (hstep : 0 < step) (hd : DstOk transp dst.length dstStride w (dheight h step))
    (hval : ∀ x < w, ∀ j < dheight h step, convPixel src.data h stride filt fb fe zeropad x (j * step) = some (val x j))
    {x : Nat} (hx : x + lanes .sse2 T ≤ w) (ha : (src.addr + T.size * x) % 16 = 0) (hst : stride % 16 = 0)
    {s : DstSt K} (hs : Before transp dst dstStride w (dheight h step) val x s) :
    ∃ t, convColumnV T src h stride filt fb fe step transp zeropad dstStride x s = some t ∧ Before transp dst dstStride w (dheight h step) val (x + lanes .sse2 T) t := by
  set V := lanes .sse2 T with hVd
  obtain ⟨t, e, ht⟩ := iter_inv (n := dheight h step) (s := s)
    (f := fun j s => do
      let acc ← convPixelV T src h stride filt fb fe zeropad x (j * step)
      convStoreV T transp dstStride s acc)
    (fun j (s : DstSt K) => s.dst = (dstAddr transp dstStride x j : Nat) ∧ Stored transp dst dstStride w (dheight h step) val (fun a b => a < x ∨ (a < x + V ∧ b < j)) s.mem)
    ⟨hs.1, hs.2.congr (fun a b _ _ => by omega)⟩
    (by
      intro j hj s ⟨h1, h2⟩
      obtain ⟨t, e, ht1, ht2⟩ : ∃ t, iter V (fun k (s : DstSt K) => do
            let a ← rd (reg V (fun k => val (x + k) j)) k
            let mem ← wrI s.mem s.dst a
            some { dst := if transp then s.dst + dstStride else s.dst + 1, mem := mem }) s = some t ∧ t.dst = (dstAddr transp dstStride (x + V) j : Nat)
            ∧ Stored transp dst dstStride w (dheight h step) val (fun a b => a < x ∨ (a < x + V ∧ b < j) ∨ (a < x + V ∧ b = j)) t.mem := by
        refine iter_inv (fun k (t : DstSt K) => t.dst = (dstAddr transp dstStride (x + k) j : Nat)
            ∧ Stored transp dst dstStride w (dheight h step) val (fun a b => a < x ∨ (a < x + V ∧ b < j) ∨ (a < x + k ∧ b = j)) t.mem)
          ⟨h1, h2.congr (fun a b _ _ => by omega)⟩ ?_
        intro k hk s ⟨h1, h2⟩
        obtain ⟨m', e', hm'⟩ := h2.wr hd (show x + k < w by omega) hj h1
        refine ⟨{ dst := if transp then s.dst + dstStride else s.dst + 1, mem := m' }, ?_, ?_, hm'.congr (fun a b _ _ => by omega)⟩
        · have er : rd (reg V (fun k => val (x + k) j)) k = some (val (x + k) j) := by
            rw [rd_getElem?, reg, List.getElem?_map, List.getElem?_range hk]; rfl
          rw [er]
          show (wrI s.mem s.dst (val (x + k) j)).bind _ = _
          rw [e']; rfl
        · simp only [h1, dstAddr]
          cases transp <;> simp <;> ring
      refine ⟨{ t with dst := if transp then t.dst + (1 - (V : Int) * dstStride) else t.dst + ((dstStride : Int) - V) }, ?_, ?_, ht2.congr (fun a b _ _ => by omega)⟩
      · show (convPixelV _ _ _ _ _ _ _ _ _ _).bind _ = _
        rw [convPixelV_eq ha hst (fun k hk => hval (x + k) (by omega) j hj), Option.bind_some, convStoreV]
        show (iter V _ s).bind _ = _
        rw [e]; rfl
      · simp only [ht1, dstAddr]
        cases transp <;> simp <;> ring)
  refine ⟨{ t with dst := if transp then t.dst + ((V : Int) * dstStride - dheight h step)
                       else t.dst + ((V : Int) - (dheight h step : Int) * dstStride) }, ?_, ?_, ht.2.congr (fun a b _ hb => by omega)⟩
  · rw [convColumnV, numRows_eq hh hstep, e]; rfl
  · simp only [ht.1, dstAddr]
    cases transp <;> simp <;> ring

theorem loopV (hh : 0 < h) (hstep : 0 < step) (hd : DstOk transp dst.length dstStride w (dheight h step))
    (hval : ∀ x < w, ∀ j < dheight h step, convPixel src.data h stride filt fb fe zeropad x (j * step) = some (val x j)) (fuel : Nat) :
    ∀ x s, x ≤ w → w ≤ x + fuel → Before transp dst dstStride w (dheight h step) val x s →
      ∃ t, convLoopV T src w h stride filt fb fe step transp zeropad dstStride fuel x s = some t ∧ Before transp dst dstStride w (dheight h step) val w t := by
  induction fuel with
  | zero =>
    intro x s h1 h2 hs
    have : x = w := by omega
    subst this
    exact ⟨s, by rw [convLoopV, if_neg (by omega)], hs⟩
  | succ fuel ih =>
    intro x s h1 h2 hs
    by_cases hx : x < w
    · have hV := lanes_pos .sse2 T
      rw [convLoopV, if_pos hx]
      by_cases hu : useSimd T src w stride x = true
      · rw [if_pos hu]
        simp only [useSimd, Bool.and_eq_true, decide_eq_true_eq] at hu
        obtain ⟨t, e, ht⟩ := columnV_step (T := T) hh hstep hd hval (x := x) (by omega) hu.1.2 hu.2 hs
        rw [e, Option.bind_some]
        exact ih _ t (by omega) (by omega) ht
      · rw [if_neg hu]
        obtain ⟨t, e, ht⟩ := column_step hh hstep hd hval hx hs
        rw [e, Option.bind_some]
        exact ih _ t (by omega) (by omega) ht
    · have : x = w := by omega
      subst this
      exact ⟨s, by rw [convLoopV, if_neg (by omega)], hs⟩

theorem iter_inv_step {σ : Type} {f : Nat → σ → Option σ} : ∀ {n : Nat} {s t : σ}, iter n f s = some t → ∀ i < n, ∃ a b, f i a = some b := by
  intro n
  induction n with
  | zero => intro s t _ i hi; omega
  | succ n ih =>
    intro s t e i hi
    change (iter n f s).bind (f n) = _ at e
    obtain ⟨m, e1, e2⟩ := bind_inv e
    rcases Nat.lt_succ_iff_lt_or_eq.mp hi with h | rfl
    · exact ih e1 i h
    · exact ⟨m, t, e2⟩

theorem stored_unique {n : Nat} {m m' : List K} (h : Stored transp dst dstStride w n val (fun a _ => a < w) m)
    (h' : Stored transp dst dstStride w n val (fun a _ => a < w) m') : m = m' := by
  apply List.ext_getElem?
  intro k
  by_cases hk : ∃ a b, a < w ∧ b < n ∧ k = dstAddr transp dstStride a b
  · obtain ⟨a, b, ha, hb, rfl⟩ := hk
    rw [h.done a b ha hb ha, h'.done a b ha hb ha]
  · have hn : ∀ a b, a < w → b < n → a < w → k ≠ dstAddr transp dstStride a b := fun a b ha hb _ e => hk ⟨a, b, ha, hb, e⟩
    rw [h.frame k hn, h'.frame k hn]

end columns

/-- For every processor, type of numbers and address of the image: whenever the plain version computes a result without
accessing anything out of bounds, and the destination rows do not overlap, so does the version that is called, and the
result is the same.  In particular the loads of registers are aligned, and the columns that do not fit in a block are not
lost. -/
theorem imconvcol_simd_same (cpu : Cpu) (T : Flt) (dst filt : List K) (src : Blk K) (dstStride w h stride : Nat) (fb fe : Int) (step : Nat)
    (transp zeropad : Bool) (hh : 0 < h) (hstep : 0 < step) (hdst : DstOk transp dst.length dstStride w ((h - 1) / step + 1)) (m : List K)
    (hm : imconvcol dst dstStride src.data w h stride filt fb fe step transp zeropad = some m) :
    imconvcolAny cpu T dst dstStride src w h stride filt fb fe step transp zeropad = some m := by
  change DstOk transp dst.length dstStride w (dheight h step) at hdst
  rw [imconvcolAny]
  split
  · unfold imconvcol at hm
    obtain ⟨t, et, em⟩ := bind_inv hm
    have em' : t.mem = m := Option.some.inj em
    have hv : ∀ x j, ∃ v, x < w → j < dheight h step → convPixel src.data h stride filt fb fe zeropad x (j * step) = some v := by
      intro x j
      by_cases hx : x < w
      · by_cases hj : j < dheight h step
        · obtain ⟨a, b, hab⟩ := iter_inv_step et x hx
          unfold convColumn at hab
          obtain ⟨c, hc, -⟩ := bind_inv hab
          rw [numRows_eq hh hstep] at hc
          obtain ⟨a, b, hab⟩ := iter_inv_step hc j hj
          obtain ⟨v, hv, -⟩ := bind_inv hab
          exact ⟨v, fun _ _ => hv⟩
        · exact ⟨0, fun _ h => absurd h hj⟩
      · exact ⟨0, fun h => absurd h hx⟩
    choose val hval using hv
    have hval' : ∀ x < w, ∀ j < dheight h step, convPixel src.data h stride filt fb fe zeropad x (j * step) = some (val x j) := fun x hx j hj => hval x j hx hj
    have hB0 : Before transp dst dstStride w (dheight h step) val 0 { dst := 0, mem := dst } :=
      ⟨by simp [dstAddr], rfl, fun a b _ _ h => by omega, fun _ _ => rfl⟩
    obtain ⟨t1, e1, h1⟩ := iter_inv (n := w) (s := ({ dst := 0, mem := dst } : DstSt K)) (f := convColumn src.data h stride filt fb fe step transp zeropad dstStride)
      (fun x s => Before transp dst dstStride w (dheight h step) val x s) hB0 (fun x hx s hs => column_step hh hstep hdst hval' hx hs)
    obtain ⟨t2, e2, h2⟩ := loopV (T := T) hh hstep hdst hval' w 0 { dst := 0, mem := dst } (by omega) (by omega) hB0
    rw [imconvcolV, e2]
    show some t2.mem = _
    have : t1 = t := Option.some.inj (e1.symm.trans et)
    rw [stored_unique h2.2 h1.2, this, em']
  · exact hm

/-- The documented result for every processor, type of numbers and address of the image; what is missing are the supports
excluded in `imconvcol_correct_partial`, for which the documented result is not obtained. -/
theorem imconvcolAny_correct_partial (cpu : Cpu) (T : Flt) (dst filt : List K) (src : Blk K) (dstStride w h stride : Nat) (fb fe : Int) (step : Nat)
    (transp zeropad : Bool) (hh : 0 < h) (hstep : 0 < step) (hsrc : Fits src.data.length stride w h)
    (hlen : (filt.length : Int) = fe - fb + 1) (hfb : fb ≤ 1) (hfe : zeropad = true ∨ 0 ≤ fe)
    (hdst : DstOk transp dst.length dstStride w ((h - 1) / step + 1)) :
    ∃ m, imconvcolAny cpu T dst dstStride src w h stride filt fb fe step transp zeropad = some m ∧ m.length = dst.length ∧
      (∀ x < w, ∀ j < (h - 1) / step + 1,
        m[dstAddr transp dstStride x j]? = some (convSpec zeropad src.data stride h filt fb x (j * step))) ∧
      (∀ k, (∀ x < w, ∀ j < (h - 1) / step + 1, k ≠ dstAddr transp dstStride x j) → m[k]? = dst[k]?) := by
  obtain ⟨m, e, hm⟩ := imconvcol_correct_partial dst src.data filt dstStride w h stride fb fe step transp zeropad hh hstep hsrc hlen hfb hfe hdst
  exact ⟨m, imconvcol_simd_same cpu T dst filt src dstStride w h stride fb fe step transp zeropad hh hstep hdst m e, hm⟩

/-- A 5 × 2 image with rows of 16 pixels: one block of four columns and one column. -/
example : imconvcolV (K := ℚ) .float (List.replicate 10 0) 2 ⟨32, [1, 2, 3, 4, 5, 0, 0, 0, 0, 0, 0, 0, 0, 0, 0, 0, 6, 7, 8, 9, 10, 0, 0, 0, 0, 0, 0, 0, 0, 0, 0, 0]⟩ 5 2 16 [1, 10, 100] (-1) 1 1 true false
    = some [116, 166, 227, 277, 338, 388, 449, 499, 560, 610] ∧
    useSimd (K := ℚ) .float ⟨32, []⟩ 5 16 0 = true := by
  decide +kernel

end Verif.Imop
