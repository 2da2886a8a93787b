import Verif.Pgm.FileModel
import Verif.Pgm.Props
import Mathlib.Tactic.Positivity
import Mathlib.Tactic.FieldSimp
import Mathlib.Tactic.NormNum
import Mathlib.Order.Bounds.Basic

/-!
# C203–C205: PGM files
-/

namespace Verif.Pgm

/-- Streams and blocks have numbers below `fresh`, each once. -/
structure World.Ok (w : World) : Prop where
  streams : ∀ h ∈ w.streams, h < w.fresh
  blocks : ∀ p ∈ w.blocks, p < w.fresh

theorem close_open (w : World) : w.open.2.close w.open.1 = some { w with fresh := w.fresh + 1 } := by
  unfold World.open World.close
  dsimp only
  rw [if_pos List.mem_cons_self, List.erase_cons_head]

theorem bpp_accepted {f rest : List UInt8} {im : Image} (h : extractHead f = .ok (im, rest)) : bpp im = 2 := by
  have := accepted_header_invalid f rest im h
  unfold bpp
  rw [if_pos (by omega)]

/-- **C203.**  For every content of the file system, `vl_pgm_read_new` is defined, never returns an image, changes no file and leaves no block; it closes the stream unless it accepts the header. -/
theorem readNew_never (little : Bool) (addr : Nat) (w : World) (name : String) :
    ∃ c w', readNew little addr w name = some (c, w', none) ∧ c ≠ .ok ∧ w'.files = w.files ∧ w'.blocks = w.blocks ∧
      (c = .badArg ↔ ∃ f im rest, w.files name = some f ∧ extractHead f = .ok (im, rest)) ∧ (c ≠ .badArg → w'.streams = w.streams) ∧ (c = .badArg → w'.streams = w.fresh :: w.streams) := by
  unfold readNew
  rcases hf : w.files name with _ | f
  · exact ⟨.io, w, rfl, by simp, rfl, rfl, by simp, fun _ => rfl, by simp⟩
  · dsimp only
    rcases he : extractHead f with e | ⟨im, rest⟩
    · refine ⟨.pgm e, { w with fresh := w.fresh + 1 }, ?_, by simp, rfl, rfl, ?_, fun _ => rfl, by simp⟩
      · dsimp only
        rw [close_open]
        rfl
      · constructor
        · simp
        · rintro ⟨f', im, rest, h1, h2⟩
          rw [Option.some.injEq] at h1
          rw [← h1, he] at h2
          cases h2
    · refine ⟨.badArg, w.open.2, ?_, by simp, rfl, rfl, ?_, by simp, fun _ => rfl⟩
      · dsimp only
        rw [if_pos (by rw [bpp_accepted he]; omega)]
      · exact ⟨fun _ => ⟨f, im, rest, rfl, he⟩, fun _ => rfl⟩

/-- **C203.**  Neither does `vl_pgm_read_new_f`. -/
theorem readNewF_never (little : Bool) (addr : Nat) (w : World) (name : String) :
    ∃ c w', readNewF little addr w name = some (c, w', none) ∧ c ≠ .ok ∧ w'.files = w.files ∧ w'.blocks = w.blocks ∧ (c ≠ .badArg → w'.streams = w.streams) := by
  obtain ⟨c, w', e, h1, h2, h3, -, h4, -⟩ := readNew_never little addr w name
  refine ⟨c, w', ?_, h1, h2, h3, h4⟩
  unfold readNewF
  rw [e]
  rfl

/-- Streams that are opened are closed. -/
def ReadClosesClaim : Prop := ∀ (little : Bool) (addr : Nat) (w : World) (name : String), w.Ok → ∀ c w' r, readNew little addr w name = some (c, w', r) → w'.streams = w.streams

/-- A file with 65536 as maximum value leaves its stream open. -/
theorem readCloses_claim_false : ¬ ReadClosesClaim := by
  intro hc
  have := hc true 0 ⟨fun _ => some [80, 53, 10, 49, 10, 49, 10, 54, 53, 53, 51, 54, 10], [], [], 1⟩ "a" ⟨by simp, by simp⟩ .badArg (World.open ⟨fun _ => some [80, 53, 10, 49, 10, 49, 10, 54, 53, 53, 51, 54, 10], [], [], 1⟩).2 none (by
    obtain ⟨c, w', e, -, -, -, h, -⟩ := readNew_never true 0 ⟨fun _ => some [80, 53, 10, 49, 10, 49, 10, 54, 53, 53, 51, 54, 10], [], [], 1⟩ "a"
    have he : extractHead [80, 53, 10, 49, 10, 49, 10, 54, 53, 53, 51, 54, 10] = .ok (⟨1, 1, 65536, true⟩, []) := by
      have := extractHead_insert true ⟨1, 1, 65536, true⟩ [] (by norm_num) (by norm_num) (by norm_num)
      rw [if_neg (by norm_num)] at this
      exact (congrArg extractHead (by decide +kernel)).trans this
    unfold readNew
    dsimp only
    rw [he]
    rfl)
  exact absurd this (by simp [World.open])

/-- The image that `vl_pgm_write` describes. -/
def imageOf (width height : Nat) : Image := ⟨width, height, 255, true⟩

theorem write_eq (disk : Disk) (w : World) (name : String) (data : List UInt8) (width height : Nat) (hw : width < 2 ^ 31) (hh : height < 2 ^ 31) (hl : width * height ≤ data.length) (hn : disk.writable name = true) :
    write disk w name data width height = some (if disk.reported (preamble (imageOf width height)).length (data.take (width * height)) ≠ width * height then .io else .ok,
      { w with fresh := w.fresh + 1, files := fun n => if n = name then some (disk.stored (preamble (imageOf width height) ++ data.take (width * height))) else w.files n }) := by
  have e1 : ((width : Int) % 2 ^ 64).toNat = width := by omega
  have e2 : ((height : Int) % 2 ^ 64).toNat = height := by omega
  unfold write
  rw [if_pos hn]
  dsimp only
  rw [e1, e2]
  change (if data.length < width * height then none else _) = _
  rw [if_neg (by omega), close_open]
  rfl

theorem preamble_eq {width height : Nat} (hw : width < 2 ^ 31) (hh : height < 2 ^ 31) : preamble (imageOf width height) = [80, 53, 10] ++ decDigits width ++ [10] ++ decDigits height ++ [10, 50, 53, 53, 10] := by
  unfold preamble imageOf printInt
  dsimp only
  rw [toInt32_small _ hw, toInt32_small _ hh, if_neg (by omega), if_neg (by omega)]
  have : (if toInt32 255 < 0 then 45 :: decDigits (toInt32 255).natAbs else decDigits (toInt32 255).natAbs) = [50, 53, 53] := by decide +kernel
  rw [this]
  simp

/-- **C204.**  `vl_pgm_write` changes no other file, closes its stream and leaves no block; if there is room, the code is 0 and the file has the preamble followed by the pixels.  Without room it has the first bytes of these, and if the
library does not delay writing and the image has pixels, an error is returned. -/
theorem write_correct_partial (disk : Disk) (w : World) (name : String) (data : List UInt8) (width height : Nat) (hw : width < 2 ^ 31) (hh : height < 2 ^ 31) (hl : data.length = width * height) (hn : disk.writable name = true) :
    ∃ c w', write disk w name data width height = some (c, w') ∧ w'.streams = w.streams ∧ w'.blocks = w.blocks ∧ (∀ n, n ≠ name → w'.files n = w.files n) ∧
      w'.files name = some (([80, 53, 10] ++ decDigits width ++ [10] ++ decDigits height ++ [10, 50, 53, 53, 10] ++ data).take disk.room) ∧
      (([80, 53, 10] ++ decDigits width ++ [10] ++ decDigits height ++ [10, 50, 53, 53, 10] ++ data).length ≤ disk.room → c = .ok) ∧
      (disk.buffered = false → data ≠ [] → disk.room < ([80, 53, 10] ++ decDigits width ++ [10] ++ decDigits height ++ [10, 50, 53, 53, 10] ++ data).length → c = .io) := by
  have ep := preamble_eq hw hh
  have et : data.take (width * height) = data := List.take_of_length_le (by omega)
  rw [← ep]
  refine ⟨_, _, write_eq disk w name data width height hw hh (by omega) hn, rfl, rfl, ?_, ?_, ?_, ?_⟩
  · intro n hne
    exact if_neg hne
  · dsimp only
    rw [if_pos rfl, et]
    rfl
  · intro hr
    rw [et]
    refine if_neg (not_not.mpr ?_)
    rw [List.length_append] at hr
    unfold Disk.reported
    split
    · exact hl
    · rw [Nat.min_eq_left (by omega), hl]
  · intro hb hd hr
    rw [et]
    refine if_pos ?_
    rw [List.length_append] at hr
    unfold Disk.reported
    rw [hb, if_neg (by simp)]
    have := List.length_pos_iff.mpr hd
    omega

/-- **C204.**  A file written by `vl_pgm_write` is refused by `vl_pgm_read_new`. -/
theorem written_refused (disk : Disk) (little : Bool) (addr : Nat) (w w' : World) (name : String) (data : List UInt8) (width height : Nat) (hw : width < 2 ^ 31) (hh : height < 2 ^ 31) (hl : data.length = width * height)
    (hn : disk.writable name = true) (hr : ([80, 53, 10] ++ decDigits width ++ [10] ++ decDigits height ++ [10, 50, 53, 53, 10] ++ data).length ≤ disk.room)
    (h : write disk w name data width height = some (.ok, w')) : ∃ w'', readNew little addr w' name = some (.pgm .invMeta, w'', none) := by
  rw [write_eq disk w name data width height hw hh (by omega) hn] at h
  have et : data.take (width * height) = data := List.take_of_length_le (by omega)
  have hf : w'.files name = some (insert true (imageOf width height) data) := by
    obtain ⟨c, w2, e2, -, -, -, h5, -⟩ := write_correct_partial disk w name data width height hw hh hl hn
    rw [write_eq disk w name data width height hw hh (by omega) hn] at e2
    have : w' = w2 := by
      have := h.symm.trans e2
      rw [Option.some.injEq, Prod.mk.injEq] at this
      exact this.2
    rw [this, h5, List.take_of_length_le hr]
    have : payload true (imageOf width height) data = data := by
      unfold payload
      rw [if_neg (by rintro ⟨-, h⟩; exact absurd h (by unfold bpp imageOf; simp))]
      exact List.take_of_length_le (by unfold bpp npixels imageOf; dsimp only; rw [if_neg (by omega)]; omega)
    unfold insert
    rw [this, preamble_eq hw hh]
  refine ⟨{ w' with fresh := w'.fresh + 1 }, ?_⟩
  unfold readNew
  rw [hf]
  dsimp only
  rw [written_image_unreadable true (imageOf width height) data hw hh (by unfold imageOf; norm_num)]
  dsimp only
  rw [close_open]
  rfl

/-- What is written can be read. -/
def FileRoundtripClaim : Prop := ∀ (disk : Disk) (little : Bool) (addr : Nat) (w w' : World) (name : String) (data : List UInt8) (width height : Nat), width < 2 ^ 31 → height < 2 ^ 31 → data.length = width * height →
  write disk w name data width height = some (.ok, w') → ∃ c w'' r, readNew little addr w' name = some (c, w'', r) ∧ c = .ok

theorem fileRoundtrip_claim_false : ¬ FileRoundtripClaim := by
  intro hc
  obtain ⟨c, w', e, -, -, -, -, h6, -⟩ := write_correct_partial ⟨fun _ => true, 100, false⟩ ⟨fun _ => none, [], [], 0⟩ "a" [7] 1 1 (by norm_num) (by norm_num) rfl rfl
  have hk := h6 (by decide +kernel)
  rw [hk] at e
  obtain ⟨c, w'', r, e', he⟩ := hc ⟨fun _ => true, 100, false⟩ true 0 _ w' "a" [7] 1 1 (by norm_num) (by norm_num) rfl e
  obtain ⟨c', w3, e3, h3, -⟩ := readNew_never true 0 w' "a"
  rw [e3, Option.some.injEq, Prod.mk.injEq] at e'
  exact h3 (e'.1.trans he)

/-- With code 0 the file has the image. -/
def StoredClaim : Prop := ∀ (disk : Disk) (w w' : World) (name : String) (data : List UInt8) (width height : Nat), width < 2 ^ 31 → height < 2 ^ 31 → data.length = width * height →
  write disk w name data width height = some (.ok, w') → w'.files name = some ([80, 53, 10] ++ decDigits width ++ [10] ++ decDigits height ++ [10, 50, 53, 53, 10] ++ data)

/-- Not if the medium is full when the stream is closed. -/
theorem stored_claim_false : ¬ StoredClaim := by
  intro hc
  have h := hc ⟨fun _ => true, 3, true⟩ ⟨fun _ => none, [], [], 0⟩ ⟨fun n => if n = "a" then some [80, 53, 10] else none, [], [], 1⟩ "a" [7] 1 1 (by norm_num) (by norm_num) rfl (by
    rw [show ((1 : Nat) : Int) = ((1 : Nat) : Int) from rfl, write_eq _ _ _ _ 1 1 (by norm_num) (by norm_num) (by simp) rfl]
    have e1 : (⟨fun _ => true, 3, true⟩ : Disk).stored (preamble (imageOf 1 1) ++ [7].take (1 * 1)) = [80, 53, 10] := by decide +kernel
    rw [e1]
    rfl)
  dsimp only at h
  rw [if_pos rfl] at h
  revert h
  decide +kernel

/-! ### Floats -/

theorem extremes_spec (data : List ℚ) (m : Option ℚ × Option ℚ) (a b : ℚ) (hm : m = (some a, some b)) :
    ∃ a' b', data.foldl (fun m x => (some (match m.1 with | none => x | some a => min a x), some (match m.2 with | none => x | some a => max a x))) m = (some a', some b') ∧
      IsLeast (Insert.insert a {x | x ∈ data}) a' ∧ IsGreatest (Insert.insert b {x | x ∈ data}) b' := by
  induction data generalizing m a b with
  | nil =>
    refine ⟨a, b, hm, ⟨Or.inl rfl, ?_⟩, ⟨Or.inl rfl, ?_⟩⟩
    · rintro x (rfl | hx)
      · exact le_refl _
      · simp at hx
    · rintro x (rfl | hx)
      · exact le_refl _
      · simp at hx
  | cons x l ih =>
    rw [List.foldl_cons, hm]
    dsimp only
    obtain ⟨a', b', e, ⟨h1, h2⟩, ⟨h3, h4⟩⟩ := ih (some (min a x), some (max b x)) (min a x) (max b x) rfl
    refine ⟨a', b', e, ⟨?_, ?_⟩, ⟨?_, ?_⟩⟩
    · rcases h1 with h1 | h1
      · rw [h1]
        rcases min_choice a x with h | h
        · exact Or.inl h
        · exact Or.inr (by rw [h]; exact List.mem_cons_self)
      · exact Or.inr (List.mem_cons_of_mem _ h1)
    · have h0 := h2 (Or.inl rfl)
      rintro y (rfl | hy)
      · exact h0.trans (min_le_left _ _)
      · rcases List.mem_cons.mp hy with rfl | hy
        · exact h0.trans (min_le_right _ _)
        · exact h2 (Or.inr hy)
    · rcases h3 with h3 | h3
      · rw [h3]
        rcases max_choice b x with h | h
        · exact Or.inl h
        · exact Or.inr (by rw [h]; exact List.mem_cons_self)
      · exact Or.inr (List.mem_cons_of_mem _ h3)
    · have h0 := h4 (Or.inl rfl)
      rintro y (rfl | hy)
      · exact (le_max_left _ _).trans h0
      · rcases List.mem_cons.mp hy with rfl | hy
        · exact (le_max_right _ _).trans h0
        · exact h4 (Or.inr hy)

theorem extremes_correct {data : List ℚ} (h : data ≠ []) : ∃ a b, extremes data = (some a, some b) ∧ IsLeast {x | x ∈ data} a ∧ IsGreatest {x | x ∈ data} b := by
  match data, h with
  | x :: l, _ =>
    obtain ⟨a, b, e, h1, h2⟩ := extremes_spec l (some x, some x) x x rfl
    have hs : {y | y ∈ x :: l} = Insert.insert x {y | y ∈ l} := by
      ext y
      rw [Set.mem_insert_iff, Set.mem_ofPred_eq, Set.mem_ofPred_eq, List.mem_cons]
    exact ⟨a, b, e, hs ▸ h1, hs ▸ h2⟩

/-- The byte of a pixel: the pixel minus the least one, relative to the range (plus 2^-23), in 255 steps, rounded down. -/
def pixelByte (lo hi x : ℚ) : Nat := ⌊255 * (x - lo) / (hi - lo + 1 / 2 ^ 23)⌋₊

theorem pixelByte_lt {lo hi x : ℚ} (h1 : lo ≤ x) (h2 : x ≤ hi) : pixelByte lo hi x < 255 := by
  unfold pixelByte
  have hd : 0 < hi - lo + 1 / 2 ^ 23 := by
    have : (0 : ℚ) < 1 / 2 ^ 23 := by positivity
    linarith
  rw [Nat.floor_lt (div_nonneg (by linarith) hd.le), div_lt_iff₀ hd]
  have : (0 : ℚ) < 1 / 2 ^ 23 := by positivity
  push_cast
  linarith

theorem rescale_eq {data : List ℚ} {lo hi : ℚ} (h1 : ∀ x ∈ data, lo ≤ x) (h2 : ∀ x ∈ data, x ≤ hi) : rescale (some lo, some hi) data = some (data.map fun x => UInt8.ofNat (pixelByte lo hi x)) := by
  unfold rescale
  dsimp only
  induction data with
  | nil => rfl
  | cons x l ih =>
    have a1 := h1 x List.mem_cons_self
    have a2 := h2 x List.mem_cons_self
    have hd : 0 < hi - lo + 1 / 2 ^ 23 := by
      have : (0 : ℚ) < 1 / 2 ^ 23 := by positivity
      linarith
    have ev : (x - lo) * (255 / (hi - lo + 1 / 2 ^ 23)) = 255 * (x - lo) / (hi - lo + 1 / 2 ^ 23) := by
      field_simp
    have hb : toByte ((x - lo) * (255 / (hi - lo + 1 / 2 ^ 23))) = some (UInt8.ofNat (pixelByte lo hi x)) := by
      rw [ev]
      have h0 : 0 ≤ 255 * (x - lo) / (hi - lo + 1 / 2 ^ 23) := div_nonneg (by linarith) hd.le
      refine if_pos ⟨h0, ?_⟩
      have := (Nat.floor_lt h0).mp (pixelByte_lt a1 a2)
      push_cast at this
      linarith
    rw [List.mapM_cons, hb, Option.bind_eq_bind, Option.bind_some, ih (fun y hy => h1 y (List.mem_cons_of_mem _ hy)) fun y hy => h2 y (List.mem_cons_of_mem _ hy)]
    rfl

/-- **C205.**  `vl_pgm_write_f` writes the pixels as numbers of 0, …, 254; the least pixel becomes 0 and the order of the pixels is kept; the block and the stream are given back. -/
theorem writeF_correct (disk : Disk) (w : World) (name : String) (data : List ℚ) (width height : Nat) (hw : width < 2 ^ 31) (hh : height < 2 ^ 31) (hl : data.length = width * height) (hb : width * height < 2 ^ 31) (hn : disk.writable name = true)
    (hr : 3 + (decDigits width).length + 1 + (decDigits height).length + 5 + width * height ≤ disk.room) (lo hi : ℚ) (hlo : IsLeast {x | x ∈ data} lo) (hhi : IsGreatest {x | x ∈ data} hi) :
    (∃ w', writeF disk w name data width height = some (.ok, w') ∧ w'.streams = w.streams ∧ w'.blocks = w.blocks ∧ (∀ n, n ≠ name → w'.files n = w.files n) ∧
      w'.files name = some ([80, 53, 10] ++ decDigits width ++ [10] ++ decDigits height ++ [10, 50, 53, 53, 10] ++ data.map fun x => UInt8.ofNat (pixelByte lo hi x))) ∧
    (∀ x ∈ data, pixelByte lo hi x ≤ 254) ∧ pixelByte lo hi lo = 0 ∧ ∀ x y, x ≤ y → pixelByte lo hi x ≤ pixelByte lo hi y := by
  have hd : 0 < hi - lo + 1 / 2 ^ 23 := by
    have h0 : (0 : ℚ) < 1 / 2 ^ 23 := by positivity
    have := hlo.2 hhi.1
    linarith
  refine ⟨?_, ?_, ?_, ?_⟩
  · obtain ⟨a, b, e1, h1, h2⟩ := extremes_correct (data := data) (by rintro rfl; exact absurd hlo.1 (by simp))
    obtain rfl : lo = a := hlo.unique h1
    obtain rfl : hi = b := hhi.unique h2
    have ez : ((width : Int) * (height : Int)) = ((width * height : Nat) : Int) := by push_cast; rfl
    have et : data.take ((width : Int) * (height : Int)).toNat = data := by
      rw [ez, Int.toNat_natCast]
      exact List.take_of_length_le (by omega)
    obtain ⟨c, w', e2, h3, h4, h5, h6, h7, -⟩ := write_correct_partial disk w.malloc.2 name (data.map fun x => UInt8.ofNat (pixelByte lo hi x)) width height hw hh (by rw [List.length_map, hl]) hn
    have hlen : ([80, 53, 10] ++ decDigits width ++ [10] ++ decDigits height ++ [10, 50, 53, 53, 10] ++ data.map fun x => UInt8.ofNat (pixelByte lo hi x)).length ≤ disk.room := by
      simp only [List.length_append, List.length_map, List.length_cons, List.length_nil]
      omega
    have hc := h7 hlen
    subst hc
    refine ⟨{ w' with blocks := w.blocks }, ?_, h3, rfl, h5, ?_⟩
    · unfold writeF
      rw [if_neg (by rw [ez]; omega), if_neg (by rw [ez, Int.toNat_natCast]; omega), et, e1, rescale_eq (fun x hx => hlo.2 hx) fun x hx => hhi.2 hx]
      dsimp only [Option.bind_eq_bind, Option.bind_some]
      rw [e2]
      dsimp only [Option.bind_some]
      unfold World.free
      rw [h4]
      unfold World.malloc
      dsimp only
      rw [if_pos List.mem_cons_self, List.erase_cons_head]
      rfl
    · dsimp only
      rw [h6, List.take_of_length_le hlen]
  · intro x hx
    have := pixelByte_lt (hlo.2 hx) (hhi.2 hx)
    omega
  · unfold pixelByte
    rw [sub_self, mul_zero, zero_div, Nat.floor_zero]
  · intro x y hxy
    unfold pixelByte
    refine Nat.floor_le_floor (div_le_div_of_nonneg_right ?_ hd.le)
    linarith

/-! ### Cases -/

example : World.Ok ⟨fun _ => none, [1, 0], [2], 3⟩ := ⟨by decide, by decide⟩

example : IsLeast {x : ℚ | x ∈ [3, 1]} 1 ∧ IsGreatest {x : ℚ | x ∈ [3, 1]} 3 ∧ pixelByte 1 3 2 = 127 := by
  refine ⟨⟨by simp, ?_⟩, ⟨by simp, ?_⟩, by decide +kernel⟩
  · intro x hx
    simp at hx
    rcases hx with rfl | rfl <;> norm_num
  · intro x hx
    simp at hx
    rcases hx with rfl | rfl <;> norm_num

end Verif.Pgm
