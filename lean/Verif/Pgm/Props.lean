import Verif.Pgm.Model
import Mathlib.Tactic.Linarith
import Mathlib.Data.List.Basic

/-!
# C15: PGM round trip
-/

namespace Verif.Pgm

theorem digit_facts (d : Nat) (h : d < 10) :
    isDigit (48 + UInt8.ofNat d) = true ∧ (48 + UInt8.ofNat d).toNat - 48 = d ∧ 48 + UInt8.ofNat d ≠ 45 ∧
      48 + UInt8.ofNat d ≠ 43 ∧ isSpace (48 + UInt8.ofNat d) = false ∧ 48 + UInt8.ofNat d ≠ 35 ∧
      ¬ (48 + UInt8.ofNat d = 9 ∨ 48 + UInt8.ofNat d = 10 ∨ 48 + UInt8.ofNat d = 13 ∨ 48 + UInt8.ofNat d = 32) := by
  have : ∀ d : Fin 10, isDigit (48 + UInt8.ofNat d.val) = true ∧ (48 + UInt8.ofNat d.val).toNat - 48 = d.val ∧
      48 + UInt8.ofNat d.val ≠ 45 ∧ 48 + UInt8.ofNat d.val ≠ 43 ∧ isSpace (48 + UInt8.ofNat d.val) = false ∧
      48 + UInt8.ofNat d.val ≠ 35 ∧ ¬ (48 + UInt8.ofNat d.val = 9 ∨ 48 + UInt8.ofNat d.val = 10 ∨
        48 + UInt8.ofNat d.val = 13 ∨ 48 + UInt8.ofNat d.val = 32) := by decide +kernel
  exact this ⟨d, h⟩

theorem decDigits_cons (n : Nat) : ∃ d t, d < 10 ∧ decDigits n = (48 + UInt8.ofNat d) :: t := by
  induction n using Nat.strong_induction_on with
  | _ n ih =>
    rw [decDigits]
    by_cases h : n < 10
    · exact ⟨n, [], h, by rw [if_pos h]⟩
    · obtain ⟨d, t, hd, ht⟩ := ih (n / 10) (by omega)
      exact ⟨d, t ++ [48 + UInt8.ofNat (n % 10)], hd, by rw [if_neg h, ht]; rfl⟩

theorem readDigits_dec (n : Nat) (t : List UInt8) : readDigits 0 (decDigits n ++ t) = readDigits n t := by
  induction n using Nat.strong_induction_on generalizing t with
  | _ n ih =>
    rw [decDigits]
    by_cases h : n < 10
    · rw [if_pos h]
      obtain ⟨h1, h2, _⟩ := digit_facts n h
      simp only [List.cons_append, List.nil_append, readDigits, h1, if_true, h2]
      simp
    · rw [if_neg h, List.append_assoc, ih (n / 10) (by omega)]
      obtain ⟨h1, h2, _⟩ := digit_facts (n % 10) (by omega)
      simp only [List.cons_append, List.nil_append, readDigits, h1, if_true, h2]
      congr 1; omega

theorem scanNat_dec (n : Nat) (c : UInt8) (t : List UInt8) (hc : isDigit c = false) :
    scanNat (decDigits n ++ c :: t) = some (n, c :: t) := by
  obtain ⟨d, u, hd, hu⟩ := decDigits_cons n
  obtain ⟨h1, _⟩ := digit_facts d hd
  have : scanNat (decDigits n ++ c :: t) = some (readDigits 0 (decDigits n ++ c :: t)) := by
    rw [hu, List.cons_append, scanNat, if_pos h1]
  rw [this, readDigits_dec, readDigits]
  simp [hc]

theorem scanInt_print (i : Int) (c : UInt8) (t : List UInt8) (hc : isDigit c = false) :
    scanInt (printInt i ++ c :: t) = some (i, c :: t) := by
  by_cases hi : i < 0
  · simp only [printInt, if_pos hi, scanInt, List.cons_append]
    rw [List.dropWhile_cons_of_neg (by decide)]
    simp only [if_true, scanNat_dec _ _ _ hc, Option.map_some]
    congr 2; omega
  · simp only [printInt, if_neg hi, scanInt]
    obtain ⟨d, u, hd, hu⟩ := decDigits_cons i.natAbs
    obtain ⟨h1, h2, h3, h4, h5, _⟩ := digit_facts d hd
    have := scanNat_dec i.natAbs c t hc
    rw [hu, List.cons_append] at this ⊢
    rw [List.dropWhile_cons_of_neg (by simp [h5])]
    simp only [if_neg h3, if_neg h4, this, Option.map_some]
    congr 2; omega

theorem removeBlanks_print (i : Int) (t : List UInt8) : removeBlanks (10 :: (printInt i ++ t)) = (1, printInt i ++ t) := by
  have key : removeBlanks (printInt i ++ t) = (0, printInt i ++ t) := by
    by_cases hi : i < 0
    · simp only [printInt, if_pos hi, List.cons_append]
      rw [removeBlanks, if_neg (by decide), if_neg (by decide)]
    · simp only [printInt, if_neg hi]
      obtain ⟨d, u, hd, hu⟩ := decDigits_cons i.natAbs
      obtain ⟨_, _, _, _, _, h6, h7⟩ := digit_facts d hd
      rw [hu, List.cons_append, removeBlanks, if_neg h7, if_neg h6]
  rw [removeBlanks, if_pos (by decide), key]

theorem scanned_range (i : Int) : -2 ^ 31 ≤ scanned i ∧ scanned i < 2 ^ 31 := by
  unfold scanned
  omega

theorem scanned_toInt32 (n : Nat) : scanned (toInt32 n) = toInt32 n := by
  unfold scanned toInt32
  split <;> omega

theorem field_print (n : Nat) (c : UInt8) (t : List UInt8) (hc : isDigit c = false) :
    field (10 :: (printInt (toInt32 n) ++ c :: t)) = some (toInt32 n, c :: t) := by
  simp [field, removeBlanks_print, scanInt_print _ c t hc, scanned_toInt32]

theorem field_range {f rest : List UInt8} {i : Int} (h : field f = some (i, rest)) : -2 ^ 31 ≤ i ∧ i < 2 ^ 31 := by
  unfold field at h
  dsimp only at h
  split at h
  · obtain ⟨x, -, hx⟩ := Option.map_eq_some_iff.mp h
    rw [Prod.mk.injEq] at hx
    rw [← hx.1]
    exact scanned_range _
  · cases h

theorem toInt32_small (n : Nat) (h : n < 2 ^ 31) : toInt32 n = n := by
  have : n % 2 ^ 32 = n := Nat.mod_eq_of_lt (by omega)
  simp only [toInt32, this, if_pos h]

/-- What the reader answers on the file written for an image, in general. -/
theorem extractHead_insert (little : Bool) (im : Image) (data : List UInt8)
    (hw : im.width < 2 ^ 31) (hh : im.height < 2 ^ 31) (hm : im.maxValue < 2 ^ 31) :
    extractHead (insert little im data) =
      if im.maxValue < 65536 then .error .invMeta else .ok ({ im with isRaw := true }, payload little im data) := by
  have e : insert little im data = 80 :: 53 :: (10 :: (printInt (toInt32 im.width) ++ 10 ::
      (printInt (toInt32 im.height) ++ 10 :: (printInt (toInt32 im.maxValue) ++ 10 :: payload little im data)))) := by
    simp [insert, preamble]
  rw [e]
  simp only [extractHead]
  rw [if_pos (by decide)]
  have h10 : isDigit 10 = false := by decide
  simp only [field_print _ _ _ h10, Option.bind_eq_bind, Option.bind_some]
  rw [if_pos (by decide)]
  simp only [toInt32_small _ hw, toInt32_small _ hh, toInt32_small _ hm]
  by_cases h : im.maxValue < 65536
  · rw [if_pos h, if_pos (by omega)]
  · rw [if_neg h, if_neg (by omega)]
    have a1 : ((im.width : Int) % 2 ^ 64).toNat = im.width := by omega
    have a2 : ((im.height : Int) % 2 ^ 64).toNat = im.height := by omega
    have a3 : ((im.maxValue : Int) % 2 ^ 64).toNat = im.maxValue := by omega
    rw [a1, a2, a3]; rfl

/-- C15, refuted: the header of every valid image (maximum value below 65536) written by `vl_pgm_insert` is rejected by
`vl_pgm_extract_head`; the test of vl/pgm.c:236 is inverted. -/
theorem written_image_unreadable (little : Bool) (im : Image) (data : List UInt8)
    (hw : im.width < 2 ^ 31) (hh : im.height < 2 ^ 31) (hm : im.maxValue < 65536) :
    extractHead (insert little im data) = .error .invMeta := by
  rw [extractHead_insert little im data hw hh (by omega), if_pos hm]

/-- C15, refuted more generally: no stream at all is accepted with a maximum value allowed by the format. -/
theorem accepted_header_invalid (f rest : List UInt8) (im : Image) (h : extractHead f = .ok (im, rest)) :
    65536 ≤ im.maxValue ∧ im.maxValue < 2 ^ 31 := by
  unfold extractHead at h
  split at h
  · split at h
    · split at h
      · cases h
      · split at h
        · cases h
        · rename_i w hh m f' heq hm
          simp only [not_not] at hm
          cases h
          simp only [Option.bind_eq_bind, Option.bind_eq_some_iff] at heq
          obtain ⟨a, -, b, -, c, hc, he⟩ := heq
          have := field_range (i := c.1) (rest := c.2) hc
          split at he
          · cases he
          · split at he
            · cases he
              simp only
              omega
            · cases he
    · cases h
  · cases h

/-- The claim of C15 is false. -/
theorem roundtrip_claim_false :
    ¬ ∀ (little : Bool) (im : Image) (data : List UInt8), im.width < 2 ^ 31 → im.height < 2 ^ 31 → im.maxValue < 65536 →
      im.isRaw = true → ∃ rest, extractHead (insert little im data) = .ok (im, rest) := by
  intro h
  obtain ⟨rest, hr⟩ := h true ⟨1, 1, 255, true⟩ [7] (by norm_num) (by norm_num) (by norm_num) rfl
  rw [written_image_unreadable true ⟨1, 1, 255, true⟩ [7] (by norm_num) (by norm_num) (by norm_num)] at hr
  cases hr

theorem swapPairs_length (l : List UInt8) : (swapPairs l).length = l.length := by
  induction l using swapPairs.induct with
  | case1 a b l ih => simp [swapPairs, ih]
  | case2 l h =>
    rw [swapPairs]
    intro a b l' hh; exact h a b l' hh

theorem swapPairs_involutive (l : List UInt8) : swapPairs (swapPairs l) = l := by
  induction l using swapPairs.induct with
  | case1 a b l ih => simp [swapPairs, ih]
  | case2 l h =>
    have : swapPairs l = l := by rw [swapPairs]; intro a b l' hh; exact h a b l' hh
    rw [this, this]

theorem swapPairs_get (l : List UInt8) (i : Nat) (hi : 2 * i + 1 < l.length) :
    (swapPairs l)[2 * i]? = l[2 * i + 1]? ∧ (swapPairs l)[2 * i + 1]? = l[2 * i]? := by
  induction l using swapPairs.induct generalizing i with
  | case1 a b l ih =>
    cases i with
    | zero => simp [swapPairs]
    | succ i =>
      simp only [List.length_cons] at hi
      have := ih i (by omega)
      have e1 : 2 * (i + 1) = 2 * i + 1 + 1 := by omega
      simp only [swapPairs, e1, List.getElem?_cons_succ]
      exact this
  | case2 l h =>
    match l, h with
    | [], _ => simp at hi
    | [a], _ => simp at hi
    | a :: b :: l, h => exact absurd rfl (h a b l)

/-- C15, wire format: a pixel takes one byte if all values up to the declared maximum fit in one and two bytes otherwise; the payload
has exactly that many bytes for each pixel. -/
theorem payload_length (little : Bool) (im : Image) (data : List UInt8)
    (hd : data.length = (if im.maxValue < 256 then 1 else 2) * npixels im) :
    (payload little im data).length = (if im.maxValue < 256 then 1 else 2) * npixels im := by
  have hb : bpp im = if im.maxValue < 256 then 1 else 2 := by
    unfold bpp
    by_cases h : im.maxValue < 256
    · rw [if_pos h, if_neg (by omega)]
    · rw [if_neg h, if_pos (by omega)]
  rw [← hb] at hd ⊢
  unfold payload
  split
  · rename_i h; rw [swapPairs_length, h.2]; rw [h.2] at hd; simp; omega
  · simp; omega

/-- C15, pixel payload: the bytes written for the pixels are read back identically, for one and two bytes per pixel, on either
kind of host. -/
theorem payload_roundtrip (little : Bool) (im : Image) (data rest : List UInt8)
    (hd : data.length = bpp im * npixels im) :
    extractRaw little im (payload little im data ++ rest) = .ok data := by
  have hpl : (payload little im data).length = bpp im * npixels im := by
    unfold payload
    split
    · rename_i h; rw [swapPairs_length, h.2]; rw [h.2] at hd; simp; omega
    · simp; omega
  unfold extractRaw
  rw [if_neg (by simp [hpl])]
  have htake : (payload little im data ++ rest).take (bpp im * npixels im) = payload little im data := List.take_left' hpl
  simp only [htake]
  congr 1
  unfold payload
  by_cases h : little = true ∧ bpp im = 2
  · simp only [if_pos h]
    rw [swapPairs_involutive]
    rw [h.2] at hd
    exact List.take_of_length_le (by omega)
  · simp only [if_neg h]
    exact List.take_of_length_le (by omega)

/-- C15, wire format: on a little-endian host 16-bit pixels are written most significant byte first. -/
theorem payload_big_endian (im : Image) (data : List UInt8) (hm : 256 ≤ im.maxValue) (hd : data.length = 2 * npixels im)
    (i : Nat) (hi : i < npixels im) :
    (payload true im data)[2 * i]? = data[2 * i + 1]? ∧ (payload true im data)[2 * i + 1]? = data[2 * i]? := by
  have hb : bpp im = 2 := by unfold bpp; rw [if_pos (by omega)]
  have : payload true im data = swapPairs data := by
    unfold payload
    rw [if_pos ⟨rfl, hb⟩, List.take_of_length_le (by omega)]
  rw [this]
  exact swapPairs_get data i (by omega)

/-- C15, partial: the complete round trip (header and pixels) holds for the images whose declared maximum value the reader
accepts, which are only the out-of-format ones with maximum value 65536 or more.  Missing: all valid images, for which
the property is false (`written_image_unreadable`). -/
theorem roundtrip_partial (little : Bool) (im : Image) (data : List UInt8) (hw : im.width < 2 ^ 31) (hh : im.height < 2 ^ 31)
    (hm : im.maxValue < 2 ^ 31) (hbig : 65536 ≤ im.maxValue) (hr : im.isRaw = true)
    (hd : data.length = bpp im * npixels im) :
    ∃ rest, extractHead (insert little im data) = .ok (im, rest) ∧ extractRaw little im rest = .ok data := by
  refine ⟨payload little im data, ?_, ?_⟩
  · rw [extractHead_insert little im data hw hh hm, if_neg (by omega)]
    cases im; simp_all
  · have := payload_roundtrip little im data [] hd
    simpa using this

/-- C15, ASCII pixels: numbers separated by single blanks are read back exactly, when they fit in a pixel. -/
theorem ascii_pixels (modulus : Nat) (vs : List Nat) (sep : UInt8) (hsep : sep = 32 ∨ (9 ≤ sep ∧ sep ≤ 13))
    (hv : ∀ v ∈ vs, v < modulus) (rest : List UInt8) :
    readAscii modulus vs.length (vs.flatMap (fun v => sep :: decDigits v) ++ sep :: rest) = some vs := by
  have hs : isSpace sep = true := by simpa [isSpace] using hsep
  have hsd : isDigit sep = false := by
    have : ∀ c : Fin 256, isSpace (UInt8.ofFin c) = true → isDigit (UInt8.ofFin c) = false := by decide +kernel
    exact this sep.toFin hs
  have hs100 : sep ≠ 100 := by rintro rfl; exact absurd hs (by decide)
  induction vs with
  | nil => simp [readAscii]
  | cons v vs ih =>
    have hnext : ∃ t, (vs.flatMap (fun v => sep :: decDigits v) ++ sep :: rest) = sep :: t := by
      cases vs with
      | nil => exact ⟨rest, by simp⟩
      | cons w ws => exact ⟨_, by simp [List.flatMap_cons]; rfl⟩
    obtain ⟨t, ht⟩ := hnext
    simp only [List.flatMap_cons, List.length_cons, readAscii, List.append_assoc, List.cons_append]
    have hscan : scanUd (sep :: (decDigits v ++ (vs.flatMap (fun v => sep :: decDigits v) ++ sep :: rest))) =
        some (v, vs.flatMap (fun v => sep :: decDigits v) ++ sep :: rest) := by
      rw [ht]
      unfold scanUd
      have hdrop : (sep :: (decDigits v ++ sep :: t)).dropWhile isSpace = decDigits v ++ sep :: t := by
        rw [List.dropWhile_cons_of_pos hs]
        obtain ⟨d, u, hd, hu⟩ := decDigits_cons v
        obtain ⟨_, _, _, _, h5, _⟩ := digit_facts d hd
        rw [hu, List.cons_append, List.dropWhile_cons_of_neg (by simp [h5])]
      rw [hdrop, scanNat_dec v sep t hsd]
      simp [hs100]
    rw [hscan]
    simp only [Option.bind_eq_bind, Option.bind_some]
    rw [ih (fun w hw => hv w (by simp [hw]))]
    simp [Nat.mod_eq_of_lt (hv v (by simp))]

example : insert true ⟨2, 1, 255, true⟩ [9, 8] = "P5\n2\n1\n255\n".toUTF8.toList ++ [9, 8] := by decide +kernel
example : extractHead (insert true ⟨2, 1, 255, true⟩ [9, 8]) = .error .invMeta :=
  written_image_unreadable _ _ _ (by norm_num) (by norm_num) (by norm_num)
example : (payload true ⟨1, 1, 1000, true⟩ [0x12, 0x34]) = [0x34, 0x12] := by decide +kernel

end Verif.Pgm
