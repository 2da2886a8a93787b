import Verif.Pgm.Props

/-! # C224, C225: PGM files with comments and any white space -/

namespace Verif.Pgm

/-! ### Specification -/

/-- White space and comments between two fields of a header; a comment extends from `#` to the end of the line. -/
inductive Gap : List UInt8 → Prop
  | nil : Gap []
  | blank (c : UInt8) (s : List UInt8) (hc : c = 9 ∨ c = 10 ∨ c = 13 ∨ c = 32) (h : Gap s) : Gap (c :: s)
  | comment (t s : List UInt8) (ht : (10 : UInt8) ∉ t) (h : Gap s) : Gap (35 :: t ++ 10 :: s)

/-- `ds` are decimal digits that represent `n`, possibly with leading zeros. -/
def Numeral (ds : List UInt8) (n : Nat) : Prop :=
  ds ≠ [] ∧ (∀ c ∈ ds, 48 ≤ c ∧ c ≤ 57) ∧ ds.foldl (fun a c => 10 * a + (c.toNat - 48)) 0 = n

instance (ds : List UInt8) (n : Nat) : Decidable (Numeral ds n) := by unfold Numeral; infer_instance

/-! ### Proofs -/

theorem removeLine_append (t s : List UInt8) (ht : (10 : UInt8) ∉ t) : removeLine (t ++ 10 :: s) = (t.length + 1, s) := by
  induction t with
  | nil => simp [removeLine]
  | cons c t ih =>
    simp only [List.mem_cons, not_or] at ht
    simp only [List.cons_append, removeLine]
    rw [if_neg (Ne.symm ht.1), ih ht.2]
    simp

theorem removeBlanks_gap {s : List UInt8} (hs : Gap s) {c : UInt8} (t : List UInt8)
    (hc : ¬ (c = 9 ∨ c = 10 ∨ c = 13 ∨ c = 32)) (hh : c ≠ 35) :
    (removeBlanks (s ++ c :: t)).2 = c :: t ∧ (s ≠ [] → 0 < (removeBlanks (s ++ c :: t)).1) := by
  induction hs with
  | nil => rw [List.nil_append, removeBlanks, if_neg hc, if_neg hh]; simp
  | blank b s hb h ih =>
    rw [List.cons_append, removeBlanks, if_pos hb]
    exact ⟨ih.1, fun _ => by simp⟩
  | comment u s hu h ih =>
    rw [show 35 :: u ++ 10 :: s ++ c :: t = 35 :: (u ++ 10 :: (s ++ c :: t)) by simp, removeBlanks, if_neg (by decide), if_pos rfl]
    simp only [removeLine_append u _ hu]
    exact ⟨ih.1, fun _ => by omega⟩

theorem isDigit_iff (c : UInt8) : isDigit c = true ↔ 48 ≤ c ∧ c ≤ 57 := by simp [isDigit]

theorem readDigits_numeral (ds : List UInt8) (h : ∀ c ∈ ds, 48 ≤ c ∧ c ≤ 57) (a : Nat) {c : UInt8} (t : List UInt8)
    (hc : isDigit c = false) : readDigits a (ds ++ c :: t) = (ds.foldl (fun a c => 10 * a + (c.toNat - 48)) a, c :: t) := by
  induction ds generalizing a with
  | nil => simp [readDigits, hc]
  | cons d ds ih =>
    have hd : isDigit d = true := (isDigit_iff d).2 (h d (by simp))
    simp only [List.cons_append, readDigits, hd, if_true, List.foldl_cons]
    rw [ih (fun c hc => h c (by simp [hc])), Nat.mul_comm]

theorem digit_other {c : UInt8} (h : 48 ≤ c ∧ c ≤ 57) : ¬ (c = 9 ∨ c = 10 ∨ c = 13 ∨ c = 32) ∧ c ≠ 35 ∧ c ≠ 45 ∧ c ≠ 43 ∧ isSpace c = false := by
  have key : ∀ c : Fin 256, (48 ≤ UInt8.ofFin c ∧ UInt8.ofFin c ≤ 57) → ¬ (UInt8.ofFin c = 9 ∨ UInt8.ofFin c = 10 ∨ UInt8.ofFin c = 13 ∨ UInt8.ofFin c = 32) ∧
    UInt8.ofFin c ≠ 35 ∧ UInt8.ofFin c ≠ 45 ∧ UInt8.ofFin c ≠ 43 ∧ isSpace (UInt8.ofFin c) = false := by decide +kernel
  exact key c.toFin h

theorem field_gap {s ds : List UInt8} {n : Nat} (hs : Gap s) (h0 : s ≠ []) (hd : Numeral ds n) (hn : n < 2 ^ 31) {c : UInt8} (t : List UInt8)
    (hc : isDigit c = false) : field (s ++ (ds ++ c :: t)) = some ((n : Int), c :: t) := by
  obtain ⟨d0, d1, d2⟩ := hd
  obtain ⟨d, ds, rfl⟩ := List.exists_cons_of_ne_nil d0
  obtain ⟨o1, o2, o3, o4, o5⟩ := digit_other (d1 d (by simp))
  obtain ⟨r1, r2⟩ := removeBlanks_gap hs (ds ++ c :: t) o1 o2
  have e : s ++ (d :: ds ++ c :: t) = s ++ d :: (ds ++ c :: t) := by simp
  rw [field, e]
  simp only [r1]
  rw [if_pos (r2 h0)]
  have e2 : scanInt (d :: (ds ++ c :: t)) = some ((n : Int), c :: t) := by
    unfold scanInt
    rw [List.dropWhile_cons_of_neg (by simp [o5])]
    simp only
    rw [if_neg o3, if_neg o4, scanNat, if_pos ((isDigit_iff d).2 (d1 d (by simp))), ← List.cons_append, readDigits_numeral _ d1 0 t hc, d2]
    rfl
  rw [e2]
  simp only [Option.map_some]
  congr 2
  unfold scanned
  omega

theorem gap_head {s : List UInt8} (hs : Gap s) (h0 : s ≠ []) : ∃ c t, s = c :: t ∧ isDigit c = false := by
  cases hs with
  | nil => exact absurd rfl h0
  | blank c s hc h => exact ⟨c, s, rfl, by rcases hc with rfl | rfl | rfl | rfl <;> decide⟩
  | comment t s ht h => exact ⟨35, _, rfl, by decide⟩

/-- C224: the answer of the reader for every header of the documented form.  The fields are found whatever white space and comments
separate them; headers of valid images are refused nevertheless, because of the test of the maximum value (C15). -/
theorem header_partial (m1 c : UInt8) (s1 s2 s3 d1 d2 d3 rest : List UInt8) (w h m : Nat) (hm1 : m1 = 50 ∨ m1 = 53)
    (hc : c = 9 ∨ c = 10 ∨ c = 13 ∨ c = 32) (g1 : Gap s1) (g2 : Gap s2) (g3 : Gap s3) (n1 : s1 ≠ []) (n2 : s2 ≠ []) (n3 : s3 ≠ [])
    (hw : Numeral d1 w) (hh : Numeral d2 h) (hm : Numeral d3 m) (lw : w < 2 ^ 31) (lh : h < 2 ^ 31) (lm : m < 2 ^ 31) :
    extractHead ([80, m1] ++ s1 ++ d1 ++ s2 ++ d2 ++ s3 ++ d3 ++ [c] ++ rest) =
      if m < 65536 then .error .invMeta
      else .ok ({ width := w, height := h, maxValue := m, isRaw := decide (m1 = 53) }, rest) := by
  have e : [80, m1] ++ s1 ++ d1 ++ s2 ++ d2 ++ s3 ++ d3 ++ [c] ++ rest =
      80 :: m1 :: (s1 ++ (d1 ++ (s2 ++ (d2 ++ (s3 ++ (d3 ++ c :: rest)))))) := by simp
  have hcd : isDigit c = false := by rcases hc with rfl | rfl | rfl | rfl <;> decide
  obtain ⟨c2, t2, e2, k2⟩ := gap_head g2 n2
  obtain ⟨c3, t3, e3, k3⟩ := gap_head g3 n3
  have f1 : field (s1 ++ (d1 ++ (s2 ++ (d2 ++ (s3 ++ (d3 ++ c :: rest)))))) = some ((w : Int), s2 ++ (d2 ++ (s3 ++ (d3 ++ c :: rest)))) := by
    have := field_gap g1 n1 hw lw (t2 ++ (d2 ++ (s3 ++ (d3 ++ c :: rest)))) k2
    rw [← List.cons_append, ← e2] at this
    exact this
  have f2 : field (s2 ++ (d2 ++ (s3 ++ (d3 ++ c :: rest)))) = some ((h : Int), s3 ++ (d3 ++ c :: rest)) := by
    have := field_gap g2 n2 hh lh (t3 ++ (d3 ++ c :: rest)) k3
    rw [← List.cons_append, ← e3] at this
    exact this
  have f3 := field_gap g3 n3 hm lm rest hcd
  rw [e]
  unfold extractHead
  simp only
  rw [if_pos ⟨trivial, hm1⟩, f1]
  simp only [Option.bind_eq_bind, Option.bind_some]
  rw [f2]
  simp only [Option.bind_some]
  rw [f3]
  simp only [Option.bind_some]
  rw [if_pos (by rcases hc with h | h | h | h <;> simp [h])]
  simp only
  by_cases hlt : m < 65536
  · rw [if_pos hlt, if_pos (by omega)]
  · rw [if_neg hlt, if_neg (by omega)]
    have p : ∀ x : Nat, x < 2 ^ 31 → ((x : Int) % 2 ^ 64).toNat = x := by intro x hx; omega
    rw [p w lw, p h lh, p m lm]

/-- The documented behaviour: the header of every valid image is read. -/
def HeaderClaim : Prop :=
  ∀ (m1 c : UInt8) (s1 s2 s3 d1 d2 d3 rest : List UInt8) (w h m : Nat), (m1 = 50 ∨ m1 = 53) → (c = 9 ∨ c = 10 ∨ c = 13 ∨ c = 32) →
    Gap s1 → Gap s2 → Gap s3 → s1 ≠ [] → s2 ≠ [] → s3 ≠ [] → Numeral d1 w → Numeral d2 h → Numeral d3 m → w < 2 ^ 31 → h < 2 ^ 31 → m < 65536 →
    extractHead ([80, m1] ++ s1 ++ d1 ++ s2 ++ d2 ++ s3 ++ d3 ++ [c] ++ rest) =
      .ok ({ width := w, height := h, maxValue := m, isRaw := decide (m1 = 53) }, rest)

/-- It fails for a header with a comment, as for any other. -/
theorem header_claim_false : ¬ HeaderClaim := by
  intro hcl
  have g : Gap ([10, 35, 97, 10] : List UInt8) := .blank 10 _ (by decide) (.comment [97] [] (by decide) .nil)
  have := hcl 53 10 [10, 35, 97, 10] [32] [10] [50] [49] [50, 53, 53] [] 2 1 255 (by decide) (by decide) g
    (.blank 32 _ (by decide) .nil) (.blank 10 _ (by decide) .nil) (by decide) (by decide) (by decide) (by decide) (by decide) (by decide)
    (by decide) (by decide) (by decide)
  rw [header_partial 53 10 [10, 35, 97, 10] [32] [10] [50] [49] [50, 53, 53] [] 2 1 255 (by decide) (by decide) g
    (.blank 32 _ (by decide) .nil) (.blank 10 _ (by decide) .nil) (by decide) (by decide) (by decide) (by decide) (by decide) (by decide)
    (by decide) (by decide) (by decide)] at this
  cases this

/-- A header with a comment and leading zeros: `"P2 #a\n 007\t1\r\n70000 "`. -/
example : Gap ([32, 35, 97, 10, 32] : List UInt8) ∧ Numeral [48, 48, 55] 7 ∧ Gap [9] ∧ Gap [13, 10] ∧ Numeral [55, 48, 48, 48, 48] 70000 :=
  ⟨.blank 32 _ (by decide) (.comment [97] [32] (by decide) (.blank 32 _ (by decide) .nil)), by decide, .blank 9 _ (by decide) .nil,
    .blank 13 _ (by decide) (.blank 10 _ (by decide) .nil), by decide⟩

/-! ### Pixels of text images -/

theorem readDigits_end (ds : List UInt8) (h : ∀ c ∈ ds, 48 ≤ c ∧ c ≤ 57) (a : Nat) (t : List UInt8)
    (ht : ∀ c, t.head? = some c → ¬ (48 ≤ c ∧ c ≤ 57)) :
    readDigits a (ds ++ t) = (ds.foldl (fun a c => 10 * a + (c.toNat - 48)) a, t) := by
  cases t with
  | nil =>
    rw [List.append_nil]
    induction ds generalizing a with
    | nil => rfl
    | cons d ds ih =>
      have hd : isDigit d = true := (isDigit_iff d).2 (h d (by simp))
      simp only [readDigits, hd, if_true, List.foldl_cons]
      rw [ih (fun c hc => h c (by simp [hc])), Nat.mul_comm]
  | cons c t => exact readDigits_numeral ds h a t (by
      have := ht c rfl
      rw [← isDigit_iff] at this
      simpa using this)

theorem scanUd_item {sp ds : List UInt8} {v : Nat} (hsp : ∀ c ∈ sp, c = 32 ∨ (9 ≤ c ∧ c ≤ 13)) (hd : Numeral ds v) (t : List UInt8)
    (ht : ∀ c, t.head? = some c → ¬ (48 ≤ c ∧ c ≤ 57)) :
    ∃ t', scanUd (sp ++ (ds ++ t)) = some (v, t') ∧ ((∀ c, t.head? = some c → c ≠ 100) → t' = t) := by
  obtain ⟨d0, d1, d2⟩ := hd
  obtain ⟨d, ds, rfl⟩ := List.exists_cons_of_ne_nil d0
  obtain ⟨-, -, -, -, o5⟩ := digit_other (d1 d (by simp))
  have hdrop : (sp ++ (d :: ds ++ t)).dropWhile isSpace = d :: ds ++ t := by
    rw [List.dropWhile_append_of_pos (fun c hc => by
      have := hsp c hc
      simpa [isSpace] using this), List.cons_append, List.dropWhile_cons_of_neg (by simp [o5])]
  have hs : scanNat (d :: ds ++ t) = some (v, t) := by
    rw [List.cons_append, scanNat, if_pos ((isDigit_iff d).2 (d1 d (by simp))), ← List.cons_append, readDigits_end _ d1 0 t ht, d2]
  unfold scanUd
  rw [hdrop, hs]
  simp only
  cases t with
  | nil => exact ⟨[], rfl, fun _ => rfl⟩
  | cons c t =>
    simp only
    by_cases hc : c = 100
    · rw [if_pos hc]; exact ⟨t, rfl, fun h => absurd hc (h c rfl)⟩
    · rw [if_neg hc]; exact ⟨c :: t, rfl, fun _ => rfl⟩

theorem readAscii_items (modulus : Nat) : ∀ (items : List (List UInt8 × List UInt8 × Nat)) (t : List UInt8),
    (∀ x ∈ items, (∀ c ∈ x.1, c = 32 ∨ (9 ≤ c ∧ c ≤ 13)) ∧ Numeral x.2.1 x.2.2) → (∀ x ∈ items.tail, x.1 ≠ []) →
    (∀ c, t.head? = some c → ¬ (48 ≤ c ∧ c ≤ 57)) →
    readAscii modulus items.length (items.flatMap (fun x => x.1 ++ x.2.1) ++ t) = some (items.map (fun x => x.2.2 % modulus))
  | [], _, _, _, _ => rfl
  | x :: xs, t, hx, hne, ht => by
    obtain ⟨h1, h2⟩ := hx x (by simp)
    have hnext : ∀ c, (xs.flatMap (fun x => x.1 ++ x.2.1) ++ t).head? = some c → ¬ (48 ≤ c ∧ c ≤ 57) ∧ (xs ≠ [] → c ≠ 100) := by
      intro c hc
      cases xs with
      | nil => exact ⟨ht c (by simpa using hc), fun h => absurd rfl h⟩
      | cons y ys =>
        obtain ⟨b, bs, hb⟩ := List.exists_cons_of_ne_nil (hne y (by simp))
        have hsp := (hx y (by simp)).1 b (by rw [hb]; simp)
        rw [List.flatMap_cons, hb] at hc
        simp only [List.cons_append, List.head?_cons, Option.some.injEq] at hc
        subst hc
        have key : ∀ b : Fin 256, (UInt8.ofFin b = 32 ∨ (9 ≤ UInt8.ofFin b ∧ UInt8.ofFin b ≤ 13)) →
          ¬ (48 ≤ UInt8.ofFin b ∧ UInt8.ofFin b ≤ 57) ∧ UInt8.ofFin b ≠ 100 := by decide +kernel
        exact ⟨(key b.toFin hsp).1, fun _ => (key b.toFin hsp).2⟩
    obtain ⟨t', e1, e2⟩ := scanUd_item h1 h2 _ (fun c hc => (hnext c hc).1)
    rw [List.flatMap_cons, List.length_cons, readAscii, List.append_assoc, List.append_assoc, e1]
    simp only [Option.bind_eq_bind, Option.bind_some]
    cases hxs : xs with
    | nil => simp [readAscii]
    | cons y ys =>
      rw [e2 (fun c hc => (hnext c hc).2 (by rw [hxs]; simp)), ← hxs,
        readAscii_items modulus xs t (fun z hz => hx z (by simp [hz])) (fun z hz => hne z (List.mem_of_mem_tail hz)) ht]
      rfl

/-- C225: the pixels of a text image are read whatever white space separates them, and stored modulo the size of a pixel.
Numbers that do not fit in an `unsigned int` are left out. -/
theorem text_pixels (im : Image) (items : List (List UInt8 × List UInt8 × Nat)) (t : List UInt8)
    (hlen : items.length = im.width * im.height)
    (hx : ∀ x ∈ items, (∀ c ∈ x.1, c = 32 ∨ (9 ≤ c ∧ c ≤ 13)) ∧ Numeral x.2.1 x.2.2) (_ : ∀ x ∈ items, x.2.2 < 2 ^ 32)
    (hne : ∀ x ∈ items.tail, x.1 ≠ []) (ht : ∀ c, t.head? = some c → ¬ (48 ≤ c ∧ c ≤ 57)) :
    extractAscii im (items.flatMap (fun x => x.1 ++ x.2.1) ++ t) =
      .ok (items.map (fun x => x.2.2 % (if im.maxValue < 256 then 256 else 65536))) := by
  unfold extractAscii
  have hm : 256 ^ bpp im = if im.maxValue < 256 then 256 else 65536 := by
    unfold bpp
    by_cases h : im.maxValue < 256
    · rw [if_pos h, if_neg (by omega)]; rfl
    · rw [if_neg h, if_pos (by omega)]; rfl
  rw [show npixels im = items.length from hlen.symm, hm, readAscii_items _ items t hx hne ht]

/-- Too few numbers: the reader reports invalid data. -/
theorem text_short (im : Image) (items : List (List UInt8 × List UInt8 × Nat)) (sp : List UInt8)
    (hlen : items.length < im.width * im.height)
    (hx : ∀ x ∈ items, (∀ c ∈ x.1, c = 32 ∨ (9 ≤ c ∧ c ≤ 13)) ∧ Numeral x.2.1 x.2.2) (hne : ∀ x ∈ items.tail, x.1 ≠ [])
    (hsp : ∀ c ∈ sp, c = 32 ∨ (9 ≤ c ∧ c ≤ 13)) :
    extractAscii im (items.flatMap (fun x => x.1 ++ x.2.1) ++ sp) = .error .invData := by
  have key : ∀ (b : UInt8), (b = 32 ∨ (9 ≤ b ∧ b ≤ 13)) → ¬ (48 ≤ b ∧ b ≤ 57) ∧ b ≠ 100 := by
    have key : ∀ b : Fin 256, (UInt8.ofFin b = 32 ∨ (9 ≤ UInt8.ofFin b ∧ UInt8.ofFin b ≤ 13)) →
      ¬ (48 ≤ UInt8.ofFin b ∧ UInt8.ofFin b ≤ 57) ∧ UInt8.ofFin b ≠ 100 := by decide +kernel
    exact fun b => key b.toFin
  have main : ∀ (modulus n : Nat) (items : List (List UInt8 × List UInt8 × Nat)), items.length < n →
      (∀ x ∈ items, (∀ c ∈ x.1, c = 32 ∨ (9 ≤ c ∧ c ≤ 13)) ∧ Numeral x.2.1 x.2.2) → (∀ x ∈ items.tail, x.1 ≠ []) →
      readAscii modulus n (items.flatMap (fun x => x.1 ++ x.2.1) ++ sp) = none := by
    intro modulus n
    induction n with
    | zero => intro items h; omega
    | succ n ih =>
      intro items hl hx hne
      cases items with
      | nil =>
        have hd : sp.dropWhile isSpace = [] := by
          have := List.dropWhile_append_of_pos (l₂ := []) (p := isSpace) (fun c hc => by
            have := hsp c hc
            simpa [isSpace] using this)
          simpa using this
        simp [readAscii, scanUd, hd, scanNat]
      | cons x xs =>
        obtain ⟨h1, h2⟩ := hx x (by simp)
        have hnext : ∀ c, (xs.flatMap (fun x => x.1 ++ x.2.1) ++ sp).head? = some c → c = 32 ∨ (9 ≤ c ∧ c ≤ 13) := by
          intro c hc
          cases xs with
          | nil => exact hsp c (List.mem_of_mem_head? (by simpa using hc))
          | cons y ys =>
            obtain ⟨b, bs, hb⟩ := List.exists_cons_of_ne_nil (hne y (by simp))
            have hb' := (hx y (by simp)).1 b (by rw [hb]; simp)
            rw [List.flatMap_cons, hb] at hc
            simp only [List.cons_append, List.head?_cons, Option.some.injEq] at hc
            subst hc
            exact hb'
        obtain ⟨t', e1, e2⟩ := scanUd_item h1 h2 _ (fun c hc => (key c (hnext c hc)).1)
        rw [List.flatMap_cons, readAscii, List.append_assoc, List.append_assoc, e1, e2 (fun c hc => (key c (hnext c hc)).2)]
        simp only [Option.bind_eq_bind, Option.bind_some]
        rw [ih xs (by simp at hl; omega) (fun z hz => hx z (by simp [hz])) (fun z hz => hne z (List.mem_of_mem_tail hz))]
        rfl
  unfold extractAscii
  rw [show npixels im = im.width * im.height from rfl, main _ _ items hlen hx hne]

/-- `" 7\n\t300"` in an image with two pixels of one byte. -/
example : extractAscii ⟨2, 1, 255, false⟩ [32, 55, 10, 9, 51, 48, 48] = .ok [7, 44] := by
  have := text_pixels ⟨2, 1, 255, false⟩ [([32], [55], 7), ([10, 9], [51, 48, 48], 300)] [] rfl (by decide) (by decide) (by decide) (by simp)
  simpa using this

end Verif.Pgm
