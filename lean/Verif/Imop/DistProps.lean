import Verif.Imop.DistModel
import Mathlib.Algebra.Order.Field.Basic
import Mathlib.Algebra.Order.Ring.Rat
import Mathlib.Algebra.Field.Rat
import Mathlib.Tactic.Ring
import Mathlib.Tactic.Linarith
import Mathlib.Tactic.FieldSimp
import Mathlib.Tactic.Positivity
import Mathlib.Data.List.Basic

namespace Verif.Imop

variable {K : Type} [Field K] [LinearOrder K] [IsStrictOrderedRing K]

/-! ### Specification -/

/-- The parabola of pixel `q` with value `v`, at the point `t`. -/
def parab (coeff offset : K) (v : K) (q : Nat) (t : K) : K := v + coeff * (t - q - offset) ^ 2

/-! ### Proof -/

/-- What the scan uses of an intersection: left of it the left parabola is lower, right of it the right one. -/
theorem cut_spec {eps coeff offset : K} (heps : 0 ≤ eps) (hc : coeff = 0 ∨ eps < coeff) {x x_ : Nat} (hx : x_ < x) (r r_ : K)
    (t : K) : (cut eps coeff offset x x_ r r_ ≤ fin' t → parab coeff offset r x t ≤ parab coeff offset r_ x_ t) ∧
      (fin' t ≤ cut eps coeff offset x x_ r r_ → parab coeff offset r_ x_ t ≤ parab coeff offset r x t) := by
  have hd : (0 : K) < (x : K) - x_ := by
    have : (x_ : K) < x := by exact_mod_cast hx
    linarith
  have key : parab coeff offset r x t - parab coeff offset r_ x_ t
      = (r - r_) + coeff * ((x : K) * x - (x_ : K) * x_) - 2 * coeff * (t - offset) * ((x : K) - x_) := by
    unfold parab; ring
  unfold cut
  split
  · rename_i h
    subst h
    have k2 : parab coeff offset r x t - parab coeff offset r x_ t
        = 2 * coeff * ((((x : K) + x_) / 2 + offset) - t) * ((x : K) - x_) := by rw [key]; ring
    have hc0 : 0 ≤ coeff := by rcases hc with h | h <;> linarith
    have hp : 0 ≤ 2 * coeff * ((x : K) - x_) := by positivity
    simp only [fin', WithBot.coe_le_coe, WithTop.coe_le_coe]
    constructor
    · intro h
      have := mul_nonneg hp (sub_nonneg.2 h)
      nlinarith
    · intro h
      have := mul_nonneg hp (sub_nonneg.2 h)
      nlinarith
  · rename_i hne
    split
    · rename_i hgt
      have hcp : 0 < coeff := lt_of_le_of_lt heps hgt
      have hp : 0 < 2 * coeff * ((x : K) - x_) := by positivity
      have k2 : parab coeff offset r x t - parab coeff offset r_ x_ t
          = 2 * coeff * ((x : K) - x_) *
            ((((r - r_) + coeff * ((x : K) * x - (x_ : K) * x_)) / ((x : K) - x_) / (2 * coeff) + offset) - t) := by
        rw [key]
        have h1 : (x : K) - x_ ≠ 0 := ne_of_gt hd
        have h2 : coeff ≠ 0 := ne_of_gt hcp
        field_simp
        ring
      simp only [fin', WithBot.coe_le_coe, WithTop.coe_le_coe]
      constructor
      · intro h
        have := mul_nonneg hp.le (sub_nonneg.2 h)
        nlinarith
      · intro h
        have := mul_nonneg hp.le (sub_nonneg.2 h)
        nlinarith
    · rename_i hgt
      have hc0 : coeff = 0 := by
        rcases hc with h | h
        · exact h
        · exact absurd h hgt
      subst hc0
      simp only [parab, zero_mul, add_zero]
      split
      · rename_i hlt
        exact ⟨fun _ => hlt.le, fun h => by simp [fin'] at h⟩
      · rename_i hge
        refine ⟨fun h => ?_, fun _ => not_lt.1 hge⟩
        simp [fin'] at h

/-- The stack (last parabola first) is the lower envelope of the parabolas `0 .. m - 1` on the points before `F`. -/
def Env (coeff offset : K) (v : Nat → K) (ix : Nat → Nat) (m : Nat) : List (Par K) → Ext K → Prop
  | [], F => F = ⊥
  | p :: rest, F => (p.which < m ∧ p.base = v p.which ∧ p.index = ix p.which) ∧ p.from' ≤ F ∧
      (∀ t : K, p.from' ≤ fin' t → fin' t < F → ∀ q < m, parab coeff offset (v p.which) p.which t ≤ parab coeff offset (v q) q t) ∧
      Env coeff offset v ix m rest p.from'

section scan

variable {eps coeff offset : K} {v : Nat → K} {ix : Nat → Nat}

omit [IsStrictOrderedRing K] in
theorem env_extend {m : Nat} {st : List (Par K)} {F : Ext K} (h : Env coeff offset v ix m st F)
    (hd : ∀ t : K, fin' t < F → ∃ q < m, parab coeff offset (v q) q t ≤ parab coeff offset (v m) m t) :
    Env coeff offset v ix (m + 1) st F := by
  induction st generalizing F with
  | nil => exact h
  | cons p rest ih =>
    obtain ⟨⟨h1, h2, h3⟩, h4, h5, h6⟩ := h
    refine ⟨⟨by omega, h2, h3⟩, h4, ?_, ih h6 (fun t ht => hd t (lt_of_lt_of_le ht h4))⟩
    intro t ht ht' q hq
    rcases Nat.lt_succ_iff_lt_or_eq.1 hq with hq | rfl
    · exact h5 t ht ht' q hq
    · obtain ⟨q', hq', hle⟩ := hd t ht'
      exact le_trans (h5 t ht ht' q' hq') hle

theorem popLoop_spec (heps : 0 ≤ eps) (hc : coeff = 0 ∨ eps < coeff) {img : Nat → Option K} {x : Nat}
    (himg : ∀ q < x, img q = some (v q)) {st : List (Par K)} {F : Ext K} (h : Env coeff offset v ix x st F)
    (hF : ∀ t : K, F ≤ fin' t → ∀ q < x, parab coeff offset (v x) x t ≤ parab coeff offset (v q) q t) :
    ∃ st' f, popLoop img eps coeff offset x (v x) st = some (st', f) ∧ st'.length ≤ st.length ∧
      Env coeff offset v ix (x + 1) ({ from' := f, which := x, base := v x, index := ix x } :: st') ⊤ := by
  induction st generalizing F with
  | nil =>
    refine ⟨[], ⊥, rfl, le_rfl, ⟨Nat.lt_succ_self _, rfl, rfl⟩, by simp, ?_, rfl⟩
    intro t _ _ q hq
    rcases Nat.lt_succ_iff_lt_or_eq.1 hq with hq | rfl
    · have hF' : F = ⊥ := h
      exact hF t (by rw [hF']; exact bot_le) q hq
    · exact le_rfl
  | cons p rest ih =>
    obtain ⟨⟨h1, h2, h3⟩, h4, h5, h6⟩ := h
    have hcut := cut_spec (offset := offset) heps hc h1 (v x) (v p.which)
    rw [popLoop, himg _ h1]
    simp only [Option.bind_eq_bind, Option.bind_some]
    by_cases hle : cut eps coeff offset x p.which (v x) (v p.which) ≤ p.from'
    · rw [if_pos hle]
      obtain ⟨st', f, e, hl, henv⟩ := ih h6 (by
        intro t ht q hq
        by_cases hFt : F ≤ fin' t
        · exact hF t hFt q hq
        · exact le_trans ((hcut t).1 (le_trans hle ht)) (h5 t ht (not_le.1 hFt) q hq))
      exact ⟨st', f, e, by simp; omega, henv⟩
    · rw [if_neg hle]
      have hlt := not_le.1 hle
      refine ⟨p :: rest, _, rfl, le_rfl, ⟨Nat.lt_succ_self _, rfl, rfl⟩, le_top, ?_, ⟨⟨by omega, h2, h3⟩, hlt.le, ?_, ?_⟩⟩
      · intro t ht _ q hq
        rcases Nat.lt_succ_iff_lt_or_eq.1 hq with hq | rfl
        · by_cases hFt : F ≤ fin' t
          · exact hF t hFt q hq
          · exact le_trans ((hcut t).1 ht) (h5 t (le_trans hlt.le ht) (not_le.1 hFt) q hq)
        · exact le_rfl
      · intro t ht ht' q hq
        rcases Nat.lt_succ_iff_lt_or_eq.1 hq with hq | rfl
        · by_cases hFt : F ≤ fin' t
          · exact le_trans ((hcut t).2 ht'.le) (hF t hFt q hq)
          · exact h5 t ht (not_le.1 hFt) q hq
        · exact (hcut t).2 ht'.le
      · refine env_extend h6 (fun t ht => ⟨p.which, h1, (hcut t).2 (lt_trans ht hlt).le⟩)

theorem scan_spec (heps : 0 ≤ eps) (hc : coeff = 0 ∨ eps < coeff) {img : Nat → Option K} {idx : Nat → Option Nat} {n : Nat}
    (himg : ∀ q < n, img q = some (v q)) (hidx : ∀ q < n, idx q = some (ix q)) :
    ∃ st, iter n (scanStep img idx eps coeff offset n) [] = some st ∧ (0 < n → st ≠ []) ∧
      (0 < n → Env coeff offset v ix n st ⊤) := by
  obtain ⟨st, e, h1, h2, -⟩ := iter_inv (n := n) (f := scanStep img idx eps coeff offset n) (s := [])
    (fun k st => (0 < k → st ≠ []) ∧ (0 < k → Env coeff offset v ix k st ⊤) ∧ st.length ≤ k)
    ⟨by omega, by omega, by simp⟩
    (by
      intro k hk st ⟨i1, i2, i3⟩
      obtain ⟨st', f, e, hl, henv⟩ : ∃ st' f, popLoop img eps coeff offset k (v k) st = some (st', f) ∧ st'.length ≤ st.length ∧
          Env coeff offset v ix (k + 1) ({ from' := f, which := k, base := v k, index := ix k } :: st') ⊤ := by
        rcases Nat.eq_zero_or_pos k with rfl | hk0
        · have : st = [] := List.length_eq_zero_iff.1 (by omega)
          subst this
          refine popLoop_spec (F := ⊥) heps hc (by omega) rfl (by omega)
        · refine popLoop_spec heps hc (fun q hq => himg q (by omega)) (i2 hk0) ?_
          intro t ht
          simp [fin'] at ht
      refine ⟨{ from' := f, which := k, base := v k, index := ix k } :: st', ?_, by simp, fun _ => henv, by simp; omega⟩
      unfold scanStep
      rw [himg k hk]
      simp only [Option.bind_eq_bind, Option.bind_some]
      rw [e]
      simp only [Option.bind_some]
      rw [hidx k hk]
      simp only [Option.bind_some]
      rw [assert', if_pos (by simp; omega)]
      rfl)
  exact ⟨st, e, h1, h2⟩

omit [IsStrictOrderedRing K] in
theorem env_get {m : Nat} {st : List (Par K)} {F : Ext K} (h : Env coeff offset v ix m st F) {k : Nat} {p : Par K} {f : Ext K}
    (hp : st.reverse[k]? = some p) (hf : (st.reverse.map Par.from' ++ [F])[k + 1]? = some f) :
    (p.which < m ∧ p.base = v p.which ∧ p.index = ix p.which) ∧
      ∀ t : K, p.from' ≤ fin' t → fin' t < f → ∀ q < m, parab coeff offset (v p.which) p.which t ≤ parab coeff offset (v q) q t := by
  induction st generalizing F with
  | nil => simp at hp
  | cons a rest ih =>
    obtain ⟨h1, h4, h5, h6⟩ := h
    have hk : k < rest.length + 1 := by
      have := (List.getElem?_eq_some_iff.1 hp).1
      simpa using this
    by_cases hkl : k < rest.length
    · refine ih h6 ?_ ?_
      · simp only [List.reverse_cons] at hp
        rwa [List.getElem?_append_left (by simpa using hkl)] at hp
      · simp only [List.reverse_cons, List.map_append, List.map_cons, List.map_nil] at hf
        rwa [List.getElem?_append_left (by simp; omega)] at hf
    · have : k = rest.length := by omega
      subst this
      have hpa : a = p := by simpa using hp
      have hff : F = f := by
        simp only [List.reverse_cons, List.map_append, List.map_cons, List.map_nil] at hf
        rw [List.getElem?_append_right (by simp)] at hf
        simpa using hf
      subst hpa; subst hff
      exact ⟨h1, h5⟩

omit [IsStrictOrderedRing K] in
theorem env_first {m : Nat} {st : List (Par K)} {F : Ext K} (h : Env coeff offset v ix m st F) (hne : st ≠ []) :
    ∃ p, st.reverse[0]? = some p ∧ p.from' = ⊥ := by
  induction st generalizing F with
  | nil => exact absurd rfl hne
  | cons a rest ih =>
    obtain ⟨h1, h4, h5, h6⟩ := h
    cases rest with
    | nil => exact ⟨a, by simp, h6⟩
    | cons b rest =>
      obtain ⟨p, hp, hb⟩ := ih h6 (by simp)
      refine ⟨p, ?_, hb⟩
      rw [List.reverse_cons, List.getElem?_append_left (by simp)]
      exact hp

omit [Field K] [IsStrictOrderedRing K] in
theorem advance_spec (x : K) (l : List (Ext K)) (cur : Ext K) (num : Nat) (hcur : cur ≤ fin' x) (hl : ⊤ ∈ l) :
    ∃ i a b, advance x l num = some (num + i) ∧ (cur :: l)[i]? = some a ∧ a ≤ fin' x ∧ (cur :: l)[i + 1]? = some b ∧ fin' x < b := by
  induction l generalizing cur num with
  | nil => simp at hl
  | cons f rest ih =>
    rw [advance]
    by_cases hf : f ≤ fin' x
    · rw [if_pos hf]
      have hne : f ≠ ⊤ := by
        rintro rfl
        simp [fin'] at hf
      obtain ⟨i, a, b, e, ha, hax, hb, hbx⟩ := ih f (num + 1) hf (by
        rcases List.mem_cons.1 hl with h | h
        · exact absurd h.symm hne
        · exact h)
      exact ⟨i + 1, a, b, by rw [e]; congr 1; omega, by simpa using ha, hax, by simpa using hb, hbx⟩
    · rw [if_neg hf]
      exact ⟨0, cur, f, rfl, rfl, hcur, rfl, not_le.1 hf⟩

end scan

/-- Entry `k` of the optional array of indexes. -/
def idxAt (o : Option (List Nat)) (k : Nat) : Option Nat := o.bind (fun l => l[k]?)

/-- What is stored for the pixel `x` of a row with values `v`: the minimum over all the parabolas of the row, and the index
of the pixel realising it. -/
def IsMin (coeff offset : K) (v : Nat → K) (n x : Nat) (d : K) (w : Nat) : Prop :=
  w < n ∧ d = parab coeff offset (v w) w x ∧ ∀ q < n, d ≤ parab coeff offset (v q) q x

theorem fill_spec {coeff offset : K} {v : Nat → K} {ix : Nat → Nat} {n : Nat} {st : List (Par K)} (hne : st ≠ [])
    (henv : Env coeff offset v ix n st ⊤) (s : DtSt K) (addr : Nat → Nat)
    (hinj : ∀ a < n, ∀ b < n, addr a = addr b → a = b) (hmem : ∀ a < n, addr a < s.mem.length)
    (hidx : ∀ l, s.idx = some l → ∀ a < n, addr a < l.length ∧ l[addr a]? = some (ix a)) :
    ∃ r, iter n (fillStep st.reverse coeff offset addr) (0, s) = some r ∧ r.2.mem.length = s.mem.length ∧
      r.2.idx.map List.length = s.idx.map List.length ∧
      (∀ x < n, ∃ d w, IsMin coeff offset v n x d w ∧ r.2.mem[addr x]? = some d ∧
        (∀ l, s.idx = some l → idxAt r.2.idx (addr x) = l[addr w]?)) ∧
      (∀ k, (∀ x < n, k ≠ addr x) → r.2.mem[k]? = s.mem[k]? ∧ idxAt r.2.idx k = idxAt s.idx k) := by
  obtain ⟨p0, hp0, hb0⟩ := env_first henv hne
  set arr := st.reverse with harr
  obtain ⟨r, e, -, h1, h2, h3, h4⟩ := iter_inv (n := n) (f := fillStep arr coeff offset addr) (s := (0, s))
    (fun k r => (∃ p, arr[r.1]? = some p ∧ p.from' ≤ fin' (k : K)) ∧ r.2.mem.length = s.mem.length ∧
      r.2.idx.map List.length = s.idx.map List.length ∧
      (∀ x < k, ∃ d w, IsMin coeff offset v n x d w ∧ r.2.mem[addr x]? = some d ∧
        (∀ l, s.idx = some l → idxAt r.2.idx (addr x) = l[addr w]?)) ∧
      (∀ j, (∀ x < k, j ≠ addr x) → r.2.mem[j]? = s.mem[j]? ∧ idxAt r.2.idx j = idxAt s.idx j))
    ⟨⟨p0, hp0, by rw [hb0]; exact bot_le⟩, rfl, rfl, by omega, fun _ _ => ⟨rfl, rfl⟩⟩
    (by
      rintro k hk ⟨num, s1⟩ ⟨⟨p, hp, hpk⟩, i1, i2, i3, i4⟩
      simp only at hp i1 i2 i3 i4
      have hnum : num < arr.length := (List.getElem?_eq_some_iff.1 hp).1
      set froms := arr.map Par.from' ++ [(⊤ : Ext K)] with hfroms
      have hfn : froms[num]? = some p.from' := by
        rw [hfroms, List.getElem?_append_left (by simpa using hnum), List.getElem?_map, hp]; rfl
      have hdrop : froms.drop num = p.from' :: froms.drop (num + 1) := by
        have hlt : num < froms.length := by simp [hfroms]; omega
        rw [List.drop_eq_getElem_cons hlt]
        congr 1
        rw [List.getElem?_eq_getElem hlt] at hfn
        exact Option.some.inj hfn
      have htop : (⊤ : Ext K) ∈ froms.drop (num + 1) := by
        rw [hfroms, List.drop_append_of_le_length (by simp; omega)]
        simp
      obtain ⟨i, a, b, ea, ha, hak, hb, hbk⟩ := advance_spec (k : K) (froms.drop (num + 1)) p.from' num hpk htop
      rw [← hdrop, List.getElem?_drop] at ha hb
      have hlt : num + i < arr.length := by
        have h1 := (List.getElem?_eq_some_iff.1 hb).1
        simp [hfroms] at h1
        omega
      obtain ⟨p', hp'⟩ : ∃ p', arr[num + i]? = some p' := ⟨_, List.getElem?_eq_getElem hlt⟩
      have hpa : p'.from' = a := by
        rw [hfroms, List.getElem?_append_left (by simpa using hlt), List.getElem?_map, hp'] at ha
        simpa using ha
      obtain ⟨⟨g1, g2, g3⟩, g4⟩ := env_get henv hp' (by rw [← harr, ← hfroms]; exact hb)
      have hmin : IsMin coeff offset v n k (parab coeff offset (v p'.which) p'.which k) p'.which :=
        ⟨g1, rfl, g4 k (by rw [hpa]; exact hak) hbk⟩
      have hval : p'.base + coeff * ((k : K) - (p'.which : K) - offset) * ((k : K) - (p'.which : K) - offset)
          = parab coeff offset (v p'.which) p'.which k := by
        rw [g2, parab]; ring
      have hmk : addr k < s1.mem.length := by rw [i1]; exact hmem k hk
      obtain ⟨idx', eidx, hidxlen, hidxat⟩ : ∃ idx', wrIdx s1.idx (addr k) p'.index = some idx' ∧ idx'.map List.length = s1.idx.map List.length ∧
            ∀ j, idxAt idx' j = if j = addr k ∧ s1.idx.isSome then some p'.index else idxAt s1.idx j := by
        cases hs : s1.idx with
        | none => exact ⟨none, rfl, rfl, by simp⟩
        | some l =>
          have hll : addr k < l.length := by
            cases hs0 : s.idx with
            | none => simp [hs, hs0] at i2
            | some l0 =>
              have := (hidx l0 hs0 k hk).1
              simp [hs, hs0] at i2
              omega
          refine ⟨some (l.set (addr k) p'.index), by simp [wrIdx, wr_of_lt hll], by simp, ?_⟩
          intro j
          by_cases hj : j = addr k
          · subst hj; simp [idxAt, hll]
          · simp [idxAt, hj, List.getElem?_set_ne (Ne.symm hj)]
      refine ⟨(num + i, { mem := s1.mem.set (addr k) (parab coeff offset (v p'.which) p'.which k), idx := idx' }), ?_,
        ⟨p', hp', ?_⟩, ?_, ?_, ?_, ?_⟩
      · unfold fillStep
        simp only
        rw [← hfroms, ea]
        simp only [Option.bind_eq_bind, Option.bind_some]
        rw [hp']
        simp only [Option.bind_some]
        rw [hval, wr_of_lt hmk]
        simp only [Option.bind_some]
        rw [eidx]
        rfl
      · rw [hpa]
        refine le_trans hak ?_
        simp only [fin', WithBot.coe_le_coe, WithTop.coe_le_coe]
        push_cast
        linarith
      · simp [i1]
      · simp only [hidxlen, i2]
      · intro x hx
        by_cases e : x = k
        · subst e
          refine ⟨_, _, hmin, ?_, ?_⟩
          · simp only [List.getElem?_set_self hmk]
          · intro l hl
            simp only [hidxat, true_and]
            rw [if_pos (by
              cases hs1 : s1.idx with
              | none => simp [hs1, hl] at i2
              | some _ => rfl), (hidx l hl p'.which g1).2, g3]
        · obtain ⟨d, w, m1, m2, m3⟩ := i3 x (by omega)
          have hne' : addr x ≠ addr k := fun h => e (hinj x (by omega) k hk h)
          refine ⟨d, w, m1, ?_, ?_⟩
          · simp only
            rw [List.getElem?_set_ne (Ne.symm hne')]
            exact m2
          · intro l hl
            simp only [hidxat]
            rw [if_neg (by simp [hne'])]
            exact m3 l hl
      · intro j hj
        have hjk : j ≠ addr k := hj k (by omega)
        simp only
        rw [List.getElem?_set_ne (Ne.symm hjk), hidxat, if_neg (by simp [hjk])]
        exact i4 j (fun x hx => hj x (by omega)))
  exact ⟨r, e, h1, h2, h3, h4⟩

/-! ### C20: distance transform -/

/-- The pixels `(x, y)`, `x < n`, `y < m`, at offset `x * cs + y * rs`, are distinct and lie in a block of `len` elements. -/
def Layout (len n m cs rs : Nat) : Prop :=
  (∀ x < n, ∀ y < m, x * cs + y * rs < len) ∧
  (∀ x < n, ∀ y < m, ∀ x' < n, ∀ y' < m, x * cs + y * rs = x' * cs + y' * rs → x = x' ∧ y = y')

/-- For every image (possibly the destination itself), size, strides, curvature `coeff` that is zero or larger than the
machine epsilon, and offset: no access is out of bounds, and every destination pixel `(x, y)` is the minimum over the pixels
`q` of the row `y` of `image(q, y) + coeff * (x - q - offset)^2`; its index becomes the index of a minimising pixel.  All the
other elements of the two blocks are unchanged. -/
theorem distanceTransform_correct (image : Option (List K)) (n m cs rs : Nat) (eps coeff offset : K) (s : DtSt K)
    (heps : 0 ≤ eps) (hc : coeff = 0 ∨ eps < coeff)
    (himg : Layout (image.getD s.mem).length n m cs rs) (hmem : Layout s.mem.length n m cs rs)
    (hidx : ∀ l, s.idx = some l → Layout l.length n m cs rs) :
    ∃ r, distanceTransform image n m cs rs eps coeff offset s = some r ∧ r.mem.length = s.mem.length ∧
      r.idx.map List.length = s.idx.map List.length ∧
      (∀ x < n, ∀ y < m, ∃ d w, w < n ∧ r.mem[x * cs + y * rs]? = some d ∧
        idxAt r.idx (x * cs + y * rs) = idxAt s.idx (w * cs + y * rs) ∧
        d = (image.getD s.mem).getD (w * cs + y * rs) 0 + coeff * ((x : K) - w - offset) ^ 2 ∧
        ∀ q < n, d ≤ (image.getD s.mem).getD (q * cs + y * rs) 0 + coeff * ((x : K) - q - offset) ^ 2) ∧
      (∀ k, (∀ x < n, ∀ y < m, k ≠ x * cs + y * rs) → r.mem[k]? = s.mem[k]? ∧ idxAt r.idx k = idxAt s.idx k) := by
  set I : Nat → Nat → K := fun y x => (image.getD s.mem).getD (x * cs + y * rs) 0 with hI
  obtain ⟨r, e, h1, h2, h3, h4⟩ := iter_inv (n := m) (f := dtRow image n cs rs eps coeff offset) (s := s)
    (fun k r => r.mem.length = s.mem.length ∧ r.idx.map List.length = s.idx.map List.length ∧
      (∀ x < n, ∀ y < k, ∃ d w, IsMin coeff offset (I y) n x d w ∧ r.mem[x * cs + y * rs]? = some d ∧
        idxAt r.idx (x * cs + y * rs) = idxAt s.idx (w * cs + y * rs)) ∧
      (∀ j, (∀ x < n, ∀ y < k, j ≠ x * cs + y * rs) → r.mem[j]? = s.mem[j]? ∧ idxAt r.idx j = idxAt s.idx j))
    ⟨rfl, rfl, by omega, fun _ _ => ⟨rfl, rfl⟩⟩
    (by
      intro y hy r ⟨i1, i2, i3, i4⟩
      -- the current row still has its initial values
      have hfresh : ∀ x < n, ∀ x' < n, ∀ y' < y, x * cs + y * rs ≠ x' * cs + y' * rs := by
        intro x hx x' hx' y' hy' h
        have := (hmem.2 x hx y hy x' hx' y' (by omega) h).2
        omega
      have himgv : ∀ q < n, rd (image.getD r.mem) (q * cs + y * rs) = some (I y q) := by
        intro q hq
        have hsame : (image.getD r.mem)[q * cs + y * rs]? = (image.getD s.mem)[q * cs + y * rs]? := by
          cases image with
          | some _ => rfl
          | none => exact (i4 _ (fun x' hx' y' hy' => hfresh q hq x' hx' y' hy')).1
        have hlt := himg.1 q hq y hy
        rw [rd_getElem?, hsame, hI]
        simp only
        rw [List.getD_eq_getElem?_getD, List.getElem?_eq_getElem hlt]
        rfl
      set ix : Nat → Nat := fun q => (rdIdx r.idx (q * cs + y * rs)).getD 0 with hix
      have hidxlen : ∀ l, r.idx = some l → ∀ q < n, q * cs + y * rs < l.length := by
        intro l hl q hq
        cases hs : s.idx with
        | none => simp [hl, hs] at i2
        | some l0 =>
          have h0 := (hidx l0 hs).1 q hq y hy
          simp [hl, hs] at i2
          omega
      have hidxv : ∀ q < n, rdIdx r.idx (q * cs + y * rs) = some (ix q) := by
        intro q hq
        cases hr : r.idx with
        | none => simp [hix, hr, rdIdx]
        | some l =>
          have := hidxlen l hr q hq
          simp [hix, hr, rdIdx, rd_of_lt this]
      obtain ⟨st, est, hne, henv⟩ := scan_spec (offset := offset) (v := I y) (ix := ix) (n := n)
        (img := fun x => rd (image.getD r.mem) (x * cs + y * rs)) (idx := fun x => rdIdx r.idx (x * cs + y * rs))
        heps hc himgv hidxv
      rcases Nat.eq_zero_or_pos n with hn | hn
      · subst hn
        refine ⟨r, ?_, i1, i2, fun x hx => by omega, fun j hj => i4 j (fun x hx => by omega)⟩
        unfold dtRow
        rfl
      · obtain ⟨r', e', f1, f2, f3, f4⟩ := fill_spec (hne hn) (henv hn) r (fun x => x * cs + y * rs)
          (fun a ha b hb h => (hmem.2 a ha y hy b hb y hy h).1) (fun a ha => by rw [i1]; exact hmem.1 a ha y hy)
          (by
            intro l hl a ha
            have h1 := hidxlen l hl a ha
            refine ⟨h1, ?_⟩
            have := hidxv a ha
            simpa [hl, rdIdx, rd] using this)
        refine ⟨r'.2, ?_, by rw [f1, i1], by rw [f2, i2], ?_, ?_⟩
        · unfold dtRow
          simp only
          rw [est]
          simp only [Option.bind_eq_bind, Option.bind_some]
          rw [e']
          rfl
        · intro x hx y' hy'
          by_cases ey : y' = y
          · subst ey
            obtain ⟨d, w, g1, g2, g3⟩ := f3 x hx
            refine ⟨d, w, g1, g2, ?_⟩
            cases hr : r.idx with
            | none =>
              have hs : s.idx = none := by
                cases hs : s.idx with
                | none => rfl
                | some _ => simp [hr, hs] at i2
              have hr' : r'.2.idx = none := by
                cases hs : r'.2.idx with
                | none => rfl
                | some _ => simp [hr, hs] at f2
              simp [idxAt, hs, hr']
            | some l =>
              rw [g3 l hr, ← (i4 _ (fun x' hx' y'' hy'' => hfresh w g1.1 x' hx' y'' hy'')).2]
              simp [idxAt, hr]
          · obtain ⟨d, w, g1, g2, g3⟩ := i3 x hx y' (by omega)
            have hne' : ∀ x' < n, x * cs + y' * rs ≠ x' * cs + y * rs := by
              intro x' hx' h
              have := (hmem.2 x hx y' (by omega) x' hx' y hy h).2
              omega
            refine ⟨d, w, g1, ?_, ?_⟩
            · rw [(f4 _ hne').1]; exact g2
            · rw [(f4 _ hne').2]; exact g3
        · intro j hj
          have := f4 j (fun x hx => hj x hx y (by omega))
          rw [this.1, this.2]
          exact i4 j (fun x hx y' hy' => hj x hx y' (by omega)))
  refine ⟨r, e, h1, h2, ?_, h4⟩
  intro x hx y hy
  obtain ⟨d, w, ⟨g1, g2, g3⟩, g4, g5⟩ := h3 x hx y hy
  exact ⟨d, w, g1, g4, g5, g2, g3⟩

/-- The two-dimensional transform, with any initial indexes. -/
theorem distanceTransform_2d_gen (image dt0 : List K) (idx0 : Option (List Nat)) (n m : Nat) (eps cx ox cy oy : K) (heps : 0 ≤ eps)
    (hcx : cx = 0 ∨ eps < cx) (hcy : cy = 0 ∨ eps < cy) (himg : image.length = n * m) (hdt : dt0.length = n * m)
    (hil : ∀ l, idx0 = some l → l.length = n * m) :
    ∃ r1 r2, distanceTransform (some image) n m 1 n eps cx ox { mem := dt0, idx := idx0 } = some r1 ∧
      distanceTransform none m n n 1 eps cy oy r1 = some r2 ∧ r2.mem.length = n * m ∧ r2.idx.map List.length = idx0.map List.length ∧
      ∀ x < n, ∀ y < m, ∃ d u v, u < n ∧ v < m ∧ r2.mem[x + y * n]? = some d ∧ idxAt r2.idx (x + y * n) = idxAt idx0 (u + v * n) ∧
        d = image.getD (u + v * n) 0 + cx * ((x : K) - u - ox) ^ 2 + cy * ((y : K) - v - oy) ^ 2 ∧
        ∀ p < n, ∀ q < m, d ≤ image.getD (p + q * n) 0 + cx * ((x : K) - p - ox) ^ 2 + cy * ((y : K) - q - oy) ^ 2 := by
  have hlt : ∀ x < n, ∀ y < m, x + y * n < n * m := by
    intro x hx y hy
    calc x + y * n < n + y * n := by omega
      _ = (y + 1) * n := by ring
      _ ≤ m * n := Nat.mul_le_mul_right _ hy
      _ = n * m := Nat.mul_comm _ _
  have hinj : ∀ x < n, ∀ y < m, ∀ x' < n, ∀ y' < m, x + y * n = x' + y' * n → x = x' ∧ y = y' := by
    intro x hx y hy x' hx' y' hy' h
    have hy : y = y' := by
      have e1 : (x + y * n) / n = y := by
        rw [Nat.add_mul_div_right _ _ (by omega), Nat.div_eq_of_lt hx, Nat.zero_add]
      have e2 : (x' + y' * n) / n = y' := by
        rw [Nat.add_mul_div_right _ _ (by omega), Nat.div_eq_of_lt hx', Nat.zero_add]
      rw [← e1, h, e2]
    subst hy
    exact ⟨by omega, rfl⟩
  have lay1 : Layout (n * m) n m 1 n := by
    refine ⟨fun x hx y hy => ?_, fun x hx y hy x' hx' y' hy' h => ?_⟩
    · rw [Nat.mul_one]; exact hlt x hx y hy
    · rw [Nat.mul_one, Nat.mul_one] at h; exact hinj x hx y hy x' hx' y' hy' h
  have lay2 : Layout (n * m) m n n 1 := by
    refine ⟨fun x hx y hy => ?_, fun x hx y hy x' hx' y' hy' h => ?_⟩
    · rw [Nat.mul_one, Nat.add_comm]; exact hlt y hy x hx
    · rw [Nat.mul_one, Nat.mul_one, Nat.add_comm, Nat.add_comm (x' * n)] at h
      exact (hinj y hy x hx y' hy' x' hx' h).symm
  obtain ⟨r1, e1, l1, k1, v1, -⟩ := distanceTransform_correct (some image) n m 1 n eps cx ox { mem := dt0, idx := idx0 }
    heps hcx (by simpa [himg] using lay1) (by simpa [hdt] using lay1)
    (by intro l hl; rw [hil l hl]; exact lay1)
  simp only [hdt] at l1
  obtain ⟨r2, e2, l2, k2, v2, -⟩ := distanceTransform_correct none m n n 1 eps cy oy r1
    heps hcy (by simpa [l1] using lay2) (by simpa [l1] using lay2)
    (by
      intro l hl
      have : l.length = n * m := by
        cases h0 : idx0 with
        | none => rw [hl, h0] at k1; simp at k1
        | some l0 =>
          rw [hl, h0] at k1
          have := hil l0 h0
          simp at k1
          omega
      rw [this]; exact lay2)
  refine ⟨r1, r2, e1, e2, by rw [l2, l1], by rw [k2, k1], ?_⟩
  have hrow : ∀ x < n, ∀ y < m, ∃ d w, w < n ∧ r1.mem.getD (x + y * n) 0 = d ∧ idxAt r1.idx (x + y * n) = idxAt idx0 (w + y * n) ∧
      d = image.getD (w + y * n) 0 + cx * ((x : K) - w - ox) ^ 2 ∧
      ∀ q < n, d ≤ image.getD (q + y * n) 0 + cx * ((x : K) - q - ox) ^ 2 := by
    intro x hx y hy
    obtain ⟨d, w, g1, g2, g3, g4, g5⟩ := v1 x hx y hy
    simp only [Nat.mul_one, Option.getD_some] at g2 g3 g4 g5
    refine ⟨d, w, g1, ?_, g3, g4, g5⟩
    rw [List.getD_eq_getElem?_getD, g2]; rfl
  intro x hx y hy
  obtain ⟨d, v, g1, g2, g3, g4, g5⟩ := v2 y hy x hx
  simp only [Nat.mul_one, Option.getD_none, Nat.add_comm _ x] at g2 g3 g4 g5
  obtain ⟨d', u, f1, f2, f3, f4, -⟩ := hrow x hx v g1
  refine ⟨d, u, v, f1, g1, g2, ?_, ?_, ?_⟩
  · rw [g3, f3]
  · rw [g4, f2, f4]
  · intro p hp q hq
    obtain ⟨d'', u'', -, j2, -, -, j5⟩ := hrow x hx q hq
    have h1 := g5 q hq
    have h2 := j5 p hp
    rw [j2] at h1
    linarith

/-- The two-dimensional transform as documented (vl/imopv.c:262-269): one call along the rows and a second, in place, along
the columns give at every pixel the minimum over the whole image, and with an initial index array holding the position of
every pixel, the position of a minimising pixel. -/
theorem distanceTransform_2d (image dt0 : List K) (idx0 : List Nat) (n m : Nat) (eps cx ox cy oy : K) (heps : 0 ≤ eps)
    (hcx : cx = 0 ∨ eps < cx) (hcy : cy = 0 ∨ eps < cy) (himg : image.length = n * m) (hdt : dt0.length = n * m)
    (hidx : idx0 = List.range (n * m)) :
    ∃ r1 r2 l, distanceTransform (some image) n m 1 n eps cx ox { mem := dt0, idx := some idx0 } = some r1 ∧
      distanceTransform none m n n 1 eps cy oy r1 = some r2 ∧ r2.idx = some l ∧
      ∀ x < n, ∀ y < m, ∃ d u v, u < n ∧ v < m ∧ r2.mem[x + y * n]? = some d ∧ l[x + y * n]? = some (u + v * n) ∧
        d = image.getD (u + v * n) 0 + cx * ((x : K) - u - ox) ^ 2 + cy * ((y : K) - v - oy) ^ 2 ∧
        ∀ p < n, ∀ q < m, d ≤ image.getD (p + q * n) 0 + cx * ((x : K) - p - ox) ^ 2 + cy * ((y : K) - q - oy) ^ 2 := by
  obtain ⟨r1, r2, e1, e2, l2, k2, h⟩ := distanceTransform_2d_gen image dt0 (some idx0) n m eps cx ox cy oy heps hcx hcy himg hdt
    (by rintro l ⟨rfl⟩; simp [hidx])
  obtain ⟨l, hl⟩ : ∃ l, r2.idx = some l := by
    cases h : r2.idx with
    | none => rw [h] at k2; simp at k2
    | some l => exact ⟨l, rfl⟩
  refine ⟨r1, r2, l, e1, e2, hl, ?_⟩
  intro x hx y hy
  obtain ⟨d, u, v, f1, f2, f3, f4, f5⟩ := h x hx y hy
  refine ⟨d, u, v, f1, f2, f3, ?_, f5⟩
  have hlt : u + v * n < n * m := by
    calc u + v * n < n + v * n := by omega
      _ = (v + 1) * n := by ring
      _ ≤ m * n := Nat.mul_le_mul_right _ f2
      _ = n * m := Nat.mul_comm _ _
  rw [hl, idxAt, idxAt] at f4
  simpa [hidx, hlt] using f4

/-- The documented transform of a row, vl/imopv.c:238-242: the offset is added to the position of the result. -/
def DocumentedOffsetClaim : Prop :=
  ∀ (image : List ℚ) (offset : ℚ), ∃ r, distanceTransform (some image) image.length 1 1 image.length 0 1 offset { mem := image, idx := none } = some r ∧
    ∀ x < image.length, ∃ d, r.mem[x]? = some d ∧ (∃ u < image.length, d = image.getD u 0 + 1 * ((u : ℚ) - x - offset) ^ 2) ∧
      ∀ u < image.length, d ≤ image.getD u 0 + 1 * ((u : ℚ) - x - offset) ^ 2

/-- C158: the code subtracts the offset from the position of the result instead. -/
theorem documentedOffset_claim_false : ¬ DocumentedOffsetClaim := by
  intro h
  obtain ⟨r, e, hr⟩ := h [0, 5] 1
  have e1 : (distanceTransform (some [0, 5]) 2 1 1 2 0 1 (1 : ℚ) { mem := [0, 5], idx := none }).map DtSt.mem = some [1, 0] := by decide +kernel
  have e' : distanceTransform (some [0, 5]) 2 1 1 2 0 1 (1 : ℚ) { mem := [0, 5], idx := none } = some r := e
  rw [e'] at e1
  have e2 : r.mem = [1, 0] := by simpa using e1
  obtain ⟨d, hd, ⟨u, hu, hdu⟩, _⟩ := hr 1 (by decide)
  rw [e2] at hd
  have hd0 : d = 0 := by simpa using hd.symm
  subst hd0
  have : u = 0 ∨ u = 1 := by simp at hu; omega
  rcases this with rfl | rfl <;> norm_num at hdu

/-- C158: the documented transform is obtained with the opposite offset. -/
theorem distanceTransform_documented (image : List K) (dt : List K) (n m : Nat) (eps coeff offset : K) (heps : 0 ≤ eps) (hc : coeff = 0 ∨ eps < coeff)
    (himg : image.length = n * m) (hdt : dt.length = n * m) :
    ∃ r, distanceTransform (some image) n m 1 n eps coeff (-offset) { mem := dt, idx := none } = some r ∧
      ∀ x < n, ∀ y < m, ∃ d, r.mem[x + y * n]? = some d ∧ (∃ u < n, d = image.getD (u + y * n) 0 + coeff * ((u : K) - x - offset) ^ 2) ∧
        ∀ u < n, d ≤ image.getD (u + y * n) 0 + coeff * ((u : K) - x - offset) ^ 2 := by
  have lay : Layout (n * m) n m 1 n := by
    refine ⟨fun x hx y hy => ?_, fun x hx y hy x' hx' y' hy' h => ?_⟩
    · calc x * 1 + y * n < n + y * n := by omega
        _ = (y + 1) * n := by ring
        _ ≤ m * n := Nat.mul_le_mul_right _ hy
        _ = n * m := Nat.mul_comm _ _
    · rw [Nat.mul_one, Nat.mul_one] at h
      have e1 : (x + y * n) / n = y := by
        rw [Nat.add_mul_div_right _ _ (by omega), Nat.div_eq_of_lt hx, Nat.zero_add]
      have e2 : (x' + y' * n) / n = y' := by
        rw [Nat.add_mul_div_right _ _ (by omega), Nat.div_eq_of_lt hx', Nat.zero_add]
      have hy : y = y' := by rw [← e1, h, e2]
      subst hy
      exact ⟨by omega, rfl⟩
  obtain ⟨r, e, _, _, h, _⟩ := distanceTransform_correct (some image) n m 1 n eps coeff (-offset) { mem := dt, idx := none } heps hc
    (by simpa [himg] using lay) (by simpa [hdt] using lay) (by simp)
  refine ⟨r, e, ?_⟩
  intro x hx y hy
  obtain ⟨d, w, h1, h2, _, h3, h4⟩ := h x hx y hy
  simp only [Nat.mul_one, Option.getD_some] at h2 h3 h4
  have sw : ∀ u : Nat, ((x : K) - u - -offset) ^ 2 = ((u : K) - x - offset) ^ 2 := fun u => by ring
  refine ⟨d, h2, ⟨w, h1, by rw [h3, sw]⟩, fun u hu => by rw [← sw]; exact h4 u hu⟩

/-- One row of five pixels, with the index array. -/
example : (distanceTransform (K := ℚ) (some [9, 0, 9, 9, 1]) 5 1 1 5 0 1 0 { mem := [7, 7, 7, 7, 7], idx := some [0, 1, 2, 3, 4] }).map
    (fun r => (r.mem, r.idx)) = some ([1, 0, 1, 2, 1], some [1, 1, 1, 4, 4]) := by decide +kernel

/-- For a positive `coeff` that is not larger than the machine epsilon the result is not the minimum: the code treats the
parabolas as flat. -/
theorem distanceTransform_small_coeff (eps : ℚ) (heps : 0 < eps) :
    (distanceTransform (K := ℚ) (some [eps / 2, 0]) 2 1 1 2 eps eps 0 { mem := [7, 7], idx := none }).map DtSt.mem
      = some [eps, 0] ∧ eps / 2 + eps * ((0 : ℚ) - 0 - 0) ^ 2 < eps := by
  constructor
  · have h0 : (0 : ℚ) ≠ eps / 2 := by intro h; linarith
    have h1 : (0 : ℚ) < eps / 2 := by linarith
    have ht : ∀ a : ℚ, fin' a ≠ ⊤ := fun a => by simp [fin']
    simp [distanceTransform, iter, ht, dtRow, scanStep, popLoop, rd, rdIdx, assert', cut, h0, h1, fillStep, advance, wr, wrIdx]
  · linarith

end Verif.Imop
