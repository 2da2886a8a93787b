import Verif.Covdet.ExtremaModel
import Verif.Covdet.ExtremaSpec
import Verif.Covdet.FeatLemmas
import Verif.Sift.DetectLemmas
import Verif.Linear.Props

set_option linter.unusedSectionVars false

/-!
# Lemmas on the search and on the refinement of extrema
-/

namespace Verif.Covdet

open Finset

variable {K : Type} [Field K] [LinearOrder K] [IsStrictOrderedRing K]

/-- The reads of a map -/
def Holds (map : List K) (D : Int → Int → Int → K) (w h L : Nat) : Prop :=
  ∀ (q z y x : Int), q = x + w * y + w * h * z → 0 ≤ z → z < L → 0 ≤ y → y < h → 0 ≤ x → x < w → rdI map q = some (D z y x)

/-- The displacements in the plane, in the order of the tests -/
def disp2 : List (Int × Int × Int) := [(0, 0, 1), (0, 0, -1), (0, 1, 0), (0, -1, 0), (0, 1, 1), (0, 1, -1), (0, -1, 1), (0, -1, -1)]

theorem offsets3_disp (w zo : Int) : offsets3 1 w zo = Sift.disp.map (fun d => d.2.2 + w * d.2.1 + zo * d.1) := by
  simp only [offsets3, Sift.disp, List.map_cons, List.map_nil]
  simp only [List.cons.injEq, and_true]
  constructorm* _ ∧ _ <;> ring

theorem offsets2_disp (w zo : Int) : offsets2 1 w = disp2.map (fun d => d.2.2 + w * d.2.1 + zo * d.1) := by
  simp only [offsets2, disp2, List.map_cons, List.map_nil]
  simp only [List.cons.injEq, and_true]
  constructorm* _ ∧ _ <;> ring

/-- The displacements of the tests -/
def dispOf (dim : Nat) : List (Int × Int × Int) := if dim = 3 then Sift.disp else disp2

theorem dispOf_bound (dim : Nat) : ∀ d ∈ dispOf dim, d.1 ∈ levelsAround dim ∧ -1 ≤ d.1 ∧ d.1 ≤ 1 ∧ -1 ≤ d.2.1 ∧ d.2.1 ≤ 1 ∧ -1 ≤ d.2.2 ∧ d.2.2 ≤ 1 := by
  unfold dispOf levelsAround
  by_cases h : dim = 3
  · simp only [h, if_true]; decide
  · simp only [h, if_false]; decide

theorem dispOf_all (dim : Nat) (P : Int → Int → Int → Prop) :
    (∀ d ∈ dispOf dim, P d.1 d.2.1 d.2.2) ↔ ∀ dt ∈ levelsAround dim, ∀ dy ∈ [(-1 : Int), 0, 1], ∀ dx ∈ [(-1 : Int), 0, 1], ¬ (dt = 0 ∧ dy = 0 ∧ dx = 0) → P dt dy dx := by
  unfold dispOf levelsAround
  by_cases h : dim = 3
  · simp only [h, if_true]
    exact Sift.disp_all P
  · simp only [h, if_false]
    constructor
    · intro h dt ht dy hy dx hx hne
      have : ∀ dt ∈ [(0 : Int)], ∀ dy ∈ [(-1 : Int), 0, 1], ∀ dx ∈ [(-1 : Int), 0, 1], ¬ (dt = 0 ∧ dy = 0 ∧ dx = 0) → (dt, dy, dx) ∈ disp2 := by decide
      exact h _ (this dt ht dy hy dx hx hne)
    · intro h d hd
      have : ∀ d ∈ disp2, d.1 ∈ [(0 : Int)] ∧ d.2.1 ∈ [(-1 : Int), 0, 1] ∧ d.2.2 ∈ [(-1 : Int), 0, 1] ∧ ¬ (d.1 = 0 ∧ d.2.1 = 0 ∧ d.2.2 = 0) := by decide
      obtain ⟨a, b, c, e⟩ := this d hd
      exact h _ a _ b _ c e

theorem checkAll_spec (cmp : K → K → Bool) (map : List K) (pt : Int) (v : K) (u : Int × Int × Int → K) (o : Int × Int × Int → Int) (l : List (Int × Int × Int))
    (h : ∀ d ∈ l, rdI map (pt + o d) = some (u d)) : checkAll cmp map pt v (l.map o) = some (decide (∀ d ∈ l, cmp v (u d) = true)) := by
  induction l with
  | nil => simp [checkAll]
  | cons d l ih =>
    rw [List.map_cons, checkAll, h d (by simp)]
    simp only [Option.bind_eq_bind, Option.bind_some]
    rw [ih (fun d hd => h d (by simp [hd]))]
    by_cases e : cmp v (u d) = true
    · rw [if_pos e]; simp [e]
    · rw [if_neg e]; simp [e]

/-- The test of one pixel -/
theorem isExtremum_spec (dim : Nat) (map : List K) (D : Int → Int → Int → K) (w : Nat) (zo : Int) (thr : K) (q z y x : Int)
    (hrd : ∀ d ∈ dispOf dim, rdI map (q + (d.2.2 + w * d.2.1 + zo * d.1)) = some (D (z + d.1) (y + d.2.1) (x + d.2.2))) :
    isExtremum ((dispOf dim).map (fun d => d.2.2 + w * d.2.1 + zo * d.1)) map thr q (D z y x) = some (decide (Extremum dim D thr z y x)) := by
  have hgt := checkAll_spec (fun v u => decide (v > u)) map q (D z y x) _ _ (dispOf dim) hrd
  have hlt := checkAll_spec (fun v u => decide (v < u)) map q (D z y x) _ _ (dispOf dim) hrd
  simp only [decide_eq_true_eq, gt_iff_lt] at hgt hlt
  have e1 := dispOf_all dim (fun a b c => D (z + a) (y + b) (x + c) < D z y x)
  have e2 := dispOf_all dim (fun a b c => D z y x < D (z + a) (y + b) (x + c))
  have hE : Extremum dim D thr z y x ↔ (thr ≤ D z y x ∧ ∀ d ∈ dispOf dim, D (z + d.1) (y + d.2.1) (x + d.2.2) < D z y x) ∨
      (D z y x ≤ - thr ∧ ∀ d ∈ dispOf dim, D z y x < D (z + d.1) (y + d.2.1) (x + d.2.2)) := by
    unfold Extremum
    rw [e1, e2]
  obtain ⟨B1, hB1, hP1⟩ : ∃ B : Bool, B = decide (∀ d ∈ dispOf dim, D (z + d.1) (y + d.2.1) (x + d.2.2) < D z y x) ∧
      (B = true ↔ ∀ d ∈ dispOf dim, D (z + d.1) (y + d.2.1) (x + d.2.2) < D z y x) := ⟨_, rfl, by rw [decide_eq_true_eq]⟩
  obtain ⟨B2, hB2, hP2⟩ : ∃ B : Bool, B = decide (∀ d ∈ dispOf dim, D z y x < D (z + d.1) (y + d.2.1) (x + d.2.2)) ∧
      (B = true ↔ ∀ d ∈ dispOf dim, D z y x < D (z + d.1) (y + d.2.1) (x + d.2.2)) := ⟨_, rfl, by rw [decide_eq_true_eq]⟩
  rw [← hB1] at hgt
  rw [← hB2] at hlt
  rw [← hP1, ← hP2] at hE
  unfold isExtremum
  simp only [ge_iff_le, gt_iff_lt]
  rw [hgt, hlt]
  simp only [hE]
  clear hE hP1 hP2 hB1 hB2 hgt hlt e1 e2
  by_cases c1 : thr ≤ D z y x <;> by_cases c2 : D z y x ≤ - thr <;> cases B1 <;> cases B2 <;> simp [c1, c2]

/-- The buffer of `m` bytes per extremum holds the coordinates `found`. -/
structure Found (per : Nat) (st : Scan) (found : List (List Int)) : Prop where
  num : st.num = found.length
  required : st.required = 8 * (per * found.length)
  pers : ∀ c ∈ found, c.length = per
  room : (st.buf = none ∧ st.size = 0 ∧ found = []) ∨ ∃ l, st.buf = some l ∧ st.size = l.length * 8 ∧ found.flatten <+: l

theorem flatten_length {per : Nat} : ∀ {found : List (List Int)}, (∀ c ∈ found, c.length = per) → found.flatten.length = per * found.length := by
  intro found
  induction found with
  | nil => intro _; simp
  | cons c cs ih =>
    intro h
    rw [List.flatten_cons, List.length_append, h c List.mem_cons_self, ih (fun d hd => h d (List.mem_cons_of_mem _ hd)), List.length_cons]
    ring

/-- The writes of the coordinates -/
theorem write_spec {cs l p : List Int} {n : Nat} (hp : p <+: l) (hn : n = p.length) (hl : p.length + cs.length ≤ l.length) :
    ∃ l', iter cs.length (fun k l => do
      let c ← rd cs k
      wr l (n + k) c) l = some l' ∧ l'.length = l.length ∧ p ++ cs <+: l' := by
  obtain ⟨l', h1, h2, h3⟩ : ∃ l', iter cs.length (fun k l => do
      let c ← rd cs k
      wr l (n + k) c) l = some l' ∧ l'.length = l.length ∧ l'.take (n + cs.length) = p ++ cs.take cs.length :=
    iter_inv (P := fun k (l' : List Int) => l'.length = l.length ∧ l'.take (n + k) = p ++ cs.take k)
      ⟨rfl, by simp [hn, ← List.prefix_iff_eq_take.mp hp]⟩ (fun k hk l1 hP => by
        obtain ⟨h1, h2⟩ := hP
        refine ⟨l1.set (n + k) cs[k], ?_, by simp [h1], ?_⟩
        · show (rd cs k).bind _ = _
          rw [rd_getElem?, List.getElem?_eq_getElem hk, Option.bind_some]
          exact wr_of_lt (by omega) _
        · rw [← Nat.add_assoc, Sift.take_set _ _ _ (by omega), h2, List.take_add_one, List.getElem?_eq_getElem hk]
          simp)
  refine ⟨l', h1, h2, ?_⟩
  rw [List.take_length] at h3
  rw [← h3]
  exact List.take_prefix _ _

theorem record_spec {per : Nat} {st : Scan} {found : List (List Int)} (h : Found per st found) (hper : 0 < per) (junk : Nat → Int) (cs : List Int) (hcs : cs.length = per) :
    ∃ st', record junk cs st = some st' ∧ st'.pt = st.pt ∧ Found per st' (found ++ [cs]) := by
  have hflen := flatten_length h.pers
  have hpers : ∀ c ∈ found ++ [cs], c.length = per := by
    intro c hc
    rw [List.mem_append, List.mem_singleton] at hc
    rcases hc with hc | rfl
    · exact h.pers c hc
    · exact hcs
  have hmul : per * (st.num + 1 - 1) = found.flatten.length := by rw [hflen, h.num]; rfl
  have fin : ∀ (l : List Int) (size : Nat), size = l.length * 8 → found.flatten <+: l → found.flatten.length + cs.length ≤ l.length →
      ∃ st', ((some l).bind fun l => (iter cs.length (fun k l => do
        let c ← rd cs k
        wr l (cs.length * (st.num + 1 - 1) + k) c) l).bind fun l => some (⟨st.pt, some l, size, st.num + 1, st.required + 8 * cs.length⟩ : Scan)) = some st' ∧ st'.pt = st.pt ∧ Found per st' (found ++ [cs]) := by
    intro l size hs hp hl
    obtain ⟨l', e, h1, h2⟩ := write_spec (cs := cs) (n := cs.length * (st.num + 1 - 1)) hp (by rw [hcs]; exact hmul) hl
    refine ⟨⟨st.pt, some l', size, st.num + 1, st.required + 8 * cs.length⟩, ?_, rfl, ⟨by simp [h.num], ?_, hpers, Or.inr ⟨l', rfl, by rw [hs, h1], ?_⟩⟩⟩
    · rw [Option.bind_some, e, Option.bind_some]
    · simp only [h.required, hcs, List.length_append, List.length_singleton]
      ring
    · rw [List.flatten_append, List.flatten_singleton]
      exact h2
  unfold record
  by_cases hr : st.size < st.required + 8 * cs.length
  · simp only [hr, if_true]
    have htgt : (st.required + 8 * cs.length + 2000 * cs.length * 8) / 8 = found.flatten.length + cs.length + 2000 * cs.length := by
      rw [h.required, hflen]
      omega
    have htgt' : st.required + 8 * cs.length + 2000 * cs.length * 8 = (found.flatten.length + cs.length + 2000 * cs.length) * 8 := by
      rw [h.required, hflen]
      omega
    rcases h.room with ⟨a, b, c⟩ | ⟨l, a, b, c⟩
    · rw [a]
      simp only [resizeBuffer, if_true]
      exact fin _ _ (by rw [List.length_map, List.length_range, htgt]; exact htgt') (by rw [c]; exact List.nil_prefix) (by
        rw [List.length_map, List.length_range, htgt]; omega)
    · rw [a]
      simp only [resizeBuffer, if_true]
      refine fin _ _ (by rw [List.length_map, List.length_range, htgt]; exact htgt') ?_ (by rw [List.length_map, List.length_range, htgt]; omega)
      rw [List.prefix_iff_eq_take]
      obtain ⟨t, rfl⟩ := c
      refine List.ext_getElem? fun i => ?_
      rw [List.getElem?_take]
      by_cases hi : i < found.flatten.length
      · rw [if_pos hi, List.getElem?_map, List.getElem?_range (by rw [htgt]; omega)]
        rw [Option.map_some, List.getElem?_append_left hi, List.getElem?_eq_getElem hi, Option.getD_some]
      · rw [if_neg hi, List.getElem?_eq_none (by omega)]
  · simp only [hr, if_false]
    rcases h.room with ⟨a, b, c⟩ | ⟨l, a, b, c⟩
    · exfalso
      rw [b] at hr
      omega
    · rw [a]
      refine fin l st.size b c ?_
      rw [b, h.required] at hr
      rw [hflen]
      omega

/-- The coordinates as they are stored -/
def coords (dim : Nat) (p : Int × Int × Int) : List Int := if dim = 3 then [p.2.2, p.2.1, p.1] else [p.2.2, p.2.1]

theorem coords_length {dim : Nat} (hd : dim = 2 ∨ dim = 3) (p : Int × Int × Int) : (coords dim p).length = dim := by
  rcases hd with rfl | rfl <;> simp [coords]

/-- One pixel of the search -/
theorem scanPixel_spec {dim : Nat} (hdim : dim = 2 ∨ dim = 3) {map : List K} {D : Int → Int → Int → K} {w : Nat} {zo : Int} {thr : K} {z y x : Int} {st : Scan} {found : List (Int × Int × Int)} (junk : Nat → Int)
    (hf : Found dim st (found.map (coords dim))) (hv : rdI map st.pt = some (D z y x))
    (hrd : ∀ d ∈ dispOf dim, rdI map (st.pt + (d.2.2 + w * d.2.1 + zo * d.1)) = some (D (z + d.1) (y + d.2.1) (x + d.2.2))) :
    ∃ st', scanPixel junk ((dispOf dim).map (fun d => d.2.2 + w * d.2.1 + zo * d.1)) map thr (coords dim (z, y, x)) st = some st' ∧ st'.pt = st.pt + 1 ∧
      Found dim st' ((found ++ if Extremum dim D thr z y x then [(z, y, x)] else []).map (coords dim)) := by
  have hE := isExtremum_spec dim map D w zo thr st.pt z y x hrd
  unfold scanPixel
  rw [hv, Option.bind_eq_bind, Option.bind_some, hE, Option.bind_eq_bind, Option.bind_some]
  by_cases he : Extremum dim D thr z y x
  · obtain ⟨st', e, h1, h2⟩ := record_spec hf (by omega) junk (coords dim (z, y, x)) (coords_length hdim _)
    simp only [he, decide_true, if_true]
    rw [e]
    refine ⟨⟨st'.pt + 1, st'.buf, st'.size, st'.num, st'.required⟩, rfl, by simp only [h1], ?_⟩
    rw [List.map_append, List.map_singleton]
    exact ⟨h2.num, h2.required, h2.pers, h2.room⟩
  · simp only [he, decide_false, if_false]
    refine ⟨⟨st.pt + 1, st.buf, st.size, st.num, st.required⟩, rfl, rfl, ?_⟩
    rw [List.append_nil]
    exact ⟨hf.num, hf.required, hf.pers, hf.room⟩

/-- The search in one level -/
theorem scanLevel_spec {dim : Nat} (hdim : dim = 2 ∨ dim = 3) {map : List K} {D : Int → Int → Int → K} {w h : Nat} {zo : Int} {thr : K} {z : Int} {base : Int} {st : Scan} {found : List (Int × Int × Int)} (junk : Nat → Int)
    (offs : List Int) (hoffs : offs = (dispOf dim).map (fun d => d.2.2 + w * d.2.1 + zo * d.1))
    (hD : ∀ dz ∈ levelsAround dim, ∀ y x : Int, 0 ≤ y → y < h → 0 ≤ x → x < w → rdI map (base + zo * dz + w * y + x) = some (D (z + dz) y x))
    (hpt : 3 ≤ w → 3 ≤ h → st.pt = base + w + 1) (hf : Found dim st (found.map (coords dim))) :
    ∃ st', iter (h - 2) (fun yy st => do
      let st ← iter (w - 2) (fun xx st => scanPixel junk offs map thr (coords dim (z, ((1 + yy : Int)), ((1 + xx : Int)))) st) st
      pure { st with pt := st.pt + 2 * 1 }) st = some st' ∧ (3 ≤ w → 3 ≤ h → st'.pt = base + w * (h - 1) + 1) ∧
      Found dim st' ((found ++ extremaAt dim D thr w h z).map (coords dim)) := by
  have hb : ∀ n : Nat, (intRange 1 ((n : Int) - 2)) = (List.range (n - 2)).map (fun (i : Nat) => 1 + (i : Int)) := by
    intro n; unfold intRange; congr 2; omega
  have h00 : (0 : Int) ∈ levelsAround dim := by unfold levelsAround; split <;> simp
  unfold extremaAt
  rw [hb, hb]
  simp only [List.flatMap_map]
  obtain ⟨st', e, h1, h2⟩ : ∃ st', iter (h - 2) (fun yy (st : Scan) => (do
      let st ← iter (w - 2) (fun xx st => scanPixel junk offs map thr (coords dim (z, ((1 + yy : Int)), ((1 + xx : Int)))) st) st
      pure { st with pt := st.pt + 2 * 1 } : Option Scan)) st = some st' ∧ (3 ≤ w → 3 ≤ h → st'.pt = base + w * (1 + (h - 2 : Nat)) + 1) ∧ Found dim st' ((found ++ (List.range (h - 2)).flatMap fun (y : Nat) => (List.range (w - 2)).flatMap fun (x : Nat) =>
        if Extremum dim D thr z (1 + y) (1 + x) then [(z, (1 + y : Int), (1 + x : Int))] else []).map (coords dim)) :=
    Sift.iter_collect (P := fun y acc (st : Scan) => (3 ≤ w → 3 ≤ h → st.pt = base + w * (1 + y) + 1) ∧ Found dim st (acc.map (coords dim)))
      (g := fun (y : Nat) => (List.range (w - 2)).flatMap fun (x : Nat) => if Extremum dim D thr z (1 + y) (1 + x) then [(z, (1 + y : Int), (1 + x : Int))] else [])
      ⟨fun a b => by rw [hpt a b]; simp, hf⟩ (by
      rintro y hy acc st ⟨hpt, hf⟩
      obtain ⟨st1, e1, hpt1, hf1⟩ : ∃ st1, iter (w - 2) (fun xx (st : Scan) => scanPixel junk offs map thr (coords dim (z, ((1 + y : Int)), ((1 + xx : Int)))) st) st = some st1 ∧ (3 ≤ w → 3 ≤ h → st1.pt = base + w * (1 + y) + (1 + (w - 2 : Nat))) ∧
          Found dim st1 ((acc ++ (List.range (w - 2)).flatMap fun (x : Nat) => if Extremum dim D thr z (1 + y) (1 + x) then [(z, (1 + y : Int), (1 + x : Int))] else []).map (coords dim)) :=
        Sift.iter_collect (P := fun x acc (st : Scan) => (3 ≤ w → 3 ≤ h → st.pt = base + w * (1 + y) + (1 + x)) ∧ Found dim st (acc.map (coords dim)))
          (g := fun (x : Nat) => if Extremum dim D thr z (1 + y) (1 + x) then [(z, (1 + y : Int), (1 + x : Int))] else [])
          ⟨fun a b => by rw [hpt a b]; simp, hf⟩ (by
          rintro x hx acc st ⟨hpt, hf⟩
          have hp := hpt (by omega) (by omega)
          have hv : rdI map st.pt = some (D z (1 + y) (1 + x)) := by
            have := hD 0 h00 (1 + y) (1 + x) (by omega) (by omega) (by omega) (by omega)
            rw [hp]
            rw [mul_zero, add_zero, add_zero] at this
            exact this
          obtain ⟨st', e, h1, h2⟩ := scanPixel_spec hdim (D := D) (zo := zo) (w := w) (thr := thr) (z := z) (y := 1 + y) (x := 1 + x) junk hf hv (by
            intro d hd
            obtain ⟨a0, a1, a2, a3, a4, a5, a6⟩ := dispOf_bound dim d hd
            have := hD d.1 a0 (1 + y + d.2.1) (1 + x + d.2.2) (by omega) (by omega) (by omega) (by omega)
            rw [← this]
            congr 1
            rw [hp]; ring)
          refine ⟨st', by rw [hoffs]; exact e, fun _ _ => ?_, h2⟩
          rw [h1, hp]; push_cast; ring)
      refine ⟨{ st1 with pt := st1.pt + 2 * 1 }, ?_, fun a b => ?_, ⟨hf1.num, hf1.required, hf1.pers, hf1.room⟩⟩
      · show (iter (w - 2) _ st).bind _ = _
        rw [e1]
        rfl
      · simp only
        rw [hpt1 a b]
        obtain ⟨w', rfl⟩ : ∃ w', w = w' + 2 := ⟨w - 2, by omega⟩
        rw [show w' + 2 - 2 = w' by omega]
        push_cast
        ring)
  refine ⟨st', e, fun a b => ?_, h2⟩
  rw [h1 a b]
  obtain ⟨h', rfl⟩ : ∃ h', h = h' + 2 := ⟨h - 2, by omega⟩
  rw [show h' + 2 - 2 = h' by omega]
  push_cast
  ring

/-- A buffer and its size agree. -/
def BufOk (buf : Option (List Int)) (size : Nat) : Prop := (buf = none ∧ size = 0) ∨ ∃ l, buf = some l ∧ size = l.length * 8

theorem Found.start {buf : Option (List Int)} {size : Nat} (h : BufOk buf size) (per : Nat) (pt : Int) : Found per ⟨pt, buf, size, 0, 0⟩ [] := by
  refine ⟨rfl, by simp, by simp, ?_⟩
  rcases h with ⟨a, b⟩ | ⟨l, a, b⟩
  · exact Or.inl ⟨a, b, rfl⟩
  · exact Or.inr ⟨l, a, b, List.nil_prefix⟩

theorem Found.bufOk {per : Nat} {st : Scan} {found : List (List Int)} (h : Found per st found) : BufOk st.buf st.size := by
  rcases h.room with ⟨a, b, _⟩ | ⟨l, a, b, _⟩
  · exact Or.inl ⟨a, b⟩
  · exact Or.inr ⟨l, a, b⟩

/-- `vl_find_local_extrema_3` -/
theorem findExtrema3_spec (junk : Nat → Int) {map : List K} {D : Int → Int → Int → K} {w h depth : Nat} (hD : Holds map D w h depth) (thr : K) {buf : Option (List Int)} {size : Nat} (hb : BufOk buf size) :
    ∃ st, findExtrema3 junk buf size map w h depth thr = some st ∧ Found 3 st ((extremaAll D thr w h depth).map (coords 3)) := by
  have ha : (intRange 1 ((depth : Int) - 2)) = (List.range (depth - 2)).map (fun (i : Nat) => 1 + (i : Int)) := by
    unfold intRange; congr 2; omega
  unfold extremaAll
  rw [ha]
  simp only [List.flatMap_map]
  obtain ⟨st, e, -, hf⟩ : ∃ st, findExtrema3 junk buf size map w h depth thr = some st ∧ (3 ≤ w → 3 ≤ h → st.pt = 1 + w + w * h * (1 + (depth - 2 : Nat))) ∧
      Found 3 st (([] ++ (List.range (depth - 2)).flatMap fun (z : Nat) => extremaAt 3 D thr w h (1 + z)).map (coords 3)) :=
    by
    unfold findExtrema3
    exact Sift.iter_collect (P := fun z acc (st : Scan) => (3 ≤ w → 3 ≤ h → st.pt = 1 + w + w * h * (1 + z)) ∧ Found 3 st (acc.map (coords 3)))
      (g := fun (z : Nat) => extremaAt 3 D thr w h (1 + z))
      ⟨fun _ _ => by simp, Found.start hb 3 _⟩ (by
      rintro z hz acc st ⟨hpt, hf⟩
      obtain ⟨st1, e1, hpt1, hf1⟩ := scanLevel_spec (dim := 3) (Or.inr rfl) (D := D) (w := w) (h := h) (zo := w * h) (thr := thr) (z := 1 + z) (base := w * h * (1 + z)) junk (offsets3 1 w (w * h))
        (by rw [offsets3_disp]; rfl) (map := map) (st := st) (found := acc) (by
          intro dz hdz y x h1 h2 h3 h4
          refine hD _ _ _ _ (by ring) ?_ ?_ h1 h2 h3 h4
          · have : dz ∈ [(-1 : Int), 0, 1] := hdz
            simp only [List.mem_cons, List.not_mem_nil, or_false] at this
            omega
          · have : dz ∈ [(-1 : Int), 0, 1] := hdz
            simp only [List.mem_cons, List.not_mem_nil, or_false] at this
            omega) (fun a b => by rw [hpt a b]; ring) hf
      refine ⟨{ st1 with pt := st1.pt + 2 * w }, ?_, fun a b => ?_, ⟨hf1.num, hf1.required, hf1.pers, hf1.room⟩⟩
      · show (iter (h - 2) _ st).bind _ = _
        have : (coords 3) = fun p : Int × Int × Int => [p.2.2, p.2.1, p.1] := by funext p; rfl
        rw [this] at e1
        simp only at e1
        rw [e1]
        rfl
      · simp only
        rw [hpt1 a b]
        push_cast
        ring)
  rw [List.nil_append] at hf
  exact ⟨st, e, hf⟩

/-- `vl_find_local_extrema_2` -/
theorem findExtrema2_spec (junk : Nat → Int) {map : List K} {D : Int → Int → Int → K} {w h : Nat} {z : Int} (hD : ∀ y x : Int, 0 ≤ y → y < h → 0 ≤ x → x < w → rdI map (w * y + x) = some (D z y x)) (thr : K) {buf : Option (List Int)} {size : Nat} (hb : BufOk buf size) :
    ∃ st, findExtrema2 junk buf size map w h thr = some st ∧ Found 2 st ((extremaAt 2 D thr w h z).map (coords 2)) := by
  obtain ⟨st1, e1, -, hf1⟩ := scanLevel_spec (dim := 2) (Or.inl rfl) (D := D) (w := w) (h := h) (zo := 0) (thr := thr) (z := z) (base := 0) junk (offsets2 1 w)
    (by rw [offsets2_disp w 0]; rfl) (map := map) (st := ⟨1 + w, buf, size, 0, 0⟩) (found := []) (by
      intro dz hdz y x h1 h2 h3 h4
      have : dz ∈ [(0 : Int)] := hdz
      rw [List.mem_singleton] at this
      subst this
      rw [add_zero, ← hD y x h1 h2 h3 h4]
      congr 1
      ring) (fun a b => by simp only; ring) (Found.start hb 2 _)
  refine ⟨st1, ?_, by simpa using hf1⟩
  rw [← e1]
  rfl

end Verif.Covdet
