import Verif.Covdet.RefineLemmas
import Mathlib.Analysis.Real.Sqrt

set_option linter.unusedSectionVars false

/-!
# The detection of features at the extrema of a response
-/

namespace Verif.Covdet

open Finset

variable {K : Type} [Field K] [LinearOrder K] [IsStrictOrderedRing K]

theorem flatten_get {dim : Nat} {L : List (List Int)} (h : ∀ c ∈ L, c.length = dim) : ∀ {i k : Nat}, k < dim → L.flatten[dim * i + k]? = (L[i]?).bind (fun c => c[k]?) := by
  induction L with
  | nil => intro i k _; simp
  | cons c L ih =>
    intro i k hk
    have hc := h c List.mem_cons_self
    rw [List.flatten_cons]
    cases i with
    | zero =>
      rw [Nat.mul_zero, Nat.zero_add, List.getElem?_append_left (by omega)]
      simp
    | succ i =>
      rw [List.getElem?_append_right (by rw [hc, Nat.mul_succ]; omega), hc, show dim * (i + 1) + k - dim = dim * i + k by rw [Nat.mul_succ]; omega]
      rw [ih (fun d hd => h d (List.mem_cons_of_mem _ hd)) hk]
      simp

/-- The coordinates that are read back -/
theorem Found.ext {dim : Nat} (hdim : dim = 2 ∨ dim = 3) {st : Scan} {pts : List (Int × Int × Int)} (h : Found dim st (pts.map (coords dim))) {i k : Nat} (hi : i < pts.length) (hk : k < dim) :
    (do
      let l ← st.buf
      rd l (dim * i + k)) = (coords dim pts[i])[k]? := by
  have hg := flatten_get h.pers (i := i) hk
  rw [List.getElem?_map, List.getElem?_eq_getElem hi, Option.map_some, Option.bind_some] at hg
  rcases h.room with ⟨a, b, c⟩ | ⟨l, a, b, c⟩
  · have : pts = [] := by simpa using c
    rw [this] at hi
    simp at hi
  · obtain ⟨t, rfl⟩ := c
    rw [a, Option.bind_eq_bind, Option.bind_some, rd_getElem?, ← hg, List.getElem?_append_left]
    by_contra hn
    rw [List.getElem?_eq_none (by omega), List.getElem?_eq_getElem (by rw [coords_length hdim]; exact hk)] at hg
    simp at hg

/-- The features of the extrema are added in their order. -/
theorem addAll_spec {sz : Nat} (hsz : 0 < sz) (junk : Nat → Feature K) (peak edge step : K) (sig : K → K) (P : Int × Int × Int → Option (Feature K) → Prop) (pts : List (Int × Int × Int)) (refine : Nat → Option (Refined K))
    (hr : ∀ i (hi : i < pts.length), ∃ r, refine i = some r ∧ P pts[i] (makeFeature peak edge step sig r)) {s : Feats (Feature K)} {xs : List (Feature K)} (h : Rep sz s xs) :
    ∃ s' fs, addAll sz junk refine peak edge step sig pts.length s = some s' ∧ Rep sz s' (xs ++ fs.filterMap id) ∧ List.Forall₂ P pts fs := by
  obtain ⟨s', e, fs, h1, h2⟩ : ∃ s', addAll sz junk refine peak edge step sig pts.length s = some s' ∧ ∃ fs, Rep sz s' (xs ++ fs.filterMap id) ∧ List.Forall₂ P (pts.take pts.length) fs := by
    unfold addAll
    refine iter_inv (P := fun i s' => ∃ fs, Rep sz s' (xs ++ fs.filterMap id) ∧ List.Forall₂ P (pts.take i) fs) ⟨[], by simpa using h, by simp⟩ (fun i hi s' hP => ?_)
    obtain ⟨fs, h1, h2⟩ := hP
    obtain ⟨r, e, hp⟩ := hr i hi
    have htake : pts.take (i + 1) = pts.take i ++ [pts[i]] := by rw [List.take_add_one, List.getElem?_eq_getElem hi]; rfl
    have hfs : List.Forall₂ P (pts.take (i + 1)) (fs ++ [makeFeature peak edge step sig r]) := by
      rw [htake]
      exact List.rel_append h2 (List.Forall₂.cons hp List.Forall₂.nil)
    rw [e, Option.bind_eq_bind, Option.bind_some]
    cases hm : makeFeature peak edge step sig r with
    | none =>
      rw [hm] at hfs
      exact ⟨s', rfl, _, by simpa using h1, hfs⟩
    | some f =>
      rw [hm] at hfs
      obtain ⟨s1, e1, h3, h4, h5⟩ := append_rep hsz h1 true junk f
      refine ⟨s1, by simp only [h3, Option.map_some], _, ?_, hfs⟩
      cases e1 with
      | true => simp at h4
      | false =>
        simp only [Op.expected] at h5
        rw [List.filterMap_append, ← List.append_assoc]
        simpa using h5
  rw [List.take_length] at h2
  exact ⟨s', fs, e, h1, h2⟩

/-- The values of the levels of an octave -/
def Octave.at (o : Octave K) (z y x : Int) : K := o.data.getD (x + o.w * y + o.w * o.h * z).toNat 0

theorem Octave.holds {o : Octave K} {depth : Nat} (h : o.data.length = o.w * o.h * depth) : Holds o.data o.at o.w o.h depth := by
  intro q z y x hq hz hz' hy hy' hx hx'
  obtain ⟨z, rfl⟩ := Int.eq_ofNat_of_zero_le hz
  obtain ⟨y, rfl⟩ := Int.eq_ofNat_of_zero_le hy
  obtain ⟨x, rfl⟩ := Int.eq_ofNat_of_zero_le hx
  have e : (x : Int) + o.w * y + o.w * o.h * z = ((x + o.w * y + o.w * o.h * z : Nat) : Int) := by push_cast; ring
  rw [Octave.at, hq, e, Int.toNat_natCast, rdI_nat, rd_getElem?, List.getD_eq_getElem?_getD, List.getElem?_eq_getElem, Option.getD_some]
  rw [h]
  have h1 : o.w * y + o.w ≤ o.w * o.h := by rw [← Nat.mul_succ]; exact Nat.mul_le_mul_left _ (by omega)
  have h2 : o.w * o.h * z + o.w * o.h ≤ o.w * o.h * depth := by rw [← Nat.mul_succ]; exact Nat.mul_le_mul_left _ (by omega)
  omega

theorem mem_intRange_iff {a b x : Int} : x ∈ intRange a b ↔ a ≤ x ∧ x ≤ b := by
  unfold intRange
  simp only [List.mem_map, List.mem_range]
  constructor
  · rintro ⟨i, hi, rfl⟩; omega
  · rintro ⟨h1, h2⟩; exact ⟨(x - a).toNat, by omega, by omega⟩

theorem extremaAt_mem {dim : Nat} {D : Int → Int → Int → K} {thr : K} {w h : Nat} {z : Int} {p : Int × Int × Int} :
    p ∈ extremaAt dim D thr w h z ↔ p.1 = z ∧ 1 ≤ p.2.1 ∧ p.2.1 + 1 < h ∧ 1 ≤ p.2.2 ∧ p.2.2 + 1 < w ∧ Extremum dim D thr z p.2.1 p.2.2 := by
  unfold extremaAt
  simp only [List.mem_flatMap, mem_intRange_iff]
  constructor
  · rintro ⟨y, hy, x, hx, hp⟩
    split_ifs at hp with he
    · rw [List.mem_singleton] at hp
      subst hp
      simp only
      exact ⟨trivial, by omega, by omega, by omega, by omega, he⟩
    · simp at hp
  · rintro ⟨rfl, h1, h2, h3, h4, h5⟩
    exact ⟨p.2.1, by omega, p.2.2, by omega, by rw [if_pos h5]; simp⟩

/-- The state between two octaves -/
structure DetOk (sz : Nat) (s : Det K) (xs : List (Feature K)) : Prop where
  feats : Rep sz s.feats xs
  buf : BufOk s.buf s.size

/-- The extrema in space and scale of one octave -/
theorem detectOctave3_spec {sz : Nat} (hsz : 0 < sz) (junkI : Nat → Int) (junk : Nat → Feature K) {tau : K} (htau : 0 < tau) {sqrt : K → K} (hs : ∀ x, 0 ≤ x → 0 ≤ sqrt x ∧ sqrt x * sqrt x = x) (depth : Nat) (peak edge : K)
    (o : Octave K) (ho : o.data.length = o.w * o.h * depth) {s : Det K} {xs : List (Feature K)} (h : DetOk sz s xs) :
    ∃ s' fs, detectOctave3 sz junkI junk tau sqrt depth peak edge o s = some s' ∧ DetOk sz s' (xs ++ fs.filterMap id) ∧
      List.Forall₂ (Outcome tau 3 o.at o.w o.h depth peak edge o.step o.sig) (extremaAll o.at (8 / 10 * peak) o.w o.h depth) fs := by
  have hD := Octave.holds ho
  obtain ⟨st, e, hf⟩ := findExtrema3_spec junkI hD (8 / 10 * peak) h.buf
  obtain ⟨f, fs, e2, h1, h2⟩ := addAll_spec hsz junk peak edge o.step o.sig (Outcome tau 3 o.at o.w o.h depth peak edge o.step o.sig) (extremaAll o.at (8 / 10 * peak) o.w o.h depth) (fun i => do
    let x ← (do
      let l ← st.buf
      rd l (3 * i + 0))
    let y ← (do
      let l ← st.buf
      rd l (3 * i + 1))
    let z ← (do
      let l ← st.buf
      rd l (3 * i + 2))
    refine3 tau sqrt o.data o.w o.h depth x y z) (by
    intro i hi
    have hm := List.getElem_mem hi
    rw [Found.ext (Or.inr rfl) hf hi (by omega), Found.ext (Or.inr rfl) hf hi (by omega), Found.ext (Or.inr rfl) hf hi (by omega)]
    generalize (extremaAll o.at (8 / 10 * peak) o.w o.h depth)[i] = p at hm ⊢
    obtain ⟨z, y, x⟩ := p
    simp only [extremaAll, List.mem_flatMap, mem_intRange_iff, extremaAt_mem] at hm
    obtain ⟨z', hz, rfl, h1, h2, h3, h4, -⟩ := hm
    exact refine3_spec htau hs hD (by omega) (by omega) h1 h2 h3 h4 peak edge o.step o.sig) h.feats
  refine ⟨⟨f, st.buf, st.size⟩, fs, ?_, ⟨h1, hf.bufOk⟩, h2⟩
  unfold detectOctave3
  rw [e, Option.bind_eq_bind, Option.bind_some, hf.num, List.length_map]
  show (addAll sz junk _ peak edge o.step o.sig _ s.feats).bind _ = _
  rw [e2]
  rfl

/-- The extrema in space of one level of an octave -/
theorem detectLevel_spec {sz : Nat} (hsz : 0 < sz) (junkI : Nat → Int) (junk : Nat → Feature K) {tau : K} (htau : 0 < tau) {sqrt : K → K} (hs : ∀ x, 0 ≤ x → 0 ≤ sqrt x ∧ sqrt x * sqrt x = x) (depth : Nat) (peak edge : K)
    (o : Octave K) (ho : o.data.length = o.w * o.h * depth) (t : Nat) (ht : t < depth) {s : Det K} {xs : List (Feature K)} (h : DetOk sz s xs) :
    ∃ s' fs, (do
      let st ← findExtrema2 junkI s.buf s.size (o.data.drop (t * (o.w * o.h))) o.w o.h (8 / 10 * peak)
      let f ← addAll sz junk (fun i => do
        let x ← (do
          let l ← st.buf
          rd l (2 * i + 0))
        let y ← (do
          let l ← st.buf
          rd l (2 * i + 1))
        refine2 tau sqrt (o.data.drop (t * (o.w * o.h))) o.w o.h x y) peak edge o.step (fun _ => o.sig t) st.num s.feats
      pure (⟨f, st.buf, st.size⟩ : Det K)) = some s' ∧ DetOk sz s' (xs ++ fs.filterMap id) ∧
      List.Forall₂ (Outcome tau 2 o.at o.w o.h depth peak edge o.step o.sig) (extremaAt 2 o.at (8 / 10 * peak) o.w o.h t) fs := by
  have hD : ∀ y x : Int, 0 ≤ y → y < o.h → 0 ≤ x → x < o.w → rdI (o.data.drop (t * (o.w * o.h))) (o.w * y + x) = some (o.at t y x) := by
    intro y x h1 h2 h3 h4
    have := Octave.holds ho _ t y x rfl (by omega) (by omega) h1 h2 h3 h4
    rw [← this]
    obtain ⟨y, rfl⟩ := Int.eq_ofNat_of_zero_le h1
    obtain ⟨x, rfl⟩ := Int.eq_ofNat_of_zero_le h3
    rw [show (x : Int) + o.w * y + o.w * o.h * t = ((t * (o.w * o.h) + (o.w * y + x) : Nat) : Int) by push_cast; ring]
    rw [show (o.w : Int) * (y : Int) + (x : Int) = ((o.w * y + x : Nat) : Int) by push_cast; rfl, rdI_nat, rdI_nat, rd_getElem?, rd_getElem?, List.getElem?_drop]
  obtain ⟨st, e, hf⟩ := findExtrema2_spec junkI (D := o.at) (z := t) hD (8 / 10 * peak) h.buf
  obtain ⟨f, fs, e2, h1, h2⟩ := addAll_spec hsz junk peak edge o.step (fun _ => o.sig t) (Outcome tau 2 o.at o.w o.h depth peak edge o.step o.sig) (extremaAt 2 o.at (8 / 10 * peak) o.w o.h t) (fun i => do
    let x ← (do
      let l ← st.buf
      rd l (2 * i + 0))
    let y ← (do
      let l ← st.buf
      rd l (2 * i + 1))
    refine2 tau sqrt (o.data.drop (t * (o.w * o.h))) o.w o.h x y) (by
    intro i hi
    have hm := List.getElem_mem hi
    rw [Found.ext (Or.inl rfl) hf hi (by omega), Found.ext (Or.inl rfl) hf hi (by omega)]
    generalize (extremaAt 2 o.at (8 / 10 * peak) o.w o.h t)[i] = p at hm ⊢
    obtain ⟨z, y, x⟩ := p
    rw [extremaAt_mem] at hm
    obtain ⟨rfl, h1, h2, h3, h4, -⟩ := hm
    have := refine2_spec htau hs hD h1 h2 h3 h4 depth peak edge o.step o.sig
    rw [Int.cast_natCast] at this
    exact this) h.feats
  refine ⟨⟨f, st.buf, st.size⟩, fs, ?_, ⟨h1, hf.bufOk⟩, h2⟩
  rw [e, Option.bind_eq_bind, Option.bind_some, hf.num, List.length_map]
  show (addAll sz junk _ peak edge o.step _ _ s.feats).bind _ = _
  rw [e2]
  rfl

/-- The levels of one octave, all but the last -/
theorem detectOctave2_spec {sz : Nat} (hsz : 0 < sz) (junkI : Nat → Int) (junk : Nat → Feature K) {tau : K} (htau : 0 < tau) {sqrt : K → K} (hs : ∀ x, 0 ≤ x → 0 ≤ sqrt x ∧ sqrt x * sqrt x = x) (depth : Nat) (peak edge : K)
    (o : Octave K) (ho : o.data.length = o.w * o.h * depth) {s : Det K} {xs : List (Feature K)} (h : DetOk sz s xs) :
    ∃ s' fs, detectOctave2 sz junkI junk tau sqrt depth peak edge o s = some s' ∧ DetOk sz s' (xs ++ fs.filterMap id) ∧
      List.Forall₂ (Outcome tau 2 o.at o.w o.h depth peak edge o.step o.sig) ((List.range (depth - 1)).flatMap fun (t : Nat) => extremaAt 2 o.at (8 / 10 * peak) o.w o.h t) fs := by
  obtain ⟨s', e, fs, h1, h2⟩ : ∃ s', detectOctave2 sz junkI junk tau sqrt depth peak edge o s = some s' ∧ ∃ fs, DetOk sz s' (xs ++ fs.filterMap id) ∧
      List.Forall₂ (Outcome tau 2 o.at o.w o.h depth peak edge o.step o.sig) ((List.range (depth - 1)).flatMap fun (t : Nat) => extremaAt 2 o.at (8 / 10 * peak) o.w o.h t) fs := by
    unfold detectOctave2
    refine iter_inv (P := fun i s' => ∃ fs, DetOk sz s' (xs ++ fs.filterMap id) ∧
      List.Forall₂ (Outcome tau 2 o.at o.w o.h depth peak edge o.step o.sig) ((List.range i).flatMap fun (t : Nat) => extremaAt 2 o.at (8 / 10 * peak) o.w o.h t) fs) ⟨[], by simpa using h, by simp⟩ (fun t ht s' hP => ?_)
    obtain ⟨fs, h1, h2⟩ := hP
    obtain ⟨s1, gs, e1, h3, h4⟩ := detectLevel_spec hsz junkI junk htau hs depth peak edge o ho t (by omega) h1
    refine ⟨s1, e1, fs ++ gs, by simpa [List.append_assoc] using h3, ?_⟩
    rw [List.range_succ, List.flatMap_append, List.flatMap_singleton]
    exact List.rel_append h2 h4
  exact ⟨s', fs, e, h1, h2⟩

/-- The points of an octave from which the features are found: the inner extrema in space and scale, or the extrema in space of all levels but the last. -/
def candidates (joint : Bool) (depth : Nat) (peak : K) (o : Octave K) : List (Int × Int × Int) :=
  if joint then extremaAll o.at (8 / 10 * peak) o.w o.h depth
  else (List.range (depth - 1)).flatMap fun (t : Nat) => extremaAt 2 o.at (8 / 10 * peak) o.w o.h t

/-- What an octave contributes -/
def OctaveOutcome (tau : K) (joint : Bool) (depth : Nat) (peak edge : K) (o : Octave K) (fs : List (Option (Feature K))) : Prop :=
  List.Forall₂ (Outcome tau (if joint then 3 else 2) o.at o.w o.h depth peak edge o.step o.sig) (candidates joint depth peak o) fs

/-- For all octaves of all sizes, whatever features were there before, and for the content of new memory being arbitrary: no access is out of a block, and the features are, octave by octave, the outcomes of the refinement of the extrema of at least 0.8 times the peak threshold, in their order. -/
theorem detect_exact {sz : Nat} (hsz : 0 < sz) (junkI : Nat → Int) (junk : Nat → Feature K) {tau : K} (htau : 0 < tau) {sqrt : K → K} (hs : ∀ x, 0 ≤ x → 0 ≤ sqrt x ∧ sqrt x * sqrt x = x) (joint : Bool) (depth : Nat) (peak edge : K)
    (os : List (Octave K)) (ho : ∀ o ∈ os, o.data.length = o.w * o.h * depth) {feats : Feats (Feature K)} {xs : List (Feature K)} (h : Rep sz feats xs) :
    ∃ s fss, detectOctaves sz junkI junk tau sqrt joint depth peak edge os feats = some s ∧ Rep sz s (fss.flatten.filterMap id) ∧ read s = some (fss.flatten.filterMap id) ∧
      List.Forall₂ (OctaveOutcome tau joint depth peak edge) os fss := by
  obtain ⟨s, fss, e, h1, h2⟩ : ∃ s fss, os.foldlM (fun s o => if joint then detectOctave3 sz junkI junk tau sqrt depth peak edge o s else detectOctave2 sz junkI junk tau sqrt depth peak edge o s) (⟨clear feats, none, 0⟩ : Det K) = some s ∧
      DetOk sz s ([] ++ fss.flatten.filterMap id) ∧ List.Forall₂ (OctaveOutcome tau joint depth peak edge) os fss := by
    have hstart : DetOk sz (⟨clear feats, none, 0⟩ : Det K) [] := ⟨h.clear, Or.inl ⟨rfl, rfl⟩⟩
    generalize (⟨clear feats, none, 0⟩ : Det K) = s0 at hstart ⊢
    clear h
    revert s0
    generalize ([] : List (Feature K)) = xs0
    intro s0 hstart
    induction os generalizing s0 xs0 with
    | nil => exact ⟨s0, [], rfl, by simpa using hstart, List.Forall₂.nil⟩
    | cons o os ih =>
      have hstep : ∃ s' fs, (if joint then detectOctave3 sz junkI junk tau sqrt depth peak edge o s0 else detectOctave2 sz junkI junk tau sqrt depth peak edge o s0) = some s' ∧ DetOk sz s' (xs0 ++ fs.filterMap id) ∧ OctaveOutcome tau joint depth peak edge o fs := by
        cases joint with
        | true => exact detectOctave3_spec hsz junkI junk htau hs depth peak edge o (ho o List.mem_cons_self) hstart
        | false => exact detectOctave2_spec hsz junkI junk htau hs depth peak edge o (ho o List.mem_cons_self) hstart
      obtain ⟨s1, fs, e1, h1, h2⟩ := hstep
      obtain ⟨s, fss, e2, h3, h4⟩ := ih (fun o' ho' => ho o' (List.mem_cons_of_mem _ ho')) _ _ h1
      refine ⟨s, fs :: fss, ?_, ?_, List.Forall₂.cons h2 h4⟩
      · rw [List.foldlM_cons, e1]
        exact e2
      · rw [List.flatten_cons, List.filterMap_append, ← List.append_assoc]
        exact h3
  refine ⟨s.feats, fss, ?_, h1.feats, h1.feats.read, h2⟩
  unfold detectOctaves
  rw [e]
  rfl

/-- The walk of an extremum ends at most four pixels away, off the border. -/
theorem detect_near {tau : K} {joint : Bool} {depth : Nat} {peak : K} {o : Octave K} {p : Int × Int × Int} (hp : p ∈ candidates joint depth peak o) {dim : Nat} {y' x' : Int} {r : Option (Nat → K)}
    (hw : Walk tau dim o.at o.w o.h p.1 4 p.2.1 p.2.2 y' x' r) : 1 ≤ y' ∧ y' + 1 < o.h ∧ 1 ≤ x' ∧ x' + 1 < o.w ∧ |x' - p.2.2| ≤ 4 ∧ |y' - p.2.1| ≤ 4 := by
  obtain ⟨h1, h2, h3, h4⟩ : 1 ≤ p.2.1 ∧ p.2.1 + 1 < o.h ∧ 1 ≤ p.2.2 ∧ p.2.2 + 1 < o.w := by
    cases joint with
    | true =>
      simp only [candidates, if_true, extremaAll, List.mem_flatMap, extremaAt_mem] at hp
      obtain ⟨z, -, -, a, b, c, d, -⟩ := hp
      exact ⟨a, b, c, d⟩
    | false =>
      simp only [candidates, Bool.false_eq_true, if_false, List.mem_flatMap, extremaAt_mem] at hp
      obtain ⟨z, -, -, a, b, c, d, -⟩ := hp
      exact ⟨a, b, c, d⟩
  have := hw.dist h1 h2 h3 h4
  exact_mod_cast this

/-- The peak of a feature exceeds the threshold, its edge score is below the threshold, and it lies in the image. -/
theorem outcome_feature {tau : K} {dim w h depth : Nat} {D : Int → Int → Int → K} {peak edge step : K} (hstep : 0 ≤ step) {sig : K → K} {p : Int × Int × Int} {f : Feature K} (ho : Outcome tau dim D w h depth peak edge step sig p (some f)) :
    peak < |f.peakScore| ∧ f.edgeScore < edge ∧ 0 ≤ f.frame.x ∧ f.frame.x ≤ ((w : K) - 1) * step ∧ 0 ≤ f.frame.y ∧ f.frame.y ≤ ((h : K) - 1) * step ∧ f.frame.a12 = 0 ∧ f.frame.a21 = 0 ∧ f.frame.a11 = f.frame.a22 := by
  obtain ⟨y', x', r, e, hw, he, hr⟩ := ho
  cases r with
  | none => simp at hr
  | some b =>
    simp only at hr
    rcases hr with ⟨h1, h2, h3, h4⟩ | ⟨-, h4⟩
    · rw [Option.some.injEq] at h4
      subst h4
      obtain ⟨-, a1, a2, a3, a4, -⟩ := h1
      refine ⟨h2, ?_, mul_nonneg a1 hstep, mul_le_mul_of_nonneg_right a2 hstep, mul_nonneg a3 hstep, mul_le_mul_of_nonneg_right a4 hstep, rfl, rfl, rfl⟩
      induction e using WithTop.recTopCoe with
      | top => simp at h3
      | coe e =>
        show (WithTop.untopD 0 (e : WithTop K)) < edge
        simpa using h3
    · simp at h4

/-- The square root meets the hypothesis. -/
theorem sqrt_ok (x : ℝ) (hx : 0 ≤ x) : 0 ≤ Real.sqrt x ∧ Real.sqrt x * Real.sqrt x = x := ⟨Real.sqrt_nonneg x, Real.mul_self_sqrt hx⟩

/-- An octave of one level of three by three pixels with a peak in the middle -/
def spot (n : Nat) : Octave ℝ := ⟨(List.replicate n [0, 0, 0, 0, 10, 0, 0, 0, 0]).flatten, 3, 3, 1, fun _ => 1⟩

/-- The claim that the extrema in the plane are searched in all levels -/
def AllLevelsClaim : Prop :=
  ∀ (depth : Nat) (peak edge tau : ℝ) (os : List (Octave ℝ)), 0 < tau → (∀ o ∈ os, o.data.length = o.w * o.h * depth) →
    ∃ s fss, detectOctaves 40 (fun _ => 0) (fun _ => ⟨⟨0, 0, 0, 0, 0, 0⟩, 0, 0, 0, 0⟩) tau Real.sqrt false depth peak edge os Feats.new = some s ∧ read s = some (fss.flatten.filterMap id) ∧
      List.Forall₂ (fun (o : Octave ℝ) fs => List.Forall₂ (Outcome tau 2 o.at o.w o.h depth peak edge o.step o.sig) ((List.range depth).flatMap fun (t : Nat) => extremaAt 2 o.at (8 / 10 * peak) o.w o.h t) fs) os fss

/-- The claim is false: the last level is skipped, so that nothing is found when there is one level. -/
theorem allLevels_claim_false : ¬ AllLevelsClaim := by
  intro hc
  obtain ⟨s, fss, e, h1, h2⟩ := hc 1 1 10 (1 / 10) [spot 1] (by norm_num) (by simp [spot])
  have e' : detectOctaves 40 (fun _ => 0) (fun _ => ⟨⟨0, 0, 0, 0, 0, 0⟩, 0, 0, 0, 0⟩) (1 / 10) Real.sqrt false 1 1 10 [spot 1] Feats.new = some (clear Feats.new) := rfl
  rw [e', Option.some.injEq] at e
  subst e
  have h3 : fss.flatten.filterMap id = [] := by
    have : read (clear (Feats.new : Feats (Feature ℝ))) = some [] := rfl
    rw [this, Option.some.injEq] at h1
    exact h1.symm
  rw [List.forall₂_cons_left_iff] at h2
  obtain ⟨fs, t, h4, h5, rfl⟩ := h2
  rw [List.forall₂_nil_left_iff] at h5
  subst h5
  have hval : ∀ y x : Int, (spot 1).at 0 y x = ([0, 0, 0, 0, 10, 0, 0, 0, 0] : List ℝ).getD (x + 3 * y).toNat 0 := by
    intro y x
    unfold Octave.at spot
    simp
  have hE : (0, 1, 1) ∈ (List.range 1).flatMap fun (t : Nat) => extremaAt 2 (spot 1).at (8 / 10 * 1) (spot 1).w (spot 1).h t := by
    rw [List.mem_flatMap]
    refine ⟨0, by simp, ?_⟩
    rw [extremaAt_mem]
    refine ⟨rfl, by decide, by decide, by decide, by decide, ?_⟩
    left
    have hc : (spot 1).at 0 1 1 = 10 := by rw [hval]; simp
    refine ⟨by rw [show ((0 : Nat) : Int) = 0 from rfl, hc]; norm_num, ?_⟩
    intro dz hz dy hy dx hx hne
    have hz : dz = 0 := by simpa [levelsAround] using hz
    subst hz
    simp only [Nat.cast_zero, add_zero]
    rw [hc, hval]
    simp only [List.mem_cons, List.not_mem_nil, or_false] at hy hx
    rcases hy with rfl | rfl | rfl <;> rcases hx with rfl | rfl | rfl <;> first | exact absurd ⟨rfl, rfl, rfl⟩ hne | (simp)
  have hO : ∃ f ∈ fs, Outcome (1 / 10) 2 (spot 1).at (spot 1).w (spot 1).h 1 1 10 (spot 1).step (spot 1).sig (0, 1, 1) f := by
    have : ∀ {l : List (Int × Int × Int)} {fs : List (Option (Feature ℝ))} {P : Int × Int × Int → Option (Feature ℝ) → Prop}, List.Forall₂ P l fs → ∀ p ∈ l, ∃ f ∈ fs, P p f := by
      intro l fs P h
      induction h with
      | nil => simp
      | cons hp _ ih =>
        intro p hm
        rw [List.mem_cons] at hm
        rcases hm with rfl | hm
        · exact ⟨_, List.mem_cons_self, hp⟩
        · obtain ⟨f, h1, h2⟩ := ih p hm
          exact ⟨f, List.mem_cons_of_mem _ h1, h2⟩
    exact this h4 _ hE
  obtain ⟨f, hf, ho⟩ := hO
  have hnone : f = none := by
    cases f with
    | none => rfl
    | some f =>
      exfalso
      have : f ∈ ([fs].flatten.filterMap id) := by
        rw [List.mem_filterMap]
        exact ⟨some f, by simpa using hf, rfl⟩
      rw [h3] at this
      simp at this
  subst hnone
  obtain ⟨y', x', r, e, hw, he, hr⟩ := ho
  obtain ⟨d1, d2, d3, d4, -, -⟩ := hw.dist (by decide) (by decide) (by decide) (by decide)
  have hy1 : y' = 1 := by have : (spot 1).h = 3 := rfl; omega
  have hx1 : x' = 1 := by have : (spot 1).w = 3 := rfl; omega
  subst hy1 hx1
  have hh : ∀ i < 2, ∀ u : Nat → ℝ, ∑ k ∈ range 2, hess (spot 1).at 0 1 1 i k * u k = -20 * u i := by
    intro i hi u
    simp only [Finset.sum_range_succ, Finset.sum_range_zero]
    obtain rfl | rfl : i = 0 ∨ i = 1 := by omega
    · simp [hess, hval]
      norm_num
    · simp [hess, hval]
      norm_num
  have hg : ∀ i < 2, grad (spot 1).at 0 1 1 i = 0 := by
    intro i hi
    obtain rfl | rfl : i = 0 ∨ i = 1 := by omega
    · simp [grad, hval]
    · simp [grad, hval]
  have hsing : ¬ NearlySingular (1 / 10 : ℝ) 2 (spot 1).at 0 1 1 := by
    rintro ⟨u, ⟨k, hk, hu⟩, h⟩
    have := h k hk
    rw [hh k hk, hu] at this
    norm_num at this
  have hoff : ∀ b, IsOffset 2 (spot 1).at 0 1 1 b → ∀ i < 2, b i = 0 := by
    intro b hb
    have := (hb (fun _ => 0)).1 (by intro i hi; rw [hh i hi, hg i hi]; simp)
    exact fun i hi => (this i hi).symm
  have hr' : ∃ b, r = some b ∧ IsOffset 2 (spot 1).at 0 1 1 b := by
    cases hw with
    | stop _ _ _ b hb _ => exact ⟨b, rfl, hb⟩
    | fail _ _ _ hn => exact absurd hn hsing
    | move _ _ _ b _ _ _ hb hm _ =>
      exfalso
      apply hm
      rw [hoff b hb 0 (by omega), hoff b hb 1 (by omega)]
      unfold moveOf
      norm_num
  obtain ⟨b, rfl, hb⟩ := hr'
  have hb0 := hoff b hb
  simp only at hr
  rcases hr with ⟨-, -, -, h⟩ | ⟨h, -⟩
  · simp at h
  · apply h
    have hdet : det2 (spot 1).at 0 1 1 = 400 := by
      simp [det2, hess, hval]
      norm_num
    have htr : tr2 (spot 1).at 0 1 1 = -40 := by
      simp [tr2, hess, hval]
      norm_num
    refine ⟨⟨fun i hi => by rw [hb0 i hi]; norm_num, ?_, ?_, ?_, ?_, by simp⟩, ?_, ?_⟩
    · rw [hb0 0 (by omega)]; norm_num
    · rw [hb0 0 (by omega)]; simp [spot]; norm_num
    · rw [hb0 1 (by omega)]; norm_num
    · rw [hb0 1 (by omega)]; simp [spot]; norm_num
    · have : peakAt 2 (spot 1).at 0 1 1 b = 10 := by
        unfold peakAt
        rw [Finset.sum_eq_zero (fun i hi => by rw [hg i (Finset.mem_range.1 hi), zero_mul]), hval]
        simp
      rw [this]
      norm_num
    · unfold IsEdge at he
      simp only [hdet, htr] at he
      rcases he with ⟨h, -⟩ | ⟨h, -⟩ | ⟨h, -⟩ | ⟨-, r, rfl, h1, h2⟩
      · norm_num at h
      · norm_num at h
      · norm_num at h
      · have : r = 1 := by nlinarith [sq_nonneg (r - 1)]
        rw [this, WithTop.coe_lt_coe]
        norm_num

/-- The hypotheses are met by a detection on two levels, the first of which is searched. -/
example : ∃ s fss, detectOctaves 40 (fun _ => 0) (fun _ => ⟨⟨0, 0, 0, 0, 0, 0⟩, 0, 0, 0, 0⟩) (1 / 10) Real.sqrt false 2 1 10 [spot 2] Feats.new = some s ∧ Rep 40 s (fss.flatten.filterMap id) ∧ read s = some (fss.flatten.filterMap id) ∧
    List.Forall₂ (OctaveOutcome (1 / 10 : ℝ) false 2 1 10) [spot 2] fss :=
  detect_exact (by norm_num) _ _ (by norm_num) sqrt_ok false 2 1 10 [spot 2] (by simp [spot]) (Rep.new 40)

end Verif.Covdet
