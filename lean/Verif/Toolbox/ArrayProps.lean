import Verif.Toolbox.ArrayModel
import Verif.Flat
import Mathlib.Data.List.GetD
import Mathlib.Data.List.Forall2
import Mathlib.Tactic.Ring

/-!
# Array functions of the toolbox: properties (C38, C39)
-/

set_option linter.unusedSectionVars false

namespace Verif.Toolbox

variable {α : Type} [LinearOrder α]

/-! ## Binary search -/

/-- `k` splits the edges at `x`: those before are not above `x`, those from `k` on are. -/
def IsBin (B : List α) (x : α) (k : Nat) : Prop :=
  k ≤ B.length ∧ ∀ j (h : j < B.length), (j < k → B[j] ≤ x) ∧ (k ≤ j → x < B[j])

theorem isBin_count {B : List α} {x : α} {k : Nat} (h : IsBin B x k) : k = (B.filter (· ≤ x)).length := by
  have e : B.filter (· ≤ x) = B.take k := by
    have h1 : (B.take k).filter (· ≤ x) = B.take k := by
      rw [List.filter_eq_self]
      intro a ha
      obtain ⟨j, hj, rfl⟩ := List.getElem_of_mem ha
      rw [List.length_take] at hj
      rw [List.getElem_take]
      exact decide_eq_true ((h.2 j (by omega)).1 (by omega))
    have h2 : (B.drop k).filter (· ≤ x) = [] := by
      rw [List.filter_eq_nil_iff]
      intro a ha
      obtain ⟨j, hj, rfl⟩ := List.getElem_of_mem ha
      rw [List.length_drop] at hj
      rw [List.getElem_drop]
      simpa using (h.2 (k + j) (by omega)).2 (by omega)
    conv_lhs => rw [← List.take_append_drop k B, List.filter_append, h1, h2, List.append_nil]
  rw [e, List.length_take]
  have := h.1
  omega

theorem bisect_spec {B : List α} (hB : B.Pairwise (· ≤ ·)) (x : α) :
    ∀ n lo up (hlo : lo < B.length) (hup : up < B.length), up - lo ≤ n → lo < up → B[lo] ≤ x → x < B[up] →
      ∃ k, bisect B x n lo up = some k ∧ IsBin B x k := by
  have hs : ∀ i j (hi : i < B.length) (hj : j < B.length), i ≤ j → B[i] ≤ B[j] := by
    intro i j hi hj hij
    rcases Nat.eq_or_lt_of_le hij with rfl | h
    · exact le_refl _
    · exact List.pairwise_iff_getElem.mp hB i j hi hj h
  have fin : ∀ lo up (hlo : lo < B.length) (hup : up < B.length), ¬ lo + 1 < up → lo < up → B[lo] ≤ x → x < B[up] →
      IsBin B x (lo + 1) := by
    intro lo up hlo hup h1 h2 h3 h4
    refine ⟨by omega, fun j hj => ⟨fun h => (hs j lo hj hlo (by omega)).trans h3, fun h => lt_of_lt_of_le h4 (hs up j hup hj (by omega))⟩⟩
  intro n
  induction n with
  | zero => intro lo up hlo hup h1 h2; omega
  | succ n ih =>
    intro lo up hlo hup h1 h2 h3 h4
    unfold bisect
    by_cases hc : lo + 1 < up
    · rw [if_pos hc]
      simp only
      rw [rd_of_lt (show (up + lo) / 2 < B.length by omega)]
      simp only [Option.bind_eq_bind, Option.bind_some]
      by_cases hx : x < B[(up + lo) / 2]
      · rw [if_pos hx]
        exact ih lo _ hlo _ (by omega) (by omega) h3 hx
      · rw [if_neg hx]
        exact ih _ up _ hup (by omega) (by omega) (not_lt.mp hx) h4
    · rw [if_neg hc]
      exact ⟨lo + 1, rfl, fin lo up hlo hup hc h2 h3 h4⟩

theorem binsearch1_spec {B : List α} (hB : B.Pairwise (· ≤ ·)) (h0 : 0 < B.length) (x : α) :
    ∃ k, binsearch1 B x = some k ∧ IsBin B x k := by
  have hs : ∀ i j (hi : i < B.length) (hj : j < B.length), i ≤ j → B[i] ≤ B[j] := by
    intro i j hi hj hij
    rcases Nat.eq_or_lt_of_le hij with rfl | h
    · exact le_refl _
    · exact List.pairwise_iff_getElem.mp hB i j hi hj h
  unfold binsearch1
  rw [rd_of_lt h0]
  simp only [Option.bind_eq_bind, Option.bind_some]
  by_cases h1 : x < B[0]
  · rw [if_pos h1]
    exact ⟨0, rfl, by omega, fun j hj => ⟨by omega, fun _ => lt_of_lt_of_le h1 (hs 0 j h0 hj (by omega))⟩⟩
  · rw [if_neg h1, rd_of_lt (show B.length - 1 < B.length by omega)]
    simp only [Option.bind_some]
    by_cases h2 : B[B.length - 1] ≤ x
    · rw [if_pos h2]
      exact ⟨_, rfl, le_refl _, fun j hj => ⟨fun _ => (hs j _ hj _ (by omega)).trans h2, by omega⟩⟩
    · rw [if_neg h2]
      have hlt : 0 < B.length - 1 := by
        rcases Nat.eq_zero_or_pos (B.length - 1) with h | h
        · exfalso
          simp only [h] at h2
          exact h2 (not_lt.mp h1)
        · exact h
      exact bisect_spec hB x _ _ _ h0 (by omega) (by omega) hlt (not_lt.mp h1) (not_le.mp h2)

/-- **C38.** For sorted edges the search gives, for every element, the bin it falls in: the number of edges not above it.  The
search stops and reads only the two arrays. -/
theorem binsearch_correct {B : List α} (hB : B.Pairwise (· ≤ ·)) (X : List α) :
    ∃ idx, binsearch B X = some idx ∧ idx.length = X.length ∧
      ∀ i (h : i < X.length), ∃ k, idx[i]? = some k ∧ IsBin B X[i] k ∧ k = (B.filter (· ≤ X[i])).length := by
  unfold binsearch
  by_cases h0 : B.length = 0
  · rw [if_pos h0]
    refine ⟨_, rfl, by simp, fun i h => ⟨0, by simp [h], ?_⟩⟩
    have hb : IsBin B X[i] 0 := ⟨by omega, fun j hj => by omega⟩
    exact ⟨hb, isBin_count hb⟩
  · rw [if_neg h0]
    obtain ⟨s, s1, s2, s3⟩ := iter_inv (n := X.length) (f := fun i idx => do
        let x ← rd X i
        let k ← binsearch1 B x
        wr idx i k) (s := List.replicate X.length 0)
      (fun n (idx : List Nat) => idx.length = X.length ∧ ∀ i (h : i < X.length), i < n → ∃ k, idx[i]? = some k ∧ IsBin B X[i] k)
      ⟨by simp, by simp⟩ (by
      intro i hi s ⟨q1, q2⟩
      obtain ⟨k, k1, k2⟩ := binsearch1_spec hB (by omega) X[i]
      rw [rd_of_lt hi]
      simp only [Option.bind_eq_bind, Option.bind_some]
      rw [k1, Option.bind_some, wr_of_lt (by omega)]
      refine ⟨_, rfl, by simpa using q1, fun j hj hjn => ?_⟩
      by_cases e : j = i
      · subst e
        exact ⟨k, by rw [List.getElem?_set_self (by omega)], k2⟩
      · rw [List.getElem?_set_ne (by omega)]
        exact q2 j hj (by omega))
    refine ⟨s, s1, s2, fun i h => ?_⟩
    obtain ⟨k, k1, k2⟩ := s3 i h h
    exact ⟨k, k1, k2, isBin_count k2⟩

example : binsearch [1, 3, 3, 7] [0, 1, 2, 3, 6, 7, 9] = some [0, 1, 1, 3, 3, 4, 4] := by decide
example := binsearch_correct (B := [1, 3, 3, 7]) (by decide) [0, 1, 2, 3, 6, 7, 9]

/-! ## Running maximum -/

/-- `v` is the maximum of `f` on `0, …, d`. -/
def IsRunMax (f : Nat → α) (d : Nat) (v : α) : Prop :=
  (∀ j ≤ d, f j ≤ v) ∧ ∃ j ≤ d, f j = v

theorem isRunMax_zero (f : Nat → α) : IsRunMax f 0 (f 0) :=
  ⟨fun j hj => by rw [Nat.le_zero.mp hj], 0, le_refl _, rfl⟩

theorem isRunMax_succ {f : Nat → α} {d : Nat} {w : α} (h : IsRunMax f d w) : IsRunMax f (d + 1) (if w < f (d + 1) then f (d + 1) else w) := by
  by_cases hw : w < f (d + 1)
  · rw [if_pos hw]
    refine ⟨fun j hj => ?_, d + 1, le_refl _, rfl⟩
    rcases Nat.eq_or_lt_of_le hj with rfl | h'
    · exact le_refl _
    · exact (h.1 j (by omega)).trans hw.le
  · rw [if_neg hw]
    refine ⟨fun j hj => ?_, ?_⟩
    · rcases Nat.eq_or_lt_of_le hj with rfl | h'
      · exact not_lt.mp hw
      · exact h.1 j (by omega)
    · obtain ⟨j, h1, h2⟩ := h.2
      exact ⟨j, by omega, h2⟩

theorem cummaxLoop_spec [Inhabited α] {x y : List α} {S D C : Nat} (hS : 0 < S) (hD : 0 < D) (hx : x.length = S * D * C) (hy : y.length = S * D * C) :
    ∃ y', cummaxLoop x (S * D * C) S D y = some y' ∧ y'.length = S * D * C ∧
      ∀ c < C, ∀ d < D, ∀ s < S, ∃ v, y'[c * (S * D) + d * S + s]? = some v ∧
        IsRunMax (fun j => x.getD (c * (S * D) + j * S + s) default) d v := by
  have hSD : 0 < S * D := Nat.mul_pos hS hD
  have hrd : ∀ q < S * D * C, rd x q = some (x.getD q default) := fun q hq => by
    rw [rd_of_lt (by omega), List.getD_eq_getElem _ _ (by omega)]
  have hin : ∀ c < C, ∀ t < S * D, c * (S * D) + t < S * D * C := fun c hc t ht => by
    have := Nat.mul_le_mul_right (S * D) hc
    rw [Nat.succ_mul, Nat.mul_comm C] at this
    omega
  let Good (y : List α) (c d s : Nat) : Prop := ∃ v, y[c * (S * D) + d * S + s]? = some v ∧
        IsRunMax (fun j => x.getD (c * (S * D) + j * S + s) default) d v
  have hlt : ∀ d < D, ∀ s < S, d * S + s < S * D := fun d hd s hs => by
    have := Nat.mul_le_mul_right S hd
    rw [Nat.succ_mul, Nat.mul_comm D] at this
    omega
  have hblk : ∀ c' c, c' < c → ∀ t < S * D, c' * (S * D) + t < c * (S * D) := fun c' c hc t ht => by
    have := Nat.mul_le_mul_right (S * D) hc
    rw [Nat.succ_mul] at this
    omega
  obtain ⟨y', h1, h2, h3⟩ := iter_inv (n := C) (f := fun b y => do
      let p := b * (S * D)
      let y ← iter S (fun t y => do
        let v ← rd x (p + t)
        wr y (p + t) v) y
      iter (S * (D - 1)) (fun t y => do
        let v ← rd x (p + S + t)
        let w ← rd y (p + S + t - S)
        wr y (p + S + t) (if w < v then v else w)) y) (s := y)
    (fun n (y : List α) => y.length = S * D * C ∧ ∀ c < n, ∀ d < D, ∀ s < S, Good y c d s) ⟨hy, by simp⟩ (by
    intro c hc s ⟨q1, q2⟩
    simp only
    obtain ⟨y1, a1, a2, a3, a4⟩ := iter_inv (n := S) (f := fun t y => do
        let v ← rd x (c * (S * D) + t)
        wr y (c * (S * D) + t) v) (s := s)
      (fun n (y : List α) => y.length = S * D * C ∧ (∀ q < c * (S * D), y[q]? = s[q]?) ∧ ∀ t < n, Good y c 0 t) ⟨q1, fun _ _ => rfl, by simp⟩ (by
      intro t ht y ⟨p1, p2, p3⟩
      have hq : c * (S * D) + t < S * D * C := hin c hc t (lt_of_lt_of_le ht (Nat.le_mul_of_pos_right _ hD))
      rw [hrd _ hq]
      simp only [Option.bind_eq_bind, Option.bind_some]
      rw [wr_of_lt (by omega)]
      refine ⟨_, rfl, by simpa using p1, fun q hq' => ?_, fun t' ht' => ?_⟩
      · rw [List.getElem?_set_ne (by omega)]; exact p2 q hq'
      · by_cases e : t' = t
        · subst e
          refine ⟨x.getD (c * (S * D) + t') default, ?_, ?_⟩
          · rw [Nat.zero_mul, Nat.add_zero, List.getElem?_set_self (by omega)]
          · have := isRunMax_zero (fun j => x.getD (c * (S * D) + j * S + t') default)
            simpa using this
        · obtain ⟨v, v1, v2⟩ := p3 t' (by omega)
          refine ⟨v, ?_, v2⟩
          rw [List.getElem?_set_ne (by omega)]; exact v1)
    obtain ⟨y2, b1, b2, b3, b4⟩ := iter_inv (n := S * (D - 1)) (f := fun t y => do
        let v ← rd x (c * (S * D) + S + t)
        let w ← rd y (c * (S * D) + S + t - S)
        wr y (c * (S * D) + S + t) (if w < v then v else w)) (s := y1)
      (fun n (y : List α) => y.length = S * D * C ∧ (∀ q < c * (S * D), y[q]? = s[q]?) ∧
        ∀ d < D, ∀ t < S, d * S + t < S + n → Good y c d t) ⟨a2, a3, fun d hd t ht h => by
          obtain rfl : d = 0 := by
            rcases Nat.eq_zero_or_pos d with h' | h'
            · exact h'
            · have := Nat.le_mul_of_pos_left S h'
              omega
          exact a4 t ht⟩ (by
      intro n hn y ⟨p1, p2, p3⟩
      have hn' : S + n < S * D := by
        obtain ⟨D', rfl⟩ : ∃ D', D = D' + 1 := ⟨D - 1, by omega⟩
        rw [Nat.mul_succ]; simp at hn; omega
      have hq : c * (S * D) + S + n < S * D * C := by have := hin c hc (S + n) hn'; omega
      have hdm := Nat.div_add_mod n S
      rw [Nat.mul_comm] at hdm
      have hm := Nat.mod_lt n hS
      have hdD : n / S + 1 < D := by
        by_contra hge
        have : D - 1 ≤ n / S := by omega
        have := Nat.mul_le_mul_right S this
        rw [Nat.mul_comm] at this
        omega
      obtain ⟨w, w1, w2⟩ := p3 (n / S) (by omega) (n % S) hm (by omega)
      have hw : rd y (c * (S * D) + S + n - S) = some w := by
        rw [rd_getElem?, ← w1]; congr 1; omega
      rw [hrd _ hq]
      simp only [Option.bind_eq_bind, Option.bind_some]
      rw [hw, Option.bind_some, wr_of_lt (by omega)]
      refine ⟨_, rfl, by simpa using p1, fun q hq' => ?_, fun d hd t ht hdt => ?_⟩
      · rw [List.getElem?_set_ne (by omega)]; exact p2 q hq'
      · by_cases e : d * S + t = S + n
        · have e1 : t = n % S := by
            have : (d * S + t) % S = (S + n) % S := by rw [e]
            rwa [Nat.add_comm, Nat.add_mul_mod_self_right, Nat.mod_eq_of_lt ht, Nat.add_mod_left] at this
          have e2 : d = n / S + 1 := by
            have : (d * S + t) / S = (S + n) / S := by rw [e]
            rw [Nat.add_div_left _ hS, Nat.mul_comm, Nat.mul_add_div hS, Nat.div_eq_of_lt ht] at this
            omega
          subst e1 e2
          have hidx : c * (S * D) + S + n = c * (S * D) + (n / S + 1) * S + n % S := by rw [Nat.succ_mul]; omega
          refine ⟨_, ?_, isRunMax_succ w2⟩
          rw [hidx, List.getElem?_set_self (by omega)]
        · obtain ⟨v, v1, v2⟩ := p3 d hd t ht (by omega)
          refine ⟨v, ?_, v2⟩
          rw [List.getElem?_set_ne (by omega)]; exact v1)
    simp only [Option.bind_eq_bind] at a1 b1 ⊢
    rw [a1, Option.bind_some, b1]
    refine ⟨y2, rfl, b2, fun c' hc' d hd t ht => ?_⟩
    rcases Nat.lt_or_ge c' c with h | h
    · obtain ⟨v, v1, v2⟩ := q2 c' h d hd t ht
      have := hblk c' c h _ (hlt d hd t ht)
      exact ⟨v, by rw [b3 _ (by omega)]; exact v1, v2⟩
    · obtain rfl : c' = c := by omega
      refine b4 d hd t ht ?_
      have := hlt d hd t ht
      obtain ⟨D', rfl⟩ : ∃ D', D = D' + 1 := ⟨D - 1, by omega⟩
      rw [Nat.mul_succ] at this; simp; omega)
  refine ⟨y', ?_, h2, h3⟩
  unfold cummaxLoop
  rw [Nat.mul_div_cancel_left _ hSD]
  exact h1

/-- Column-major address of the element of index `ix` of an array of dimensions `dims`. -/
def addr : List Nat → List Nat → Nat
  | d :: dims, i :: ix => i + d * addr dims ix
  | _, _ => 0

/-- `ix` is an index of an array of dimensions `dims`. -/
def IsIndex (dims ix : List Nat) : Prop :=
  List.Forall₂ (· < ·) ix dims

theorem addr_lt {dims ix : List Nat} (h : IsIndex dims ix) : addr dims ix < dims.prod := by
  induction h with
  | nil => simp [addr]
  | @cons a b _ _ h _ ih =>
    simp only [addr, List.prod_cons]
    have := Nat.mul_le_mul_left b ih
    rw [Nat.mul_succ] at this
    omega

theorem addr_split {dims : List Nat} : ∀ {ix : List Nat} (k : Nat) (hk : k < dims.length), IsIndex dims ix →
    ∃ s c, s < (dims.take k).prod ∧ c < (dims.drop (k + 1)).prod ∧
      ∀ j, addr dims (ix.set k j) = c * ((dims.take k).prod * dims[k]) + j * (dims.take k).prod + s := by
  induction dims with
  | nil => intro ix k hk; simp at hk
  | cons d dims ih =>
    intro ix k hk h
    cases h with
    | cons hi h =>
      rename_i i ix
      cases k with
      | zero =>
        refine ⟨0, addr dims ix, by simp, by simpa using addr_lt h, fun j => ?_⟩
        simp [addr]
        rw [Nat.mul_comm]; omega
      | succ k =>
        obtain ⟨s, c, h1, h2, h3⟩ := ih k (by simpa using hk) h
        refine ⟨i + d * s, c, ?_, by simpa using h2, fun j => ?_⟩
        · rw [List.take_succ_cons, List.prod_cons]
          have := Nat.mul_le_mul_left d h1
          rw [Nat.mul_succ] at this
          omega
        · rw [List.set_cons_succ, addr, h3 j]
          simp only [List.take_succ_cons, List.prod_cons, List.getElem_cons_succ]
          ring

theorem prod_split (dims : List Nat) (k : Nat) (hk : k < dims.length) :
    dims.prod = (dims.take k).prod * dims[k] * (dims.drop (k + 1)).prod := by
  conv_lhs => rw [← List.take_append_drop k dims, List.prod_append, List.drop_eq_getElem_cons hk, List.prod_cons]
  ring

theorem firstDim_spec : ∀ (dims : List Nat), dims ≠ [] → firstDim dims < dims.length ∧ (dims.take (firstDim dims)).prod = 1
  | [], h => absurd rfl h
  | [_], _ => by simp [firstDim]
  | d :: e :: l, _ => by
    have := firstDim_spec (e :: l) (by simp)
    unfold firstDim
    by_cases hd : d = 1
    · rw [if_pos hd]
      refine ⟨by simpa using this.1, ?_⟩
      rw [List.take_succ_cons, List.prod_cons, this.2, hd]
    · rw [if_neg hd]; simp

/-- The dimension operated on: the one given by the user (from one), or the first that is not one. -/
def whichDim (dims : List Nat) (which : Nat) : Nat :=
  if which = 0 then firstDim dims else which - 1

theorem geometry_spec {dims : List Nat} (hd : dims ≠ []) {which : Nat} (hw : which ≤ dims.length) :
    ∃ h : whichDim dims which < dims.length,
      cummaxGeometry dims which = some ((dims.take (whichDim dims which)).prod, dims[whichDim dims which]) := by
  unfold whichDim cummaxGeometry
  by_cases h0 : which = 0
  · obtain ⟨h1, h2⟩ := firstDim_spec dims hd
    simp only [h0, if_true]
    refine ⟨h1, ?_⟩
    rw [if_neg (by omega), rd_of_lt h1, h2]
    rfl
  · simp only [h0, if_false]
    refine ⟨by omega, ?_⟩
    rw [if_pos (by omega)]
    obtain ⟨s, h1, h2⟩ := iter_inv (n := which - 1) (f := fun k s => do
        let d ← rd dims k
        some (s * d)) (s := 1) (fun n (s : Nat) => s = (dims.take n).prod) (by simp) (by
      intro k hk s hs
      rw [rd_of_lt (show k < dims.length by omega)]
      refine ⟨_, rfl, ?_⟩
      rw [hs, List.take_succ_eq_append_getElem (show k < dims.length by omega), List.prod_append]
      simp)
    simp only [Option.bind_eq_bind] at h1 ⊢
    rw [h1, Option.bind_some, rd_of_lt (by omega), h2]
    rfl

/-- **C39.** The running maximum of an array of any number of dimensions along any of them, or along the first that is not one,
contains at each index the maximum of the elements up to that index along that dimension. -/
theorem cummax_correct [Inhabited α] {dims : List Nat} (hd : dims ≠ []) {which : Nat} (hw : which ≤ dims.length) {x y : List α}
    (hx : x.length = dims.prod) (hy : y.length = dims.prod) :
    ∃ y', cummax x dims which y = some y' ∧ y'.length = dims.prod ∧
      ∀ ix, IsIndex dims ix → ∃ d v, ix[whichDim dims which]? = some d ∧ y'[addr dims ix]? = some v ∧
        IsRunMax (fun j => x.getD (addr dims (ix.set (whichDim dims which) j)) default) d v := by
  obtain ⟨hk, hg⟩ := geometry_spec hd hw
  generalize whichDim dims which = k at hk hg ⊢
  unfold cummax
  rw [hg]
  simp only [Option.bind_eq_bind, Option.bind_some]
  have hp := prod_split dims k hk
  by_cases h0 : dims.prod = 0
  · refine ⟨y, ?_, hy, fun ix h => ?_⟩
    · unfold cummaxLoop
      rw [h0, Nat.zero_div]
      rfl
    · have := addr_lt h
      omega
  · have hpos : 0 < (dims.take k).prod * dims[k] := by
      rcases Nat.eq_zero_or_pos ((dims.take k).prod * dims[k]) with h | h
      · rw [h] at hp; omega
      · exact h
    obtain ⟨y', y1, y2, y3⟩ := cummaxLoop_spec (x := x) (y := y) (C := (dims.drop (k + 1)).prod)
      (Nat.pos_of_mul_pos_right hpos) (Nat.pos_of_mul_pos_left hpos) (by omega) (by omega)
    refine ⟨y', by rw [hp]; exact y1, by omega, fun ix h => ?_⟩
    obtain ⟨s, c, e1, e2, e3⟩ := addr_split k hk h
    have hl : ix.length = dims.length := List.Forall₂.length_eq h
    have hkx : k < ix.length := by omega
    have hix : ix[k] < dims[k] := (List.forall₂_iff_get.mp h).2 k hkx hk
    obtain ⟨v, v1, v2⟩ := y3 c e2 ix[k] hix s e1
    refine ⟨ix[k], v, List.getElem?_eq_getElem hkx, ?_, ?_⟩
    · have := e3 ix[k]
      rw [List.set_getElem_self] at this
      rw [this]
      exact v1
    · simp only [e3]
      exact v2

example : cummax [3, 1, 2, 5, 4, 0] [2, 3] 2 [0, 0, 0, 0, 0, 0] = some [3, 1, 3, 5, 4, 5] := by decide
example : cummax [3, 1, 2, 5, 4, 0] [1, 6] 0 [0, 0, 0, 0, 0, 0] = some [3, 3, 3, 5, 5, 5] := by decide
example := cummax_correct (dims := [2, 3]) (by decide) (which := 2) (by decide) (x := [3, 1, 2, 5, 4, 0]) (y := [0, 0, 0, 0, 0, 0]) rfl rfl

end Verif.Toolbox
