import Verif.Dsift.TransposeModel
import Verif.Scatter
import Verif.Flat
import Mathlib.Data.List.Perm.Basic
import Mathlib.Data.List.GetD
import Mathlib.Data.List.OfFn
import Mathlib.Data.List.FinRange
import Mathlib.Logic.Equiv.Fin.Basic

/-!
# Transposing a dense SIFT descriptor permutes its entries and is an involution
-/

namespace Verif.Dsift

variable {α : Type}

/-! ## Specification -/

/-- Entry of the descriptor `d` (of `X` spatial bins per row and `T` orientations) at orientation `t` and spatial bin
`(x, y)`. -/
def entry (d : List α) (T X t x y : Nat) : Option α := d[T * (x + y * X) + t]?

/-- `d'` is the transpose of `d`: spatial bin `(x, y)` moves to `(y, x)`, and an angle `a` moves to a quarter of a turn
minus `a`. -/
def IsTranspose (d d' : List α) (T X Y : Nat) : Prop :=
  d'.length = T * X * Y ∧ ∀ x < X, ∀ y < Y, ∀ t < T, ∀ t' < T, (t + t') % T = T / 4 % T →
    entry d' T Y t' y x = entry d T X t x y

/-! ## Lemmas -/

theorem refl_lt {T t : Nat} (ht : t < T) : (T / 4 + T - t) % T < T := Nat.mod_lt _ (by omega)

theorem refl_val {T t : Nat} (ht : t < T) : (t ≤ T / 4 → (T / 4 + T - t) % T = T / 4 - t) ∧
    (T / 4 < t → (T / 4 + T - t) % T = T / 4 + T - t) := by
  constructor
  · intro h
    rw [show T / 4 + T - t = T / 4 - t + T by omega, Nat.add_mod_right, Nat.mod_eq_of_lt (by omega)]
  · intro h
    rw [Nat.mod_eq_of_lt (by omega)]

theorem refl_invol {T t : Nat} (ht : t < T) : (T / 4 + T - (T / 4 + T - t) % T) % T = t := by
  have h1 := refl_val ht
  have h2 := refl_val (refl_lt ht)
  by_cases h : t ≤ T / 4
  · have := h1.1 h
    rw [h2.1 (by omega)]; omega
  · have := h1.2 (by omega)
    rw [h2.2 (by omega)]; omega

theorem refl_sum {T t t' : Nat} (ht : t < T) (ht' : t' < T) (h : (t + t') % T = T / 4 % T) : t' = (T / 4 + T - t) % T := by
  rw [Nat.mod_eq_of_lt (show T / 4 < T by omega)] at h
  have h1 := refl_val ht
  have hs : (t + t') % T = if t + t' < T then t + t' else t + t' - T := by
    split
    · exact Nat.mod_eq_of_lt ‹_›
    · rw [Nat.mod_eq_sub_mod (by omega), Nat.mod_eq_of_lt (by omega)]
  rw [hs] at h
  split at h
  · rw [h1.1 (by omega)]; omega
  · rw [h1.2 (by omega)]; omega

theorem refl_sum' {T t : Nat} (ht : t < T) : (t + (T / 4 + T - t) % T) % T = T / 4 % T := by
  have h1 := refl_val ht
  by_cases h : t ≤ T / 4
  · rw [h1.1 h, show t + (T / 4 - t) = T / 4 by omega]
  · rw [h1.2 (by omega), show t + (T / 4 + T - t) = T / 4 + T by omega, Nat.add_mod_right]

theorem cell_lt {T X Y x y t : Nat} (hx : x < X) (hy : y < Y) (ht : t < T) : T * (x + y * X) + t < T * X * Y := by
  have h1 := Flat.addr_lt (n := Y) (m := X) hy hx
  have h2 := Flat.addr_lt (n := Y * X) (m := T) (i := y * X + x) h1 ht
  rw [show T * X * Y = Y * X * T by rw [Nat.mul_comm (T * X), Nat.mul_comm T X, Nat.mul_assoc],
    show T * (x + y * X) = (y * X + x) * T by rw [Nat.mul_comm, Nat.add_comm x]]
  exact h2

theorem cell_inj {T X x y t x' y' t' : Nat} (hx : x < X) (hx' : x' < X) (ht : t < T) (ht' : t' < T)
    (h : T * (x + y * X) + t = T * (x' + y' * X) + t') : x = x' ∧ y = y' ∧ t = t' := by
  rw [Nat.mul_comm T, Nat.mul_comm T] at h
  obtain ⟨h1, h2⟩ := Flat.addr_inj ht ht' h
  rw [Nat.add_comm x, Nat.add_comm x'] at h1
  obtain ⟨h3, h4⟩ := Flat.addr_inj hx hx' h1
  exact ⟨h4, h3, h2⟩

/-- The loops write each destination entry once, with the entry of the source it is the image of. -/
theorem transpose_spec (src : List α) (T X Y : Nat) (hs : src.length = T * X * Y) (dst : List α) (hd : dst.length = T * X * Y) :
    ∃ d', transpose src T X Y dst = some d' ∧ d'.length = T * X * Y ∧
      ∀ y < Y, ∀ x < X, ∀ t < T, d'[T * (y + x * Y) + (T / 4 + T - t) % T]? = src[T * (x + y * X) + t]? := by
  have hXY : T * X * Y = T * Y * X := by rw [Nat.mul_assoc, Nat.mul_comm X, Nat.mul_assoc]
  -- the loop over the orientations
  have inner : ∀ y < Y, ∀ x < X, ∀ d : List α, d.length = T * X * Y → ∃ d', iter T (fun t dst => (do
      let v ← rd src (T * (x + y * X) + t)
      wr dst (T * (y + x * Y) + (T / 4 + T - t) % T) v : Option (List α))) d = some d' ∧ d'.length = T * X * Y ∧
      (∀ t < T, d'[T * (y + x * Y) + (T / 4 + T - t) % T]? = src[T * (x + y * X) + t]?) ∧
      ∀ q, (∀ t < T, T * (y + x * Y) + t ≠ q) → d'[q]? = d[q]? := by
    intro y hy x hx d hdl
    rcases Nat.eq_zero_or_pos T with hT | hT
    · subst hT
      exact ⟨d, rfl, hdl, by simp, fun _ _ => rfl⟩
    · have hne : ∃ a : α, True := by
        have := cell_lt (T := T) hx hy hT
        rcases src with _ | ⟨a, _⟩
        · simp at hs; omega
        · exact ⟨a, trivial⟩
      obtain ⟨a, _⟩ := hne
      obtain ⟨d', g1, g2, g3, g4⟩ := scatter_spec (fun t dst => (do
          let v ← rd src (T * (x + y * X) + t)
          wr dst (T * (y + x * Y) + (T / 4 + T - t) % T) v : Option (List α))) (n := T) (m := d)
        (fun t => T * (y + x * Y) + (T / 4 + T - t) % T) (fun t => src.getD (T * (x + y * X) + t) a)
        (fun t ht => by rw [hdl, hXY]; exact cell_lt hy hx (refl_lt ht))
        (fun t ht t' ht' h => by
          have := (cell_inj hy hy (refl_lt ht) (refl_lt ht') h).2.2
          rw [← refl_invol ht, ← refl_invol ht', this])
        (fun t ht m' hm => by
          have := cell_lt hx hy ht
          rw [rd_of_lt (by omega)]
          simp only [Option.bind_eq_bind, Option.bind_some]
          rw [List.getD_eq_getElem])
      refine ⟨d', g1, by omega, fun t ht => ?_, fun q hq => g4 q fun t ht => hq _ (refl_lt ht)⟩
      have := cell_lt hx hy ht
      rw [g3 t ht, List.getD_eq_getElem _ _ (by omega), List.getElem?_eq_getElem]
  -- the loop over the columns
  have middle : ∀ y < Y, ∀ d : List α, d.length = T * X * Y → ∃ d', iter X (fun x dst => iter T (fun t dst => (do
      let v ← rd src (T * (x + y * X) + t)
      wr dst (T * (y + x * Y) + (T / 4 + T - t) % T) v : Option (List α))) dst) d = some d' ∧ d'.length = T * X * Y ∧
      (∀ x < X, ∀ t < T, d'[T * (y + x * Y) + (T / 4 + T - t) % T]? = src[T * (x + y * X) + t]?) ∧
      ∀ q, (∀ x < X, ∀ t < T, T * (y + x * Y) + t ≠ q) → d'[q]? = d[q]? := by
    intro y hy d hdl
    obtain ⟨d', g1, g2, g3, g4⟩ := iter_inv (n := X) (f := fun x dst => iter T (fun t dst => (do
        let v ← rd src (T * (x + y * X) + t)
        wr dst (T * (y + x * Y) + (T / 4 + T - t) % T) v : Option (List α))) dst) (s := d)
      (fun n (d' : List α) => d'.length = T * X * Y ∧
        (∀ x < n, ∀ t < T, d'[T * (y + x * Y) + (T / 4 + T - t) % T]? = src[T * (x + y * X) + t]?) ∧
        ∀ q, (∀ x < n, ∀ t < T, T * (y + x * Y) + t ≠ q) → d'[q]? = d[q]?) ⟨hdl, by simp, fun _ _ => rfl⟩ (by
      intro x hx d1 ⟨q1, q2, q3⟩
      obtain ⟨d2, r1, r2, r3, r4⟩ := inner y hy x hx d1 q1
      refine ⟨d2, r1, r2, fun x' hx' t ht => ?_, fun q hq => ?_⟩
      · by_cases e : x' = x
        · subst e; exact r3 t ht
        · rw [r4 _ (fun t' ht' h => e (cell_inj hy hy ht' (refl_lt ht) h).2.1.symm)]
          exact q2 x' (by omega) t ht
      · rw [r4 q (fun t ht => hq x (by omega) t ht)]
        exact q3 q fun x' hx' => hq x' (by omega))
    exact ⟨d', g1, g2, g3, g4⟩
  obtain ⟨d', g1, g2, g3⟩ := iter_inv (n := Y) (f := fun y dst => iter X (fun x dst => iter T (fun t dst => (do
      let v ← rd src (T * (x + y * X) + t)
      wr dst (T * (y + x * Y) + (T / 4 + T - t) % T) v : Option (List α))) dst) dst) (s := dst)
    (fun n (d' : List α) => d'.length = T * X * Y ∧
      (∀ y < n, ∀ x < X, ∀ t < T, d'[T * (y + x * Y) + (T / 4 + T - t) % T]? = src[T * (x + y * X) + t]?)) ⟨hd, by simp⟩ (by
    intro y hy d1 ⟨q1, q2⟩
    obtain ⟨d2, r1, r2, r3, r4⟩ := middle y hy d1 q1
    refine ⟨d2, r1, r2, fun y' hy' x hx t ht => ?_⟩
    by_cases e : y' = y
    · subst e; exact r3 x hx t ht
    · rw [r4 _ (fun x' hx' t' ht' h => e (cell_inj hy (by omega) ht' (refl_lt ht) h).1.symm)]
      exact q2 y' (by omega) x hx t ht)
  exact ⟨d', g1, g2, g3⟩

/-- Every address is the address of a bin. -/
theorem cell_surj {T X Y q : Nat} (hq : q < T * X * Y) : ∃ x < X, ∃ y < Y, ∃ t < T, q = T * (x + y * X) + t := by
  have hT : 0 < T := by
    rcases Nat.eq_zero_or_pos T with h | h
    · subst h; simp at hq
    · exact h
  have hX : 0 < X := by
    rcases Nat.eq_zero_or_pos X with h | h
    · subst h; simp at hq
    · exact h
  refine ⟨q / T % X, Nat.mod_lt _ hX, q / T / X, ?_, q % T, Nat.mod_lt _ hT, ?_⟩
  · rw [Nat.div_div_eq_div_mul]
    exact Nat.div_lt_of_lt_mul hq
  · rw [Nat.mul_comm (q / T / X), Nat.mod_add_div, Nat.div_add_mod]

theorem isTranspose_unique {d d1 d2 : List α} {T X Y : Nat} (h1 : IsTranspose d d1 T X Y) (h2 : IsTranspose d d2 T X Y) : d1 = d2 := by
  apply List.ext_getElem?
  intro q
  rcases Nat.lt_or_ge q (T * X * Y) with hq | hq
  · obtain ⟨y, hy, x, hx, t, ht, rfl⟩ := cell_surj (T := T) (X := Y) (Y := X)
      (by rwa [Nat.mul_assoc, Nat.mul_comm Y, ← Nat.mul_assoc])
    have e := refl_sum' ht
    rw [Nat.add_comm] at e
    exact (h1.2 x hx y hy _ (refl_lt ht) t ht e).trans (h2.2 x hx y hy _ (refl_lt ht) t ht e).symm
  · rw [List.getElem?_eq_none (by rw [h1.1]; exact hq), List.getElem?_eq_none (by rw [h2.1]; exact hq)]

/-- Lists of one length with a bijection of the positions between them are rearrangements of each other. -/
theorem perm_of_positions {d d' : List α} (hl : d'.length = d.length) (φ ψ : Nat → Nat) (hφ : ∀ i < d.length, φ i < d.length)
    (hψ : ∀ i < d.length, ψ i < d.length)
    (h1 : ∀ i < d.length, ψ (φ i) = i) (h2 : ∀ i < d.length, φ (ψ i) = i) (h : ∀ i < d.length, d'[φ i]? = d[i]?) :
    d'.Perm d := by
  let e : Fin d.length ≃ Fin d.length :=
    ⟨fun i => ⟨φ i, hφ i i.2⟩, fun i => ⟨ψ i, hψ i i.2⟩, fun i => Fin.ext (h1 i i.2), fun i => Fin.ext (h2 i i.2)⟩
  have ed : d = List.ofFn (fun i : Fin d.length => d.get i) := by simp
  have ed' : d' = List.ofFn (fun i : Fin d.length => d'.get ⟨i, by rw [hl]; exact i.2⟩) := by
    apply List.ext_getElem?
    intro i
    rcases Nat.lt_or_ge i d.length with hi | hi
    · rw [List.getElem?_ofFn]
      simp [hi, hl]
    · rw [List.getElem?_eq_none (by omega), List.getElem?_eq_none (by simpa using hi)]
  have ee : (fun i : Fin d.length => d.get i) = (fun i : Fin d.length => d'.get ⟨i, by rw [hl]; exact i.2⟩) ∘ e := by
    funext i
    have := h i i.2
    have hb : φ i < d'.length := by rw [hl]; exact hφ i i.2
    rw [List.getElem?_eq_getElem hb, List.getElem?_eq_getElem i.2] at this
    have := Option.some.inj this
    simp [e, this]
  rw [ed, ed', ee]
  rw [List.ofFn_eq_map, List.ofFn_eq_map, ← List.map_map]
  refine List.Perm.map _ ?_
  refine (List.perm_ext_iff_of_nodup (List.nodup_finRange _) ((List.nodup_finRange _).map e.injective)).2 fun x => ?_
  simp only [List.mem_finRange, List.mem_map, true_iff, true_and]
  exact ⟨e.symm x, by simp⟩

/-- Address in the transpose of the entry at address `q`. -/
def moved (T X Y q : Nat) : Nat := T * (q / T / X + (q / T % X) * Y) + (T / 4 + T - q % T) % T

theorem moved_cell {T X Y x y t : Nat} (hx : x < X) (ht : t < T) :
    moved T X Y (T * (x + y * X) + t) = T * (y + x * Y) + (T / 4 + T - t) % T := by
  have h1 : (T * (x + y * X) + t) / T = x + y * X := by
    rw [Nat.mul_add_div (by omega), Nat.div_eq_of_lt ht, Nat.add_zero]
  have h2 : (T * (x + y * X) + t) % T = t := by rw [Nat.mul_add_mod, Nat.mod_eq_of_lt ht]
  have h3 : (x + y * X) / X = y := by rw [Nat.add_mul_div_right _ _ (by omega), Nat.div_eq_of_lt hx, Nat.zero_add]
  have h4 : (x + y * X) % X = x := by rw [Nat.add_mul_mod_self_right, Nat.mod_eq_of_lt hx]
  unfold moved
  rw [h1, h2, h3, h4]

theorem isTranspose_perm {d d' : List α} {T X Y : Nat} (hl : d.length = T * X * Y) (h : IsTranspose d d' T X Y) : d'.Perm d := by
  have hXY : T * X * Y = T * Y * X := by rw [Nat.mul_assoc, Nat.mul_comm X, Nat.mul_assoc]
  have key : ∀ {X Y : Nat}, ∀ q < T * X * Y, moved T X Y q < T * Y * X ∧ moved T Y X (moved T X Y q) = q := by
    intro X Y q hq
    obtain ⟨x, hx, y, hy, t, ht, rfl⟩ := cell_surj hq
    rw [moved_cell hx ht, moved_cell hy (refl_lt ht), refl_invol ht]
    exact ⟨cell_lt hy hx (refl_lt ht), rfl⟩
  refine perm_of_positions (by rw [h.1, hl]) (moved T X Y) (moved T Y X) (fun i hi => ?_) (fun i hi => ?_) (fun i hi => ?_)
    (fun i hi => ?_) (fun i hi => ?_)
  · rw [hl, hXY]; exact (key i (by rw [← hl]; exact hi)).1
  · rw [hl]; exact (key i (by rw [← hXY, ← hl]; exact hi)).1
  · exact (key i (by rw [← hl]; exact hi)).2
  · exact (key i (by rw [← hXY, ← hl]; exact hi)).2
  · obtain ⟨x, hx, y, hy, t, ht, rfl⟩ := cell_surj (hl ▸ hi)
    rw [moved_cell hx ht]
    exact h.2 x hx y hy t ht _ (refl_lt ht) (refl_sum' ht)

/-! ## The property -/

/-- **C46**: whatever the destination holds, `vl_dsift_transpose_descriptor` stores the transpose of the source, which is a
rearrangement of its entries. -/
theorem transpose_correct (src : List α) (T X Y : Nat) (hs : src.length = T * X * Y) (dst : List α) (hd : dst.length = T * X * Y) :
    ∃ d', transpose src T X Y dst = some d' ∧ IsTranspose src d' T X Y ∧ d'.Perm src := by
  obtain ⟨d', h1, h2, h3⟩ := transpose_spec src T X Y hs dst hd
  have hT : IsTranspose src d' T X Y := by
    refine ⟨h2, fun x hx y hy t ht t' ht' h => ?_⟩
    rw [refl_sum ht ht' h]
    exact h3 y hy x hx t ht
  exact ⟨d', h1, hT, isTranspose_perm hs hT⟩

/-- **C46**: transposing twice, the second time with the numbers of bins exchanged, gives back the descriptor. -/
theorem transpose_involution (src : List α) (T X Y : Nat) (hs : src.length = T * X * Y) (dst dst' : List α)
    (hd : dst.length = T * X * Y) (hd' : dst'.length = T * X * Y) :
    ∃ d', transpose src T X Y dst = some d' ∧ transpose d' T Y X dst' = some src := by
  have hXY : T * X * Y = T * Y * X := by rw [Nat.mul_assoc, Nat.mul_comm X, Nat.mul_assoc]
  obtain ⟨d1, h1, h2, _⟩ := transpose_correct src T X Y hs dst hd
  obtain ⟨d2, g1, g2, _⟩ := transpose_correct d1 T Y X (by rw [h2.1, hXY]) dst' (by rw [hd', hXY])
  refine ⟨d1, h1, ?_⟩
  rw [g1, isTranspose_unique g2 (d2 := src) ⟨by rw [hs, hXY], fun y hy x hx t ht t' ht' h => ?_⟩]
  exact (h2.2 x hx y hy t' ht' t ht (by rw [Nat.add_comm]; exact h)).symm

/-- The hypotheses are met by a descriptor of 3 by 2 spatial bins and 4 orientations. -/
example : transpose (List.range 24) 4 3 2 (List.replicate 24 99) =
    some [1, 0, 3, 2, 13, 12, 15, 14, 5, 4, 7, 6, 17, 16, 19, 18, 9, 8, 11, 10, 21, 20, 23, 22] := by decide

end Verif.Dsift
