import Verif.Mser.ProcessLemmas
import Verif.Mser.EllSpec
import Mathlib.Tactic.FieldSimp
import Mathlib.Tactic.Ring
import Mathlib.Algebra.BigOperators.Ring.Finset

/-!
# The fitting of the ellipsoids
-/

namespace Verif.Mser

open Verif.Erfill (coords coords_length)

/-! ### Coordinates -/

theorem adv_coords : ∀ (dims : List Nat), (∀ d ∈ dims, 0 < d) → ∀ q, adv dims (coords dims q) = coords dims (q + 1) := by
  intro dims
  induction dims with
  | nil => intro _ q; rfl
  | cons d dims ih =>
    intro hd q
    have h0 : 0 < d := hd d (by simp)
    have ih' := ih (fun x hx => hd x (by simp [hx]))
    simp only [coords, adv]
    have hdm := Nat.div_add_mod q d
    have hlt := Nat.mod_lt q h0
    split_ifs with h
    · have h1 : (q + 1) % d = q % d + 1 := by
        conv_lhs => rw [← hdm, show d * (q / d) + q % d + 1 = (q % d + 1) + d * (q / d) by ring]
        rw [Nat.add_mul_mod_self_left, Nat.mod_eq_of_lt h]
      have h2 : (q + 1) / d = q / d := by
        conv_lhs => rw [← hdm, show d * (q / d) + q % d + 1 = (q % d + 1) + d * (q / d) by ring]
        rw [Nat.add_mul_div_left _ _ h0, Nat.div_eq_of_lt h, Nat.zero_add]
      rw [h1, h2]
    · have he : q % d + 1 = d := by omega
      have hq1 : q + 1 = d * (q / d + 1) := by rw [Nat.mul_add, Nat.mul_one]; omega
      have h1 : (q + 1) % d = 0 := by rw [hq1, Nat.mul_mod_right]
      have h2 : (q + 1) / d = q / d + 1 := by rw [hq1, Nat.mul_div_cancel_left _ h0]
      rw [h1, h2, ih']

theorem coords_zero : ∀ (dims : List Nat), coords dims 0 = List.replicate dims.length 0 := by
  intro dims
  induction dims with
  | nil => rfl
  | cons d dims ih => simp [coords, ih, List.replicate_succ]

theorem rd_coords {dims : List Nat} {d q : Nat} (hd : d < dims.length) : rd (coords dims q) d = some ((coords dims q).getD d 0) := by
  have h : d < (coords dims q).length := by rw [coords_length]; exact hd
  rw [rd_of_lt h]; simp [List.getD, h]

/-! ### The pairs of coordinates -/

/-- The triangular numbers. -/
def tri : Nat → Nat
  | 0 => 0
  | j + 1 => tri j + (j + 1)

theorem tri_eq (j : Nat) : j * (j + 1) / 2 = tri j := by
  have : j * (j + 1) = 2 * tri j := by
    induction j with
    | zero => rfl
    | succ j ih => simp only [tri]; rw [Nat.mul_add 2, ← ih]; ring
  rw [this, Nat.mul_div_cancel_left _ (by omega)]

theorem tri_mono {a b : Nat} (h : a ≤ b) : tri a ≤ tri b := by
  induction h with
  | refl => exact le_refl _
  | step _ ih => simp only [tri]; omega

theorem pairOf_spec : ∀ (fuel i j : Nat), i < fuel → ∃ i' j', pairOf fuel i j = some (i', j') ∧ i' ≤ j' ∧ tri j' + i' = tri j + i := by
  intro fuel
  induction fuel with
  | zero => intro i j h; omega
  | succ fuel ih =>
    intro i j h
    simp only [pairOf]
    split_ifs with c
    · obtain ⟨i', j', e, h1, h2⟩ := ih (i - (j + 1)) (j + 1) (by omega)
      refine ⟨i', j', e, h1, ?_⟩
      simp only [tri] at h2
      omega
    · exact ⟨i, j, rfl, by omega, rfl⟩

theorem tri_unique {i j i' j' : Nat} (h1 : i ≤ j) (h2 : i' ≤ j') (h : tri j + i = tri j' + i') : i = i' ∧ j = j' := by
  rcases Nat.lt_trichotomy j j' with c | c | c
  · have := tri_mono (show j + 1 ≤ j' by omega); simp only [tri] at this; omega
  · subst c; omega
  · have := tri_mono (show j' + 1 ≤ j by omega); simp only [tri] at this; omega

theorem pairOf_lt {n d : Nat} (hd : d < tri n) : ∃ i j, pairOf (d + 1) d 0 = some (i, j) ∧ i ≤ j ∧ j < n ∧ tri j + i = d := by
  obtain ⟨i, j, e, h1, h2⟩ := pairOf_spec (d + 1) d 0 (by omega)
  simp only [tri, Nat.zero_add] at h2
  refine ⟨i, j, e, h1, ?_, h2⟩
  by_contra c
  have := tri_mono (show n ≤ j by omega)
  omega

/-! ### Moments -/

/-- What the degree of freedom `d` accumulates. -/
def dofVal (dims : List Nat) (d q : Nat) : ℚ :=
  if d < dims.length then coord dims d q
  else match pairOf (d - dims.length + 1) (d - dims.length) 0 with
    | some (i, j) => coord dims i q * coord dims j q
    | none => 0

theorem fillAcc_spec {dims : List Nat} (hpos : ∀ x ∈ dims, 0 < x) {d : Nat} (hd : d < tri dims.length + dims.length) {acc : List ℚ} {nel : Nat} (hacc : acc.length = nel) :
    ∃ acc', fillAcc dims nel d acc = some acc' ∧ Arr acc' nel (dofVal dims d) := by
  unfold fillAcc
  have loop : ∀ (h : Nat → ℚ) (body : List Nat → Option ℚ), (∀ q, body (coords dims q) = some (h q)) →
      ∃ st, iter nel (fun index (st : List ℚ × List Nat) => do
        let x ← body st.2
        let acc ← wr st.1 index x
        pure (acc, adv dims st.2)) (acc, List.replicate dims.length 0) = some st ∧ Arr st.1 nel h := by
    intro h body hb
    have := iter_inv (n := nel) (s := (acc, List.replicate dims.length 0)) (f := fun index (st : List ℚ × List Nat) => do
        let x ← body st.2
        let acc ← wr st.1 index x
        pure (acc, adv dims st.2)) (P := fun (t : Nat) (st : List ℚ × List Nat) => st.2 = coords dims t ∧ ∃ A, Arr st.1 nel A ∧ ∀ q < t, A q = h q) ?_ ?_
    · obtain ⟨st, e, _, A, hA, hAe⟩ := this
      exact ⟨st, e, hA.congr hAe⟩
    · exact ⟨(coords_zero dims).symm, _, Arr.of_len' hacc 0, by intro q hq; omega⟩
    · rintro t ht ⟨a, subs⟩ ⟨hsub, A, hA, hAe⟩
      simp only at hsub hA ⊢
      subst hsub
      rw [hb t]
      simp only [Option.bind_eq_bind, Option.bind_some]
      obtain ⟨a', e, hA'⟩ := hA.wr ht (h t)
      rw [e]
      refine ⟨_, rfl, adv_coords dims hpos t, _, hA', ?_⟩
      intro q hq
      by_cases c : q = t
      · subst c; simp [upd1]
      · simp only [upd1, if_neg c]; exact hAe q (by omega)
  by_cases c : d < dims.length
  · rw [if_pos c]
    obtain ⟨st, e, hA⟩ := loop (coord dims d) (fun s => do let x ← rd s d; pure (x : ℚ)) (fun q => by rw [rd_coords c]; rfl)
    simp only [bind_assoc, pure_bind] at e
    rw [e]
    refine ⟨_, rfl, hA.congr (fun q _ => ?_)⟩
    simp [dofVal, c]
  · rw [if_neg c]
    obtain ⟨i, j, ep, h1, h2, h3⟩ := pairOf_lt (n := dims.length) (d := d - dims.length) (by omega)
    rw [ep]
    simp only [Option.bind_eq_bind, Option.bind_some]
    obtain ⟨st, e, hA⟩ := loop (fun q => coord dims i q * coord dims j q) (fun s => do let x ← rd s i; let y ← rd s j; pure (x * y : ℚ))
      (fun q => by rw [rd_coords (by omega), rd_coords h2]; rfl)
    simp only [bind_assoc, pure_bind] at e
    simp only [Option.bind_eq_bind] at e
    rw [e]
    refine ⟨_, rfl, hA.congr (fun q _ => ?_)⟩
    simp only [dofVal, if_neg c, ep]

theorem take_succ_rootOf {par : Nat → Nat} {joins : List Nat} {i j : Nat} (hj : joins[i]? = some j) (q : Nat) :
    rootOf par (joins.take (i + 1)) q = if rootOf par (joins.take i) q = j then par j else rootOf par (joins.take i) q := by
  rw [List.take_add_one, hj, rootOf_append]
  generalize rootOf par (joins.take i) q = x
  simp only [Option.toList, rootOf, List.foldl_cons, List.foldl_nil]

theorem integrate_spec {joins : List Nat} {nel : Nat} {r : List Reg} {f : Nat → Reg} (hr : Arr r nel f) (hnd : joins.Nodup) (hlt : ∀ j ∈ joins, j < nel) (hpar : ∀ j ∈ joins, (f j).parent < nel)
    (hne : ∀ j ∈ joins, (f j).parent ≠ j) {acc : List ℚ} {h : Nat → ℚ} (hacc : Arr acc nel h) :
    ∃ acc' A, integrate joins r acc = some acc' ∧ Arr acc' nel A ∧ ∀ k ≤ joins.length, ∀ ρ < nel, ρ ∉ joins.take k → (∀ j ∈ joins.drop k, (f j).parent ≠ ρ) →
      A ρ = ∑ q ∈ (Finset.range nel).filter (fun q => rootOf (fun j => (f j).parent) (joins.take k) q = ρ), h q := by
  unfold integrate
  have := iter_inv (n := joins.length) (s := acc) (f := fun i (acc : List ℚ) => do
    let index ← rd joins i
    let x ← rd r index
    let p ← rd acc x.parent
    let a ← rd acc index
    wr acc x.parent (p + a)) (P := fun (i : Nat) (acc : List ℚ) => ∃ A, Arr acc nel A ∧ ∀ k ≤ i, ∀ ρ < nel, ρ ∉ joins.take k → (∀ j ∈ (joins.take i).drop k, (f j).parent ≠ ρ) →
      A ρ = ∑ q ∈ (Finset.range nel).filter (fun q => rootOf (fun j => (f j).parent) (joins.take k) q = ρ), h q) ?_ ?_
  · obtain ⟨acc', e, A, hA, hk⟩ := this
    rw [List.take_length] at hk
    exact ⟨acc', A, e, hA, hk⟩
  · refine ⟨h, hacc, ?_⟩
    intro k hk ρ hρ _ _
    have : k = 0 := by omega
    subst this
    rw [Finset.sum_eq_single ρ]
    · intro q hq hne'
      rw [Finset.mem_filter] at hq
      exact absurd hq.2 hne'
    · intro hn
      rw [Finset.mem_filter, Finset.mem_range] at hn
      exact absurd ⟨hρ, rfl⟩ hn
  · rintro i hi acc1 ⟨A, hA, hk⟩
    have hj : joins[i]? = some joins[i] := List.getElem?_eq_getElem hi
    obtain ⟨j, hjd⟩ : ∃ j, joins[i] = j := ⟨_, rfl⟩
    rw [hjd] at hj
    have hjm : j ∈ joins := List.mem_of_getElem? hj
    rw [rd_getElem?, hj]
    simp only [Option.bind_eq_bind, Option.bind_some]
    rw [hr.rd (hlt j hjm)]
    simp only [Option.bind_some]
    rw [hA.rd (hpar j hjm)]
    simp only [Option.bind_some]
    rw [hA.rd (hlt j hjm)]
    simp only [Option.bind_some]
    obtain ⟨acc2, e, hA2⟩ := hA.wr (hpar j hjm) (A (f j).parent + A j)
    rw [e]
    refine ⟨_, rfl, _, hA2, ?_⟩
    have hjtake : j ∉ joins.take i := by
      intro hm
      rw [List.mem_take_iff_getElem] at hm
      obtain ⟨t, ht, e⟩ := hm
      have := (List.Nodup.getElem_inj_iff hnd (i := t) (j := i) (hi := by omega) (hj := by omega)).mp (by rw [e, hjd])
      omega
    intro k hki ρ hρ hρk hdrop
    rcases Nat.lt_or_ge k (i + 1) with c | c
    · have hin : j ∈ (joins.take (i + 1)).drop k := by
        rw [List.take_add_one, hj, List.drop_append_of_le_length (by rw [List.length_take]; omega)]
        simp
      have hne2 := hdrop j hin
      simp only [upd1, if_neg (Ne.symm hne2)]
      refine hk k (by omega) ρ hρ hρk ?_
      intro x hx
      apply hdrop
      rw [List.take_add_one, hj, List.drop_append_of_le_length (by rw [List.length_take]; omega)]
      exact List.mem_append_left _ hx
    · have : k = i + 1 := by omega
      subst this
      have hnil : (joins.take i).drop i = [] := List.drop_eq_nil_of_le (by rw [List.length_take]; omega)
      have hst : ∀ ρ < nel, ρ ∉ joins.take i → A ρ = ∑ q ∈ (Finset.range nel).filter (fun q => rootOf (fun j => (f j).parent) (joins.take i) q = ρ), h q :=
        fun ρ hρ hρi => hk i (le_refl _) ρ hρ hρi (by rw [hnil]; simp)
      have hρi : ρ ∉ joins.take i := fun hm => hρk (by rw [List.take_add_one]; exact List.mem_append_left _ hm)
      have hρj : ρ ≠ j := fun e => hρk (by rw [List.take_add_one, hj, e]; simp)
      by_cases c2 : ρ = (f j).parent
      · rw [c2] at hρ hρi ⊢
        simp only [upd1, if_true]
        rw [hst _ hρ hρi, hst j (hlt j hjm) hjtake, ← Finset.sum_union]
        · apply Finset.sum_congr _ (fun _ _ => rfl)
          ext q
          simp only [Finset.mem_union, Finset.mem_filter, take_succ_rootOf hj]
          constructor
          · rintro (⟨a, b⟩ | ⟨a, b⟩)
            · refine ⟨a, ?_⟩
              rw [if_neg (by rw [b]; exact hne j hjm)]; exact b
            · exact ⟨a, by rw [if_pos b]⟩
          · rintro ⟨a, b⟩
            split_ifs at b with d
            · exact Or.inr ⟨a, d⟩
            · exact Or.inl ⟨a, b⟩
        · rw [Finset.disjoint_left]
          intro q h1 h2
          simp only [Finset.mem_filter] at h1 h2
          exact hne j hjm (h1.2.symm.trans h2.2)
      · simp only [upd1, if_neg c2]
        rw [hst _ hρ hρi]
        apply Finset.sum_congr _ (fun _ _ => rfl)
        ext q
        simp only [Finset.mem_filter, take_succ_rootOf hj]
        constructor
        · rintro ⟨a, b⟩
          exact ⟨a, by rw [if_neg (by rw [b]; exact hρj)]; exact b⟩
        · rintro ⟨a, b⟩
          split_ifs at b with d
          · exact absurd b.symm c2
          · exact ⟨a, b⟩

theorem sum_region {dims im : List Nat} {p : Nat} (S : Finset Nat) (hS : ∀ q, q ∈ S ↔ q ∈ Ext dims im (pix im p) p) (h : Nat → ℚ) : ∑ q ∈ S, h q = ∑ᶠ q ∈ Ext dims im (pix im p) p, h q := by
  have : Ext dims im (pix im p) p = (S : Set Nat) := by ext q; simp [hS]
  rw [this, finsum_mem_coe_finset]

/-- The integral of the extremal pixels. -/
theorem integrate_final {dims im : List Nat} {r r' : List Reg} {joins : List Nat} {f f' : Nat → Reg} (F : Final dims im r joins f) (hr' : Arr r' dims.prod f') (hf' : ∀ p < dims.prod, (f' p).parent = (f p).parent)
    {acc : List ℚ} {h : Nat → ℚ} (hacc : Arr acc dims.prod h) :
    ∃ acc' A, integrate joins r' acc = some acc' ∧ Arr acc' dims.prod A ∧ ∀ p < dims.prod, Final.Extremal im joins f p → A p = ∑ᶠ q ∈ Ext dims im (pix im p) p, h q := by
  have hjl : ∀ j ∈ joins, j < dims.prod := fun j hj => by simpa using F.forest.sub j hj
  have hpl : ∀ p < dims.prod, par f p < dims.prod := fun p hp => by simpa using F.forest.parD p (by simpa using hp)
  have hfp : ∀ j ∈ joins, (f' j).parent = par f j := fun j hj => hf' j (hjl j hj)
  obtain ⟨acc', A, e, hA, hk⟩ := integrate_spec hr' F.forest.nodup hjl (fun j hj => by rw [hfp j hj]; exact hpl j (hjl j hj))
    (fun j hj => by
      rw [hfp j hj]
      intro e
      have := F.forest.upP j hj
      rw [e] at this; omega) hacc
  refine ⟨acc', A, e, hA, ?_⟩
  intro p hp hex
  obtain ⟨pre, new, hj, h1, h2, h3, _⟩ := F.level (pix im p)
  have hpre : joins.take pre.length = pre := by rw [hj, List.take_left]
  have hnew : joins.drop pre.length = new := by rw [hj, List.drop_left]
  have hpp : p ∉ pre := by
    intro hm
    have := hex.2 (by rw [hj]; simp [hm])
    have := h1 p hm
    omega
  have := hk pre.length (by rw [hj]; simp) p hp (by rw [hpre]; exact hpp) (by
    intro j hjm
    rw [hnew] at hjm
    rw [hfp j (by rw [hj]; simp [hjm])]
    intro e
    have := h2 j hjm
    rw [e] at this; omega)
  rw [this]
  apply sum_region
  intro q
  rw [Finset.mem_filter, Finset.mem_range, hpre]
  have hro : rootOf (fun j => (f' j).parent) pre q = rootOf (par f) pre q := rootOf_congr (fun j hjm => hfp j (by rw [hj]; simp [hjm]))
  rw [hro]
  have hrp : rootOf (par f) pre p = p := rootOf_notMem hpp
  constructor
  · rintro ⟨hq, he⟩
    rw [← h3 p hp q hq (le_refl _), hrp, he]
  · intro hq
    have hql := ext_lt hp hq
    refine ⟨hql, ?_⟩
    rw [← h3 p hp q hql (le_refl _), hrp] at hq
    exact hq.symm

end Verif.Mser
