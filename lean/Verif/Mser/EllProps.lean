import Verif.Mser.EllLemmas
import Verif.Mser.ProcessProps

/-!
# The ellipsoids of the maximally stable extremal regions
-/

namespace Verif.Mser

open Verif.Erfill (coords coords_length)

variable {dims im : List Nat}

theorem dims_pos {l : List Nat} (h : 0 < l.prod) : ∀ x ∈ l, 0 < x := by
  intro x hx
  rcases Nat.eq_zero_or_pos x with e | e
  · subst e
    rw [List.prod_eq_zero hx] at h; omega
  · exact e

theorem addr_lt {k nm d dof : Nat} (hk : k < nm) (hd : d < dof) : k * dof + d < nm * dof := Flat.addr_lt hk hd

theorem moments_spec {r r' : List Reg} {joins : List Nat} {f f' : Nat → Reg} (F : Final dims im r joins f) (hr' : Arr r' dims.prod f') (hf' : ∀ p < dims.prod, (f' p).parent = (f p).parent)
    (hpos : ∀ x ∈ dims, 0 < x) {mer : List Nat} (hmer : ∀ p ∈ mer, p < dims.prod ∧ Final.Extremal im joins f p) {acc ell : List ℚ} (hacc : acc.length = dims.prod)
    (hell : mer.length * (tri dims.length + dims.length) ≤ ell.length) :
    ∃ acc' ell' A, moments dims dims.prod (tri dims.length + dims.length) joins r' mer acc ell = some (acc', ell') ∧ Arr ell' ell.length A ∧
      ∀ d < tri dims.length + dims.length, ∀ (k p : Nat), mer[k]? = some p → A (k * (tri dims.length + dims.length) + d) = ∑ᶠ q ∈ Ext dims im (pix im p) p, dofVal dims d q := by
  obtain ⟨dof, hdof⟩ : ∃ dof, tri dims.length + dims.length = dof := ⟨_, rfl⟩
  rw [hdof] at hell ⊢
  unfold moments
  have := iter_inv (n := dof) (s := (acc, ell)) (f := fun d (st : List ℚ × List ℚ) => do
    let acc ← fillAcc dims dims.prod d st.1
    let acc ← integrate joins r' acc
    let ell ← iter mer.length (fun i ell => do
      let idx ← rd mer i
      let a ← rd acc idx
      wr ell (d + dof * i) a) st.2
    pure (acc, ell)) (P := fun (d : Nat) (st : List ℚ × List ℚ) => st.1.length = dims.prod ∧ ∃ A, Arr st.2 ell.length A ∧
      ∀ d' < d, ∀ (k p : Nat), mer[k]? = some p → A (k * dof + d') = ∑ᶠ q ∈ Ext dims im (pix im p) p, dofVal dims d' q) ?_ ?_
  · obtain ⟨⟨acc', ell'⟩, e, _, A, hA, h⟩ := this
    exact ⟨acc', ell', A, e, hA, h⟩
  · exact ⟨hacc, _, Arr.of_len ell 0, by intro d hd; omega⟩
  · rintro d hd ⟨acc1, ell1⟩ ⟨hl1, A, hA, hAe⟩
    simp only at hl1 hA ⊢
    obtain ⟨acc2, e2, h2⟩ := fillAcc_spec hpos (d := d) (by omega) hl1
    rw [e2]
    simp only [Option.bind_eq_bind, Option.bind_some]
    obtain ⟨acc3, B, e3, h3, hB⟩ := integrate_final F hr' hf' h2
    rw [e3]
    simp only [Option.bind_some]
    have inner := iter_inv (n := mer.length) (s := ell1) (f := fun i (ell : List ℚ) => do
      let idx ← rd mer i
      let a ← rd acc3 idx
      wr ell (d + dof * i) a) (P := fun (i : Nat) (l : List ℚ) => ∃ A', Arr l ell.length A' ∧ (∀ d' < d, ∀ k < mer.length, A' (k * dof + d') = A (k * dof + d')) ∧
        ∀ (k p : Nat), k < i → mer[k]? = some p → A' (k * dof + d) = ∑ᶠ q ∈ Ext dims im (pix im p) p, dofVal dims d q) ?_ ?_
    · obtain ⟨ell2, e4, A', hA', h5, h6⟩ := inner
      simp only [Option.bind_eq_bind] at e4
      rw [e4]
      refine ⟨_, rfl, h3.len, A', hA', ?_⟩
      intro d' hd' k p hk
      have hkl : k < mer.length := by rw [List.getElem?_eq_some_iff] at hk; exact hk.1
      by_cases c : d' = d
      · subst c; exact h6 k p hkl hk
      · rw [h5 d' (by omega) k hkl]; exact hAe d' (by omega) k p hk
    · exact ⟨A, hA, fun _ _ _ _ => rfl, by intro k p hk; omega⟩
    · rintro i hi l ⟨A', hA', h5, h6⟩
      have hp : mer[i]? = some mer[i] := List.getElem?_eq_getElem hi
      obtain ⟨p, hpd⟩ : ∃ p, mer[i] = p := ⟨_, rfl⟩
      rw [hpd] at hp
      have hpm := hmer p (List.mem_of_getElem? hp)
      rw [rd_getElem?, hp]
      simp only [Option.bind_eq_bind, Option.bind_some]
      rw [h3.rd hpm.1]
      simp only [Option.bind_some]
      have haddr := addr_lt hi hd
      rw [show d + dof * i = i * dof + d by ring]
      obtain ⟨l', e5, hA''⟩ := hA'.wr (show i * dof + d < ell.length by omega) (B p)
      rw [e5]
      refine ⟨_, rfl, _, hA'', ?_, ?_⟩
      · intro d' hd' k hk
        have : k * dof + d' ≠ i * dof + d := fun e => by have := Flat.addr_inj (m := dof) (by omega) hd e; omega
        simp only [upd1, if_neg this]
        exact h5 d' hd' k hk
      · intro k p' hk hp'
        by_cases c : k = i
        · subst c
          rw [hp] at hp'
          cases hp'
          simp only [upd1, if_true]
          exact hB p hpm.1 hpm.2
        · have : k * dof + d ≠ i * dof + d := fun e => by have := Flat.addr_inj (m := dof) hd hd e; omega
          simp only [upd1, if_neg this]
          exact h6 k p' (by omega) hp'

/-- The value of the degree of freedom `d` at the end. -/
noncomputable def dofFinal (dims : List Nat) (R : Set Nat) (d : Nat) : ℚ :=
  if d < dims.length then mean R (coord dims d)
  else match pairOf (d - dims.length + 1) (d - dims.length) 0 with
    | some (i, j) => covariance R (coord dims i) (coord dims j)
    | none => 0

theorem central_spec {r : List Reg} {f : Nat → Reg} (hr : Arr r dims.prod f) {mer : List Nat} (hmer : ∀ p ∈ mer, p < dims.prod ∧ (f p).area = (Ext dims im (pix im p) p).ncard ∧ 0 < (f p).area)
    {ell : List ℚ} (hell : mer.length * (tri dims.length + dims.length) ≤ ell.length) {A : Nat → ℚ} (hA : Arr ell ell.length A)
    (hAe : ∀ d < tri dims.length + dims.length, ∀ (k p : Nat), mer[k]? = some p → A (k * (tri dims.length + dims.length) + d) = ∑ᶠ q ∈ Ext dims im (pix im p) p, dofVal dims d q) :
    ∃ ell' A', central dims (tri dims.length + dims.length) r mer ell = some ell' ∧ Arr ell' ell.length A' ∧
      ∀ d < tri dims.length + dims.length, ∀ (k p : Nat), mer[k]? = some p → A' (k * (tri dims.length + dims.length) + d) = dofFinal dims (Ext dims im (pix im p) p) d := by
  obtain ⟨dof, hdof⟩ : ∃ dof, tri dims.length + dims.length = dof := ⟨_, rfl⟩
  rw [hdof] at hell hAe ⊢
  unfold central
  simp only
  have := iter_inv (n := mer.length) (s := ell) (f := fun index (ell : List ℚ) => do
    let idx ← rd mer index
    let x ← rd r idx
    if x.area = 0 then none else
    iter dof (fun d ell => do
      let a ← rd ell (index * dof + d)
      let ell ← wr ell (index * dof + d) (a / (x.area : ℚ))
      if d ≥ dims.length then do
        let (i, j) ← pairOf (d - dims.length + 1) (d - dims.length) 0
        let a ← rd ell (index * dof + d)
        let b ← rd ell (index * dof + i)
        let c ← rd ell (index * dof + j)
        wr ell (index * dof + d) (a - b * c)
      else some ell) ell) (P := fun (t : Nat) (l : List ℚ) => ∃ A', Arr l ell.length A' ∧ ∀ d < dof, ∀ (k p : Nat), mer[k]? = some p →
        A' (k * dof + d) = if k < t then dofFinal dims (Ext dims im (pix im p) p) d else ∑ᶠ q ∈ Ext dims im (pix im p) p, dofVal dims d q) ?_ ?_
  · obtain ⟨ell', e, A', hA', h⟩ := this
    refine ⟨ell', A', e, hA', ?_⟩
    intro d hd k p hk
    rw [h d hd k p hk, if_pos (by rw [List.getElem?_eq_some_iff] at hk; exact hk.1)]
  · exact ⟨A, hA, fun d hd k p hk => by rw [if_neg (by omega)]; exact hAe d hd k p hk⟩
  · rintro t ht l ⟨A1, hA1, h1⟩
    have hp : mer[t]? = some mer[t] := List.getElem?_eq_getElem ht
    obtain ⟨p, hpd⟩ : ∃ p, mer[t] = p := ⟨_, rfl⟩
    rw [hpd] at hp
    obtain ⟨hpl, harea, hapos⟩ := hmer p (List.mem_of_getElem? hp)
    rw [rd_getElem?, hp]
    simp only [Option.bind_eq_bind, Option.bind_some]
    rw [hr.rd hpl]
    simp only [Option.bind_some]
    rw [if_neg (by omega)]
    obtain ⟨R, hR⟩ : ∃ R, Ext dims im (pix im p) p = R := ⟨_, rfl⟩
    have hR1 : ∀ d < dof, A1 (t * dof + d) = ∑ᶠ q ∈ R, dofVal dims d q := by
      intro d hd
      rw [h1 d hd t p hp, if_neg (by omega), hR]
    rw [hR] at harea
    have inner := iter_inv (n := dof) (s := l) (f := fun d (ell : List ℚ) => do
      let a ← rd ell (t * dof + d)
      let ell ← wr ell (t * dof + d) (a / ((f p).area : ℚ))
      if d ≥ dims.length then do
        let (i, j) ← pairOf (d - dims.length + 1) (d - dims.length) 0
        let a ← rd ell (t * dof + d)
        let b ← rd ell (t * dof + i)
        let c ← rd ell (t * dof + j)
        wr ell (t * dof + d) (a - b * c)
      else some ell) (P := fun (s : Nat) (l : List ℚ) => ∃ A', Arr l ell.length A' ∧ (∀ d < dof, A' (t * dof + d) = if d < s then dofFinal dims R d else ∑ᶠ q ∈ R, dofVal dims d q) ∧
        ∀ d < dof, ∀ k, k ≠ t → A' (k * dof + d) = A1 (k * dof + d)) ?_ ?_
    · obtain ⟨l', e, A', hA', h2, h3⟩ := inner
      simp only [Option.bind_eq_bind] at e
      rw [e]
      refine ⟨_, rfl, A', hA', ?_⟩
      intro d hd k p' hk
      by_cases c : k = t
      · subst c
        rw [hp] at hk
        cases hk
        rw [h2 d hd, if_pos hd, if_pos (by omega), hR]
      · rw [h3 d hd k c, h1 d hd k p' hk]
        have : k < t + 1 ↔ k < t := by omega
        simp only [this]
    · exact ⟨A1, hA1, fun d hd => by rw [if_neg (by omega)]; exact hR1 d hd, fun _ _ _ _ => rfl⟩
    · rintro d hd l1 ⟨A2, hA2, h2, h3⟩
      have haddr : ∀ {d'}, d' < dof → t * dof + d' < ell.length := fun {d'} hd' => by have := addr_lt ht hd'; omega
      rw [hA2.rd (haddr hd)]
      simp only [Option.bind_eq_bind, Option.bind_some]
      obtain ⟨l2, e2, hA3⟩ := hA2.wr (haddr hd) (A2 (t * dof + d) / ((f p).area : ℚ))
      rw [e2]
      simp only [Option.bind_some]
      have hval : A2 (t * dof + d) / ((f p).area : ℚ) = mean R (dofVal dims d) := by
        rw [h2 d hd, if_neg (by omega), harea]; rfl
      rw [hval] at hA3
      by_cases c : d ≥ dims.length
      · rw [if_pos c]
        obtain ⟨i, j, ep, q1, q2, q3⟩ := pairOf_lt (n := dims.length) (d := d - dims.length) (by omega)
        rw [ep]
        simp only [Option.bind_some]
        have hi : i < dims.length := by omega
        rw [hA3.rd (haddr hd)]
        simp only [Option.bind_some]
        rw [hA3.rd (haddr (show i < dof by omega))]
        simp only [Option.bind_some]
        rw [hA3.rd (haddr (show j < dof by omega))]
        simp only [Option.bind_some]
        have hother : ∀ x, x < dims.length → upd1 A2 (t * dof + d) (mean R (dofVal dims d)) (t * dof + x) = mean R (coord dims x) := by
          intro x hx
          simp only [upd1, if_neg (show t * dof + x ≠ t * dof + d by omega)]
          rw [h2 x (by omega), if_pos (by omega)]
          simp [dofFinal, hx]
        obtain ⟨l3, e3, hA4⟩ := hA3.wr (haddr hd) (upd1 A2 (t * dof + d) (mean R (dofVal dims d)) (t * dof + d) - upd1 A2 (t * dof + d) (mean R (dofVal dims d)) (t * dof + i) * upd1 A2 (t * dof + d) (mean R (dofVal dims d)) (t * dof + j))
        rw [e3]
        refine ⟨_, rfl, _, hA4, ?_, ?_⟩
        · intro d' hd'
          by_cases c2 : d' = d
          · subst c2
            rw [if_pos (by omega), hother i hi, hother j q2]
            simp only [upd1, if_true]
            have hdv : dofVal dims d' = fun q => coord dims i q * coord dims j q := by
              funext q
              simp only [dofVal, if_neg (show ¬ d' < dims.length by omega), ep]
            simp only [dofFinal, if_neg (show ¬ d' < dims.length by omega), ep, covariance, hdv]
          · simp only [upd1, if_neg (show t * dof + d' ≠ t * dof + d by omega)]
            rw [h2 d' hd']
            have : d' < d + 1 ↔ d' < d := by omega
            simp only [this]
        · intro d' hd' k hk
          have : k * dof + d' ≠ t * dof + d := fun e => by have := Flat.addr_inj (m := dof) hd' hd e; omega
          simp only [upd1, if_neg this]
          exact h3 d' hd' k hk
      · rw [if_neg c]
        refine ⟨_, rfl, _, hA3, ?_, ?_⟩
        · intro d' hd'
          by_cases c2 : d' = d
          · subst c2
            rw [if_pos (by omega)]
            simp only [upd1, if_true]
            have hdv : dofVal dims d' = coord dims d' := by
              funext q
              simp only [dofVal, if_pos (show d' < dims.length by omega)]
            simp only [dofFinal, if_pos (show d' < dims.length by omega), hdv]
          · simp only [upd1, if_neg (show t * dof + d' ≠ t * dof + d by omega)]
            rw [h2 d' hd']
            have : d' < d + 1 ↔ d' < d := by omega
            simp only [this]
        · intro d' hd' k hk
          have : k * dof + d' ≠ t * dof + d := fun e => by have := Flat.addr_inj (m := dof) hd' hd e; omega
          simp only [upd1, if_neg this]
          exact h3 d' hd' k hk

/-- C86: the ellipsoid of the region number `k` of the result holds the mean of the coordinates of the pixels of the region, then their covariances, in the order (0,0), (0,1), (1,1), (0,2), …
No access is out of bounds, whatever the buffers hold at the beginning. -/
theorem ellFit_correct (P : Params) (dims im : List Nat) (hl : im.length = dims.prod) (h256 : ∀ v ∈ im, v < 256) (hsmall : dims.prod < 2 ^ 32) (h0 : 0 < dims.prod) (perm0 : List Nat)
    (hp0 : perm0.length = dims.prod) (r0 : List Reg) (hr0 : r0.length = dims.prod) (erBuf : Nat → List Er) (herb : ∀ n, n ≤ (erBuf n).length) :
    ∃ o, process P dims im perm0 r0 erBuf = some o ∧ ∀ (acc ell : List ℚ), acc.length = dims.prod → o.mer.length * (dims.length * (dims.length + 1) / 2 + dims.length) ≤ ell.length →
      ∃ ell', ellFit dims o acc ell = some ell' ∧ ell'.length = ell.length ∧ ∀ (k p : Nat), o.mer[k]? = some p →
        (∀ d < dims.length, ell'[k * (dims.length * (dims.length + 1) / 2 + dims.length) + d]? = some (mean (Ext dims im (pix im p) p) (coord dims d))) ∧
        ∀ i j, i ≤ j → j < dims.length → ell'[k * (dims.length * (dims.length + 1) / 2 + dims.length) + (dims.length + (j * (j + 1) / 2 + i))]? =
          some (covariance (Ext dims im (pix im p) p) (coord dims i) (coord dims j)) := by
  obtain ⟨o, r, f, f', g₀, g₁, g, m, e, hperm, F, hr, hf', hner, hnx, hm, her, T, hst, hvar, hsr, hstab, hun, hnm, hk, hb1, hb2, hb3, hsum, hmer⟩ :=
    process_spec P dims im hl h256 hsmall h0 perm0 hp0 r0 hr0 erBuf herb
  refine ⟨o, e, ?_⟩
  intro acc ell hacc hell
  have hm' : ∀ p ∈ o.mer, p < dims.prod ∧ Final.Extremal im o.joins f p := by
    intro p hp
    rw [hmer, List.mem_map] at hp
    obtain ⟨k, hk, rfl⟩ := hp
    rw [List.mem_filter, List.mem_range] at hk
    have hkl : k < (extList im f o.perm).length := by omega
    have hidx := (T.index k _ (List.getElem?_eq_getElem hkl)).1
    rw [hidx]
    have hmem : (extList im f o.perm)[k] ∈ extList im f o.perm := List.getElem_mem _
    rw [mem_extList hperm] at hmem
    exact ⟨hmem.1, (isExt_iff F hmem.1).mp hmem.2⟩
  unfold ellFit
  simp only [numPixels_eq]
  simp only [tri_eq] at hell ⊢
  by_cases c : o.mer.length = 0
  · rw [if_pos c]
    refine ⟨ell, rfl, rfl, ?_⟩
    intro k p hkp
    rw [List.getElem?_eq_some_iff] at hkp
    obtain ⟨h, _⟩ := hkp
    omega
  · rw [if_neg c]
    obtain ⟨acc', ell1, A, e1, hA, hAe⟩ := moments_spec F hr (fun p hp => (hf' p hp).1) (dims_pos h0) hm' hacc hell
    rw [e1]
    simp only [Option.bind_eq_bind, Option.bind_some]
    have hlen1 := hA.len
    have hA1 : Arr ell1 ell1.length A := by rw [hlen1]; exact hA
    obtain ⟨ell2, A', e2, hA2, hfin⟩ := central_spec (im := im) hr (mer := o.mer) (fun p hp => by
      obtain ⟨h1, h2⟩ := hm' p hp
      have harea : (f' p).area = (Ext dims im (pix im p) p).ncard := by rw [(hf' p h1).2]; exact F.area h1 h2
      refine ⟨h1, harea, ?_⟩
      rw [harea, Set.ncard_pos (ext_finite h1)]
      exact ⟨p, ext_self⟩) (by rw [hlen1]; exact hell) hA1 hAe
    rw [e2]
    refine ⟨ell2, rfl, by rw [hA2.len, hlen1], ?_⟩
    intro k p hkp
    have hkl : k < o.mer.length := by rw [List.getElem?_eq_some_iff] at hkp; exact hkp.1
    constructor
    · intro d hd
      have := addr_lt hkl (show d < tri dims.length + dims.length by omega)
      rw [hA2.get _ (by omega), hfin d (by omega) k p hkp]
      simp [dofFinal, hd]
    · intro i j hij hj
      have htri := tri_mono (show j + 1 ≤ dims.length by omega)
      simp only [tri] at htri
      have hd : dims.length + (tri j + i) < tri dims.length + dims.length := by omega
      have := addr_lt hkl hd
      rw [hA2.get _ (by omega), hfin _ hd k p hkp]
      obtain ⟨i', j', ep, q1, q2, q3⟩ := pairOf_lt (n := dims.length) (d := tri j + i) (by omega)
      obtain ⟨rfl, rfl⟩ := tri_unique q1 hij q3
      simp only [dofFinal, if_neg (show ¬ dims.length + (tri j' + i') < dims.length by omega), show dims.length + (tri j' + i') - dims.length = tri j' + i' by omega, ep]

/-- The hypotheses are met by the small example, whose ellipsoids are computed. -/
example : (smallRun 0).bind (fun o => ellFit [2, 3] o (List.replicate 6 8) (List.replicate 15 7)) =
    some [1, 1/2, 0, 0, 1/4, 1/2, 3/4, 1/4, -1/8, 11/16, 2/5, 4/5, 6/25, -3/25, 14/25] := by decide +kernel

end Verif.Mser
