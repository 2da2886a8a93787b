import Verif.Life.BufProps
import Verif.Life.SiftModel

/-! # C231: SIFT filters serve any sequence of calls and give back their memory -/

namespace Verif.Life

/-! ## Specification -/

/-- The filter for a smoothing: its support has radius `⌈4 σ⌉`, at least one. -/
def filterOf (tap : ℚ → Nat → ℚ) (σ : ℚ) : List ℚ := (List.range (2 * max ⌈4 * σ⌉.toNat 1 + 1)).map (tap σ)

/-- Calls that the library makes: octaves that are not larger than the first one and smoothings that are not void. -/
def SLegal (nel : Nat) : SOp → Prop
  | .octave a σs _ => a ≤ nel ∧ ∀ σ ∈ σs, σ ≠ 0
  | _ => True

/-- The filter after some calls. -/
def SReached (E : Env) (tap : ℚ → Nat → ℚ) (h0 : Heap) (nel S : Nat) (ops : List SOp) (r : Sf × Heap) : Prop :=
  ∃ s0, sNew E h0 nel S = some s0 ∧ sRun E tap ops s0 = some r

/-! ## Proofs -/

/-- The blocks that a filter always has. -/
def sBase (s : Sf) (t o d g : List ℚ) : List Block :=
  [(s.self, []), (s.temp, t), (s.octave, o), (s.dog, d), (s.grad, g)]

structure SInv (tap : ℚ → Nat → ℚ) (h : Heap) (s : Sf) (F : List Block) (t o d g fv kv : List ℚ) : Prop where
  own : Own h (sBase s t o d g ++ (blk s.gauss fv ++ (blk s.keys kv ++ F)))
  lt : t.length = s.nel
  lo : o.length = s.nel * (s.S + 3)
  ld : d.length = s.nel * (s.S + 2)
  lg : g.length = s.nel * 2 * (s.S + 2)
  area : s.area ≤ s.nel
  gauss : (s.gauss = none ∧ s.gaussSigma = 0 ∧ s.gaussWidth = 0) ∨
    (s.gauss ≠ none ∧ fv = filterOf tap s.gaussSigma ∧ s.gaussWidth = max ⌈4 * s.gaussSigma⌉.toNat 1)
  keys : (s.keys = none ∧ s.keysRes = 0) ∨ (s.keys ≠ none ∧ kv.length = s.keysRes)
  num : s.nkeys ≤ s.keysRes

theorem sNew_inv {E : Env} (ok : ∀ m, E.ok m = true) (tap : ℚ → Nat → ℚ) {h : Heap} {F : List Block} (o : Own h F) (nel S : Nat) :
    ∃ s h' t oc d g, sNew E h nel S = some (s, h') ∧ SInv tap h' s F t oc d g [] [] ∧ s.nel = nel := by
  obtain ⟨h1, p, v, e1, hv, o1⟩ := need_own (E := E) o 0 ok
  obtain rfl : v = [] := List.length_eq_zero_iff.mp hv
  obtain ⟨h2, p2, v2, e2, hv2, o2⟩ := need_own (E := E) o1 nel ok
  obtain ⟨h3, p3, v3, e3, hv3, o3⟩ := need_own (E := E) o2 (nel * (S + 3)) ok
  obtain ⟨h4, p4, v4, e4, hv4, o4⟩ := need_own (E := E) o3 (nel * (S + 2)) ok
  obtain ⟨h5, p5, v5, e5, hv5, o5⟩ := need_own (E := E) o4 (nel * 2 * (S + 2)) ok
  refine ⟨_, h5, v2, v3, v4, v5, by simp only [sNew, e1, e2, e3, e4, e5, Option.bind_eq_bind, Option.bind_some]; rfl, ?_, rfl⟩
  exact ⟨o5.of_perm (by simp only [sBase, blk]; perm), hv2, hv3, hv4, hv5, Nat.zero_le _, .inl ⟨rfl, rfl, rfl⟩, .inl ⟨rfl, rfl⟩, Nat.le_refl _⟩

theorem SInv.self {tap : ℚ → Nat → ℚ} {h : Heap} {s : Sf} {F : List Block} {t o d g fv kv : List ℚ} (v : SInv tap h s F t o d g fv kv) :
    load h s.self = some [] := load_own v.own

theorem sDelete_own {tap : ℚ → Nat → ℚ} {h : Heap} {s : Sf} {F : List Block} {t o d g fv kv : List ℚ} (v : SInv tap h s F t o d g fv kv) :
    ∃ h', sDelete h s = some h' ∧ Own h' F := by
  obtain ⟨h1, e1, o1⟩ := freeIf_own (h := h) (p := s.keys) (v := kv) (R := sBase s t o d g ++ (blk s.gauss fv ++ F)) (v.own.of_perm (by perm))
  obtain ⟨h2, e2, o2⟩ := free_own (h := h1) (p := s.grad) (v := g)
    (B := (s.self, []) :: (s.temp, t) :: (s.octave, o) :: (s.dog, d) :: (blk s.gauss fv ++ F)) (o1.of_perm (by simp only [sBase]; perm))
  obtain ⟨h3, e3, o3⟩ := free_own (h := h2) (p := s.dog) (v := d)
    (B := (s.self, []) :: (s.temp, t) :: (s.octave, o) :: (blk s.gauss fv ++ F)) (o2.of_perm (by perm))
  obtain ⟨h4, e4, o4⟩ := free_own (h := h3) (p := s.octave) (v := o)
    (B := (s.self, []) :: (s.temp, t) :: (blk s.gauss fv ++ F)) (o3.of_perm (by perm))
  obtain ⟨h5, e5, o5⟩ := free_own (h := h4) (p := s.temp) (v := t)
    (B := (s.self, []) :: (blk s.gauss fv ++ F)) (o4.of_perm (by perm))
  obtain ⟨h6, e6, o6⟩ := freeIf_own (h := h5) (p := s.gauss) (v := fv) (R := (s.self, []) :: F) (o5.of_perm (by perm))
  obtain ⟨h7, e7, o7⟩ := free_own o6
  exact ⟨h7, by simp [sDelete, v.self, e1, e2, e3, e4, e5, e6, e7], o7⟩

theorem sFilter_inv {E : Env} (ok : ∀ m, E.ok m = true) {tap : ℚ → Nat → ℚ} {h : Heap} {s : Sf} {F : List Block} {t o d g fv kv : List ℚ}
    (v : SInv tap h s F t o d g fv kv) {σ : ℚ} (hσ : σ ≠ 0) :
    ∃ q h', sFilter E tap h s σ =
        some ({ s with gauss := some q, gaussSigma := σ, gaussWidth := max ⌈4 * σ⌉.toNat 1 }, h') ∧
      SInv tap h' { s with gauss := some q, gaussSigma := σ, gaussWidth := max ⌈4 * σ⌉.toNat 1 } F t o d g (filterOf tap σ) kv := by
  unfold sFilter
  by_cases c : s.gaussSigma ≠ σ
  · rw [if_pos c]
    obtain ⟨h1, e1, o1⟩ := freeIf_own (h := h) (p := s.gauss) (v := fv) (R := sBase s t o d g ++ (blk s.keys kv ++ F)) (v.own.of_perm (by perm))
    obtain ⟨h2, q, w, e2, hw, o2⟩ := need_own (E := E) o1 (2 * max ⌈4 * σ⌉.toNat 1 + 1) ok
    obtain ⟨h3, e3, o3⟩ := store_full o2 (filterOf tap σ) (by simp [filterOf, hw])
    refine ⟨q, h3, ?_, ?_⟩
    · have e3' : store h2 q (List.map (tap σ) (List.range (2 * max ⌈4 * σ⌉.toNat 1 + 1))) = some h3 := e3
      simp only [e1, e2, e3', Option.bind_eq_bind, Option.bind_some]
    · exact ⟨o3.of_perm (by simp only [sBase, blk]; perm), v.lt, v.lo, v.ld, v.lg, v.area, .inr ⟨by simp, rfl, rfl⟩, v.keys, v.num⟩
  · rw [if_neg c]
    rw [not_not] at c
    rcases v.gauss with ⟨-, c', -⟩ | ⟨hq, hf, hw⟩
    · exact absurd (c.symm.trans c') hσ
    · obtain ⟨q, hq⟩ := Option.ne_none_iff_exists'.mp hq
      have e : ({ s with gauss := some q, gaussSigma := σ, gaussWidth := max ⌈4 * σ⌉.toNat 1 } : Sf) = s := by
        rw [← hq, ← c, ← hw]
      refine ⟨q, h, by rw [e], ?_⟩
      rw [e, ← c, ← hf]
      exact v

theorem sSmooths_inv {E : Env} (ok : ∀ m, E.ok m = true) {tap : ℚ → Nat → ℚ} {F : List Block} {t o d g kv : List ℚ} (σs : List ℚ) :
    ∀ {h : Heap} {s : Sf} {fv : List ℚ}, SInv tap h s F t o d g fv kv → (∀ σ ∈ σs, σ ≠ 0) →
    ∃ q x w h' fv', sSmooths E tap σs h s = some (({ s with gauss := q, gaussSigma := x, gaussWidth := w }, σs.map (filterOf tap)), h') ∧
      SInv tap h' { s with gauss := q, gaussSigma := x, gaussWidth := w } F t o d g fv' kv := by
  induction σs with
  | nil => exact fun {h s fv} v _ => ⟨s.gauss, s.gaussSigma, s.gaussWidth, h, fv, rfl, v⟩
  | cons σ σs ih =>
    intro h s fv v hσ
    obtain ⟨q, h1, e1, v1⟩ := sFilter_inv ok v (hσ σ (by simp))
    obtain ⟨q2, x2, w2, h2, fv2, e2, v2⟩ := ih v1 (fun x hx => hσ x (by simp [hx]))
    refine ⟨q2, x2, w2, h2, fv2, ?_, v2⟩
    have hr : readIf h1 (some q) (2 * max ⌈4 * σ⌉.toNat 1 + 1) = some (filterOf tap σ) := by
      have o1 : Own h1 (blk (some q) (filterOf tap σ ++ []) ++ (sBase s t o d g ++ (blk s.keys kv ++ F))) := by
        rw [List.append_nil]
        exact v1.own.of_perm (by simp only [sBase, blk]; perm)
      have := readIf_own (p := some q) (v := filterOf tap σ) (w := []) o1 (by simp)
      simpa [filterOf] using this
    have hw : ¬ max ⌈4 * σ⌉.toNat 1 = 0 := by omega
    simp only [sSmooths, sSmooth, e1, Option.bind_eq_bind, Option.bind_some, if_neg hw, hr, e2, List.map_cons]

theorem sOctave_inv {E : Env} (ok : ∀ m, E.ok m = true) {tap : ℚ → Nat → ℚ} {h : Heap} {s : Sf} {F : List Block} {t o d g fv kv : List ℚ}
    (v : SInv tap h s F t o d g fv kv) {a : Nat} (ha : a ≤ s.nel) (σs : List ℚ) (hσ : ∀ σ ∈ σs, σ ≠ 0) (x : Nat → ℚ) :
    ∃ s' h' t' o' fv', sOctave E tap h s a σs x = some ((s', σs.map (filterOf tap)), h') ∧ SInv tap h' s' F t' o' d g fv' kv ∧
      s'.nel = s.nel ∧ s'.nkeys = 0 := by
  have v1 : SInv tap h { s with nkeys := 0, area := a } F t o d g fv kv :=
    ⟨v.own, v.lt, v.lo, v.ld, v.lg, ha, v.gauss, v.keys, Nat.zero_le _⟩
  obtain ⟨q, y, w, h1, fv1, e1, v2⟩ := sSmooths_inv ok σs v1 hσ
  obtain ⟨h2, e2, o2⟩ := store_own (h := h1) (p := s.temp) (w := t)
    (B := (s.self, []) :: (s.octave, o) :: (s.dog, d) :: (s.grad, g) :: (blk q fv1 ++ (blk s.keys kv ++ F)))
    (v2.own.of_perm (by simp only [sBase]; perm)) ((List.range a).map x) (by simp [v.lt, ha])
  obtain ⟨h3, e3, o3⟩ := store_own (h := h2) (p := s.octave) (w := o)
    (B := (s.temp, (List.range a).map x ++ t.drop ((List.range a).map x).length) :: (s.self, []) :: (s.dog, d) :: (s.grad, g) ::
      (blk q fv1 ++ (blk s.keys kv ++ F)))
    (o2.of_perm (by perm)) ((List.range (a * (s.S + 3))).map x) (by
      simp only [List.length_map, List.length_range, v.lo]; exact Nat.mul_le_mul_right _ ha)
  refine ⟨{ s with nkeys := 0, area := a, gauss := q, gaussSigma := y, gaussWidth := w }, h3, (List.range a).map x ++ t.drop ((List.range a).map x).length,
    (List.range (a * (s.S + 3))).map x ++ o.drop ((List.range (a * (s.S + 3))).map x).length, fv1,
    by simp only [sOctave, v.self, e1, e2, e3, Option.bind_eq_bind, Option.bind_some], ?_, rfl, rfl⟩
  refine ⟨o3.of_perm (by simp only [sBase]; perm), ?_, ?_, v.ld, v.lg, ha, v2.gauss, v.keys, Nat.zero_le _⟩
  · have := v.lt
    simp only [List.length_append, List.length_drop, List.length_map, List.length_range]
    omega
  · have := v.lo
    have h4 := Nat.mul_le_mul_right (s.S + 3) ha
    simp only [List.length_append, List.length_drop, List.length_map, List.length_range]
    omega

theorem sPut_own {h : Heap} {B : List Block} {p i : Nat} {w : List ℚ} (o : Own h ((p, w) :: B)) (x : ℚ) (hi : i < w.length) :
    ∃ h', put h p i x = some h' ∧ Own h' ((p, w.set i x) :: B) := by
  obtain ⟨h', e, o'⟩ := store_full o (w.set i x) (by simp)
  exact ⟨h', by simp only [put, load_own o, Option.bind_eq_bind, Option.bind_some, if_pos hi, e], o'⟩

theorem reneed_own {E : Env} (ok : ∀ m, E.ok m = true) {h : Heap} {B : List Block} {p n : Nat} {w : List ℚ} (o : Own h ((p, w) :: B))
    (hn : w.length ≤ n) : ∃ q h' w', reneed E h p n = some (q, h') ∧ Own h' ((q, w ++ w') :: B) ∧ (w ++ w').length = n := by
  obtain ⟨h1, q, x, e1, hx, o1⟩ := need_own (E := E) o n ok
  obtain ⟨h2, e2, o2⟩ := store_own o1 w (by omega)
  obtain ⟨h3, e3, o3⟩ := free_own (h := h2) (p := p) (v := w) (B := (q, w ++ x.drop w.length) :: B) (o2.of_perm (by perm))
  refine ⟨q, h3, x.drop w.length, ?_, o3, by simp; omega⟩
  simp only [reneed, load_own o, e1, Option.bind_eq_bind, Option.bind_some, List.take_of_length_le hn, e2, e3]

theorem sPush_inv {E : Env} (ok : ∀ m, E.ok m = true) {tap : ℚ → Nat → ℚ} {h : Heap} {s : Sf} {F : List Block} {t o d g fv kv : List ℚ}
    (v : SInv tap h s F t o d g fv kv) (x : ℚ) :
    ∃ k r h' kv', sPush E h s x = some ({ s with keys := some k, keysRes := r, nkeys := s.nkeys + 1 }, h') ∧
      SInv tap h' { s with keys := some k, keysRes := r, nkeys := s.nkeys + 1 } F t o d g fv kv' ∧
      kv'.take (s.nkeys + 1) = (if s.keys = none then [] else kv.take s.nkeys) ++ [x] := by
  -- room for one more
  have room : ∃ k r h1 w, sRoom E h s = some ({ s with keys := some k, keysRes := r }, h1) ∧ s.nkeys < r ∧ w.length = r ∧
      Own h1 ((k, w) :: (sBase s t o d g ++ (blk s.gauss fv ++ F))) ∧ w.take s.nkeys = (if s.keys = none then [] else kv.take s.nkeys) := by
    unfold sRoom
    by_cases c : s.nkeys ≥ s.keysRes
    · rw [if_pos c]
      cases hk : s.keys with
      | none =>
        have hz : s.nkeys = 0 := by
          rcases v.keys with ⟨-, h0⟩ | ⟨h0, -⟩
          · have := v.num; omega
          · exact absurd hk h0
        have o0 : Own h (sBase s t o d g ++ (blk s.gauss fv ++ F)) := by
          have := v.own
          rw [hk] at this
          exact this
        obtain ⟨h1, q, w, e1, hw, o1⟩ := need_own (E := E) o0 (s.keysRes + 500) ok
        exact ⟨q, s.keysRes + 500, h1, w, by simp only [e1, Option.map_some], by have := v.num; omega, hw, o1, by simp [hz]⟩
      | some p =>
        have hl : kv.length = s.keysRes := by
          rcases v.keys with ⟨h0, -⟩ | ⟨-, h0⟩
          · rw [hk] at h0; cases h0
          · exact h0
        have o0 : Own h ((p, kv) :: (sBase s t o d g ++ (blk s.gauss fv ++ F))) := by
          have := v.own
          rw [hk] at this
          exact this.of_perm (by simp only [blk]; perm)
        obtain ⟨q, h1, w', e1, o1, hw⟩ := reneed_own ok o0 (n := s.keysRes + 500) (by omega)
        refine ⟨q, s.keysRes + 500, h1, kv ++ w', by simp only [e1, Option.map_some],
          by have := v.num; omega, hw, o1, ?_⟩
        rw [List.take_append_of_le_length (by have := v.num; omega)]
        simp
    · rw [if_neg c]
      rcases v.keys with ⟨-, h0⟩ | ⟨h0, hl⟩
      · omega
      · obtain ⟨p, hk⟩ := Option.ne_none_iff_exists'.mp h0
        refine ⟨p, s.keysRes, h, kv, by rw [← hk], by omega, hl, ?_, by simp [hk]⟩
        have := v.own
        rw [hk] at this
        exact this.of_perm (by simp only [blk]; perm)
  obtain ⟨k, r, h1, w, e1, hr, hw, o1, ht⟩ := room
  obtain ⟨h2, e2, o2⟩ := sPut_own o1 x (i := s.nkeys) (by omega)
  refine ⟨k, r, h2, w.set s.nkeys x, ?_, ?_, ?_⟩
  · simp only [sPush, e1, Option.bind_eq_bind, Option.bind_some, e2]
  · exact ⟨o2.of_perm (by simp only [sBase, blk]; perm), v.lt, v.lo, v.ld, v.lg, v.area, v.gauss, .inr ⟨by simp, by simp [hw]⟩, hr⟩
  · rw [← ht, List.take_add_one, List.take_set_of_le (Nat.le_refl _), List.getElem?_set_self (by omega)]
    rfl

theorem sPushes_inv {E : Env} (ok : ∀ m, E.ok m = true) {tap : ℚ → Nat → ℚ} {F : List Block} {t o d g fv : List ℚ} (found : List ℚ) :
    ∀ {h : Heap} {s : Sf} {kv : List ℚ}, SInv tap h s F t o d g fv kv →
    ∃ k r h' kv', sPushes E found h s = some ({ s with keys := k, keysRes := r, nkeys := s.nkeys + found.length }, h') ∧
      SInv tap h' { s with keys := k, keysRes := r, nkeys := s.nkeys + found.length } F t o d g fv kv' ∧
      (if k = none then [] else kv'.take (s.nkeys + found.length)) = (if s.keys = none then [] else kv.take s.nkeys) ++ found := by
  induction found with
  | nil => exact fun {h s kv} v => ⟨s.keys, s.keysRes, h, kv, rfl, v, by simp⟩
  | cons x found ih =>
    intro h s kv v
    obtain ⟨k, r, h1, kv1, e1, v1, t1⟩ := sPush_inv ok v x
    obtain ⟨k2, r2, h2, kv2, e2, v2, t2⟩ := ih v1
    have e : s.nkeys + 1 + found.length = s.nkeys + (x :: found).length := by rw [List.length_cons]; omega
    simp only [e] at e2 v2 t2
    refine ⟨k2, r2, h2, kv2, by simp only [sPushes, e1, Option.bind_eq_bind, Option.bind_some, e2], v2, ?_⟩
    rw [t2, if_neg (by simp), t1, List.append_assoc]
    rfl

theorem sRefine_own (refine : ℚ → Option ℚ) {p : Nat} {B : List Block} (found : List ℚ) (m : Nat) :
    ∀ {i j : Nat} {h : Heap} {w : List ℚ}, Own h ((p, w) :: B) → i + m = found.length → found.length ≤ w.length → j ≤ i →
      (∀ k, i ≤ k → k < found.length → w[k]? = found[k]?) → w.take j = (found.take i).filterMap refine →
    ∃ n h' w', sRefine refine p m i j h = some (n, h') ∧ Own h' ((p, w') :: B) ∧ w'.length = w.length ∧ n ≤ found.length ∧
      w'.take n = found.filterMap refine := by
  induction m with
  | zero =>
    intro i j h w o hi hl hj hk ht
    refine ⟨j, h, w, rfl, o, rfl, by omega, ?_⟩
    rw [ht, List.take_of_length_le (by omega)]
  | succ m ih =>
    intro i j h w o hi hl hj hk ht
    have hif : i < found.length := by omega
    have hx : w[i]? = some found[i] := by rw [hk i (Nat.le_refl _) hif]; exact List.getElem?_eq_getElem hif
    have hs : (found.take (i + 1)).filterMap refine = (found.take i).filterMap refine ++ (refine found[i]).toList := by
      rw [List.take_succ_eq_append_getElem hif, List.filterMap_append]
      cases hr : refine found[i] <;> simp [hr]
    cases hr : refine found[i] with
    | none =>
      obtain ⟨n, h', w', e, o', hw, hn, hf⟩ := ih (i := i + 1) (j := j) o (by omega) hl (by omega)
        (fun k hk1 hk2 => hk k (by omega) hk2) (by rw [hs, hr, ht]; simp)
      exact ⟨n, h', w', by simp only [sRefine, load_own o, hx, hr, Option.bind_eq_bind, Option.bind_some, e], o', hw, hn, hf⟩
    | some y =>
      obtain ⟨h1, e1, o1⟩ := sPut_own o y (i := j) (by omega)
      obtain ⟨n, h', w', e, o', hw, hn, hf⟩ := ih (i := i + 1) (j := j + 1) o1 (by omega) (by simpa using hl) (by omega)
        (fun k hk1 hk2 => by rw [List.getElem?_set_ne (by omega)]; exact hk k (by omega) hk2)
        (by
          rw [hs, hr, ← ht, List.take_add_one, List.take_set_of_le (Nat.le_refl _), List.getElem?_set_self (by omega)])
      exact ⟨n, h', w', by simp only [sRefine, load_own o, hx, hr, e1, Option.bind_eq_bind, Option.bind_some, e], o',
        by simpa using hw, hn, hf⟩

theorem sDetect_inv {E : Env} (ok : ∀ m, E.ok m = true) {tap : ℚ → Nat → ℚ} {h : Heap} {s : Sf} {F : List Block} {t o d g fv kv : List ℚ}
    (v : SInv tap h s F t o d g fv kv) (x : Nat → ℚ) (found : List ℚ) (refine : ℚ → Option ℚ) :
    ∃ s' h' d' kv', sDetect E h s x found refine = some (s', h') ∧ SInv tap h' s' F t o d' g fv kv' ∧ s'.nel = s.nel ∧
      s'.nkeys = (found.filterMap refine).length ∧ sKeys h' s' = some (found.filterMap refine) := by
  obtain ⟨h1, e1, o1⟩ := store_own (h := h) (p := s.dog) (w := d)
    (B := (s.self, []) :: (s.temp, t) :: (s.octave, o) :: (s.grad, g) :: (blk s.gauss fv ++ (blk s.keys kv ++ F)))
    (v.own.of_perm (by simp only [sBase]; perm)) ((List.range (s.area * (s.S + 2))).map x) (by
      simp only [List.length_map, List.length_range, v.ld]; exact Nat.mul_le_mul_right _ v.area)
  have v1 : SInv tap h1 { s with nkeys := 0 } F t o ((List.range (s.area * (s.S + 2))).map x ++ d.drop ((List.range (s.area * (s.S + 2))).map x).length)
      g fv kv := by
    refine ⟨o1.of_perm (by simp only [sBase]; perm), v.lt, v.lo, ?_, v.lg, v.area, v.gauss, v.keys, Nat.zero_le _⟩
    have := v.ld
    have h4 := Nat.mul_le_mul_right (s.S + 2) v.area
    simp only [List.length_append, List.length_drop, List.length_map, List.length_range]
    omega
  obtain ⟨k, r, h2, kv2, e2, v2, t2⟩ := sPushes_inv ok found v1
  simp only [Nat.zero_add, List.take_zero, ite_self, List.nil_append] at e2 v2 t2
  cases k with
  | none =>
    have hf : found = [] := by simpa using t2.symm
    subst hf
    exact ⟨{ s with keys := none, keysRes := r, nkeys := 0 }, h2, _, kv2,
      by simp only [sDetect, v.self, e1, e2, Option.bind_eq_bind, Option.bind_some], v2, rfl, rfl, rfl⟩
  | some k =>
    rw [if_neg (by simp)] at t2
    have hl : kv2.length = r := by
      rcases v2.keys with ⟨h0, -⟩ | ⟨-, h0⟩
      · cases h0
      · exact h0
    have hn : found.length ≤ r := v2.num
    obtain ⟨n, h3, w, e3, o3, hw, hn', hf⟩ := sRefine_own refine (p := k) (h := h2) (w := kv2)
      (B := sBase s t o ((List.range (s.area * (s.S + 2))).map x ++ d.drop ((List.range (s.area * (s.S + 2))).map x).length) g ++ (blk s.gauss fv ++ F))
      found found.length (i := 0) (j := 0) (v2.own.of_perm (by simp only [sBase, blk]; perm)) (by omega) (by omega) (Nat.le_refl _)
      (fun j _ hj => by rw [← List.getElem?_take_of_lt hj, t2]) (by simp)
    refine ⟨{ s with keys := some k, keysRes := r, nkeys := n }, h3,
      (List.range (s.area * (s.S + 2))).map x ++ d.drop ((List.range (s.area * (s.S + 2))).map x).length, w,
      by simp only [sDetect, v.self, e1, e2, e3, Option.bind_eq_bind, Option.bind_some], ?_, rfl, ?_, ?_⟩
    · exact ⟨o3.of_perm (by simp only [sBase, blk]; perm), v.lt, v.lo, v1.ld, v.lg, v.area, v.gauss, .inr ⟨by simp, hw.trans hl⟩,
        Nat.le_trans hn' hn⟩
    · rw [← hf, List.length_take]
      show n = _
      omega
    · simp only [sKeys, readIf, load_own o3, Option.bind_eq_bind, Option.bind_some]
      rw [if_pos (by omega), hf]

theorem sGrad_inv {tap : ℚ → Nat → ℚ} {h : Heap} {s : Sf} {F : List Block} {t o d g fv kv : List ℚ}
    (v : SInv tap h s F t o d g fv kv) (x : Nat → ℚ) :
    ∃ h' g', sGrad h s x = some (s, h') ∧ SInv tap h' s F t o d g' fv kv := by
  have hle : 2 * s.area * s.S ≤ s.nel * 2 * (s.S + 2) := by
    rw [Nat.mul_comm s.nel 2]
    exact Nat.mul_le_mul (Nat.mul_le_mul_left 2 v.area) (by omega)
  obtain ⟨h1, e1, o1⟩ := store_own (h := h) (p := s.grad) (w := g)
    (B := (s.self, []) :: (s.temp, t) :: (s.octave, o) :: (s.dog, d) :: (blk s.gauss fv ++ (blk s.keys kv ++ F)))
    (v.own.of_perm (by simp only [sBase]; perm)) ((List.range (2 * s.area * s.S)).map x) (by
      simp only [List.length_map, List.length_range, v.lg]; exact hle)
  refine ⟨h1, (List.range (2 * s.area * s.S)).map x ++ g.drop ((List.range (2 * s.area * s.S)).map x).length, by simp only [sGrad, v.self, e1, Option.bind_eq_bind, Option.bind_some], ?_⟩
  refine ⟨o1.of_perm (by simp only [sBase]; perm), v.lt, v.lo, v.ld, ?_, v.area, v.gauss, v.keys, v.num⟩
  have := v.lg
  simp only [List.length_append, List.length_drop, List.length_map, List.length_range]
  omega

theorem sRun_inv {E : Env} (ok : ∀ m, E.ok m = true) {tap : ℚ → Nat → ℚ} {F : List Block} {nel : Nat} (ops : List SOp) :
    ∀ {h : Heap} {s : Sf} {t o d g fv kv : List ℚ}, SInv tap h s F t o d g fv kv → s.nel = nel → (∀ op ∈ ops, SLegal nel op) →
    ∃ s' h' t' o' d' g' fv' kv', sRun E tap ops (s, h) = some (s', h') ∧ SInv tap h' s' F t' o' d' g' fv' kv' ∧ s'.nel = nel := by
  induction ops with
  | nil => exact fun {h s t o d g fv kv} v hn _ => ⟨s, h, t, o, d, g, fv, kv, rfl, v, hn⟩
  | cons op ops ih =>
    intro h s t o d g fv kv v hn hl
    have hl' : ∀ op ∈ ops, SLegal nel op := fun x hx => hl x (by simp [hx])
    have h0 := hl op (by simp)
    cases op with
    | octave a σs x =>
      obtain ⟨s1, h1, t1, o1, f1, e1, v1, n1, -⟩ := sOctave_inv ok v (hn ▸ h0.1) σs h0.2 x
      obtain ⟨s2, h2, t2, o2, d2, g2, f2, k2, e2, v2, n2⟩ := ih v1 (n1.trans hn) hl'
      exact ⟨s2, h2, t2, o2, d2, g2, f2, k2, by simp [sRun, sStep, e1, e2], v2, n2⟩
    | detect x found refine =>
      obtain ⟨s1, h1, d1, k1, e1, v1, n1, -⟩ := sDetect_inv ok v x found refine
      obtain ⟨s2, h2, t2, o2, d2, g2, f2, k2, e2, v2, n2⟩ := ih v1 (n1.trans hn) hl'
      exact ⟨s2, h2, t2, o2, d2, g2, f2, k2, by simp [sRun, sStep, e1, e2], v2, n2⟩
    | grad x =>
      obtain ⟨h1, g1, e1, v1⟩ := sGrad_inv v x
      obtain ⟨s2, h2, t2, o2, d2, g2, f2, k2, e2, v2, n2⟩ := ih v1 hn hl'
      exact ⟨s2, h2, t2, o2, d2, g2, f2, k2, by simp [sRun, sStep, e1, e2], v2, n2⟩

/-! ## Theorem -/

/-- C231: octaves, detections and gradients may follow each other in any order: no call is undefined, the blocks of others are untouched,
each smoothing uses the filter of its own standard deviation, an octave begins without keypoints, a detection leaves exactly the keypoints that
the refinement keeps, in their order and whatever their number, and deleting the filter gives back all its blocks. -/
theorem sift_history (E : Env) (ok : ∀ m, E.ok m = true) (tap : ℚ → Nat → ℚ) (h0 : Heap) (g : h0.Good) (nel S : Nat) (ops : List SOp)
    (hl : ∀ op ∈ ops, SLegal nel op) :
    (∃ r, SReached E tap h0 nel S ops r) ∧ ∀ s h, SReached E tap h0 nel S ops (s, h) →
      (∀ b ∈ h0.live, b ∈ h.live) ∧
      (∀ a σs v, SLegal nel (.octave a σs v) → ∃ s' h', sOctave E tap h s a σs v = some ((s', σs.map (filterOf tap)), h') ∧ s'.nkeys = 0) ∧
      (∀ v found refine, ∃ s' h', sDetect E h s v found refine = some (s', h') ∧ s'.nkeys = (found.filterMap refine).length ∧
        sKeys h' s' = some (found.filterMap refine)) ∧
      ∃ h', sDelete h s = some h' ∧ h'.live.Perm h0.live := by
  obtain ⟨s0, h0', t, o, d, gr, e0, v0, n0⟩ := sNew_inv ok tap g.own nel S
  obtain ⟨s1, h1, t1, o1, d1, g1, f1, k1, e1, v1, n1⟩ := sRun_inv ok ops v0 n0 hl
  refine ⟨⟨_, _, e0, e1⟩, ?_⟩
  rintro s h ⟨s0', e0', e⟩
  rw [e0] at e0'
  cases e0'
  rw [e1] at e
  cases e
  refine ⟨fun b hb => ?_, fun a σs v hs => ?_, fun v found refine => ?_, ?_⟩
  · rw [v1.own.perm.mem_iff]
    simp [hb]
  · obtain ⟨s', h', _, _, _, e, -, -, hk⟩ := sOctave_inv ok v1 (n1 ▸ hs.1) σs hs.2 v
    exact ⟨s', h', e, hk⟩
  · obtain ⟨s', h', _, _, e, -, -, hk, hr⟩ := sDetect_inv ok v1 v found refine
    exact ⟨s', h', e, hk, hr⟩
  · obtain ⟨h', e, o⟩ := sDelete_own v1
    exact ⟨h', e, o.perm⟩

/-- Two octaves with different smoothings, two detections, one of which drops a keypoint. -/
example : ((sNew allOk ⟨[], 0⟩ 4 1).bind fun s => (sRun allOk (fun _ j => j) [.octave 4 [1 / 2, 1 / 3] (fun _ => 0), .detect (fun _ => 1) [1, 2, 3] (fun x => if x = 2 then none else some (x + 1)),
    .grad (fun _ => 0), .octave 1 [1 / 3, 1 / 2] (fun _ => 0), .detect (fun _ => 1) [5, 2, 7] (fun x => if x = 2 then none else some (x + 1))] s).bind
      fun r => sKeys r.2 r.1) = some [6, 8] := by decide +kernel

example : ∀ op ∈ [SOp.octave 4 [1 / 2, 1 / 3] (fun _ => 0), .octave 1 [1 / 3, 1 / 2] (fun _ => 0)], SLegal 4 op := by
  simp [SLegal]

end Verif.Life
