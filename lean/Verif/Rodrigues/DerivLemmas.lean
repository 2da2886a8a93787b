import Verif.Rodrigues.Lemmas

/-!
# The derivative of Rodrigues' formula
-/

namespace Verif.Rodrigues

open Spec

variable {n : Nat}

/-- `f` has the partial derivatives `d` at `w`. -/
def Has (f : (Fin n → ℝ) → ℝ) (d : Fin n → ℝ) (w : Fin n → ℝ) : Prop := HasFDerivAt f (lin d) w

theorem lin_congr {d d' : Fin n → ℝ} (h : ∀ k, d k = d' k) : lin d = lin d' := by rw [funext h]

theorem lin_apply (d v : Fin n → ℝ) : lin d v = ∑ k, d k * v k := by simp [lin]

theorem Has.mul {f g : (Fin n → ℝ) → ℝ} {d e w : Fin n → ℝ} (hf : Has f d w) (hg : Has g e w) : Has (fun w => f w * g w) (fun k => f w * e k + g w * d k) w := by
  refine (HasFDerivAt.mul hf hg).congr_fderiv ?_
  ext1 v
  simp only [_root_.add_apply, _root_.smul_apply, lin_apply, smul_eq_mul, Finset.mul_sum, ← Finset.sum_add_distrib]
  exact Finset.sum_congr rfl fun k _ => by ring

theorem Has.add {f g : (Fin n → ℝ) → ℝ} {d e w : Fin n → ℝ} (hf : Has f d w) (hg : Has g e w) : Has (fun w => f w + g w) (fun k => d k + e k) w := by
  refine (HasFDerivAt.add hf hg).congr_fderiv ?_
  ext1 v
  simp only [_root_.add_apply, lin_apply, ← Finset.sum_add_distrib]
  exact Finset.sum_congr rfl fun k _ => by ring

theorem Has.sub {f g : (Fin n → ℝ) → ℝ} {d e w : Fin n → ℝ} (hf : Has f d w) (hg : Has g e w) : Has (fun w => f w - g w) (fun k => d k - e k) w := by
  refine (HasFDerivAt.sub hf hg).congr_fderiv ?_
  ext1 v
  simp only [_root_.sub_apply, lin_apply, ← Finset.sum_sub_distrib]
  exact Finset.sum_congr rfl fun k _ => by ring

theorem Has.const (c : ℝ) (w : Fin n → ℝ) : Has (fun _ => c) (fun _ => 0) w := by
  refine (hasFDerivAt_const c w).congr_fderiv ?_
  ext1 v
  simp [lin_apply]

theorem Has.comp {f : (Fin n → ℝ) → ℝ} {p : ℝ → ℝ} {d w : Fin n → ℝ} {p' : ℝ} (hp : HasDerivAt p p' (f w)) (hf : Has f d w) : Has (fun w => p (f w)) (fun k => p' * d k) w := by
  refine (hp.comp_hasFDerivAt w hf).congr_fderiv ?_
  ext1 v
  simp only [_root_.smul_apply, lin_apply, smul_eq_mul, Finset.mul_sum]
  exact Finset.sum_congr rfl fun k _ => by ring

theorem Has.coord (i : Fin n) (w : Fin n → ℝ) : Has (fun w => w i) (fun k => if k = i then 1 else 0) w := by
  refine (ContinuousLinearMap.proj (R := ℝ) (φ := fun _ : Fin n => ℝ) i).hasFDerivAt.congr_fderiv ?_
  ext1 v
  rw [lin_apply]
  simp

theorem Has.congr {f : (Fin n → ℝ) → ℝ} {d e w : Fin n → ℝ} (hf : Has f d w) (h : ∀ k, d k = e k) : Has f e w := by rwa [← funext h]

theorem has_len {w : Fin 3 → ℝ} (h : len w ≠ 0) : Has len (fun k => w k / len w) w := by
  have h0 := (Has.coord 0 w).mul (Has.coord 0 w)
  have h1 := (Has.coord 1 w).mul (Has.coord 1 w)
  have h2 := (Has.coord 2 w).mul (Has.coord 2 w)
  have hs := (h0.add h1).add h2
  have e : len = fun w => Real.sqrt (w 0 * w 0 + w 1 * w 1 + w 2 * w 2) := by
    funext w
    unfold len
    ring_nf
  have hne : w 0 * w 0 + w 1 * w 1 + w 2 * w 2 ≠ 0 := by
    intro h'
    apply h
    rw [e]
    simp [h']
  have := hs.comp (Real.hasDerivAt_sqrt hne)
  rw [e]
  refine this.congr fun k => ?_
  have hne' : Real.sqrt (w 0 * w 0 + w 1 * w 1 + w 2 * w 2) ≠ 0 := by
    rw [e] at h
    exact h
  fin_cases k <;> simp <;> field_simp <;> ring

theorem has_unit {w : Fin 3 → ℝ} (h : len w ≠ 0) (i : Fin 3) : Has (fun w => w i / len w) (fun k => ((if k = i then 1 else 0) - w i / len w * (w k / len w)) / len w) w := by
  have h1 := (Has.coord i w).mul ((has_len h).comp (hasDerivAt_inv h))
  refine HasFDerivAt.congr_of_eventuallyEq (h1.congr fun k => ?_) (Filter.Eventually.of_forall fun w => div_eq_mul_inv _ _)
  by_cases hk : k = i
  · subst hk
    simp only [if_true]
    field_simp
    ring
  · simp only [if_neg hk]
    field_simp
    ring

theorem eventually_ne {w : Fin 3 → ℝ} (h : len w ≠ 0) : ∀ᶠ v in nhds w, len v ≠ 0 := by
  have : ContinuousAt len w := (has_len h).continuousAt
  exact this.eventually_ne h

/-- The derivatives of the entries: the entry `i`, `j` and the component `k` -/
noncomputable def der (x y z a b c d : ℝ) : Fin 3 → Fin 3 → Fin 3 → ℝ := fun i j k =>
  ((assignD x y z a b c d).map Prod.snd).getD ((i.val + 3 * j.val) + 9 * k.val) 0

theorem isDer_der (x y z a b c d : ℝ) : IsDer ((assignD x y z a b c d).map Prod.snd) (der x y z a b c d) := by
  refine ⟨rfl, fun i j k => ?_⟩
  fin_cases i <;> fin_cases j <;> fin_cases k <;> rfl

/-- The derivative of the rotation about `w` -/
noncomputable def derRot (w : Fin 3 → ℝ) : Fin 3 → Fin 3 → Fin 3 → ℝ :=
  der (w 0 / len w) (w 1 / len w) (w 2 / len w) (Real.sin (len w) / len w) ((1 - Real.cos (len w)) / len w) (Real.cos (len w) - Real.sin (len w) / len w)
    (Real.sin (len w) - 2 * ((1 - Real.cos (len w)) / len w))

theorem rot_entry {w : Fin 3 → ℝ} (h : len w ≠ 0) (i j : Fin 3) :
    rot w i j = ((assignR (w 0 / len w) (w 1 / len w) (w 2 / len w) (Real.sin (len w)) (1 - Real.cos (len w))).map Prod.snd).getD (i.val + 3 * j.val) 0 := by
  rw [rot_list h]
  fin_cases i <;> fin_cases j <;> rfl

theorem rot_hasDer {w : Fin 3 → ℝ} (h : len w ≠ 0) (i j : Fin 3) : HasFDerivAt (fun w => rot w i j) (lin (derRot w i j)) w := by
  refine HasFDerivAt.congr_of_eventuallyEq ?_ ((eventually_ne h).mono fun v hv => rot_entry hv i j)
  have hx := has_unit h 0
  have hy := has_unit h 1
  have hz := has_unit h 2
  have hs := (has_len h).comp (Real.hasDerivAt_sin _)
  have hm := (Has.const 1 w).sub ((has_len h).comp (Real.hasDerivAt_cos _))
  have h1 := Has.const 1 w
  have key : ∀ {f : (Fin 3 → ℝ) → ℝ} {d : Fin 3 → ℝ}, Has f d w → (∀ k, d k = derRot w i j k) → HasFDerivAt f (lin (derRot w i j)) w := fun hf hd => Has.congr hf hd
  unfold derRot der assignD at key
  dsimp only [List.map_cons, List.map_nil] at key
  unfold assignR
  dsimp only [List.map_cons, List.map_nil]
  fin_cases i <;> fin_cases j
  · have := h1.sub (hm.mul ((hy.mul hy).add (hz.mul hz)))
    simp only [zero_sub] at this
    refine key this fun k => ?_
    fin_cases k <;> simp <;> ring
  · have := (((Has.const 0 w).sub hs).mul hz).add (hm.mul (hx.mul hy))
    simp only [zero_sub] at this
    refine key this fun k => ?_
    fin_cases k <;> simp <;> ring
  · have := (hs.mul hy).add (hm.mul (hx.mul hz))
    simp only [zero_sub] at this
    refine key this fun k => ?_
    fin_cases k <;> simp <;> ring
  · have := (hs.mul hz).add (hm.mul (hx.mul hy))
    simp only [zero_sub] at this
    refine key this fun k => ?_
    fin_cases k <;> simp <;> ring
  · have := h1.sub (hm.mul ((hz.mul hz).add (hx.mul hx)))
    simp only [zero_sub] at this
    refine key this fun k => ?_
    fin_cases k <;> simp <;> ring
  · have := (((Has.const 0 w).sub hs).mul hx).add (hm.mul (hy.mul hz))
    simp only [zero_sub] at this
    refine key this fun k => ?_
    fin_cases k <;> simp <;> ring
  · have := (((Has.const 0 w).sub hs).mul hy).add (hm.mul (hx.mul hz))
    simp only [zero_sub] at this
    refine key this fun k => ?_
    fin_cases k <;> simp <;> ring
  · have := (hs.mul hx).add (hm.mul (hy.mul hz))
    simp only [zero_sub] at this
    refine key this fun k => ?_
    fin_cases k <;> simp <;> ring
  · have := h1.sub (hm.mul ((hx.mul hx).add (hy.mul hy)))
    simp only [zero_sub] at this
    refine key this fun k => ?_
    fin_cases k <;> simp <;> ring

end Verif.Rodrigues
