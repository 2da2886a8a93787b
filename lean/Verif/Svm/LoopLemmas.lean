import Verif.Svm.Model
import Verif.Svm.Spec
import Verif.Random.ShuffleProps

/-!
# The main loop of the solvers
-/

namespace Verif.Svm

open Spec

variable {σ : Type}

theorem epochs_lt {n : Nat} (hn : 0 < n) {v : Nat → Nat} (h : Epochs n v) (t : Nat) : v t < n := by
  have h1 : v t ∈ (List.range n).map fun j => v (t / n * n + j) := by
    refine List.mem_map.2 ⟨t % n, List.mem_range.2 (Nat.mod_lt _ hn), ?_⟩
    rw [Nat.mul_comm, Nat.div_add_mod]
  exact List.mem_range.1 ((h _).mem_iff.1 h1)

theorem epochs_id (n : Nat) : Epochs n (fun t => t % n) := by
  intro e
  refine List.Perm.of_eq ?_
  conv_rhs => rw [← List.map_id (List.range n)]
  refine List.map_congr_left fun j hj => ?_
  show (e * n + j) % n = j
  rw [Nat.add_comm, Nat.add_mul_mod_self_right, Nat.mod_eq_of_lt (List.mem_range.1 hj)]

/-- A permutation of the identity is a list of indexes. -/
theorem perm_identity {n : Nat} {q : List Int} (h : q.Perm (identity n)) : ∃ f : Nat → Nat, q = (List.range n).map (fun j => (f j : Int)) ∧ ((List.range n).map f).Perm (List.range n) := by
  have hl : q.length = n := by rw [h.length_eq]; simp [identity]
  have hmem : ∀ x ∈ q, 0 ≤ x := by
    intro x hx
    have := h.mem_iff.1 hx
    simp only [identity, List.mem_map] at this
    obtain ⟨a, -, rfl⟩ := this
    exact Int.natCast_nonneg a
  refine ⟨fun j => (q.getD j 0).toNat, ?_, ?_⟩
  · apply List.ext_getElem?
    intro j
    rcases Nat.lt_or_ge j n with hj | hj
    · have : q[j]? = some (q.getD j 0) := by simp [List.getD, hl, hj]
      rw [this]
      simp only [List.getElem?_map, List.getElem?_range hj, Option.map_some]
      rw [Int.toNat_of_nonneg]
      exact hmem _ (List.mem_of_getElem? this)
    · rw [List.getElem?_eq_none (by omega), List.getElem?_eq_none (by simpa using hj)]
  · have h2 := h.map Int.toNat
    have e1 : (identity n).map Int.toNat = List.range n := by
      simp [identity, Function.comp_def]
    have e2 : q.map Int.toNat = (List.range n).map (fun j => (q.getD j 0).toNat) := by
      apply List.ext_getElem?
      intro j
      rcases Nat.lt_or_ge j n with hj | hj
      · simp [List.getD, hl, hj]
      · rw [List.getElem?_eq_none (by simpa [hl] using hj), List.getElem?_eq_none (by simpa using hj)]
    rw [e1, e2] at h2
    exact h2

section
variable {S : Type} {uindex : σ → Nat → Option (Nat × σ)} {inv : σ → Prop} {bound : Nat} (hu : Random.InRange inv bound uindex)
  {n freq maxIter : Nat} (hn : 0 < n) (hb : n ≤ bound) (h31 : n ≤ 2 ^ 31) {step : Nat → Nat → S → Option S} {diag : Nat → S → Option (S × Bool)}
  (I Q : (Nat → Nat) → Nat → S → Prop) (hcongr : ∀ v v' t s, (∀ u < t, v u = v' u) → I v t s → I v' t s)
  (hstep : ∀ v t s, t < maxIter → v t < n → I v t s → ∃ s', step t (v t) s = some s' ∧ I v (t + 1) s')
  (hdiag : ∀ v t s, Epochs n v → t < maxIter → I v (t + 1) s → ∃ s' b, diag t s = some (s', b) ∧ I v (t + 1) s' ∧ (t + 1 = maxIter → b = true) ∧ (b = true → Q v (t + 1) s'))

include hu hn hb h31 hcongr hstep hdiag

theorem mainLoop_aux (fuel : Nat) : ∀ (t : Nat) (perm : List Int) (rand : σ) (s : S) (v : Nat → Nat), t < maxIter → t + fuel = maxIter → perm.Perm (identity n) → inv rand → Epochs n v →
    (t % n ≠ 0 → ∀ j < n, perm[j]? = some (v (t / n * n + j) : Int)) → I v t s →
    ∃ s' rand' T v, mainLoop uindex n freq maxIter step diag fuel t perm rand s = some (s', rand') ∧ inv rand' ∧ 1 ≤ T ∧ T ≤ maxIter ∧ Epochs n v ∧ Q v T s' := by
  induction fuel with
  | zero => intro t _ _ _ _ h1 h2; omega
  | succ fuel ih =>
    intro t perm rand s v ht hf hperm hr hE hcur hI
    -- the permutation of this epoch
    obtain ⟨perm', rand', v', e1, hperm', hr', hE', hcur', hI'⟩ : ∃ perm' rand' v', permuteIf uindex n t perm rand = some (perm', rand') ∧ perm'.Perm (identity n) ∧ inv rand' ∧ Epochs n v' ∧
        (∀ j < n, perm'[j]? = some (v' (t / n * n + j) : Int)) ∧ I v' t s := by
      unfold permuteIf
      by_cases h0 : t % n = 0
      · rw [if_pos h0]
        obtain ⟨q, r', e, hr', hq, -⟩ := Random.permuteIndexes_perm_partial uindex inv bound hu rand hr perm n (by rw [hperm.length_eq]; simp [identity]) hb h31
        obtain ⟨f, hf1, hf2⟩ := perm_identity (hq.trans hperm)
        have ht : t / n * n = t := Nat.div_mul_cancel (Nat.dvd_of_mod_eq_zero h0)
        refine ⟨q, r', fun u => if u < t then v u else f (u % n), e, hq.trans hperm, hr', ?_, ?_, ?_⟩
        · intro k
          by_cases hk : k < t / n
          · have : ∀ j < n, k * n + j < t := by
              intro j hj
              have := Nat.mul_le_mul_right n (show k + 1 ≤ t / n by omega)
              rw [Nat.add_mul, ht] at this
              omega
            refine (List.Perm.of_eq (List.map_congr_left fun j hj => ?_)).trans (hE k)
            exact if_pos (this j (List.mem_range.1 hj))
          · have : ∀ j, ¬ k * n + j < t := by
              intro j
              have := Nat.mul_le_mul_right n (not_lt.1 hk)
              rw [ht] at this
              omega
            refine (List.Perm.of_eq (List.map_congr_left fun j hj => ?_)).trans hf2
            show (if k * n + j < t then _ else _) = _
            rw [if_neg (this j), Nat.add_comm, Nat.add_mul_mod_self_right, Nat.mod_eq_of_lt (List.mem_range.1 hj)]
        · intro j hj
          rw [hf1, ht]
          simp only [List.getElem?_map, List.getElem?_range hj, Option.map_some]
          rw [if_neg (by omega), Nat.add_mod, h0, Nat.zero_add, Nat.mod_mod, Nat.mod_eq_of_lt hj]
        · exact hcongr v _ t s (fun u hu => by rw [if_pos hu]) hI
      · rw [if_neg h0]
        exact ⟨perm, rand, v, rfl, hperm, hr, hE, hcur h0, hI⟩
    have hvt : perm'[t % n]? = some (v' t : Int) := by
      rw [hcur' _ (Nat.mod_lt _ hn), Nat.mul_comm, Nat.div_add_mod]
    obtain ⟨s1, e2, hI1⟩ := hstep v' t s ht (epochs_lt hn hE' t) hI'
    have e0 : mainLoop uindex n freq maxIter step diag (fuel + 1) t perm rand s = (if (t + 1) % freq = 0 ∨ t + 1 = maxIter then
        (diag t s1).bind fun r => if r.2 then some (r.1, rand') else mainLoop uindex n freq maxIter step diag fuel (t + 1) perm' rand' r.1
        else mainLoop uindex n freq maxIter step diag fuel (t + 1) perm' rand' s1) := by
      show (permuteIf uindex n t perm rand).bind _ = _
      rw [e1, Option.bind_some]
      show (rd perm' (t % n)).bind _ = _
      rw [rd_getElem?, hvt, Option.bind_some]
      simp only [assert', Int.natCast_nonneg, decide_true, if_true]
      show (step t (Int.toNat (v' t)) s).bind _ = _
      rw [Int.toNat_natCast, e2]
      rfl
    rw [e0]
    have hnext : (t + 1) % n ≠ 0 → ∀ j < n, perm'[j]? = some (v' ((t + 1) / n * n + j) : Int) := by
      intro h j hj
      rw [hcur' j hj]
      have : (t + 1) / n = t / n := by
        rw [Nat.succ_div, if_neg (fun hd => h (Nat.mod_eq_zero_of_dvd hd)), Nat.add_zero]
      rw [this]
    by_cases hc : (t + 1) % freq = 0 ∨ t + 1 = maxIter
    · rw [if_pos hc]
      obtain ⟨s2, b, e3, hI2, hm, hQ⟩ := hdiag v' t s1 hE' ht hI1
      rw [e3, Option.bind_some]
      cases b with
      | true => exact ⟨s2, rand', t + 1, v', rfl, hr', by omega, by omega, hE', hQ rfl⟩
      | false =>
        have : t + 1 ≠ maxIter := fun h => by cases hm h
        exact ih (t + 1) perm' rand' s2 v' (by omega) (by omega) hperm' hr' hE' hnext hI2
    · rw [if_neg hc]
      exact ih (t + 1) perm' rand' s1 v' (by omega) (by omega) hperm' hr' hE' hnext hI1

/-- The main loop terminates, and visits each sample once in each epoch. -/
theorem mainLoop_spec (hm : 1 ≤ maxIter) {rand : σ} (hr : inv rand) {s : S} (h0 : ∀ v, I v 0 s) :
    ∃ s' rand' T v, mainLoop uindex n freq maxIter step diag maxIter 0 (identity n) rand s = some (s', rand') ∧ inv rand' ∧ 1 ≤ T ∧ T ≤ maxIter ∧ Epochs n v ∧ Q v T s' :=
  mainLoop_aux hu hn hb h31 I Q hcongr hstep hdiag maxIter 0 (identity n) rand s (fun t => t % n) (by omega) (by omega) (List.Perm.refl _) hr (epochs_id n) (by simp) (h0 _)

end

end Verif.Svm
