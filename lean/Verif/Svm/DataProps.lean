import Verif.Svm.Model
import Verif.Svm.Spec
import Verif.Rows
import Verif.Homker.Props
import Mathlib.Tactic.Ring

/-!
# The data sets: inner products and accumulation
-/

set_option linter.unusedSectionVars false

namespace Verif.Svm

open Spec

variable {K : Type} [Field K] [LinearOrder K] [IsStrictOrderedRing K]

/-- The callbacks compute the inner product of a model with sample `i`, and add to a model a multiple of sample `i`, for the `n` samples `x i` of dimension `d`. -/
structure IsData (D : DataFns K) (n d : Nat) (x : Nat → Nat → K) : Prop where
  inner : ∀ i < n, ∀ (m : List K) (w : Nat → K), Arr m d w → D.inner i m = some (∑ k ∈ Finset.range d, x i k * w k)
  acc : ∀ i < n, ∀ (m : List K) (w : Nat → K) (c : K), Arr m d w → ∃ m', D.acc i m c = some m' ∧ Arr m' d (fun k => w k + c * x i k)

/-- **The callbacks of a plain data set**: inner product and accumulation. -/
theorem plain_isData {data : List K} {n d : Nat} {x : Nat → Nat → K} (h : Flat data n d x) : IsData (plainFns data d) n d x where
  inner i hi m w hm := by
    show iter d _ 0 = _
    rw [iter_sum d (fun k => x i k * w k) 0 (by
      intro k hk s
      show (rd data (d * i + k)).bind _ = _
      rw [Nat.mul_comm d i, h.rd hi hk, Option.bind_some, hm.rd hk]
      rfl), zero_add]
  acc i hi m w c hm := by
    refine iter_arr hm (fun k m => m + c * x i k) ?_
    intro k hk l f hl
    show (rd data (d * i + k)).bind _ = _
    rw [Nat.mul_comm d i, h.rd hi hk, Option.bind_some, hl.rd hk, mul_comm c]
    rfl

/-- The sum over blocks -/
theorem sum_blocks (d h : Nat) (f : Nat → Nat → K) (w : Nat → K) : ∑ k ∈ Finset.range d, ∑ j ∈ Finset.range h, f k j * w (h * k + j) = ∑ t ∈ Finset.range (d * h), f (t / h) (t % h) * w t := by
  rw [← sum_flat d h (fun k j => f k j * w (h * k + j))]
  refine Finset.sum_congr rfl fun t ht => ?_
  rw [Nat.div_add_mod]

/-- **The inner product of a data set with a kernel map** is the inner product with the features of the sample; the initial content of the buffer does not matter. -/
theorem innerProductHom_correct {ev : List K → K → Option (List K)} {h : Nat} {psi : K → Nat → K} (hev : ∀ b x, b.length = h → ∃ b', ev b x = some b' ∧ Arr b' h (psi x))
    {data : List K} {n d : Nat} {x : Nat → Nat → K} (hd : Flat data n d x) {i : Nat} (hi : i < n) {m : List K} {w : Nat → K} (hm : Arr m (d * h) w) {b : List K} (hb : b.length = h) :
    ∃ b', innerProductHom ev h data d i b m = some (∑ t ∈ Finset.range (d * h), psi (x i (t / h)) (t % h) * w t, b') ∧ b'.length = h := by
  obtain ⟨s, e, h1, h2⟩ := iter_inv (n := d) (s := (((0 : K), b) : K × List K)) (f := fun k (s : K × List K) => (rd data (d * i + k)).bind fun x => (ev s.2 x).bind fun buffer =>
      (iter h (fun j product => (rd buffer j).bind fun b => (rd m (h * k + j)).bind fun m => some (product + b * m)) s.1).bind fun product => some (product, buffer))
    (fun k s => s.1 = ∑ k ∈ Finset.range k, ∑ j ∈ Finset.range h, psi (x i k) j * w (h * k + j) ∧ s.2.length = h) ⟨by simp, hb⟩ (by
      rintro k hk ⟨p, b⟩ ⟨rfl, hb⟩
      obtain ⟨b', e1, h1⟩ := hev b (x i k) hb
      refine ⟨(∑ k ∈ Finset.range (k + 1), ∑ j ∈ Finset.range h, psi (x i k) j * w (h * k + j), b'), ?_, rfl, h1.len⟩
      rw [Nat.mul_comm d i, hd.rd hi hk, Option.bind_some, e1, Option.bind_some, Finset.sum_range_succ, iter_sum h (fun j => psi (x i k) j * w (h * k + j))]
      · rfl
      · intro j hj s
        have hlt : h * k + j < d * h := by
          rw [Nat.mul_comm h k]
          exact Flat.addr_lt hk hj
        rw [h1.rd hj, Option.bind_some, hm.rd hlt]
        rfl)
  refine ⟨s.2, ?_, h2⟩
  rw [← sum_blocks d h (fun k => psi (x i k)) w, ← h1]
  exact e

/-- **The accumulation of a data set with a kernel map** adds the features of the sample. -/
theorem accumulateHom_correct {ev : List K → K → Option (List K)} {h : Nat} {psi : K → Nat → K} (hev : ∀ b x, b.length = h → ∃ b', ev b x = some b' ∧ Arr b' h (psi x))
    {data : List K} {n d : Nat} {x : Nat → Nat → K} (hd : Flat data n d x) {i : Nat} (hi : i < n) {m : List K} {w : Nat → K} (hm : Arr m (d * h) w) {b : List K} (hb : b.length = h) (c : K) :
    ∃ m' b', accumulateHom ev h data d i b m c = some (m', b') ∧ Arr m' (d * h) (fun t => w t + c * psi (x i (t / h)) (t % h)) ∧ b'.length = h := by
  have hf : Flat m d h (fun k j => w (h * k + j)) := by
    refine Arr.flat (hm.congr ?_)
    intro t _
    rw [Nat.div_add_mod]
  obtain ⟨s, e, h1, h2⟩ := iter_inv (n := d) (s := ((m, b) : List K × List K)) (f := fun k (s : List K × List K) => (rd data (d * i + k)).bind fun x => (ev s.2 x).bind fun buffer =>
      (iter h (fun j model => (rd buffer j).bind fun b => (rd model (h * k + j)).bind fun m => wr model (h * k + j) (m + b * c)) s.1).bind fun model => some (model, buffer))
    (fun k s => Flat s.1 d h (fun a j => if a < k then w (h * a + j) + c * psi (x i a) j else w (h * a + j)) ∧ s.2.length = h) ⟨hf.congr (by intro a _ j _; simp), hb⟩ (by
      rintro k hk ⟨m, b⟩ ⟨h1, hb⟩
      obtain ⟨b', e1, h2⟩ := hev b (x i k) hb
      obtain ⟨m', e2, h3⟩ := iter_row h1 hk (fun j v => v + c * psi (x i k) j) (body := fun j model => (rd b' j).bind fun b => (rd model (h * k + j)).bind fun m => wr model (h * k + j) (m + b * c)) (by
        intro j hj l f hl
        rw [h2.rd hj, Option.bind_some, Nat.mul_comm h k, hl.rd hk hj, Option.bind_some, mul_comm c])
      refine ⟨(m', b'), ?_, h3.congr ?_, h2.len⟩
      · rw [Nat.mul_comm d i, hd.rd hi hk, Option.bind_some, e1, Option.bind_some, e2]
        rfl
      · intro a _ j _
        by_cases ha : a = k
        · subst ha
          rw [if_pos rfl, if_neg (by omega), if_pos (by omega)]
        · rw [if_neg ha]
          by_cases hl : a < k
          · rw [if_pos hl, if_pos (by omega)]
          · rw [if_neg hl, if_neg (by omega)])
  refine ⟨s.1, s.2, e, ?_, h2⟩
  refine h1.arr.congr ?_
  intro t ht
  have h0 : 0 < h := by
    rcases Nat.eq_zero_or_pos h with rfl | h0
    · simp at ht
    · exact h0
  rw [if_pos ((Nat.div_lt_iff_lt_mul h0).2 ht), Nat.div_add_mod]

/-- **The callbacks of a data set with a kernel map** are those of the samples mapped to features. -/
theorem hom_isData {ev : List K → K → Option (List K)} {h : Nat} {psi : K → Nat → K} (hev : ∀ b x, b.length = h → ∃ b', ev b x = some b' ∧ Arr b' h (psi x))
    {data : List K} {n d : Nat} {x : Nat → Nat → K} (hd : Flat data n d x) {b : List K} (hb : b.length = h) :
    IsData (homFns ev h data d b) n (d * h) (fun i t => psi (x i (t / h)) (t % h)) where
  inner i hi m w hm := by
    obtain ⟨b', e, -⟩ := innerProductHom_correct hev hd hi hm hb
    show (innerProductHom ev h data d i b m).map Prod.fst = _
    rw [e]
    rfl
  acc i hi m w c hm := by
    obtain ⟨m', b', e, h1, -⟩ := accumulateHom_correct hev hd hi hm hb c
    refine ⟨m', ?_, h1⟩
    show (accumulateHom ev h data d i b m c).map Prod.fst = _
    rw [e]
    rfl

/-- The map of the library, with stride one, satisfies the hypothesis: its features are those of `Homker.evaluate_correct`. -/
theorem homker_evaluate {frexp : K → K × Int} (hfr : Homker.Spec.IsFrexp frexp) {M : Homker.Map K} {order : Nat} {Psi : K → Nat → K} (hM : Homker.Tabulates M order Psi) :
    ∃ psi : K → Nat → K, (∀ x, Homker.IsValue order Psi x (psi x)) ∧ ∀ b x, b.length = 2 * order + 1 → ∃ b', Homker.evaluate frexp M b 1 x = some b' ∧ Arr b' (2 * order + 1) (psi x) := by
  have h0 : ∀ x, ∃ v, Homker.IsValue order Psi x v := by
    intro x
    obtain ⟨l, v, -, -, h⟩ := Homker.evaluate_correct hfr hM (Arr.replicate (2 * order + 1) 0) (stride := 1) one_pos (by omega) x
    exact ⟨v, h⟩
  choose v hv using h0
  refine ⟨v, hv, fun b x hb => ?_⟩
  obtain ⟨l, u, e, h1, h2⟩ := Homker.evaluate_correct hfr hM (Arr.of_len' hb 0) (stride := 1) one_pos (by omega) x
  refine ⟨l, e, h1.congr ?_⟩
  intro j hj
  rw [if_pos (by constructor; omega; simpa using hj), Nat.div_one]
  exact neg_inj.1 ((Homker.value_odd h2 (hv (-x)) j hj).symm.trans (Homker.value_odd (hv x) (hv (-x)) j hj))

end Verif.Svm
