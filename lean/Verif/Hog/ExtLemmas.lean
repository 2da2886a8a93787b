import Verif.Hog.AccLemmas
import Verif.Hog.ExtSpec
import Verif.Fill

/-!
# Lemmas for the extraction of HOG features
-/

namespace Verif.Hog

open Finset

theorem rd_hist {hog : List ℚ} {w h O X Y p i : Nat} (hl : hog.length = w * h * O * 2) (hX : X < w) (hY : Y < h) (hp : p < 2 * O) (e : i = X + Y * w + p * (w * h)) :
    rd hog i = some (hist hog w h X Y p) := by
  subst e
  have := addr3_lt hX hY hp
  unfold hist entry
  rw [rd_getElem?, List.getElem?_eq_getElem (by omega), Option.getD_some]

theorem contrib_range (n : Nat) (v : Nat → ℚ) (j : Nat) (hj : j < n) : contrib ((List.range n).map (fun i => (i, v i))) j = v j := by
  unfold contrib
  rw [List.map_map]
  rw [show ((fun c : Nat × ℚ => if c.1 = j then c.2 else 0) ∘ fun i => (i, v i)) = fun i => if i = j then v i else 0 from rfl]
  rw [list_sum_range, Finset.sum_ite_eq' (range n) j v, if_pos (Finset.mem_range.2 hj)]

theorem foldNorms_spec (O : Nat) (b : Bufs) (hb : Fits O b) :
    ∃ m : List ℚ, foldNorms O b = some m ∧ m.length = b.w * b.h ∧
      ∀ X < b.w, ∀ Y < b.h, m[X + Y * b.w]? = some (b.norm.getD (X + Y * b.w) 0 + cellNorm O (hist b.hog b.w b.h X Y)) := by
  set n := b.w * b.h with hn
  set v : Nat → Nat → ℚ := fun k i => (b.hog.getD (k * n + i) 0 + b.hog.getD (k * n + i + n * O) 0) * (b.hog.getD (k * n + i) 0 + b.hog.getD (k * n + i + n * O) 0) with hv
  have hrd : ∀ i, i < n * O * 2 → rd b.hog i = some (b.hog.getD i 0) := by
    intro i hi
    have : b.hog.length = n * O * 2 := by rw [hn]; exact hb.1
    rw [rd_getElem?, List.getD_eq_getElem?_getD, List.getElem?_eq_getElem (by omega), Option.getD_some]
  have e1 : foldNorms O b = addAll b.norm ((List.range O).flatMap (fun k => (List.range n).map (fun i => (i, v k i)))) := by
    unfold foldNorms
    apply Sift.iter_addAll
    intro k hk m
    have hfl : (List.range n).map (fun i => (i, v k i)) = (List.range n).flatMap (fun i => [(i, v k i)]) := by
      rw [List.map_eq_flatMap]
    rw [hfl]
    apply Sift.iter_addAll
    intro i hi m
    have h1 := Flat.addr_lt (i := k) (n := O) (m := n) hk hi
    rw [← hn, hrd _ (by have := mul_comm O n; omega), hrd _ (by have := mul_comm O n; omega)]
    simp only [Option.bind_eq_bind, Option.bind_some, addAll]
    change addAt m i (v k i) = _
    cases addAt m i (v k i) <;> rfl
  obtain ⟨m, h1, h2, h3⟩ := addAll_spec b.norm ((List.range O).flatMap (fun k => (List.range n).map (fun i => (i, v k i)))) (by
    intro a ha
    simp only [List.mem_flatMap, List.mem_map, List.mem_range] at ha
    obtain ⟨k, hk, i, hi, rfl⟩ := ha
    rw [hb.2]; exact hi)
  refine ⟨m, by rw [e1, h1], by rw [h2, hb.2], ?_⟩
  intro X hX Y hY
  have hlt : X + Y * b.w < n := by
    have := Flat.addr_lt hY hX
    rw [hn, mul_comm b.w b.h]; omega
  rw [h3, contrib_flatMap, List.getElem?_eq_getElem (by rw [hb.2]; exact hlt), Option.map_some, list_sum_range]
  rw [Finset.sum_congr rfl (fun k _ => contrib_range n (v k) _ hlt)]
  congr 1
  rw [List.getD_eq_getElem?_getD, List.getElem?_eq_getElem (by rw [hb.2]; exact hlt), Option.getD_some]
  congr 1
  unfold cellNorm undirected hist entry
  apply Finset.sum_congr rfl
  intro k _
  simp only [hv]
  rw [List.getD_eq_getElem?_getD, List.getD_eq_getElem?_getD, show k * n + (X + Y * b.w) = X + Y * b.w + k * (b.w * b.h) by rw [hn]; ring,
    show X + Y * b.w + k * (b.w * b.h) + n * O = X + Y * b.w + (k + O) * (b.w * b.h) by rw [hn]; ring]
  ring

theorem inverse_eq {x : ℚ} (h : x ≠ 0) : inverse x = some (1 / x) := by unfold inverse; rw [if_neg h]

/-- The four factors. -/
theorem factors_spec (E : Cfg) (norm : List ℚ) (N : Nat → Nat → ℚ) (w h x y : Nat) (hN : ∀ X < w, ∀ Y < h, norm[X + Y * w]? = some (N X Y)) (hpos : ∀ X < w, ∀ Y < h, 0 ≤ N X Y)
    (hsq : ∀ a, 0 < a → E.sq a ≠ 0) (hx : x < w) (hy : y < h) :
    (∀ i, 0 < blockOf N E.transposed w h x y i) ∧
    factors E norm w h x y = some (1 / E.sq (blockOf N E.transposed w h x y 0), 1 / E.sq (blockOf N E.transposed w h x y 1),
      1 / E.sq (blockOf N E.transposed w h x y 2), 1 / E.sq (blockOf N E.transposed w h x y 3)) := by
  have nb : ∀ (n i : Nat) (s : Bool), i < n → neighbour n i s < n := by
    intro n i s hi
    unfold neighbour
    cases s
    · simp only [Bool.false_eq_true, if_false]; split_ifs <;> omega
    · simp only [if_true]; split_ifs <;> omega
  have bp : ∀ r d, 0 < blockNorm N w h x y r d := by
    intro r d
    unfold blockNorm
    have h1 := hpos x hx y hy
    have h2 := hpos _ (nb w x r hx) y hy
    have h3 := hpos x hx _ (nb h y d hy)
    have h4 := hpos _ (nb w x r hx) _ (nb h y d hy)
    linarith
  have bo : ∀ i, 0 < blockOf N E.transposed w h x y i := by
    intro i
    unfold blockOf
    simp only
    cases E.transposed
    · exact bp _ _
    · exact bp _ _
  refine ⟨bo, ?_⟩
  have hr : ∀ X Y, X < w → Y < h → rd norm (X + Y * w) = some (N X Y) := by
    intro X Y hX hY
    rw [rd_getElem?, hN X hX Y hY]
  have n1 : x - 1 = neighbour w x false := by
    unfold neighbour; simp only [Bool.false_eq_true, if_false]; split_ifs <;> omega
  have n2 : min (x + 1) (w - 1) = neighbour w x true := by
    unfold neighbour; simp only [if_true]; split_ifs <;> omega
  have n3 : y - 1 = neighbour h y false := by
    unfold neighbour; simp only [Bool.false_eq_true, if_false]; split_ifs <;> omega
  have n4 : min (y + 1) (h - 1) = neighbour h y true := by
    unfold neighbour; simp only [if_true]; split_ifs <;> omega
  unfold factors
  simp only [n1, n2, n3, n4]
  have a1 := nb w x false hx
  have a2 := nb w x true hx
  have a3 := nb h y false hy
  have a4 := nb h y true hy
  rw [hr _ _ a1 a3, hr _ _ hx a3, hr _ _ a2 a3, hr _ _ a1 hy, hr _ _ hx hy, hr _ _ a2 hy, hr _ _ a1 a4, hr _ _ hx a4, hr _ _ a2 a4]
  simp only [Option.bind_eq_bind, Option.bind_some]
  have b1 : N (neighbour w x false) (neighbour h y false) + N x (neighbour h y false) + N (neighbour w x false) y + N x y + 1 / 10 ^ 4 = blockNorm N w h x y false false := by
    unfold blockNorm; ring
  have b2 : N x (neighbour h y false) + N (neighbour w x true) (neighbour h y false) + N x y + N (neighbour w x true) y + 1 / 10 ^ 4 = blockNorm N w h x y true false := by
    unfold blockNorm; ring
  have b3 : N (neighbour w x false) y + N x y + N (neighbour w x false) (neighbour h y true) + N x (neighbour h y true) + 1 / 10 ^ 4 = blockNorm N w h x y false true := by
    unfold blockNorm; ring
  have b4 : N x y + N (neighbour w x true) y + N x (neighbour h y true) + N (neighbour w x true) (neighbour h y true) + 1 / 10 ^ 4 = blockNorm N w h x y true true := by
    unfold blockNorm; ring
  rw [b1, b2, b3, b4, inverse_eq (hsq _ (bp _ _)), inverse_eq (hsq _ (bp _ _)), inverse_eq (hsq _ (bp _ _)), inverse_eq (hsq _ (bp _ _))]
  simp only [Option.bind_some, Option.pure_def]
  cases hT : E.transposed
  · simp [blockOf]
  · simp [blockOf]

end Verif.Hog
