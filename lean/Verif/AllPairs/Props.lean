import Verif.AllPairs.Model
import Mathlib.Tactic.Ring
import Mathlib.Tactic.Linarith

/-! # C22: evaluation on all pairs -/

namespace Verif.AllPairs

variable {α β : Type}

/-- Vector `i` of a data set of vectors of dimension `d`. -/
def vec (X : List α) (d i : Nat) : List α := (X.drop (i * d)).take d

theorem slice_vec {X : List α} {d n i : Nat} (hX : X.length = n * d) (hi : i < n) {p : Int} (hp : p = (i * d : Nat)) :
    slice X p d = some (vec X d i) := by
  have h : i * d + d ≤ X.length := by
    rw [hX]
    calc i * d + d = (i + 1) * d := by ring
      _ ≤ n * d := Nat.mul_le_mul_right _ hi
  subst hp
  unfold slice
  rw [if_neg (by omega), Int.toNat_natCast, if_pos h]
  rfl

theorem addr_inj {n a a' b b' : Nat} (ha : a < n) (ha' : a' < n) (h : a + b * n = a' + b' * n) : a = a' ∧ b = b' := by
  have hb : b = b' := by
    have e1 : (a + b * n) / n = b := by rw [Nat.add_mul_div_right _ _ (by omega), Nat.div_eq_of_lt ha, Nat.zero_add]
    have e2 : (a' + b' * n) / n = b' := by rw [Nat.add_mul_div_right _ _ (by omega), Nat.div_eq_of_lt ha', Nat.zero_add]
    rw [← e1, h, e2]
  subst hb
  exact ⟨by omega, rfl⟩

theorem addr_lt {n m a b : Nat} (ha : a < n) (hb : b < m) : a + b * n < n * m := by
  calc a + b * n < n + b * n := by omega
    _ = (b + 1) * n := by ring
    _ ≤ m * n := Nat.mul_le_mul_right _ hb
    _ = n * m := Nat.mul_comm _ _

/-- With two data sets: every entry `i + j * numDataX` of the table is `f (x_i, y_j)`, nothing is accessed out of bounds. -/
theorem allPairs_two (mem : List β) (d nX nY : Nat) (Xs Ys : List α) (f : List α → List α → β) (hd : 0 < d)
    (hX : Xs.length = nX * d) (hY : Ys.length = nY * d) (hm : mem.length = nX * nY) :
    ∃ r, allPairs mem d Xs nX (some Ys) nY f = some r ∧ r.length = nX * nY ∧
      ∀ i < nX, ∀ j < nY, r[i + j * nX]? = some (f (vec Xs d i) (vec Ys d j)) := by
  unfold allPairs
  rw [if_neg (by omega)]
  rcases Nat.eq_zero_or_pos nX with h0 | hpX
  · exact ⟨mem, by simp [h0], by simp [hm], fun i hi => by omega⟩
  rw [if_neg (by omega)]
  simp only
  rcases Nat.eq_zero_or_pos nY with h0 | hpY
  · exact ⟨mem, by simp [h0], by simp [hm], fun i _ j hj => by omega⟩
  rw [if_neg (by omega)]
  obtain ⟨s, e, -, -, -, h4, h5⟩ := iter_inv (n := nY) (f := outerXY Xs Ys d nX f)
    (s := { X := 0, Y := 0, result := 0, resultTransp := 0, mem := mem })
    (fun j (s : St β) => s.X = 0 ∧ s.Y = (j * d : Nat) ∧ s.result = (j * nX : Nat) ∧ s.mem.length = nX * nY ∧
      ∀ a < nX, ∀ b < j, s.mem[a + b * nX]? = some (f (vec Xs d a) (vec Ys d b)))
    ⟨rfl, by simp, by simp, hm, by omega⟩
    (by
      intro j hj s ⟨i1, i2, i3, i4, i5⟩
      obtain ⟨s', e', g1, g2, g3, g4, g5⟩ := iter_inv (n := nX) (f := innerXY Xs Ys d f) (s := s)
        (fun i (s : St β) => s.X = (i * d : Nat) ∧ s.Y = (j * d : Nat) ∧ s.result = (i + j * nX : Nat) ∧ s.mem.length = nX * nY ∧
          ∀ a < nX, ∀ b, (b < j ∨ (b = j ∧ a < i)) → s.mem[a + b * nX]? = some (f (vec Xs d a) (vec Ys d b)))
        ⟨by simpa using i1, i2, by simpa using i3, i4, fun a ha b hb => i5 a ha b (by omega)⟩
        (by
          intro i hi s ⟨i1, i2, i3, i4, i5⟩
          have hl : i + j * nX < s.mem.length := by rw [i4]; exact addr_lt hi hj
          refine ⟨{ s with result := s.result + 1, X := s.X + d, mem := s.mem.set (i + j * nX) (f (vec Xs d i) (vec Ys d j)) }, ?_, ?_⟩
          · unfold innerXY
            rw [slice_vec hX hi i1]
            simp only [Option.bind_eq_bind, Option.bind_some]
            rw [slice_vec hY hj i2]
            simp only [Option.bind_some]
            rw [i3, wrI_nat, wr_of_lt hl]
            rfl
          · refine ⟨by simp only [i1]; push_cast; ring, i2, by simp only [i3]; push_cast; ring, by simp [i4], ?_⟩
            intro a ha b hb
            by_cases he : a = i ∧ b = j
            · obtain ⟨rfl, rfl⟩ := he
              simp only [List.getElem?_set_self hl]
            · have hne : a + b * nX ≠ i + j * nX := fun h => he (addr_inj ha hi h)
              simp only
              rw [List.getElem?_set_ne (Ne.symm hne)]
              exact i5 a ha b (by omega))
      refine ⟨{ s' with X := s'.X - d * nX, Y := s'.Y + d }, by simp [outerXY, e'], ?_, ?_, ?_, g4, ?_⟩
      · simp only [g1]; push_cast; ring
      · simp only [g2]; push_cast; ring
      · simp only [g3]; push_cast; ring
      · intro a ha b hb
        exact g5 a ha b (by omega))
  exact ⟨s.mem, by rw [e]; rfl, h4, h5⟩

/-- With one data set: the entries `i + j * numDataX` and `j + i * numDataX`, `i ≤ j`, are `f (x_i, x_j)`. -/
theorem allPairs_one (mem : List β) (d nX nY : Nat) (Xs : List α) (f : List α → List α → β) (hd : 0 < d)
    (hX : Xs.length = nX * d) (hm : mem.length = nX * nX) :
    ∃ r, allPairs mem d Xs nX none nY f = some r ∧ r.length = nX * nX ∧
      ∀ i < nX, ∀ j < nX, r[i + j * nX]? = some (f (vec Xs d (min i j)) (vec Xs d (max i j))) := by
  unfold allPairs
  rw [if_neg (by omega)]
  rcases Nat.eq_zero_or_pos nX with h0 | hpX
  · exact ⟨mem, by simp [h0], by simp [hm], fun i hi => by omega⟩
  rw [if_neg (by omega)]
  simp only
  set V : Nat → Nat → β := fun i j => f (vec Xs d (min i j)) (vec Xs d (max i j)) with hV
  obtain ⟨s, e, -, -, -, -, h4, h5⟩ := iter_inv (n := nX) (f := outerXX Xs d nX f)
    (s := { X := 0, Y := 0, result := 0, resultTransp := 0, mem := mem })
    (fun j (s : St β) => s.X = 0 ∧ s.Y = (j * d : Nat) ∧ s.result = (j * nX : Nat) ∧ s.resultTransp = (j : Nat) ∧
      s.mem.length = nX * nX ∧ ∀ a < nX, ∀ b < nX, max a b < j → s.mem[a + b * nX]? = some (V a b))
    ⟨rfl, by simp, by simp, by simp, hm, by omega⟩
    (by
      intro j hj s ⟨i1, i2, i3, i3', i4, i5⟩
      obtain ⟨s', e', g1, g2, g3, g3', g4, g5⟩ := iter_inv (n := j + 1) (f := innerXX Xs d nX f) (s := s)
        (fun i (s : St β) => s.X = (i * d : Nat) ∧ s.Y = (j * d : Nat) ∧ s.result = (i + j * nX : Nat) ∧
          s.resultTransp = (j + i * nX : Nat) ∧ s.mem.length = nX * nX ∧
          ∀ a < nX, ∀ b < nX, (max a b < j ∨ (max a b = j ∧ min a b < i)) → s.mem[a + b * nX]? = some (V a b))
        ⟨by simpa using i1, i2, by simpa using i3, by simpa using i3', i4, fun a ha b hb hab => i5 a ha b hb (by omega)⟩
        (by
          intro i hi s ⟨i1, i2, i3, i3', i4, i5⟩
          have hl : i + j * nX < s.mem.length := by rw [i4]; exact addr_lt (by omega) hj
          have hl' : j + i * nX < s.mem.length := by rw [i4]; exact addr_lt hj (by omega)
          set z := f (vec Xs d i) (vec Xs d j) with hz
          have hz1 : V i j = z := by simp only [hV, hz]; rw [min_eq_left (by omega), max_eq_right (by omega)]
          have hz2 : V j i = z := by simp only [hV, hz]; rw [min_eq_right (by omega), max_eq_left (by omega)]
          refine ⟨{ s with X := s.X + d, mem := (s.mem.set (i + j * nX) z).set (j + i * nX) z, result := s.result + 1,
                           resultTransp := s.resultTransp + nX }, ?_, ?_⟩
          · unfold innerXX
            rw [slice_vec hX (by omega : i < nX) i1]
            simp only [Option.bind_eq_bind, Option.bind_some]
            rw [slice_vec hX hj i2]
            simp only [Option.bind_some]
            rw [i3, wrI_nat, wr_of_lt hl]
            simp only [Option.bind_some]
            rw [i3', wrI_nat, wr_of_lt (by simpa using hl')]
            rfl
          · refine ⟨by simp only [i1]; push_cast; ring, i2, by simp only [i3]; push_cast; ring,
              by simp only [i3']; push_cast; ring, by simp [i4], ?_⟩
            intro a ha b hb hab
            simp only [List.getElem?_set, List.length_set]
            by_cases c1 : j + i * nX = a + b * nX
            · rw [if_pos c1, if_pos hl']
              obtain ⟨rfl, rfl⟩ := addr_inj hj ha c1
              rw [hz2]
            · rw [if_neg c1]
              by_cases c2 : i + j * nX = a + b * nX
              · rw [if_pos c2, if_pos hl]
                obtain ⟨rfl, rfl⟩ := addr_inj (by omega) ha c2
                rw [hz1]
              · rw [if_neg c2]
                refine i5 a ha b hb ?_
                rcases hab with h | ⟨h1, h2⟩
                · exact Or.inl h
                · refine Or.inr ⟨h1, ?_⟩
                  by_contra hcon
                  have hmin : min a b = i := by omega
                  rcases Nat.le_total a b with hle | hle
                  · rw [min_eq_left hle] at hmin
                    rw [max_eq_right hle] at h1
                    subst hmin; subst h1
                    exact c2 rfl
                  · rw [min_eq_right hle] at hmin
                    rw [max_eq_left hle] at h1
                    subst hmin; subst h1
                    exact c1 rfl)
      refine ⟨{ s' with X := s'.X - d * (j + 1), Y := s'.Y + d, result := s'.result + ((nX : Int) - (j + 1)),
                        resultTransp := s'.resultTransp + (1 - ((j : Int) + 1) * nX) }, by simp [outerXX, e'], ?_, ?_, ?_, ?_, g4, ?_⟩
      · simp only [g1]; push_cast; ring
      · simp only [g2]; push_cast; ring
      · simp only [g3]; push_cast; ring
      · simp only [g3']; push_cast; ring
      · intro a ha b hb hab
        exact g5 a ha b hb (by omega))
  refine ⟨s.mem, by rw [e]; rfl, h4, fun i hi j hj => h5 i hi j hj (by omega)⟩

/-- With one data set and a symmetric comparison, the table is the full table of `f (x_i, x_j)`. -/
theorem allPairs_one_symmetric (mem : List β) (d nX nY : Nat) (Xs : List α) (f : List α → List α → β)
    (hf : ∀ x y, f x y = f y x) (hd : 0 < d) (hX : Xs.length = nX * d) (hm : mem.length = nX * nX) :
    ∃ r, allPairs mem d Xs nX none nY f = some r ∧ r.length = nX * nX ∧
      ∀ i < nX, ∀ j < nX, r[i + j * nX]? = some (f (vec Xs d i) (vec Xs d j)) := by
  obtain ⟨r, e, h1, h2⟩ := allPairs_one mem d nX nY Xs f hd hX hm
  refine ⟨r, e, h1, fun i hi j hj => ?_⟩
  rw [h2 i hi j hj]
  rcases Nat.le_total i j with h | h
  · rw [min_eq_left h, max_eq_right h]
  · rw [min_eq_right h, max_eq_left h, hf]

/-- Two vectors of dimension 2 against one, and against themselves, with the squared distance. -/
example : allPairs [0, 0] 2 [1, 2, 3, 4] 2 (some [0, 0]) 1 (fun x y => ((x.zip y).map (fun p : Int × Int => (p.1 - p.2) ^ 2)).sum)
      = some [5, 25] ∧
    allPairs [9, 9, 9, 9] 2 [1, 2, 3, 4] 2 none 0 (fun x y => ((x.zip y).map (fun p : Int × Int => (p.1 - p.2) ^ 2)).sum)
      = some [0, 8, 8, 0] := by decide

end Verif.AllPairs
