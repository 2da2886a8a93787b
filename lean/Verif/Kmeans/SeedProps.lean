import Verif.Kmeans.SeedModel
import Verif.Kmeans.ElkanLemmas
import Verif.Random.ShuffleProps
import Mathlib.Data.Finset.Card
import Mathlib.Data.Finset.Image
import Mathlib.Data.List.GetD
import Mathlib.Algebra.Order.Ring.Rat
import Mathlib.Algebra.Field.Rat

/-!
# Seeding of k-means: properties (C68, C69)
-/

set_option linter.unusedSectionVars false

namespace Verif.Kmeans

variable {K ρ : Type} [Field K] [LinearOrder K]

/-! ## Specification -/

/-- Two vectors with the same components. -/
def SameVec (dim : Nat) (a b : Nat → K) : Prop := ∀ j < dim, a j = b j

/-- The centres are the data points of the list, in this order. -/
def CentersAre (dim N : Nat) (data cs : List K) (sel : List Nat) : Prop :=
  cs.length = sel.length * dim ∧ (∀ x ∈ sel, x < N) ∧
    ∀ c (h : c < sel.length), SameVec dim (comp cs dim c) (comp data dim sel[c])

/-- There are at least `n` different vectors among the data. -/
def HasDistinct (dim N : Nat) (data : List K) (n : Nat) : Prop :=
  ∃ T : Finset Nat, T.card = n ∧ (∀ x ∈ T, x < N) ∧
    ∀ x ∈ T, ∀ y ∈ T, SameVec dim (comp data dim x) (comp data dim y) → x = y

/-- The centres are pairwise different vectors. -/
def AllDifferent (dim nC : Nat) (cs : List K) : Prop :=
  ∀ c < nC, ∀ c' < nC, SameVec dim (comp cs dim c) (comp cs dim c') → c = c'

/-- `D y` is the distance of point `y` to the nearest of the points of `prev`. -/
def NearestDist (m : Metric) (dim N : Nat) (data : List K) (prev : List Nat) (D : Nat → K) : Prop :=
  ∀ y < N, (∃ p ∈ prev, D y = vdist m dim (comp data dim p) (comp data dim y)) ∧
    ∀ p ∈ prev, D y ≤ vdist m dim (comp data dim p) (comp data dim y)

/-- Sampling by inversion: `x` is the first point at which the cumulated distances to the points already chosen reach the
fraction `t` of their total. -/
def Sampled (m : Metric) (dim N : Nat) (data : List K) (prev : List Nat) (t : K) (x : Nat) : Prop :=
  ∃ D : Nat → K, NearestDist m dim N data prev D ∧
    (∀ x' < x, ∑ y ∈ Finset.range (x' + 1), D y < t * ∑ y ∈ Finset.range N, D y) ∧
    (t * ∑ y ∈ Finset.range N, D y ≤ ∑ y ∈ Finset.range (x + 1), D y ∨ x = N - 1)

/-- The successive values of a generator. -/
def draw (real1 : ρ → K × ρ) : Nat → ρ → K
  | 0, r => (real1 r).1
  | n + 1, r => draw real1 n (real1 r).2

/-! ## Distances and duplicates -/

variable [IsStrictOrderedRing K]

theorem vdist_eq_zero (m : Metric) (dim : Nat) (a b : Nat → K) : vdist m dim a b = 0 ↔ SameVec dim a b := by
  cases m
  · unfold vdist
    rw [Finset.sum_eq_zero_iff_of_nonneg (fun _ _ => abs_nonneg _)]
    simp [SameVec, sub_eq_zero]
  · unfold vdist
    rw [Finset.sum_eq_zero_iff_of_nonneg (fun _ _ => sq_nonneg _)]
    simp [SameVec, sub_eq_zero]

/-- A vector as a list. -/
def tab (dim : Nat) (data : List K) (x : Nat) : List K := (List.range dim).map (comp data dim x)

theorem tab_eq {dim : Nat} {data : List K} {x y : Nat} :
    tab dim data x = tab dim data y ↔ SameVec dim (comp data dim x) (comp data dim y) := by
  simp [tab, SameVec]

variable {m : Metric} {dim nC N : Nat} {data : List K}

theorem duplicate_spec (hd : data.length = N * dim) {x : Nat} (hx : x < N) {cs : List K} {g : Nat → Nat → K}
    (hcs : Flat cs nC dim g) {k : Nat} (hk : k ≤ nC) :
    ∃ b, duplicate m dim (AllPairs.vec data dim x) cs k = some b ∧ (b = true ↔ ∃ j < k, SameVec dim (comp data dim x) (g j)) := by
  obtain ⟨b, h1, h2⟩ := iter_inv (n := k) (f := fun j b => do
      let c ← AllPairs.slice cs ((j * dim : Nat) : Int) dim
      some (b || decide (m.dist (AllPairs.vec data dim x) c = 0))) (s := false)
    (fun i (b : Bool) => b = true ↔ ∃ j < i, SameVec dim (comp data dim x) (g j)) (by simp) (by
    intro i hi b hb
    rw [AllPairs.slice_vec hcs.len (show i < nC by omega) rfl]
    refine ⟨_, rfl, ?_⟩
    rw [dist_vec hd hx hcs.len (show i < nC by omega)]
    have he : vdist m dim (comp data dim x) (comp cs dim i) = vdist m dim (comp data dim x) (g i) :=
      vdist_congr (fun _ _ => rfl) fun j hj => Flat.comp_eq hcs (by omega) hj
    rw [he, Bool.or_eq_true, hb, decide_eq_true_eq, vdist_eq_zero]
    constructor
    · rintro (⟨j, hj, h⟩ | h)
      · exact ⟨j, by omega, h⟩
      · exact ⟨i, by omega, h⟩
    · rintro ⟨j, hj, h⟩
      rcases Nat.lt_or_ge j i with h' | h'
      · exact Or.inl ⟨j, h', h⟩
      · obtain rfl : j = i := by omega
        exact Or.inr h)
  exact ⟨b, h1, h2⟩

/-! ## Random data points -/

theorem randLoop_spec (hd : data.length = N * dim) (perm : List Nat) (hp : perm.length = N) (hpN : ∀ x ∈ perm, x < N) :
    ∀ (rem pre : List Nat) (sel : List Nat) (fuel : Nat) (cs : List K) (g : Nat → Nat → K),
      perm = pre ++ rem → (sel ++ rem).Nodup → (∀ x ∈ sel, x < N) → sel.length ≤ nC → nC ≤ sel.length + rem.length →
      rem.length + 1 ≤ fuel → Flat cs nC dim g → (∀ c (h : c < sel.length), g c = comp data dim sel[c]) →
      ∃ cs' g', ∃ sel' : List Nat, randLoop m dim nC N data perm fuel pre.length sel.length cs = some cs' ∧ Flat cs' nC dim g' ∧
        sel'.length = nC ∧ sel'.Nodup ∧ (∀ x ∈ sel', x < N) ∧ (∀ c (h : c < sel'.length), g' c = comp data dim sel'[c]) ∧
        ((sel.map (tab dim data)).Nodup → nC ≤ ((sel ++ rem).map (tab dim data)).toFinset.card →
          (sel'.map (tab dim data)).Nodup) := by
  intro rem
  induction rem with
  | nil =>
    intro pre sel fuel cs g hpe hnd hsN h1 h2 hf hcs hg
    obtain ⟨f, rfl⟩ : ∃ f, fuel = f + 1 := ⟨fuel - 1, by omega⟩
    rw [randLoop, if_neg (by simp at h2; omega)]
    exact ⟨cs, g, sel, rfl, hcs, by simp at h2; omega, by simpa using hnd, hsN, hg, fun h _ => h⟩
  | cons x rem ih =>
    intro pre sel fuel cs g hpe hnd hsN h1 h2 hf hcs hg
    obtain ⟨f, rfl⟩ : ∃ f, fuel = f + 1 := ⟨fuel - 1, by omega⟩
    rw [randLoop]
    by_cases hk : sel.length < nC
    swap
    · rw [if_neg hk]
      exact ⟨cs, g, sel, rfl, hcs, by omega, (List.nodup_append.mp hnd).1, hsN, hg, fun h _ => h⟩
    rw [if_pos hk]
    have hx : x < N := hpN x (by simp [hpe])
    have hread : rd perm pre.length = some x := by rw [rd_getElem?, hpe]; simp
    rw [hread]
    simp only [Option.bind_eq_bind, Option.bind_some]
    rw [AllPairs.slice_vec hd hx rfl]
    simp only [Option.bind_some]
    have hlen : N - pre.length = rem.length + 1 := by
      have := congrArg List.length hpe
      simp at this; omega
    have hxs : x ∉ sel := fun hc => by
      have := (List.nodup_append.mp hnd).2.2 x hc x (by simp)
      exact this rfl
    -- accepting the point
    have accept : (¬ ∃ j < sel.length, SameVec dim (comp data dim x) (g j)) ∨ nC - sel.length = rem.length + 1 →
        ∃ cs' g', ∃ sel' : List Nat, (copyPoint dim data x sel.length cs).bind (fun cs => randLoop m dim nC N data perm f (pre.length + 1)
            (sel.length + 1) cs) = some cs' ∧ Flat cs' nC dim g' ∧
          sel'.length = nC ∧ sel'.Nodup ∧ (∀ x ∈ sel', x < N) ∧ (∀ c (h : c < sel'.length), g' c = comp data dim sel'[c]) ∧
          ((sel.map (tab dim data)).Nodup → nC ≤ ((sel ++ x :: rem).map (tab dim data)).toFinset.card →
            (sel'.map (tab dim data)).Nodup) := by
      intro hor
      obtain ⟨cs1, e1, e2⟩ := copyPoint_spec (flat_comp hd) hcs hx hk
      rw [e1, Option.bind_some]
      have hassoc : (sel ++ [x]) ++ rem = sel ++ x :: rem := by simp
      obtain ⟨cs', g', sel', a1, a2, a3, a4, a5, a6, a7⟩ := ih (pre ++ [x]) (sel ++ [x]) f cs1 _ (by simp [hpe])
        (by rw [hassoc]; exact hnd) (by
          intro y hy
          rcases List.mem_append.mp hy with h | h
          · exact hsN y h
          · simp at h; omega) (by simp; omega) (by simp; simp at h2; omega) (by simp at hf; omega) e2 (by
          intro c hc
          by_cases e : c = sel.length
          · subst e; simp
          · simp only [if_neg e]
            rw [List.getElem_append_left (by simp at hc; omega)]
            exact hg c (by simp at hc; omega))
      refine ⟨cs', g', sel', by simpa using a1, a2, a3, a4, a5, a6, fun hnv hcard => a7 ?_ (by rw [hassoc]; exact hcard)⟩
      have hnx : tab dim data x ∉ sel.map (tab dim data) := by
        rcases hor with hor | hor
        · intro hc
          obtain ⟨y, hy, hxy⟩ := List.mem_map.mp hc
          obtain ⟨j, hj, rfl⟩ := List.getElem_of_mem hy
          exact hor ⟨j, hj, by rw [hg j hj]; exact tab_eq.mp hxy.symm⟩
        · have hle := List.toFinset_card_le ((sel ++ x :: rem).map (tab dim data))
          have hN : ((sel ++ x :: rem).map (tab dim data)).Nodup := by
            rw [← Multiset.coe_nodup, ← Multiset.toFinset_card_eq_card_iff_nodup]
            simp only [Multiset.coe_card]
            refine le_antisymm hle ?_
            have : ((sel ++ x :: rem).map (tab dim data)).length = nC := by simp; omega
            rw [this]
            exact hcard
          rw [List.map_append, List.nodup_append] at hN
          intro hc
          exact hN.2.2 _ hc _ (by simp) rfl
      rw [List.map_append, List.nodup_append]
      refine ⟨hnv, by simp, fun a ha b hb => ?_⟩
      simp at hb
      rintro rfl
      exact hnx (hb ▸ ha)
    by_cases hc : nC - sel.length < N - pre.length
    swap
    · rw [if_neg hc]
      simp only [Bool.false_eq_true, if_false]
      exact accept (Or.inr (by simp at h2; omega))
    rw [if_pos hc]
    obtain ⟨b, b1, b2⟩ := duplicate_spec (m := m) hd hx hcs hk.le
    rw [b1]
    simp only [Option.bind_some]
    cases b with
    | false =>
      simp only [Bool.false_eq_true, if_false]
      exact accept (Or.inl (fun h => by simpa using b2.mpr h))
    | true =>
      rw [if_pos rfl]
      obtain ⟨cs', g', sel', a1, a2, a3, a4, a5, a6, a7⟩ := ih (pre ++ [x]) sel f cs g (by simp [hpe])
        (hnd.sublist (by simp)) hsN h1 (by omega) (by simp at hf; omega) hcs hg
      refine ⟨cs', g', sel', by simpa using a1, a2, a3, a4, a5, a6, fun hnv hcard => a7 hnv (hcard.trans (le_of_eq ?_))⟩
      congr 1
      obtain ⟨j, hj, hs⟩ := b2.mp rfl
      rw [hg j hj] at hs
      ext v
      simp only [List.mem_toFinset, List.map_append, List.map_cons, List.mem_append, List.mem_cons]
      constructor
      · rintro (h | h | h)
        · exact Or.inl h
        · exact Or.inl (List.mem_map.mpr ⟨sel[j], List.getElem_mem _, h ▸ (tab_eq.mpr hs).symm⟩)
        · exact Or.inr h
      · rintro (h | h)
        · exact Or.inl h
        · exact Or.inr (Or.inr h)

/-- **C68.** With at least as many points as centres, the random seeding reads and writes within bounds, the centres are data
points of different indexes, and they are different vectors whenever the data contains enough different vectors. -/
theorem randSeed_correct (hd : data.length = N * dim) {g : List K} (hg : g.length = nC * dim) (hC : nC ≤ N)
    {uindex : ρ → Nat → Option (Nat × ρ)} {inv : ρ → Prop} {bound : Nat} (hu : Random.InRange inv bound uindex) (hN : N ≤ bound)
    {r : ρ} (hr : inv r) :
    ∃ cs r', ∃ sel : List Nat, randSeed m dim nC N data g uindex r = some (cs, r') ∧ inv r' ∧ sel.length = nC ∧ sel.Nodup ∧
      CentersAre dim N data cs sel ∧ (HasDistinct dim N data nC → AllDifferent dim nC cs) := by
  obtain ⟨p, r', h1, h2, h3, -⟩ := Random.shuffle_perm uindex inv bound hu r hr (List.range N) N (by simp) hN
  have hpN : ∀ x ∈ p, x < N := fun x hx => by simpa using h3.mem_iff.mp hx
  obtain ⟨cs', g', sel', a1, a2, a3, a4, a5, a6, a7⟩ := randLoop_spec (m := m) (nC := nC) hd p (by simpa using h3.length_eq) hpN
    p [] [] (N + 1) g (comp g dim) (by simp) (by simpa using h3.nodup_iff.mpr List.nodup_range) (by simp) (by simp)
    (by have := h3.length_eq; simp at this; simp; omega) (by have := h3.length_eq; simp at this; omega) (flat_comp hg)
    (by simp)
  refine ⟨cs', r', sel', ?_, h2, a3, a4, ⟨by rw [a3]; exact a2.len, a5, fun c hc j hj => ?_⟩, fun ⟨T, t1, t2, t3⟩ => ?_⟩
  · unfold randSeed
    rw [h1]
    simp only [Option.bind_eq_bind, Option.bind_some]
    simp only [List.length_nil] at a1
    rw [a1]
    rfl
  · rw [Flat.comp_eq a2 (by omega) hj, a6 c hc]
  · have hnod := a7 (by simp) (by
      rw [← t1, ← Finset.card_image_of_injOn (f := tab dim data) (s := T) (fun x hx y hy h => t3 x hx y hy (tab_eq.mp h))]
      apply Finset.card_le_card
      intro v hv
      obtain ⟨x, hx, rfl⟩ := Finset.mem_image.mp hv
      simp only [List.nil_append, List.mem_toFinset, List.mem_map]
      exact ⟨x, h3.mem_iff.mpr (by simpa using t2 x hx), rfl⟩)
    intro c hc c' hc' hs
    have hsame : tab dim data sel'[c] = tab dim data sel'[c'] := by
      rw [tab_eq]
      intro j hj
      rw [← a6 c (by omega), ← a6 c' (by omega), ← Flat.comp_eq a2 hc hj, ← Flat.comp_eq a2 hc' hj]
      exact hs j hj
    have := (List.nodup_iff_injective_getElem.mp hnod) (a₁ := ⟨c, by simp; omega⟩) (a₂ := ⟨c', by simp; omega⟩) (by simpa using hsame)
    simpa using this

/-- Two distinct points among three, whatever the order in which the permutation presents them. -/
example : randSeed (K := ℚ) (ρ := Unit) .l2 1 2 3 [5, 5, 7] [0, 0] (fun _ n => some (n - 1, ())) () = some ([5, 7], ()) := by
  decide +kernel

/-- With more centres than different points, a duplicate is returned. -/
example : randSeed (K := ℚ) (ρ := Unit) .l2 1 2 3 [5, 5, 5] [0, 0] (fun _ n => some (n - 1, ())) () = some ([5, 5], ()) := by
  decide +kernel

/-- More centres than points: the permutation is read out of bounds. -/
example : randSeed (K := ℚ) (ρ := Unit) .l2 1 3 2 [5, 6] [0, 0, 0] (fun _ n => some (n - 1, ())) () = none := by
  decide +kernel

/-! ## k-means++ -/

/-- Least distances to the points of `prev`. -/
def MinInv (m : Metric) (dim N : Nat) (data : List K) (prev : List Nat) (f : Nat → Option K) : Prop :=
  (prev = [] ∧ ∀ y < N, f y = none) ∨ ∃ D, NearestDist m dim N data prev D ∧ ∀ y < N, f y = some (D y)

theorem ppUpdate_spec (hd : data.length = N * dim) {prev : List Nat} {p : Nat} (hp : p < N) {v : List K}
    (hv : v = AllPairs.vec data dim p) {md : List (Option K)} {f : Nat → Option K} (hmd : Arr md N f)
    (hf : MinInv m dim N data prev f) :
    ∃ md' D, ppUpdate m dim N data v md = some (md', ∑ y ∈ Finset.range N, D y) ∧ Arr md' N (fun y => some (D y)) ∧
      NearestDist m dim N data (prev ++ [p]) D := by
  let D : Nat → K := fun y => ppMin (f y) (vdist m dim (comp data dim p) (comp data dim y))
  obtain ⟨s, h1, h2, h3⟩ := iter_inv (n := N) (f := fun x (s : List (Option K) × K) => do
      let w ← AllPairs.slice data ((x * dim : Nat) : Int) dim
      let a ← rd s.1 x
      let d := ppMin a (m.dist v w)
      let md ← wr s.1 x (some d)
      some (md, s.2 + d)) (s := (md, 0))
    (fun i (s : List (Option K) × K) => Arr s.1 N (fun y => if y < i then some (D y) else f y) ∧ s.2 = ∑ y ∈ Finset.range i, D y)
    ⟨by simpa using hmd, by simp⟩ (by
    intro i hi s ⟨q1, q2⟩
    rw [AllPairs.slice_vec hd hi rfl]
    simp only [Option.bind_eq_bind, Option.bind_some]
    rw [q1.rd hi]
    simp only [Option.bind_some, Nat.lt_irrefl, if_false]
    rw [hv, dist_vec hd hp hd hi]
    obtain ⟨l, e1, e2⟩ := q1.wr hi (some (D i))
    rw [e1]
    refine ⟨_, rfl, e2.congr fun y _ => ?_, ?_⟩
    · unfold upd1
      by_cases e : y = i
      · subst e; simp
      · rw [if_neg e]
        show (if y < i then some (D y) else f y) = _
        by_cases h : y < i
        · rw [if_pos h, if_pos (by omega)]
        · rw [if_neg h, if_neg (by omega)]
    · rw [Finset.sum_range_succ, ← q2])
  refine ⟨s.1, D, ?_, h2.congr fun y hy => by rw [if_pos hy], ?_⟩
  · unfold ppUpdate
    rw [h1, ← h3]
  · intro y hy
    rcases hf with ⟨rfl, hf⟩ | ⟨D', hD, hf⟩
    · have : D y = vdist m dim (comp data dim p) (comp data dim y) := by simp [D, ppMin, hf y hy]
      exact ⟨⟨p, by simp, this⟩, fun q hq => by simp at hq; rw [hq, this]⟩
    · obtain ⟨⟨q, hq, hqe⟩, hle⟩ := hD y hy
      have hDy : D y = if D' y < vdist m dim (comp data dim p) (comp data dim y) then D' y
          else vdist m dim (comp data dim p) (comp data dim y) := by simp [D, ppMin, hf y hy]
      by_cases hlt : D' y < vdist m dim (comp data dim p) (comp data dim y)
      · rw [if_pos hlt] at hDy
        refine ⟨⟨q, by simp [hq], hDy.trans hqe⟩, fun q' hq' => ?_⟩
        rw [hDy]
        rcases List.mem_append.mp hq' with h | h
        · exact hle q' h
        · simp at h; rw [h]; exact hlt.le
      · rw [if_neg hlt] at hDy
        refine ⟨⟨p, by simp, hDy⟩, fun q' hq' => ?_⟩
        rw [hDy]
        rcases List.mem_append.mp hq' with h | h
        · exact le_trans (not_lt.mp hlt) (hle q' h)
        · simp at h; rw [h]

theorem ppSelect_spec {md : List (Option K)} {D : Nat → K} (hmd : Arr md N (fun y => some (D y))) (thr : K) :
    ∀ n x acc, x + n = N - 1 → acc = ∑ y ∈ Finset.range x, D y → (∀ x' < x, ∑ y ∈ Finset.range (x' + 1), D y < thr) →
      ∃ z, ppSelect md thr n x acc = some z ∧ z ≤ N - 1 ∧ (∀ x' < z, ∑ y ∈ Finset.range (x' + 1), D y < thr) ∧
        (thr ≤ ∑ y ∈ Finset.range (z + 1), D y ∨ z = N - 1) := by
  intro n
  induction n with
  | zero =>
    intro x acc hx _ hlt
    exact ⟨x, rfl, by omega, hlt, Or.inr (by omega)⟩
  | succ n ih =>
    intro x acc hx hacc hlt
    have hs : acc + D x = ∑ y ∈ Finset.range (x + 1), D y := by rw [Finset.sum_range_succ, hacc]
    rw [ppSelect, hmd.rd (show x < N by omega)]
    simp only [Option.bind_eq_bind, Option.bind_some]
    by_cases h : acc + D x ≥ thr
    · rw [if_pos h]
      exact ⟨x, rfl, by omega, hlt, Or.inl (by rw [← hs]; exact h)⟩
    · rw [if_neg h]
      refine ih (x + 1) _ (by omega) hs fun x' hx' => ?_
      rcases Nat.lt_or_ge x' x with h' | h'
      · exact hlt x' h'
      · obtain rfl : x' = x := by omega
        rw [← hs]; exact not_le.mp h

theorem ppLoop_spec (hd : data.length = N * dim) (hN : 0 < N) (real1 : ρ → K × ρ) :
    ∀ n (sel : List Nat) (x : Nat) (cs : List K) (g : Nat → Nat → K) (md : List (Option K)) (f : Nat → Option K) (r : ρ),
      (∀ y ∈ sel, y < N) → x < N → sel.length + n + 1 = nC → Flat cs nC dim g →
      (∀ c (h : c < sel.length), g c = comp data dim sel[c]) → Arr md N f → MinInv m dim N data sel f →
      ∃ cs' g' r', ∃ sel' : List Nat, ppLoop m dim N data real1 n sel.length x cs md r = some (cs', r') ∧ Flat cs' nC dim g' ∧
        sel'.length = nC ∧ sel' = sel ++ x :: sel'.drop (sel.length + 1) ∧ (∀ y ∈ sel', y < N) ∧
        (∀ c (h : c < sel'.length), g' c = comp data dim sel'[c]) ∧
        ∀ i (h : i < sel'.length), sel.length < i →
          Sampled m dim N data (sel'.take i) (draw real1 (i - (sel.length + 1)) r) sel'[i] := by
  intro n
  induction n with
  | zero =>
    intro sel x cs g md f r hsel hx hn hcs hg hmd hf
    obtain ⟨cs1, e1, e2⟩ := copyPoint_spec (flat_comp hd) hcs hx (show sel.length < nC by omega)
    refine ⟨cs1, _, (real1 r).2, sel ++ [x], by rw [ppLoop, e1]; rfl, e2, by simp; omega, by simp, ?_, ?_, ?_⟩
    · intro y hy
      rcases List.mem_append.mp hy with h | h
      · exact hsel y h
      · simp at h; omega
    · intro c hc
      by_cases e : c = sel.length
      · subst e; simp
      · simp only [if_neg e]
        rw [List.getElem_append_left (by simp at hc; omega)]
        exact hg c (by simp at hc; omega)
    · intro i hi hlt
      simp at hi; omega
  | succ n ih =>
    intro sel x cs g md f r hsel hx hn hcs hg hmd hf
    obtain ⟨cs1, e1, e2⟩ := copyPoint_spec (flat_comp hd) hcs hx (show sel.length < nC by omega)
    have hvec : AllPairs.vec cs1 dim sel.length = AllPairs.vec data dim x := by
      unfold AllPairs.vec
      rw [e2.vec (show sel.length < nC by omega), (flat_comp hd).vec hx]
      simp
    obtain ⟨md', D, u1, u2, u3⟩ := ppUpdate_spec (m := m) hd hx hvec hmd hf
    obtain ⟨z, s1, s2, s3, s4⟩ := ppSelect_spec u2 ((real1 r).1 * ∑ y ∈ Finset.range N, D y) (N - 1) 0 0 (by omega) (by simp)
      (by simp)
    obtain ⟨cs', g', r', sel', a1, a2, a3, a4, a5, a6, a7⟩ := ih (sel ++ [x]) z cs1 _ md' _ (real1 r).2 (by
        intro y hy
        rcases List.mem_append.mp hy with h | h
        · exact hsel y h
        · simp at h; omega) (by omega) (by simp; omega) e2 (by
        intro c hc
        by_cases e : c = sel.length
        · subst e; simp
        · simp only [if_neg e]
          rw [List.getElem_append_left (by simp at hc; omega)]
          exact hg c (by simp at hc; omega)) u2 (Or.inr ⟨D, u3, fun _ _ => rfl⟩)
    refine ⟨cs', g', r', sel', ?_, a2, a3, ?_, a5, a6, fun i hi hlt => ?_⟩
    · rw [ppLoop, e1]
      simp only [Option.bind_eq_bind, Option.bind_some]
      rw [AllPairs.slice_vec e2.len (show sel.length < nC by omega) rfl]
      simp only [Option.bind_some]
      rw [u1]
      simp only [Option.bind_some]
      rw [s1]
      simpa using a1
    · rw [a4]
      simp
    · by_cases e : i = sel.length + 1
      · subst e
        have ht : sel'.take (sel.length + 1) = sel ++ [x] := by
          rw [a4]
          simp [List.take_append]
        have hz : sel'[sel.length + 1] = z := by
          have : sel'[sel.length + 1]? = some z := by
            rw [a4]
            simp
          rw [List.getElem?_eq_getElem hi] at this
          exact Option.some.inj this
        rw [ht, hz]
        simp only [Nat.sub_self, draw]
        exact ⟨D, u3, s3, s4⟩
      · have := a7 i hi (by simp; omega)
        obtain ⟨q, hq⟩ : ∃ q, i - (sel.length + 1) = q + 1 := ⟨i - (sel.length + 1) - 1, by omega⟩
        have hq' : i - ((sel ++ [x]).length + 1) = q := by simp; omega
        rw [hq'] at this
        rw [hq, draw]
        exact this

/-- **C69.** The k-means++ seeding reads and writes within bounds; the first centre is the point drawn by the generator, and
each of the others is drawn among the data points in proportion to the distance from the nearest of the centres before it:
it is the first at which the cumulated distances reach the fraction of their total that the generator returned. -/
theorem ppSeed_correct (hd : data.length = N * dim) {g : List K} (hg : g.length = nC * dim) (hC : 0 < nC) (hN : 0 < N)
    {u : ρ → Nat → Nat × ρ} (hu : ∀ r n, 0 < n → (u r n).1 < n) (real1 : ρ → K × ρ) (r : ρ) :
    ∃ cs r', ∃ sel : List Nat, ppSeed m dim nC N data g u real1 r = some (cs, r') ∧ sel.length = nC ∧ CentersAre dim N data cs sel ∧
      sel.head? = some (u r N).1 ∧
      ∀ i (h : i < sel.length), 0 < i → Sampled m dim N data (sel.take i) (draw real1 (i - 1) (u r N).2) sel[i] := by
  obtain ⟨n, rfl⟩ : ∃ n, nC = n + 1 := ⟨nC - 1, by omega⟩
  obtain ⟨cs', g', r', sel', a1, a2, a3, a4, a5, a6, a7⟩ := ppLoop_spec (m := m) (nC := n + 1) hd hN real1 n [] (u r N).1 g
    (comp g dim) (List.replicate N none) (fun _ => none) (u r N).2 (by simp) (hu r N hN) (by simp) (flat_comp hg) (by simp)
    (Arr.replicate N none) (Or.inl ⟨rfl, fun _ _ => rfl⟩)
  refine ⟨cs', r', sel', a1, a3, ⟨by rw [a3]; exact a2.len, a5, fun c hc j hj => ?_⟩, by rw [a4]; simp, fun i hi h0 => ?_⟩
  · rw [Flat.comp_eq a2 (by omega) hj, a6 c hc]
  · exact a7 i hi (by simpa using h0)

/-- A sampled point differs from the points already chosen, if the fraction is positive and some point differs from them. -/
theorem Sampled.ne {prev : List Nat} {t : K} {x : Nat} (h : Sampled m dim N data prev t x) (hx : x < N) (ht : 0 < t) (ht1 : t ≤ 1)
    {z : Nat} (hz : z < N) (hnew : ∀ p ∈ prev, ¬ SameVec dim (comp data dim p) (comp data dim z)) :
    ∀ p ∈ prev, ¬ SameVec dim (comp data dim p) (comp data dim x) := by
  obtain ⟨D, hD, h1, h2⟩ := h
  have h0 : ∀ y ∈ Finset.range N, 0 ≤ D y := fun y hy => by
    obtain ⟨⟨p, -, hp⟩, -⟩ := hD y (by simpa using hy)
    rw [hp]; exact vdist_nonneg _ _ _ _
  have hpos : 0 < ∑ y ∈ Finset.range N, D y := by
    refine Finset.sum_pos' h0 ⟨z, by simpa using hz, ?_⟩
    obtain ⟨⟨p, hp, hpe⟩, -⟩ := hD z hz
    refine lt_of_le_of_ne (h0 z (by simpa using hz)) fun he => hnew p hp ?_
    rw [← vdist_eq_zero m, ← hpe, ← he]
  intro p hp hs
  have hDx : D x = 0 := by
    refine le_antisymm ?_ (h0 x (by simpa using hx))
    refine ((hD x hx).2 p hp).trans (le_of_eq ?_)
    exact (vdist_eq_zero m dim _ _).mpr hs
  have hge : t * ∑ y ∈ Finset.range N, D y ≤ ∑ y ∈ Finset.range (x + 1), D y := by
    rcases h2 with h2 | h2
    · exact h2
    · rw [show x + 1 = N by omega]
      exact mul_le_of_le_one_left hpos.le ht1
  rw [Finset.sum_range_succ, hDx, add_zero] at hge
  rcases Nat.eq_zero_or_pos x with rfl | hx0
  · simp only [Finset.range_zero, Finset.sum_empty] at hge
    exact absurd hge (not_le.mpr (mul_pos ht hpos))
  · have := h1 (x - 1) (by omega)
    rw [show x - 1 + 1 = x by omega] at this
    exact absurd hge (not_le.mpr this)

/-- **C69.** If the generator never returns zero, every centre differs from the centres before it as long as some data point
does. -/
theorem ppSeed_distinct (hd : data.length = N * dim) {g : List K} (hg : g.length = nC * dim) (hC : 0 < nC) (hN : 0 < N)
    {u : ρ → Nat → Nat × ρ} (hu : ∀ r n, 0 < n → (u r n).1 < n) {real1 : ρ → K × ρ}
    (h01 : ∀ r, 0 < (real1 r).1 ∧ (real1 r).1 ≤ 1) (r : ρ) :
    ∃ cs r', ppSeed m dim nC N data g u real1 r = some (cs, r') ∧
      ∀ i < nC, (∃ z < N, ∀ c < i, ¬ SameVec dim (comp cs dim c) (comp data dim z)) →
        ∀ c < i, ¬ SameVec dim (comp cs dim c) (comp cs dim i) := by
  obtain ⟨cs, r', sel, h1, h2, ⟨h3, h4, h5⟩, -, h6⟩ := ppSeed_correct (m := m) hd hg hC hN hu real1 r
  refine ⟨cs, r', h1, fun i hi ⟨z, hz, hnew⟩ c hc hs => ?_⟩
  have hdr : ∀ n r, 0 < draw real1 n r ∧ draw real1 n r ≤ 1 := by
    intro n
    induction n with
    | zero => exact fun r => h01 r
    | succ n ih => exact fun r => ih _
  have hmem : sel[c] ∈ sel.take i := by
    rw [List.mem_take_iff_getElem]
    exact ⟨c, by omega, rfl⟩
  refine Sampled.ne (h6 i (by omega) (by omega)) (h4 _ (List.getElem_mem _)) (hdr _ _).1 (hdr _ _).2 hz ?_ sel[c] hmem ?_
  · intro p hp hsp
    obtain ⟨c', hc', rfl⟩ := List.mem_take_iff_getElem.mp hp
    exact hnew c' (by omega) fun j hj => (h5 c' (by omega) j hj).trans (hsp j hj)
  · intro j hj
    rw [← h5 c (by omega) j hj, ← h5 i (by omega) j hj]
    exact hs j hj

/-- Non-degenerate instance. -/
example : ppSeed (K := ℚ) (ρ := Unit) .l2 1 3 4 [5, 5, 7, 8] [0, 0, 0] (fun _ _ => (1, ())) (fun _ => (1/2, ())) () =
    some ([5, 8, 7], ()) := by decide +kernel

/-- The property without the restriction on the generator, whose fractions lie in `[0, 1]`. -/
def PlusPlusClaim : Prop :=
  ∀ (N nC : Nat) (data g : List ℚ) (real1 : Unit → ℚ × Unit) (cs : List ℚ), data.length = N → g.length = nC →
    0 ≤ (real1 ()).1 → (real1 ()).1 ≤ 1 → ppSeed .l2 1 nC N data g (fun _ _ => (0, ())) real1 () = some (cs, ()) →
    HasDistinct 1 N data nC → AllDifferent 1 nC cs

/-- A fraction of zero, which `vl_rand_real1` can return, selects the first point, also if it is already a centre. -/
theorem plus_plus_claim_false : ¬ PlusPlusClaim := by
  intro h
  have := h 2 2 [5, 7] [0, 0] (fun _ => (0, ())) [5, 5] rfl rfl (by decide +kernel) (by decide +kernel) (by decide +kernel)
    ⟨{0, 1}, by decide, by decide, by
      intro x hx y hy hs
      have := hs 0 (by decide)
      simp only [Finset.mem_insert, Finset.mem_singleton] at hx hy
      rcases hx with rfl | rfl <;> rcases hy with rfl | rfl <;> simp [comp] at this ⊢⟩ 0 (by decide) 1 (by decide) (by
      intro j hj
      obtain rfl : j = 0 := by omega
      simp [comp])
  exact absurd this (by decide)

end Verif.Kmeans
