import Verif.Kmeans.Lemmas

/-!
# k-means: optimality of the centre updates
-/

set_option linter.unusedSectionVars false

namespace Verif.Kmeans

variable {K ρ : Type} [Field K] [LinearOrder K] [IsStrictOrderedRing K]
variable {m : Metric} {dim nC N : Nat} {data centers : List K}

/-! ## Mean -/

/-- The mean minimises the sum of squares. -/
theorem mean_opt (a : Nat → Nat) (f : Nat → Nat → K) {c : Nat} (hc : 0 < mass N a c) (j : Nat) (o : K) :
    ∑ x ∈ Finset.range N with a x = c, (f x j - mean N a f c j) ^ 2 ≤ ∑ x ∈ Finset.range N with a x = c, (f x j - o) ^ 2 := by
  set S := (Finset.range N).filter fun x => a x = c
  set μ := mean N a f c j with hμ
  have hm : (0 : K) < (S.card : K) := by exact_mod_cast hc
  have hs : ∑ x ∈ S, f x j = S.card * μ := by
    have hm' : (mass N a c : K) ≠ 0 := ne_of_gt hm
    have : ∑ x ∈ S, f x j = (mass N a c : K) * ((∑ x ∈ S, f x j) / (mass N a c : K)) := by field_simp
    exact this
  have e : ∑ x ∈ S, (f x j - o) ^ 2 - ∑ x ∈ S, (f x j - μ) ^ 2 = S.card * (μ - o) ^ 2 := by
    rw [← Finset.sum_sub_distrib]
    have : ∀ x ∈ S, (f x j - o) ^ 2 - (f x j - μ) ^ 2 = 2 * (μ - o) * f x j - (μ - o) * (μ + o) := fun x _ => by ring
    rw [Finset.sum_congr rfl this, Finset.sum_sub_distrib, ← Finset.mul_sum, hs, Finset.sum_const, nsmul_eq_mul]
    ring
  have : (0 : K) ≤ S.card * (μ - o) ^ 2 := mul_nonneg hm.le (sq_nonneg _)
  linarith

/-! ## Median -/

theorem cmpColumn_threeWay (data : List K) (dim d : Nat) : ThreeWay (cmpColumn data dim d) := by
  refine ⟨fun a b => ?_, fun a b c => ?_⟩
  · unfold cmpColumn
    generalize data.getD (a * dim + d) 0 = x
    generalize data.getD (b * dim + d) 0 = y
    rcases lt_trichotomy x y with h | h | h
    · simp [h, not_lt.mpr h.le]
    · simp [h]
    · simp [h, not_lt.mpr h.le]
  · unfold cmpColumn
    generalize data.getD (a * dim + d) 0 = x
    generalize data.getD (b * dim + d) 0 = y
    generalize data.getD (c * dim + d) 0 = z
    intro h1 h2
    have q1 : x ≤ y := by
      by_contra hc; push Not at hc; rw [if_neg (not_lt.mpr hc.le), if_pos hc] at h1; omega
    have q2 : y ≤ z := by
      by_contra hc; push Not at hc; rw [if_neg (not_lt.mpr hc.le), if_pos hc] at h2; omega
    by_cases h : x < z
    · simp [h]
    · simp [h, not_lt.mpr (le_trans q1 q2)]

theorem cmpColumn_le {data : List K} {dim d a b : Nat} (h : cmpColumn data dim d a b ≤ 0) :
    comp data dim a d ≤ comp data dim b d := by
  unfold cmpColumn at h
  by_contra hc
  push Not at hc
  unfold comp at hc
  rw [if_neg (not_lt.mpr hc.le), if_pos hc] at h
  omega

/-- A row of the table of permutations: the points sorted by component `d`. -/
structure SortedRow (data : List K) (dim N d : Nat) (row : List Nat) (π : Nat → Nat) : Prop where
  arr : Arr row N π
  perm : row.Perm (List.range N)
  sorted : ∀ i j, i < j → j < N → comp data dim (π i) d ≤ comp data dim (π j) d

theorem sortData_spec (hN : 0 < N) (data : List K) (dim n : Nat) :
    ∃ rows, sortData data dim N n = some rows ∧ rows.length = n ∧
      ∀ d < n, ∃ row π, rows[d]? = some row ∧ SortedRow data dim N d row π := by
  induction n with
  | zero => exact ⟨[], rfl, rfl, by simp⟩
  | succ n ih =>
    obtain ⟨rows, h1, h2, h3⟩ := ih
    obtain ⟨row, g1, g2, g3⟩ := Qsort.sort_whole (cmpColumn_threeWay data dim n) (List.range N) (by simp; omega)
    rw [List.length_range] at g1
    refine ⟨rows ++ [row], by simp [sortData, h1, g1], by simp [h2], fun d hd => ?_⟩
    by_cases e : d = n
    · subst e
      have hl : row.length = N := by rw [g2.length_eq, List.length_range]
      refine ⟨row, fun i => row.getD i 0, by simp [← h2], Arr.of_len' hl 0, g2, fun i j hij hj => ?_⟩
      have := List.pairwise_iff_getElem.mp g3 i j (by omega) (by omega) hij
      have := cmpColumn_le this
      simpa [List.getD, show i < row.length by omega, show j < row.length by omega] using this
    · obtain ⟨row', π, q1, q2⟩ := h3 d (by omega)
      exact ⟨row', π, by rw [List.getElem?_append_left (by omega)]; exact q1, q2⟩

theorem SortedRow.lt {d : Nat} {row : List Nat} {π : Nat → Nat} (h : SortedRow data dim N d row π) {i : Nat} (hi : i < N) :
    π i < N := by
  have : π i ∈ row := List.mem_of_getElem? (h.arr.get i hi)
  have := h.perm.mem_iff.mp this
  simpa using this

/-- A sum over the points in sorted order. -/
theorem SortedRow.sum {d : Nat} {row : List Nat} {π : Nat → Nat} (h : SortedRow data dim N d row π) (F : Nat → K) :
    ∑ x ∈ Finset.range N, F x = ∑ i ∈ Finset.range N, F (π i) := by
  have e : row = (List.range N).map π := by
    apply List.ext_getElem?
    intro i
    rcases Nat.lt_or_ge i N with hi | hi
    · rw [h.arr.get i hi]; simp [hi]
    · rw [List.getElem?_eq_none (by rw [h.arr.len]; exact hi), List.getElem?_eq_none (by simpa using hi)]
  have h1 : ((List.range N).map F).sum = (row.map F).sum := (h.perm.map F).sum_eq.symm
  rw [e, List.map_map] at h1
  have key : ∀ G : Nat → K, ((List.range N).map G).sum = ∑ i ∈ Finset.range N, G i := by
    intro G
    clear h1 e h
    induction N with
    | zero => simp
    | succ n ih => rw [List.range_succ, List.map_append, List.sum_append, ih, Finset.sum_range_succ]; simp
  rw [← key, h1, ← key (fun i => F (π i))]
  rfl

theorem SortedRow.mass {d : Nat} {row : List Nat} {π : Nat → Nat} (h : SortedRow data dim N d row π) (a : Nat → Nat) (c : Nat) :
    Kmeans.mass N a c = Kmeans.mass N (fun i => a (π i)) c := by
  have := h.sum (fun x => if a x = c then (1 : K) else 0)
  simp only [Finset.sum_boole] at this
  have h' : ((Kmeans.mass N a c : Nat) : K) = ((Kmeans.mass N (fun i => a (π i)) c : Nat) : K) := this
  exact_mod_cast h'

/-- The value of rank `⌈m/2⌉` (from 1) of a sorted family of `m` numbers minimises the sum of the absolute differences. -/
theorem median_opt {b : Nat → Nat} {v : Nat → K} (hv : ∀ i j, i < j → j < N → v i ≤ v j) {c y : Nat} (hy : y < N)
    (hb : b y = c) (hr : mass y b c = (mass N b c + 1) / 2 - 1) (o : K) :
    ∑ i ∈ Finset.range N with b i = c, |v i - v y| ≤ ∑ i ∈ Finset.range N with b i = c, |v i - o| := by
  have hv' : ∀ i j, i ≤ j → j < N → v i ≤ v j := fun i j h1 h2 => by
    rcases Nat.lt_or_ge i j with h | h
    · exact hv i j h h2
    · rw [show i = j by omega]
  set S := (Finset.range N).filter fun i => b i = c with hS
  have hcard : S.card = mass N b c := rfl
  have hlow : (S.filter fun i => i < y).card = mass y b c := by
    unfold mass
    congr 1
    ext i; simp [hS]; omega
  have hpos : 0 < mass N b c := Finset.card_pos.mpr ⟨y, by simp [hy, hb]⟩
  have hle : (S.filter fun i => i ≤ y).card = mass y b c + 1 := by
    have := mass_succ y b c
    rw [if_pos hb] at this
    rw [← this]
    unfold mass
    congr 1
    ext i; simp [hS]; omega
  have split1 : (S.filter fun i => i ≤ y).card + (S.filter fun i => ¬ i ≤ y).card = S.card := by
    simpa using Finset.card_filter_add_card_filter_not (s := S) (fun i => i ≤ y)
  have split2 : (S.filter fun i => i < y).card + (S.filter fun i => ¬ i < y).card = S.card := by
    simpa using Finset.card_filter_add_card_filter_not (s := S) (fun i => i < y)
  rw [← sub_nonneg, ← Finset.sum_sub_distrib]
  rcases le_total (v y) o with ho | ho
  · have hb' : ∀ i ∈ S, (if i ≤ y then (o - v y) else -(o - v y)) ≤ |v i - o| - |v i - v y| := by
      intro i hi
      have hiN : i < N := by simp [hS] at hi; exact hi.1
      split
      · have := hv' i y ‹_› hy
        rw [abs_of_nonpos (by linarith), abs_of_nonpos (by linarith)]; linarith
      · have := abs_sub_abs_le_abs_sub (v i - v y) (v i - o)
        have e : |v i - v y - (v i - o)| = o - v y := by rw [show v i - v y - (v i - o) = o - v y by ring, abs_of_nonneg (by linarith)]
        rw [e] at this; linarith
    refine le_trans ?_ (Finset.sum_le_sum hb')
    rw [Finset.sum_ite, Finset.sum_const, Finset.sum_const, nsmul_eq_mul, nsmul_eq_mul]
    have : ((S.filter fun i => ¬ i ≤ y).card : K) ≤ ((S.filter fun i => i ≤ y).card : K) := by
      exact_mod_cast (by omega : (S.filter fun i => ¬ i ≤ y).card ≤ (S.filter fun i => i ≤ y).card)
    have := mul_le_mul_of_nonneg_right this (sub_nonneg.mpr ho)
    linarith
  · have hb' : ∀ i ∈ S, (if i < y then -(v y - o) else (v y - o)) ≤ |v i - o| - |v i - v y| := by
      intro i hi
      have hiN : i < N := by simp [hS] at hi; exact hi.1
      split
      · have := abs_sub_abs_le_abs_sub (v i - v y) (v i - o)
        have e : |v i - v y - (v i - o)| = v y - o := by
          rw [show v i - v y - (v i - o) = -(v y - o) by ring, abs_neg, abs_of_nonneg (by linarith)]
        rw [e] at this; linarith
      · have := hv' y i (by omega) hiN
        rw [abs_of_nonneg (by linarith), abs_of_nonneg (by linarith)]; linarith
    refine le_trans ?_ (Finset.sum_le_sum hb')
    rw [Finset.sum_ite, Finset.sum_const, Finset.sum_const, nsmul_eq_mul, nsmul_eq_mul]
    have : ((S.filter fun i => i < y).card : K) ≤ ((S.filter fun i => ¬ i < y).card : K) := by
      exact_mod_cast (by omega : (S.filter fun i => i < y).card ≤ (S.filter fun i => ¬ i < y).card)
    have := mul_le_mul_of_nonneg_right this (sub_nonneg.mpr ho)
    linarith

/-- After the pass over component `d`, the non-empty centres have a median as component `d`; nothing else changes. -/
theorem medianPass_spec {f g : Nat → Nat → K} (hd : Flat data N dim f) {asgn masses : List Nat} {a : Nat → Nat}
    (ha : Arr asgn N a) (hm : Arr masses N (mass N a)) (hn : ∀ x < N, a x < nC) (hCN : nC ≤ N)
    {perms : List (List Nat)} {d : Nat} (hdd : d < dim) {row : List Nat} {π : Nat → Nat} (hrow : perms[d]? = some row)
    (hs : SortedRow data dim N d row π) {cs : List K} (hcs : Flat cs nC dim g) :
    ∃ cs' g', medianPass dim nC N data asgn masses perms d cs = some cs' ∧ Flat cs' nC dim g' ∧
      (∀ c < nC, ∀ j < dim, (j ≠ d ∨ mass N a c = 0) → g' c j = g c j) ∧
      ∀ c < nC, 0 < mass N a c → ∀ o : K,
        ∑ x ∈ Finset.range N with a x = c, |f x d - g' c d| ≤ ∑ x ∈ Finset.range N with a x = c, |f x d - o| := by
  let b := fun i => a (π i)
  have hmb : ∀ c, mass N a c = mass N b c := fun c => hs.mass a c
  unfold medianPass
  rw [rd_getElem?, hrow]
  simp only [Option.bind_eq_bind, Option.bind_some]
  obtain ⟨⟨cs', sn⟩, h1, g', h2, h3, h4, h5⟩ := iter_inv (n := N) (f := medianStep dim data asgn masses row d)
    (s := (cs, List.replicate nC 0))
    (fun i (s : List K × List Nat) => ∃ g', Flat s.1 nC dim g' ∧ Arr s.2 nC (mass i b) ∧
      (∀ c < nC, ∀ j < dim, (j ≠ d ∨ mass i b c = 0) → g' c j = g c j) ∧
      ∀ c < nC, 0 < mass i b c → ∃ y < i, b y = c ∧ g' c d = f (π y) d ∧
        mass y b c + 1 = min (mass i b c) ((mass N b c + 1) / 2))
    ⟨g, hcs, (Arr.replicate nC 0).congr fun c _ => by simp [mass], fun _ _ _ _ _ => rfl, fun c _ h => by simp [mass] at h⟩ (by
    intro i hi ⟨cs, sn⟩ ⟨g', q1, q2, q3, q4⟩
    have hπ := hs.lt hi
    have hbi : b i < nC := hn _ hπ
    have hmi : mass i b (b i) + 1 ≤ mass N b (b i) := by
      have h1 : mass (i + 1) b (b i) ≤ mass N b (b i) := by
        apply Finset.card_le_card
        intro z hz; simp at hz ⊢; exact ⟨by omega, hz.2⟩
      rw [mass_succ, if_pos rfl] at h1; exact h1
    unfold medianStep
    rw [hs.arr.rd hi]
    simp only [Option.bind_eq_bind, Option.bind_some]
    rw [ha.rd hπ]
    simp only [Option.bind_some]
    rw [q2.rd hbi, hm.rd (lt_of_lt_of_le hbi hCN)]
    simp only [Option.bind_some]
    obtain ⟨sn', w1, w2⟩ := q2.wr hbi (mass i b (b i) + 1)
    have w3 : Arr sn' nC (mass (i + 1) b) := w2.congr fun c _ => by
      rw [mass_succ]; unfold upd1
      by_cases e : c = b i
      · subst e; simp
      · rw [if_neg e, if_neg (Ne.symm e), Nat.add_zero]
    have hM : mass N a (a (π i)) = mass N b (b i) := hmb _
    rw [hM]
    by_cases hlt : 2 * mass i b (b i) < mass N b (b i)
    · rw [if_pos hlt, hd.rd hπ hdd]
      simp only [Option.bind_some]
      obtain ⟨cs', v1, v2⟩ := q1.wr hbi hdd (f (π i) d)
      rw [v1]
      simp only [Option.bind_some]
      rw [w1]
      refine ⟨_, rfl, _, v2, w3, fun c hc j hj h => ?_, fun c hc h => ?_⟩
      · rw [mass_succ] at h
        unfold upd2
        rw [if_neg]
        · apply q3 c hc j hj
          rcases h with h | h
          · exact Or.inl h
          · exact Or.inr (by omega)
        · rintro ⟨rfl, rfl⟩
          simp at h
      · rw [mass_succ] at h ⊢
        by_cases e : b i = c
        · subst e
          refine ⟨i, by omega, rfl, by simp [upd2], ?_⟩
          rw [if_pos rfl]; omega
        · rw [if_neg e, Nat.add_zero] at h ⊢
          obtain ⟨y, y1, y2, y3, y4⟩ := q4 c hc h
          refine ⟨y, by omega, y2, ?_, y4⟩
          unfold upd2
          rw [if_neg (fun h' => e h'.1.symm)]; exact y3
    · rw [if_neg hlt]
      simp only [Option.bind_some]
      rw [w1]
      refine ⟨_, rfl, _, q1, w3, fun c hc j hj h => ?_, fun c hc h => ?_⟩
      · rw [mass_succ] at h
        exact q3 c hc j hj (h.imp id fun h => by omega)
      · rw [mass_succ] at h ⊢
        by_cases e : b i = c
        · subst e
          rw [if_pos rfl]
          by_cases h0 : 0 < mass i b (b i)
          · obtain ⟨y, y1, y2, y3, y4⟩ := q4 _ hc h0
            exact ⟨y, by omega, y2, y3, by omega⟩
          · omega
        · rw [if_neg e, Nat.add_zero] at h ⊢
          obtain ⟨y, y1, y2, y3, y4⟩ := q4 c hc h
          exact ⟨y, by omega, y2, y3, y4⟩)
  rw [h1]
  refine ⟨cs', g', rfl, h2, fun c hc j hj h => h4 c hc j hj (by rw [← hmb]; exact h), fun c hc h o => ?_⟩
  rw [hmb] at h
  obtain ⟨y, y1, y2, y3, y4⟩ := h5 c hc h
  have hcomp : ∀ x < N, f x d = comp data dim x d := fun x hx => (Flat.comp_eq hd hx hdd).symm
  have := median_opt (b := b) (v := fun i => f (π i) d) (fun i j hij hj => by
    rw [hcomp _ (hs.lt (by omega)), hcomp _ (hs.lt hj)]; exact hs.sorted i j hij hj) y1 y2 (by omega) o
  rw [y3, Finset.sum_filter, Finset.sum_filter, hs.sum, hs.sum (fun x => if a x = c then |f x d - o| else 0)]
  rw [Finset.sum_filter, Finset.sum_filter] at this
  exact this

theorem restart_spec {u : ρ → Nat → Nat × ρ} (hu : ∀ r n, 0 < n → (u r n).1 < n) (hN : 0 < N) {f g : Nat → Nat → K}
    (hd : Flat data N dim f) {masses : List Nat} {ms : Nat → Nat} (hm : Arr masses N ms) (hCN : nC ≤ N)
    {cs : List K} (hcs : Flat cs nC dim g) (r : ρ) :
    ∃ cs' r' b g', restart u dim nC N data masses (cs, r) = some ((cs', r'), b) ∧ Flat cs' nC dim g' ∧
      (∀ c < nC, 0 < ms c → g' c = g c) ∧ (∀ c < nC, ms c = 0 → ∃ x < N, g' c = f x) ∧ (b = true ↔ ∃ c < nC, ms c = 0) := by
  have := iter_inv (n := nC) (f := fun c (s : (List K × ρ) × Bool) => do
    let ms ← rd masses c
    if ms = 0 then do
      let cs ← copyPoint dim data (u s.1.2 N).1 c s.1.1
      some ((cs, (u s.1.2 N).2), true)
    else some s) (s := ((cs, r), false))
    (fun i (s : (List K × ρ) × Bool) => ∃ g', Flat s.1.1 nC dim g' ∧ (∀ c, (i ≤ c ∨ 0 < ms c) → g' c = g c) ∧
      (∀ c < i, ms c = 0 → ∃ x < N, g' c = f x) ∧ (s.2 = true ↔ ∃ c < i, ms c = 0))
    ⟨g, hcs, fun _ _ => rfl, by simp, by simp⟩ (by
    intro i hi ⟨⟨cs, r⟩, b⟩ ⟨g', q1, q2, q3, q4⟩
    rw [hm.rd (by omega)]
    simp only [Option.bind_eq_bind, Option.bind_some]
    by_cases h0 : ms i = 0
    · rw [if_pos h0]
      obtain ⟨cs', e1, e2⟩ := copyPoint_spec hd q1 (hu r N hN) hi
      rw [e1]
      refine ⟨_, rfl, _, e2, fun c hc => ?_, fun c hc h => ?_, by simp; exact ⟨i, by omega, h0⟩⟩
      · have : c ≠ i := by rintro rfl; rcases hc with h | h <;> omega
        funext j; simp only [this, if_false]; exact congrFun (q2 c (hc.imp (by omega) id)) j
      · by_cases e : c = i
        · subst e; exact ⟨_, hu r N hN, by funext j; simp⟩
        · obtain ⟨x, x1, x2⟩ := q3 c (by omega) h
          exact ⟨x, x1, by funext j; simp only [e, if_false]; exact congrFun x2 j⟩
    · rw [if_neg h0]
      refine ⟨_, rfl, g', q1, fun c hc => ?_, fun c hc h => ?_, ?_⟩
      · apply q2
        rcases Nat.lt_or_ge c i with h | h
        · rcases hc with h' | h'
          · omega
          · exact Or.inr h'
        · exact Or.inl h
      · have : c ≠ i := by rintro rfl; exact h0 h
        exact q3 c (by omega) h
      · rw [q4]
        constructor
        · rintro ⟨c, h, h'⟩; exact ⟨c, by omega, h'⟩
        · rintro ⟨c, h, h'⟩
          have : c ≠ i := by rintro rfl; exact h0 h'
          exact ⟨c, by omega, h'⟩)
  obtain ⟨⟨⟨cs', r'⟩, b⟩, h1, g', h2, h3, h4, h5⟩ := this
  exact ⟨cs', r', b, g', h1, h2, fun c hc h => h3 c (Or.inr h), h4, h5⟩

/-! ## The cost never increases -/

/-- The cost of an assignment, centre by centre and component by component. -/
theorem cost_eq {f g : Nat → Nat → K} (hf : Flat data N dim f) (hg : Flat centers nC dim g)
    {a : Nat → Nat} (hn : ∀ x < N, a x < nC) :
    cost m dim N data centers a = ∑ c ∈ Finset.range nC, ∑ j ∈ Finset.range dim, ∑ x ∈ Finset.range N with a x = c,
      (match m with | .l1 => |f x j - g c j| | .l2 => (f x j - g c j) ^ 2) := by
  have e1 : ∀ x ∈ Finset.range N, pc m dim data centers x (a x) =
      ∑ c ∈ Finset.range nC, if a x = c then ∑ j ∈ Finset.range dim,
        (match m with | .l1 => |f x j - g c j| | .l2 => (f x j - g c j) ^ 2) else 0 := by
    intro x hx
    have hx : x < N := by simpa using hx
    rw [Finset.sum_ite_eq, if_pos (by simpa using hn x hx)]
    unfold pc vdist
    cases m <;> exact Finset.sum_congr rfl fun j hj => by
      rw [Flat.comp_eq hf hx (by simpa using hj), Flat.comp_eq hg (hn x hx) (by simpa using hj)]
  unfold cost
  rw [Finset.sum_congr rfl e1, Finset.sum_comm]
  refine Finset.sum_congr rfl fun c _ => ?_
  rw [Finset.sum_comm, ← Finset.sum_filter]

/-- Changing the non-empty centres component-wise for the better does not increase the cost. -/
theorem cost_le {centers' : List K} {f g g' : Nat → Nat → K} (hf : Flat data N dim f)
    (hg : Flat centers nC dim g) (hg' : Flat centers' nC dim g') {a : Nat → Nat} (hn : ∀ x < N, a x < nC)
    (h : ∀ c < nC, 0 < mass N a c → ∀ j < dim,
      ∑ x ∈ Finset.range N with a x = c, (match m with | .l1 => |f x j - g' c j| | .l2 => (f x j - g' c j) ^ 2) ≤
      ∑ x ∈ Finset.range N with a x = c, (match m with | .l1 => |f x j - g c j| | .l2 => (f x j - g c j) ^ 2)) :
    cost m dim N data centers' a ≤ cost m dim N data centers a := by
  rw [cost_eq hf hg hn, cost_eq hf hg' hn]
  refine Finset.sum_le_sum fun c hc => Finset.sum_le_sum fun j hj => ?_
  rcases Nat.eq_zero_or_pos (mass N a c) with h0 | h0
  · have : (Finset.range N).filter (fun x => a x = c) = ∅ := Finset.card_eq_zero.mp h0
    rw [this]; simp
  · exact h c (by simpa using hc) h0 j (by simpa using hj)

/-- A data point is a vector of the data. -/
def RestartedAt (dim N : Nat) (data centers : List K) (c : Nat) : Prop :=
  ∃ x < N, ∀ j < dim, comp centers dim c j = comp data dim x j

theorem updateL1Lloyd_spec {u : ρ → Nat → Nat × ρ} (hu : ∀ r n, 0 < n → (u r n).1 < n) (hN : 0 < N) {f : Nat → Nat → K}
    (hd : Flat data N dim f) {asgn masses : List Nat} {a : Nat → Nat} (ha : Arr asgn N a) (hm : Arr masses N (mass N a))
    (hn : ∀ x < N, a x < nC) (hCN : nC ≤ N) {perms : List (List Nat)}
    (hp : ∀ d < dim, ∃ row π, perms[d]? = some row ∧ SortedRow data dim N d row π) :
    ∀ (rem : Nat) (cs : List K) (r : ρ) (g : Nat → Nat → K), rem ≤ dim → Flat cs nC dim g →
    ∃ cs' r' g', updateL1Lloyd u dim nC N data asgn masses perms rem (cs, r) = some (cs', r') ∧ Flat cs' nC dim g' ∧
      ∀ c < nC, 0 < mass N a c → ∀ j < dim,
        (g' c j = g c j ∨ ∀ o : K, ∑ x ∈ Finset.range N with a x = c, |f x j - g' c j| ≤
          ∑ x ∈ Finset.range N with a x = c, |f x j - o|) ∧
        ((∀ c' < nC, 0 < mass N a c') → dim - rem ≤ j → ∀ o : K, ∑ x ∈ Finset.range N with a x = c, |f x j - g' c j| ≤
          ∑ x ∈ Finset.range N with a x = c, |f x j - o|) := by
  intro rem
  induction rem with
  | zero =>
    intro cs r g _ hcs
    exact ⟨cs, r, g, rfl, hcs, fun c _ _ j hj => ⟨Or.inl rfl, fun _ h => by omega⟩⟩
  | succ rem ih =>
    intro cs r g hrem hcs
    obtain ⟨row, π, e1, e2⟩ := hp (dim - (rem + 1)) (by omega)
    obtain ⟨cs1, g1, m1, m2, m3, m4⟩ := medianPass_spec hd ha hm hn hCN (by omega) e1 e2 hcs
    obtain ⟨cs2, r2, b, g2, q1, q2, q3, q4, q5⟩ := restart_spec hu hN hd hm hCN m2 r
    unfold updateL1Lloyd
    simp only [Option.bind_eq_bind, m1, Option.bind_some, q1]
    have step : ∀ c < nC, 0 < mass N a c → ∀ j < dim, (j ≠ dim - (rem + 1) → g2 c j = g c j) ∧
        (j = dim - (rem + 1) → ∀ o : K, ∑ x ∈ Finset.range N with a x = c, |f x j - g2 c j| ≤
          ∑ x ∈ Finset.range N with a x = c, |f x j - o|) := by
      intro c hc h0 j hj
      rw [q3 c hc h0]
      exact ⟨fun h => m3 c hc j hj (Or.inl h), fun h o => by subst h; exact m4 c hc h0 o⟩
    by_cases hb : b = true
    · rw [if_pos hb]
      refine ⟨cs2, r2, g2, rfl, q2, fun c hc h0 j hj => ⟨?_, fun hall => ?_⟩⟩
      · by_cases e : j = dim - (rem + 1)
        · exact Or.inr ((step c hc h0 j hj).2 e)
        · exact Or.inl ((step c hc h0 j hj).1 e)
      · obtain ⟨c', h1, h2⟩ := q5.mp hb
        have := hall c' h1; omega
    · rw [if_neg hb]
      obtain ⟨cs', r', g', i1, i2, i3⟩ := ih cs2 r2 g2 (by omega) q2
      refine ⟨cs', r', g', i1, i2, fun c hc h0 j hj => ?_⟩
      obtain ⟨j1, j2⟩ := i3 c hc h0 j hj
      have key : g' c j = g c j ∨ ∀ o : K, ∑ x ∈ Finset.range N with a x = c, |f x j - g' c j| ≤
          ∑ x ∈ Finset.range N with a x = c, |f x j - o| := by
        rcases j1 with j1 | j1
        · rw [j1]
          by_cases e : j = dim - (rem + 1)
          · exact Or.inr ((step c hc h0 j hj).2 e)
          · exact Or.inl ((step c hc h0 j hj).1 e)
        · exact Or.inr j1
      refine ⟨key, fun hall hjr => ?_⟩
      by_cases e : j = dim - (rem + 1)
      · rcases j1 with j1 | j1
        · rw [j1]; exact (step c hc h0 j hj).2 e
        · exact j1
      · exact j2 hall (by omega)

theorem updateL1Elkan_spec {u : ρ → Nat → Nat × ρ} (hu : ∀ r n, 0 < n → (u r n).1 < n) (hN : 0 < N) {f : Nat → Nat → K}
    (hd : Flat data N dim f) {asgn masses : List Nat} {a : Nat → Nat} (ha : Arr asgn N a) (hm : Arr masses N (mass N a))
    (hn : ∀ x < N, a x < nC) (hCN : nC ≤ N) {perms : List (List Nat)}
    (hp : ∀ d < dim, ∃ row π, perms[d]? = some row ∧ SortedRow data dim N d row π) (cs : List K) (r : ρ) (g : Nat → Nat → K)
    (hcs : Flat cs nC dim g) :
    ∃ cs' r' g', updateL1Elkan u dim nC N data asgn masses perms (cs, r) = some (cs', r') ∧ Flat cs' nC dim g' ∧
      (∀ c < nC, 0 < mass N a c → ∀ j < dim, ∀ o : K, ∑ x ∈ Finset.range N with a x = c, |f x j - g' c j| ≤
          ∑ x ∈ Finset.range N with a x = c, |f x j - o|) ∧ ∀ c < nC, mass N a c = 0 → ∃ x < N, g' c = f x := by
  obtain ⟨cs1, h1, g1, h2, h3⟩ := iter_inv (n := dim) (f := medianPass dim nC N data asgn masses perms) (s := cs)
    (fun i (cs : List K) => ∃ g1, Flat cs nC dim g1 ∧ ∀ c < nC, 0 < mass N a c → ∀ j < i, ∀ o : K,
      ∑ x ∈ Finset.range N with a x = c, |f x j - g1 c j| ≤ ∑ x ∈ Finset.range N with a x = c, |f x j - o|)
    ⟨g, hcs, by simp⟩ (by
    intro i hi cs ⟨g1, q1, q2⟩
    obtain ⟨row, π, e1, e2⟩ := hp i hi
    obtain ⟨cs2, g2, m1, m2, m3, m4⟩ := medianPass_spec hd ha hm hn hCN hi e1 e2 q1
    refine ⟨cs2, m1, g2, m2, fun c hc h0 j hj => ?_⟩
    by_cases e : j = i
    · subst e; exact m4 c hc h0
    · rw [m3 c hc j (by omega) (Or.inl e)]; exact q2 c hc h0 j (by omega))
  obtain ⟨cs2, r2, b, g2, q1, q2, q3, q4, q5⟩ := restart_spec hu hN hd hm hCN h2 r
  unfold updateL1Elkan
  simp only [Option.bind_eq_bind, h1, Option.bind_some, q1]
  exact ⟨cs2, r2, g2, rfl, q2, fun c hc h0 => by rw [q3 c hc h0]; exact h3 c hc h0, q4⟩

end Verif.Kmeans
