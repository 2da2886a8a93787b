import Verif.Aib.MergeLemmas

/-!
# The invariant of the merges
-/

namespace Verif.Aib

open Spec

set_option linter.unusedSectionVars false

variable {K : Type} [Field K] [LinearOrder K] [IsStrictOrderedRing K]

theorem joint_congr {n : Nat} {P : Nat → Nat → K} {f g : Nat → Nat} (h : ∀ v < n, f v = g v) (u c : Nat) : joint n P f u c = joint n P g u c := by
  unfold joint
  apply Finset.sum_congr _ (fun _ _ => rfl)
  ext v
  simp only [Finset.mem_filter, Finset.mem_range]
  constructor
  · rintro ⟨hv, e⟩
    exact ⟨hv, (h v hv) ▸ e⟩
  · rintro ⟨hv, e⟩
    exact ⟨hv, (h v hv).symm ▸ e⟩

theorem info_congr (log : K → K) {n L : Nat} {P : Nat → Nat → K} {f g : Nat → Nat} (h : ∀ v < n, f v = g v) : info log n L P f = info log n L P g := by
  unfold info
  rw [show joint n P f = joint n P g from funext fun u => funext fun c => joint_congr h u c]
  apply Finset.sum_congr _ (fun _ _ => rfl)
  exact Finset.image_congr fun v hv => h v (Finset.mem_range.1 hv)

theorem tv_congr (log : K → K) {L : Nat} {r s : Nat → K} (h : ∀ c < L, r c = s c) : tv log L r = tv log L s := by
  unfold tv
  rw [Finset.sum_congr rfl (fun c hc => h c (Finset.mem_range.1 hc))]
  apply Finset.sum_congr rfl
  intro c hc
  rw [h c (Finset.mem_range.1 hc)]

theorem contrib_congr (log : K → K) {L : Nat} {Pc r s : Nat → K} (h : ∀ c < L, r c = s c) : contrib log L Pc r = contrib log L Pc s := by
  unfold contrib
  rw [Finset.sum_congr rfl (fun c hc => h c (Finset.mem_range.1 hc))]
  apply Finset.sum_congr rfl
  intro c hc
  rw [h c (Finset.mem_range.1 hc)]

theorem loss_congr (log : K → K) {L : Nat} {r s r' s' : Nat → K} (h : ∀ c < L, r c = r' c) (h' : ∀ c < L, s c = s' c) : loss log L r s = loss log L r' s' := by
  unfold loss
  rw [tv_congr log h, tv_congr log h', tv_congr log (r := fun c => r c + s c) (s := fun c => r' c + s' c) (fun c hc => by rw [h c hc, h' c hc])]

theorem clustering_congr {n t : Nat} {p p' : Nat → Nat} (h : ∀ x, ∀ s < t, p x = n + s ↔ p' x = n + s) (v : Nat) : clustering n p t v = clustering n p' t v := by
  induction t with
  | zero => rfl
  | succ t ih =>
    unfold clustering
    rw [ih (fun x s hs => h x s (by omega))]
    by_cases hc : p (clustering n p' t v) = n + t
    · rw [if_pos hc, if_pos ((h _ t (by omega)).1 hc)]
    · rw [if_neg hc, if_neg (fun e => hc ((h _ t (by omega)).2 e))]

/-- The cluster `u` has positive probability -/
def Live (n L : Nat) (P : Nat → Nat → K) (f : Nat → Nat) (u : Nat) : Prop := ∑ c ∈ Finset.range L, joint n P f u c ≠ 0

/-- The entries represent the clusters after `i` merges recorded in `p` -/
structure Tree (n L : Nat) (P : Nat → Nat → K) (i : Nat) (R : Nat → Nat → K) (X : Nat → K) (node p : Nat → Nat) : Prop where
  hi : i < n
  inj : ∀ r < n - i, ∀ r' < n - i, node r = node r' → r = r'
  lt : ∀ r < n - i, node r < n + i
  row : ∀ r < n - i, ∀ c < L, R r c = joint n P (clustering n p i) (node r) c
  sum : ∀ r < n - i, X r = ∑ c ∈ Finset.range L, R r c
  mem : ∀ v < n, ∃ r < n - i, clustering n p i v = node r
  active : ∀ r < n - i, p (node r) = if node r < n then 2 * n else 0
  inactive : ∀ v < n + i, (∀ r < n - i, node r ≠ v) → v < p v ∧ n ≤ p v ∧ p v < n + i
  unused : ∀ v < 2 * n - 1, n + i ≤ v → p v = 2 * n
  two : ∀ t < i, ∃ x y, x < y ∧ y < n + t ∧ ∀ v < 2 * n - 1, p v = n + t ↔ v = x ∨ v = y
  null : ∀ v < n, value L P v = 0 → ∃ r < n - i, node r = v
  nullr : ∀ r < n - i, X r = 0 ↔ node r < n ∧ value L P (node r) = 0
  ex : ∃ r < n - i, X r ≠ 0
  count : ((Finset.range (n - i)).filter (fun r => X r ≠ 0)).card + i = ((Finset.range n).filter (fun v => value L P v ≠ 0)).card
  last : 0 < i → ∃ r < n - i, node r = n + i - 1

/-- The parent array after a merge -/
def linked (p : Nat → Nat) (x y w : Nat) : Nat → Nat := upd1 (upd1 (upd1 p x w) y w) w 0

theorem linked_of {p : Nat → Nat} {x y w v : Nat} (h1 : v ≠ x) (h2 : v ≠ y) (h3 : v ≠ w) : linked p x y w v = p v := by
  unfold linked upd1
  rw [if_neg h3, if_neg h2, if_neg h1]

theorem linked_xy {p : Nat → Nat} {x y w v : Nat} (h : v = x ∨ v = y) (h3 : v ≠ w) : linked p x y w v = w := by
  unfold linked upd1
  rw [if_neg h3]
  rcases h with h | h
  · by_cases h' : v = y
    · rw [if_pos h']
    · rw [if_neg h', if_pos h]
  · rw [if_pos h]

theorem linked_w {p : Nat → Nat} {x y w : Nat} : linked p x y w w = 0 := by
  unfold linked upd1
  rw [if_pos rfl]

namespace Tree

variable {n L : Nat} {P : Nat → Nat → K} {i : Nat} {R : Nat → Nat → K} {X : Nat → K} {node p : Nat → Nat}

theorem clustering_old (h : Tree n L P i R X node p) {a b : Nat} (ha : a < b) (hb : b < n - i) {t : Nat} (ht : t ≤ i) (v : Nat) :
    clustering n (linked p (node a) (node b) (n + i)) t v = clustering n p t v := by
  have hn := h.hi
  apply clustering_congr
  intro x s hs
  by_cases hw : x = n + i
  · rw [hw, linked_w, h.unused (n + i) (by omega) (le_refl _)]
    omega
  · by_cases hx : x = node a ∨ x = node b
    · rw [linked_xy hx hw]
      rcases hx with hx | hx
      · rw [hx, h.active a (by omega)]
        split <;> omega
      · rw [hx, h.active b hb]
        split <;> omega
    · push Not at hx
      rw [linked_of hx.1 hx.2 hw]

theorem clustering_new (h : Tree n L P i R X node p) {a b : Nat} (ha : a < b) (hb : b < n - i) {v : Nat} (hv : v < n) :
    clustering n (linked p (node a) (node b) (n + i)) (i + 1) v = merge (clustering n p i) (node a) (node b) (n + i) v := by
  have hn := h.hi
  unfold merge
  rw [clustering, h.clustering_old ha hb (le_refl i)]
  obtain ⟨r, hr, e⟩ := h.mem v hv
  rw [e]
  have hlt := h.lt r hr
  by_cases hx : node r = node a ∨ node r = node b
  · rw [linked_xy hx (by omega), if_pos rfl, if_pos hx]
  · rw [if_neg hx]
    push Not at hx
    rw [linked_of hx.1 hx.2 (by omega), h.active r hr, if_neg]
    split <;> omega

theorem fresh (h : Tree n L P i R X node p) : ∀ v < n, clustering n p i v ≠ n + i := fun v hv e => by
  obtain ⟨r, hr, e'⟩ := h.mem v hv
  have := h.lt r hr
  omega

theorem info_eq (log : K → K) (h : Tree n L P i R X node p) : ∑ r ∈ Finset.range (n - i), contrib log L (label n P) (R r) = info log n L P (clustering n p i) := by
  rw [info_sum log n L P (clustering n p i) ((Finset.range (n - i)).image node)]
  · rw [Finset.sum_image]
    · apply Finset.sum_congr rfl
      intro r hr
      exact contrib_congr log (h.row r (Finset.mem_range.1 hr))
    · intro r hr r' hr' e
      exact h.inj r (Finset.mem_range.1 hr) r' (Finset.mem_range.1 hr') e
  · intro v hv
    obtain ⟨r, hr, e⟩ := h.mem v hv
    exact Finset.mem_image.2 ⟨r, Finset.mem_range.2 hr, e.symm⟩

theorem live (h : Tree n L P i R X node p) {u : Nat} (hu : Live n L P (clustering n p i) u) : ∃ r < n - i, node r = u ∧ X r ≠ 0 := by
  by_cases hc : u ∈ (Finset.range n).image (clustering n p i)
  · obtain ⟨v, hv, e⟩ := Finset.mem_image.1 hc
    obtain ⟨r, hr, e'⟩ := h.mem v (Finset.mem_range.1 hv)
    refine ⟨r, hr, e'.symm.trans e, ?_⟩
    rw [h.sum r hr, Finset.sum_congr rfl (fun c hc => h.row r hr c (Finset.mem_range.1 hc)), e'.symm.trans e]
    exact hu
  · exact absurd (Finset.sum_eq_zero fun c _ => joint_empty hc c) hu

theorem info_merge_eq {log : K → K} (hl : IsLog log) (hP : ∀ v < n, ∀ c < L, 0 ≤ P v c) (h : Tree n L P i R X node p) {a b : Nat} (ha : a < n - i) (hb : b < n - i) (hab : a ≠ b) :
    info log n L P (merge (clustering n p i) (node a) (node b) (n + i)) = info log n L P (clustering n p i) - loss log L (R a) (R b) := by
  rw [info_merge hl hP (fun e => hab (h.inj a ha b hb e)) h.fresh, loss_congr log (h.row a ha) (h.row b hb)]

theorem step (h : Tree n L P i R X node p) (hR : ∀ r < n - i, ∀ c < L, 0 ≤ R r c) {a b : Nat} (hab : a < b) (hb : b < n - i) (hXa : X a ≠ 0) (hXb : X b ≠ 0) :
    Tree n L P (i + 1) (moved a b (n - i - 1) (fun c => R a c + R b c) R) (moved a b (n - i - 1) (X a + X b) X) (moved a b (n - i - 1) (n + i) node) (linked p (node a) (node b) (n + i)) := by
  have hn := h.hi
  have ha : a < n - i := by omega
  have hX : ∀ r < n - i, 0 ≤ X r := fun r hr => by
    rw [h.sum r hr]
    exact Finset.sum_nonneg fun c hc => hR r hr c (Finset.mem_range.1 hc)
  have hXab : X a + X b ≠ 0 := (add_pos_of_pos_of_nonneg (lt_of_le_of_ne (hX a ha) (Ne.symm hXa)) (hX b hb)).ne'
  have hne : n - (i + 1) = n - i - 1 := by omega
  have hold : ∀ r < n - i - 1, old b (n - i - 1) r < n - i := fun r hr => by unfold old; split <;> omega
  have hinj : ∀ r < n - i - 1, ∀ r' < n - i - 1, old b (n - i - 1) r = old b (n - i - 1) r' → r = r' := fun r hr r' hr' => by unfold old; split <;> split <;> omega
  have holdb : ∀ r < n - i - 1, old b (n - i - 1) r ≠ b := fun r hr => by unfold old; split <;> omega
  have holda : ∀ r < n - i - 1, r ≠ a → old b (n - i - 1) r ≠ a := fun r hr => by unfold old; split <;> omega
  have hback : ∀ r < n - i, r ≠ b → ∃ r' < n - i - 1, old b (n - i - 1) r' = r := fun r hr hrb => by
    by_cases hl : r = n - i - 1
    · exact ⟨b, by omega, by unfold old; rw [if_pos rfl, hl]⟩
    · exact ⟨r, by omega, by unfold old; rw [if_neg hrb]⟩
  have hnew : ∀ r < n - i - 1, r ≠ a → moved a b (n - i - 1) (n + i) node r ≠ node a ∧ moved a b (n - i - 1) (n + i) node r ≠ node b ∧ moved a b (n - i - 1) (n + i) node r < n + i := fun r hr hra => by
    rw [moved_old (Or.inl hra)]
    refine ⟨fun e => holda r hr hra (h.inj _ (hold r hr) a ha e), fun e => holdb r hr (h.inj _ (hold r hr) b hb e), h.lt _ (hold r hr)⟩
  refine { hi := by omega, inj := ?_, lt := ?_, row := ?_, sum := ?_, mem := ?_, active := ?_, inactive := ?_, unused := ?_, two := ?_, null := ?_, nullr := ?_, ex := ?_, count := ?_, last := ?_ }
  · rw [hne]
    intro r hr r' hr' e
    by_cases hra : r = a
    · by_cases hra' : r' = a
      · rw [hra, hra']
      · rw [hra, moved_i hab] at e
        have := (hnew r' hr' hra').2.2
        omega
    · by_cases hra' : r' = a
      · rw [hra', moved_i hab] at e
        have := (hnew r hr hra).2.2
        omega
      · rw [moved_old (Or.inl hra), moved_old (Or.inl hra')] at e
        exact hinj r hr r' hr' (h.inj _ (hold r hr) _ (hold r' hr') e)
  · rw [hne]
    intro r hr
    by_cases hra : r = a
    · rw [hra, moved_i hab]
      omega
    · have := (hnew r hr hra).2.2
      omega
  · rw [hne]
    intro r hr c hc
    rw [joint_congr (fun v hv => h.clustering_new hab hb hv)]
    by_cases hra : r = a
    · rw [hra, moved_i hab, moved_i hab, joint_merge_new (fun e => by have := h.inj a ha b hb e; omega) h.fresh, h.row a ha c hc, h.row b hb c hc]
    · have := hnew r hr hra
      rw [joint_merge_old this.1 this.2.1 (by omega), moved_old (Or.inl hra), moved_old (Or.inl hra), h.row _ (hold r hr) c hc]
  · rw [hne]
    intro r hr
    by_cases hra : r = a
    · rw [hra, moved_i hab, moved_i hab, Finset.sum_add_distrib, h.sum a ha, h.sum b hb]
    · rw [moved_old (Or.inl hra), moved_old (Or.inl hra)]
      exact h.sum _ (hold r hr)
  · rw [hne]
    intro v hv
    rw [h.clustering_new hab hb hv]
    unfold merge
    obtain ⟨r, hr, e⟩ := h.mem v hv
    rw [e]
    by_cases hx : node r = node a ∨ node r = node b
    · rw [if_pos hx]
      exact ⟨a, by omega, (moved_i hab _ _).symm⟩
    · rw [if_neg hx]
      push Not at hx
      obtain ⟨r', hr', e'⟩ := hback r hr (fun e => hx.2 (by rw [e]))
      refine ⟨r', hr', ?_⟩
      by_cases hra : r' = a
      · exfalso
        apply hx.1
        rw [← e', hra]
        unfold old
        rw [if_neg (by omega)]
      · rw [moved_old (Or.inl hra), e']
  · rw [hne]
    intro r hr
    by_cases hra : r = a
    · rw [hra, moved_i hab, linked_w, if_neg (by omega)]
    · have := hnew r hr hra
      rw [linked_of this.1 this.2.1 (by omega), moved_old (Or.inl hra)]
      exact h.active _ (hold r hr)
  · rw [hne]
    intro v hv hno
    have hva : v ≠ n + i := fun e => hno a (by omega) (by rw [moved_i hab, e])
    by_cases hx : v = node a ∨ v = node b
    · rw [linked_xy hx hva]
      omega
    · have hx' := hx
      push Not at hx
      rw [linked_of hx.1 hx.2 hva]
      have := h.inactive v (by omega) (fun r hr e => by
        obtain ⟨r', hr', e'⟩ := hback r hr (fun e2 => hx.2 (by rw [← e, e2]))
        by_cases hra : r' = a
        · apply hx.1
          rw [← e, ← e', hra]
          unfold old
          rw [if_neg (by omega)]
        · apply hno r' hr'
          rw [moved_old (Or.inl hra), e', e])
      omega
  · intro v hv hv'
    have h1 := h.lt a ha
    have h2 := h.lt b hb
    rw [linked_of (by omega) (by omega) (by omega)]
    exact h.unused v hv (by omega)
  · intro t ht
    have h1 := h.lt a ha
    have h2 := h.lt b hb
    by_cases hti : t = i
    · subst hti
      have hv : ∀ v < 2 * n - 1, linked p (node a) (node b) (n + t) v = n + t ↔ v = node a ∨ v = node b := fun v hv => by
        by_cases hw : v = n + t
        · rw [hw, linked_w]
          omega
        · by_cases hx : v = node a ∨ v = node b
          · rw [linked_xy hx hw]
            exact ⟨fun _ => hx, fun _ => rfl⟩
          · have hx' := hx
            push Not at hx
            rw [linked_of hx.1 hx.2 hw]
            refine ⟨fun e => absurd e ?_, fun e => absurd e hx'⟩
            by_cases hvn : n + t ≤ v
            · rw [h.unused v hv hvn]
              omega
            · by_cases hact : ∃ r < n - t, node r = v
              · obtain ⟨r, hr, e⟩ := hact
                rw [← e, h.active r hr]
                split <;> omega
              · push Not at hact
                have := h.inactive v (by omega) hact
                omega
      rcases Nat.lt_or_ge (node a) (node b) with hlt | hge
      · exact ⟨node a, node b, hlt, h2, hv⟩
      · refine ⟨node b, node a, lt_of_le_of_ne hge (fun e => by have := h.inj b hb a ha e; omega), h1, fun v hv' => ?_⟩
        rw [hv v hv', or_comm]
    · obtain ⟨x, y, hxy, hy, hp⟩ := h.two t (by omega)
      refine ⟨x, y, hxy, hy, fun v hv => ?_⟩
      rw [← hp v hv]
      by_cases hw : v = n + i
      · rw [hw, linked_w, h.unused (n + i) (by omega) (le_refl _)]
        omega
      · by_cases hx : v = node a ∨ v = node b
        · rw [linked_xy hx hw]
          rcases hx with hx | hx
          · rw [hx, h.active a ha]
            split <;> omega
          · rw [hx, h.active b hb]
            split <;> omega
        · push Not at hx
          rw [linked_of hx.1 hx.2 hw]
  · rw [hne]
    intro v hv hv0
    obtain ⟨r, hr, e⟩ := h.null v hv hv0
    have hX0 : X r = 0 := (h.nullr r hr).2 (by rw [e]; exact ⟨hv, hv0⟩)
    obtain ⟨r', hr', e'⟩ := hback r hr (fun e2 => hXb (by rw [← e2, hX0]))
    refine ⟨r', hr', ?_⟩
    by_cases hra : r' = a
    · exfalso
      apply hXa
      rw [← hra]
      rw [← e', hra] at hX0
      unfold old at hX0
      rw [if_neg (by omega)] at hX0
      rw [hra, hX0]
    · rw [moved_old (Or.inl hra), e', e]
  · rw [hne]
    intro r hr
    by_cases hra : r = a
    · rw [hra, moved_i hab, moved_i hab]
      exact ⟨fun e => absurd e hXab, fun e => by omega⟩
    · rw [moved_old (Or.inl hra), moved_old (Or.inl hra)]
      exact h.nullr _ (hold r hr)
  · exact ⟨a, by omega, by rw [moved_i hab]; exact hXab⟩
  · rw [hne, ← h.count]
    have e : ((Finset.range (n - i - 1)).filter (fun r => moved a b (n - i - 1) (X a + X b) X r ≠ 0)).image (old b (n - i - 1)) = ((Finset.range (n - i)).filter (fun r => X r ≠ 0)).erase b := by
      ext z
      simp only [Finset.mem_image, Finset.mem_erase, Finset.mem_filter, Finset.mem_range]
      constructor
      · rintro ⟨r, ⟨hr, hr'⟩, rfl⟩
        refine ⟨holdb r hr, hold r hr, ?_⟩
        by_cases hra : r = a
        · rw [hra]
          unfold old
          rw [if_neg (by omega)]
          exact hXa
        · rwa [moved_old (Or.inl hra)] at hr'
      · rintro ⟨hzb, hz, hz0⟩
        obtain ⟨r', hr', e'⟩ := hback z hz hzb
        refine ⟨r', ⟨hr', ?_⟩, e'⟩
        by_cases hra : r' = a
        · rw [hra, moved_i hab]
          exact hXab
        · rw [moved_old (Or.inl hra), e']
          exact hz0
    have h1 := Finset.card_image_of_injOn (s := (Finset.range (n - i - 1)).filter (fun r => moved a b (n - i - 1) (X a + X b) X r ≠ 0)) (f := old b (n - i - 1))
      (fun r hr r' hr' e => hinj r (Finset.mem_range.1 (Finset.mem_filter.1 hr).1) r' (Finset.mem_range.1 (Finset.mem_filter.1 hr').1) e)
    rw [e] at h1
    have hbm : b ∈ (Finset.range (n - i)).filter (fun r => X r ≠ 0) := Finset.mem_filter.2 ⟨Finset.mem_range.2 hb, hXb⟩
    have h2 := Finset.card_erase_add_one hbm
    omega
  · intro _
    exact ⟨a, by omega, by rw [moved_i hab]; omega⟩

/-- The finished tree -/
theorem isTree (h : Tree n L P i R X node p) (h1 : ∀ r < n - i, ∀ r' < n - i, X r ≠ 0 → X r' ≠ 0 → r = r') : IsTree n i (fun v => value L P v = 0) p := by
  have hn := h.hi
  have hroot : 0 < i → ∀ r < n - i, node r = n + i - 1 → X r ≠ 0 := fun h0 r hr e he => by
    have := ((h.nullr r hr).1 he).1
    omega
  have hact : 0 < i → ∀ v < n + i, (∃ r < n - i, node r = v) → v = n + i - 1 ∨ v < n ∧ value L P v = 0 := fun h0 v hv ⟨r, hr, e⟩ => by
    by_cases hz : X r = 0
    · right
      rw [← e]
      exact (h.nullr r hr).1 hz
    · left
      obtain ⟨r', hr', e'⟩ := h.last h0
      rw [← e, h1 r hr r' hr' hz (hroot h0 r' hr' e'), e']
  refine ⟨h.two, ?_, ?_, ?_, ?_⟩
  · intro h0 v hv
    constructor
    · intro e
      by_cases hvi : n + i ≤ v
      · rw [h.unused v hv hvi] at e
        omega
      · by_cases ha : ∃ r < n - i, node r = v
        · rcases hact h0 v (by omega) ha with h2 | h2
          · exact h2
          · obtain ⟨r, hr, e'⟩ := ha
            rw [← e', h.active r hr, if_pos (by omega)] at e
            omega
        · push Not at ha
          have := h.inactive v (by omega) ha
          omega
    · rintro rfl
      obtain ⟨r, hr, e⟩ := h.last h0
      rw [← e, h.active r hr, if_neg (by omega)]
  · intro h0 v hv hv'
    apply h.inactive v (by omega)
    intro r hr e
    rcases hact h0 v (by omega) ⟨r, hr, e⟩ with h2 | h2
    · omega
    · exact hv' h2
  · intro v hv hc
    rcases hc with ⟨hvn, hv0⟩ | hc
    · obtain ⟨r, hr, e⟩ := h.null v hvn hv0
      have := h.active r hr
      rw [e, if_pos hvn] at this
      exact this
    · exact h.unused v hv hc
  · intro _
    obtain ⟨r, hr, hr0⟩ := h.ex
    have e : (Finset.range (n - i)).filter (fun r => X r ≠ 0) = {r} := by
      ext z
      simp only [Finset.mem_filter, Finset.mem_range, Finset.mem_singleton]
      constructor
      · rintro ⟨hz, hz0⟩
        exact h1 z hz r hr hz0 hr0
      · rintro rfl
        exact ⟨hr, hr0⟩
    have := h.count
    rw [e, Finset.card_singleton] at this
    rw [Nat.add_comm, this]
    congr 1
    ext z
    simp only [Finset.mem_filter, Finset.mem_range, ne_eq]

end Tree

end Verif.Aib
