import Verif.Covdet.Spec
import Verif.Rows
import Mathlib.Data.List.TakeDrop
import Mathlib.Tactic.Ring
import Mathlib.Tactic.Linarith
import Mathlib.Algebra.Order.Field.Basic

set_option linter.unusedSectionVars false

namespace Verif.Covdet

/-- The features that the structure holds are `xs`. -/
structure Rep {α : Type} (sz : Nat) (s : Feats α) (xs : List α) : Prop where
  num : s.num = xs.length
  room : (s.features = none ∧ s.bufferSize = 0 ∧ xs = []) ∨ ∃ l, s.features = some l ∧ s.bufferSize = l.length * sz ∧ xs <+: l

theorem Rep.new {α : Type} (sz : Nat) : Rep sz (Feats.new : Feats α) [] := ⟨rfl, Or.inl ⟨rfl, rfl, rfl⟩⟩

theorem Rep.clear {α : Type} {sz : Nat} {s : Feats α} {xs : List α} (h : Rep sz s xs) : Rep sz (clear s) [] := by
  refine ⟨rfl, ?_⟩
  rcases h.room with ⟨a, b, _⟩ | ⟨l, a, b, _⟩
  · exact Or.inl ⟨a, b, rfl⟩
  · exact Or.inr ⟨l, a, b, List.nil_prefix⟩

/-- The last store, when the block has room -/
theorem storeLast_rep {α : Type} {sz : Nat} {s : Feats α} {xs l : List α} (f : α) (hn : s.num = xs.length + 1) (hf : s.features = some l) (hb : s.bufferSize = l.length * sz) (hp : xs <+: l) (hl : xs.length < l.length) :
    ∃ s', storeLast s f = some s' ∧ Rep sz s' (xs ++ [f]) := by
  refine ⟨{ s with features := some (l.set xs.length f) }, ?_, by simp [hn], Or.inr ⟨_, rfl, by simp [hb], ?_⟩⟩
  · unfold storeLast
    rw [hf, hn]
    simp [wr, hl]
  · obtain ⟨t, rfl⟩ := hp
    cases t with
    | nil => simp at hl
    | cons a t => exact ⟨t, by simp⟩

theorem append_rep {α : Type} {sz : Nat} (hsz : 0 < sz) {s : Feats α} {xs : List α} (h : Rep sz s xs) (ok : Bool) (junk : Nat → α) (f : α) :
    ∃ s' e, append sz ok junk s f = some (s', e) ∧ (e = true → ok = false) ∧ Rep sz s' (Op.expected xs (.append ok junk f) e) := by
  unfold append
  by_cases hr : (s.num + 1) * sz > s.bufferSize
  · rw [if_pos hr]
    cases ok with
    | false =>
      rcases h.room with ⟨a, b, c⟩ | ⟨l, a, b, c⟩
      · exact ⟨⟨none, s.num + 1 - 1, 0⟩, true, by simp [resizeBuffer, a], fun _ => rfl, h.num, Or.inl ⟨rfl, rfl, c⟩⟩
      · exact ⟨⟨some l, s.num + 1 - 1, s.bufferSize⟩, true, by simp [resizeBuffer, a], fun _ => rfl, h.num, Or.inr ⟨l, rfl, b, c⟩⟩
    | true =>
      rcases h.room with ⟨a, b, c⟩ | ⟨l, a, b, c⟩
      · obtain ⟨s', h1, h2⟩ := storeLast_rep (sz := sz) (s := ⟨some ((List.range (s.num + 1 + 1000)).map junk), s.num + 1, (s.num + 1 + 1000) * sz⟩) (xs := xs) f
          (by rw [h.num]) rfl (by simp) (by rw [c]; exact List.nil_prefix) (by simp [h.num]; omega)
        refine ⟨s', false, ?_, by simp, h2⟩
        simp only [resizeBuffer, a, if_true, Nat.mul_div_cancel _ hsz, Bool.false_eq_true, if_false, h1, Option.map_some]
      · obtain ⟨s', h1, h2⟩ := storeLast_rep (sz := sz) (s := ⟨some ((List.range (s.num + 1 + 1000)).map fun i => (l[i]?).getD (junk i)), s.num + 1, (s.num + 1 + 1000) * sz⟩) (xs := xs) f
          (by rw [h.num]) rfl (by simp) (by
            rw [List.prefix_iff_eq_take]
            obtain ⟨t, rfl⟩ := c
            refine List.ext_getElem? fun i => ?_
            rw [List.getElem?_take]
            by_cases hi : i < xs.length
            · rw [if_pos hi, List.getElem?_map, List.getElem?_range (by rw [h.num]; omega)]
              simp [hi, List.getElem?_append_left hi]
            · rw [if_neg hi, List.getElem?_eq_none (by omega)]) (by simp [h.num]; omega)
        refine ⟨s', false, ?_, by simp, h2⟩
        simp only [resizeBuffer, a, if_true, Nat.mul_div_cancel _ hsz, Bool.false_eq_true, if_false, h1, Option.map_some]
  · rw [if_neg hr]
    rcases h.room with ⟨a, b, c⟩ | ⟨l, a, b, c⟩
    · exfalso
      rw [b] at hr
      have := Nat.mul_pos (Nat.succ_pos s.num) hsz
      exact hr this
    · have hl : xs.length < l.length := by
        rw [b, h.num, gt_iff_lt, not_lt] at hr
        exact Nat.lt_of_succ_le (Nat.le_of_mul_le_mul_right hr hsz)
      obtain ⟨s', h1, h2⟩ := storeLast_rep (sz := sz) (s := ⟨s.features, s.num + 1, s.bufferSize⟩) (xs := xs) f (by rw [h.num]) a b c hl
      exact ⟨s', false, by rw [h1, Option.map_some], by simp, h2⟩

theorem mapM_eq {α β : Type} {f : β → Option α} {g : β → α} : ∀ {L : List β}, (∀ i ∈ L, f i = some (g i)) → L.mapM f = some (L.map g) := by
  intro L
  induction L with
  | nil => intro _; rfl
  | cons i L ih =>
    intro h
    rw [List.mapM_cons, h i List.mem_cons_self, ih (fun j hj => h j (List.mem_cons_of_mem _ hj))]
    rfl

theorem mapM_rd {α : Type} {xs l : List α} (h : xs <+: l) : (List.range xs.length).mapM (fun i => rd l i) = some xs := by
  cases xs with
  | nil => rfl
  | cons x xs =>
    obtain ⟨t, rfl⟩ := h
    rw [mapM_eq (g := fun i => (x :: xs).getD i x) (fun i hi => by
      have hi' := List.mem_range.mp hi
      rw [rd_getElem?, List.getElem?_append_left hi', List.getD_eq_getElem?_getD, List.getElem?_eq_getElem hi', Option.getD_some])]
    congr 1
    refine List.ext_getElem (by simp) fun i h1 h2 => ?_
    rw [List.getElem_map, List.getElem_range, List.getD_eq_getElem?_getD, List.getElem?_eq_getElem h2, Option.getD_some]

theorem Rep.read {α : Type} {sz : Nat} {s : Feats α} {xs : List α} (h : Rep sz s xs) : read s = some xs := by
  unfold Covdet.read
  by_cases h0 : s.num = 0
  · rw [if_pos h0]
    have := h.num
    rw [h0] at this
    rw [List.length_eq_zero_iff.mp this.symm]
  · rw [if_neg h0]
    rcases h.room with ⟨a, b, c⟩ | ⟨l, a, b, c⟩
    · rw [h.num, c] at h0
      exact absurd rfl h0
    · rw [a]
      show (List.range s.num).mapM (fun i => rd l i) = some xs
      rw [h.num]
      exact mapM_rd c

/-- The compaction loop -/
theorem compact_spec {α : Type} (f : α → Option α) {n : Nat} {l : List α} (hn : n ≤ l.length) :
    ∃ l', compact f n l = some (l', ((l.take n).filterMap f).length) ∧ l'.length = l.length ∧ (l.take n).filterMap f <+: l' := by
  obtain ⟨s, hs, h1, h2, h3, _, _⟩ : ∃ s, compact f n l = some s ∧ s.2 = ((l.take n).filterMap f).length ∧ s.1.length = l.length ∧ (l.take n).filterMap f = s.1.take s.2 ∧ s.2 ≤ n ∧ ∀ k, n ≤ k → s.1[k]? = l[k]? := iter_inv (n := n)
    (P := fun i (s : List α × Nat) => s.2 = ((l.take i).filterMap f).length ∧ s.1.length = l.length ∧ (l.take i).filterMap f = s.1.take s.2 ∧ s.2 ≤ i ∧ ∀ k, i ≤ k → s.1[k]? = l[k]?)
    (s := (l, 0)) ⟨by simp, rfl, by simp, le_refl _, fun _ _ => rfl⟩ (fun i hi s hP => by
      obtain ⟨h1, h2, h3, h4, h5⟩ := hP
      have hil : i < l.length := lt_of_lt_of_le hi hn
      have hrd : rd s.1 i = some l[i] := by rw [rd_getElem?, h5 i le_rfl, List.getElem?_eq_getElem hil]
      rw [List.take_add_one, List.getElem?_eq_getElem hil, Option.toList_some, List.filterMap_append]
      cases hf : f l[i] with
      | none =>
        refine ⟨s, ?_, by simp [h1, hf], h2, by simp [h3, hf], by omega, fun k hk => h5 k (by omega)⟩
        show (rd s.1 i).bind _ = _
        rw [hrd, Option.bind_some, hf]
        rfl
      | some y =>
        have hlt : s.2 < s.1.length := by omega
        refine ⟨(s.1.set s.2 y, s.2 + 1), ?_, by simp [h1, hf], by simp [h2], ?_, by dsimp only; omega, fun k hk => ?_⟩
        · show (rd s.1 i).bind _ = _
          rw [hrd, Option.bind_some, hf]
          show (wr s.1 s.2 y).bind _ = _
          unfold wr
          rw [if_pos hlt]
          rfl
        · dsimp only
          rw [h3, List.take_add_one, List.take_set_of_le (le_refl _), List.getElem?_set_self hlt]
          simp [hf]
        · dsimp only
          rw [List.getElem?_set_ne (by omega)]
          exact h5 k (by omega))
  refine ⟨s.1, ?_, h2, ?_⟩
  · rw [← h1]; exact hs
  · rw [h3]; exact List.take_prefix _ _

variable {K : Type} [Field K] [LinearOrder K] [IsStrictOrderedRing K]

/-- The passes that still have an effect when they start -/
def act (B : Nat → Nat → Prop) (i : Nat) : Prop := ∀ i' : Fin i, act B i' → ¬ B i' i
termination_by i
decreasing_by exact i'.2

theorem act_iff (B : Nat → Nat → Prop) (i : Nat) : act B i ↔ ∀ i' < i, act B i' → ¬ B i' i := by
  rw [act]
  exact ⟨fun h i' hi => h ⟨i', hi⟩, fun h i' => h i'.1 i'.2⟩

/-- A feature with its score removed -/
def kill (f : Feature K) : Feature K := { f with peakScore := 0 }

open Classical in
/-- One inner loop: `f` zeroes the features that it beats. -/
theorem inner_spec (tol : K) (f : Feature K) {n N : Nat} (hn : n ≤ N) {l : List (Feature K)} {g : Nat → Feature K} (h : Arr l N g) (c T : Nat) (hc : c + l.countP (fun x => decide (x.peakScore ≠ 0)) = T) :
    ∃ l' c', iter n (fun j (s : List (Feature K) × Nat) => do
      let g ← rd s.1 j
      if g.peakScore = 0 then pure s
      else if suppresses tol f.frame.x f.frame.y f.frame.a11 f.peakScore g then do
        let l ← wr s.1 j { g with peakScore := 0 }
        pure (l, s.2 + 1)
      else pure s) (l, c) = some (l', c') ∧ Arr l' N (fun k => if k < n ∧ Beats tol f (g k) then kill (g k) else g k) ∧ c' + l'.countP (fun x => decide (x.peakScore ≠ 0)) = T := by
  obtain ⟨s, hs, h1, h2⟩ : ∃ s, iter n (fun j (s : List (Feature K) × Nat) => do
      let g ← rd s.1 j
      if g.peakScore = 0 then pure s
      else if suppresses tol f.frame.x f.frame.y f.frame.a11 f.peakScore g then do
        let l ← wr s.1 j { g with peakScore := 0 }
        pure (l, s.2 + 1)
      else pure s) (l, c) = some s ∧ Arr s.1 N (fun k => if k < n ∧ Beats tol f (g k) then kill (g k) else g k) ∧ s.2 + s.1.countP (fun x => decide (x.peakScore ≠ 0)) = T := iter_inv (n := n)
    (P := fun j (s : List (Feature K) × Nat) => Arr s.1 N (fun k => if k < j ∧ Beats tol f (g k) then kill (g k) else g k) ∧ s.2 + s.1.countP (fun x => decide (x.peakScore ≠ 0)) = T)
    (s := (l, c)) ⟨h.congr fun k _ => by simp, hc⟩ (fun j hj s hP => by
      obtain ⟨hA, hC⟩ := hP
      have hjN : j < N := lt_of_lt_of_le hj hn
      have hrd : rd s.1 j = some (g j) := by rw [hA.rd hjN]; simp
      have hsup : suppresses tol f.frame.x f.frame.y f.frame.a11 f.peakScore (g j) = true ↔ Beats tol f (g j) := by
        unfold suppresses Beats
        simp [and_assoc]
      by_cases h0 : (g j).peakScore = 0
      · refine ⟨s, ?_, hA.congr fun k _ => ?_, hC⟩
        · show (rd s.1 j).bind _ = _
          rw [hrd, Option.bind_some, if_pos h0]
          rfl
        · by_cases hkj : k = j
          · subst hkj
            have : kill (g k) = g k := by unfold kill; rw [← h0]
            simp [this]
          · have : k < j + 1 ↔ k < j := by omega
            simp [this]
      · by_cases hb : Beats tol f (g j)
        · obtain ⟨l', hw, hA'⟩ := hA.wr hjN (kill (g j))
          refine ⟨(l', s.2 + 1), ?_, hA'.congr fun k _ => ?_, ?_⟩
          · show (rd s.1 j).bind _ = _
            rw [hrd, Option.bind_some, if_neg h0, if_pos (hsup.mpr hb)]
            show (wr s.1 j (kill (g j))).bind _ = _
            rw [hw]
            rfl
          · unfold upd1
            by_cases hkj : k = j
            · subst hkj; simp [hb]
            · have : k < j + 1 ↔ k < j := by omega
              simp [hkj, this]
          · have hlen : j < s.1.length := by rw [hA.len]; exact hjN
            have hl' : l' = s.1.set j (kill (g j)) := by
              unfold wr at hw
              rw [if_pos hlen] at hw
              exact (Option.some.inj hw).symm
            have hg : s.1[j] = g j := by
              have := hrd
              rw [rd_getElem?, List.getElem?_eq_getElem hlen] at this
              exact Option.some.inj this
            have hpos : 0 < s.1.countP (fun x => decide (x.peakScore ≠ 0)) := List.countP_pos_iff.mpr ⟨s.1[j], List.getElem_mem _, by rw [hg]; simp [h0]⟩
            rw [hl']
            dsimp only
            rw [List.countP_set hlen, hg, if_pos (decide_eq_true h0), if_neg (by simp [kill])]
            have := hC
            omega
        · refine ⟨s, ?_, hA.congr fun k _ => ?_, hC⟩
          · show (rd s.1 j).bind _ = _
            rw [hrd, Option.bind_some, if_neg h0, if_neg (fun hh => hb (hsup.mp hh))]
            rfl
          · by_cases hkj : k = j
            · subst hkj
              simp [hb]
            · have : k < j + 1 ↔ k < j := by omega
              simp [this])
  exact ⟨s.1, s.2, hs, h1, h2⟩

theorem beats_kill_left (tol : K) (f g : Feature K) : ¬ Beats tol (kill f) g := by
  rintro ⟨_, _, _, _, h⟩
  simp only [kill, abs_zero] at h
  exact absurd h (not_lt.mpr (abs_nonneg _))

open Classical in
/-- The double loop -/
theorem suppress_arr (tol : K) {n : Nat} {l : List (Feature K)} (hn : n ≤ l.length) {g : Nat → Feature K} (h : Arr l l.length g) :
    ∃ l' c, suppress tol n l = some (l', c) ∧ Arr l' l.length (fun k => if k < n ∧ ∃ i < n, act (fun i k => Beats tol (g i) (g k)) i ∧ Beats tol (g i) (g k) then kill (g k) else g k) ∧
      c + l'.countP (fun x => decide (x.peakScore ≠ 0)) = l.countP (fun x => decide (x.peakScore ≠ 0)) := by
  obtain ⟨s, hs, h1, h2⟩ : ∃ s, suppress tol n l = some s ∧ Arr s.1 l.length (fun k => if k < n ∧ ∃ i < n, act (fun i k => Beats tol (g i) (g k)) i ∧ Beats tol (g i) (g k) then kill (g k) else g k) ∧
      s.2 + s.1.countP (fun x => decide (x.peakScore ≠ 0)) = l.countP (fun x => decide (x.peakScore ≠ 0)) := iter_inv (n := n)
    (P := fun m (s : List (Feature K) × Nat) => Arr s.1 l.length (fun k => if k < n ∧ ∃ i < m, act (fun i k => Beats tol (g i) (g k)) i ∧ Beats tol (g i) (g k) then kill (g k) else g k) ∧
      s.2 + s.1.countP (fun x => decide (x.peakScore ≠ 0)) = l.countP (fun x => decide (x.peakScore ≠ 0)))
    (s := (l, 0)) ⟨h.congr fun k _ => by simp, by simp⟩ (fun i hi s hP => by
      obtain ⟨hA, hC⟩ := hP
      have hil : i < l.length := lt_of_lt_of_le hi hn
      obtain ⟨l', c', e, hA', hC'⟩ := inner_spec tol (if i < n ∧ ∃ j < i, act (fun i k => Beats tol (g i) (g k)) j ∧ Beats tol (g j) (g i) then kill (g i) else g i) hn hA s.2 _ hC
      refine ⟨(l', c'), ?_, hA'.congr fun k hk => ?_, hC'⟩
      · show (rd s.1 i).bind _ = _
        rw [hA.rd hil, Option.bind_some]
        exact e
      · have hact := act_iff (fun i k => Beats tol (g i) (g k)) i
        by_cases hkn : k < n
        · simp only [hkn, hi, true_and]
          by_cases hd : ∃ j < i, act (fun i k => Beats tol (g i) (g k)) j ∧ Beats tol (g j) (g i)
          · have hna : ¬ act (fun i k => Beats tol (g i) (g k)) i := by
              rw [hact]
              push Not
              obtain ⟨j, a, b, c⟩ := hd
              exact ⟨j, a, b, c⟩
            rw [if_pos hd, if_neg (beats_kill_left tol _ _)]
            have : (∃ j < i + 1, act (fun i k => Beats tol (g i) (g k)) j ∧ Beats tol (g j) (g k)) ↔ ∃ j < i, act (fun i k => Beats tol (g i) (g k)) j ∧ Beats tol (g j) (g k) := by
              constructor
              · rintro ⟨j, a, b, c⟩
                rcases Nat.lt_succ_iff_lt_or_eq.mp a with a | rfl
                · exact ⟨j, a, b, c⟩
                · exact absurd b hna
              · rintro ⟨j, a, b, c⟩
                exact ⟨j, by omega, b, c⟩
            simp only [this]
          · have hna : act (fun i k => Beats tol (g i) (g k)) i := by
              rw [hact]
              intro j a b c
              exact hd ⟨j, a, b, c⟩
            rw [if_neg hd]
            by_cases hk1 : ∃ j < i, act (fun i k => Beats tol (g i) (g k)) j ∧ Beats tol (g j) (g k)
            · have hk2 : ∃ j < i + 1, act (fun i k => Beats tol (g i) (g k)) j ∧ Beats tol (g j) (g k) := by
                obtain ⟨j, a, b, c⟩ := hk1
                exact ⟨j, by omega, b, c⟩
              rw [if_pos hk1, if_pos hk2]
              split_ifs <;> simp [kill]
            · rw [if_neg hk1]
              have : (∃ j < i + 1, act (fun i k => Beats tol (g i) (g k)) j ∧ Beats tol (g j) (g k)) ↔ Beats tol (g i) (g k) := by
                constructor
                · rintro ⟨j, a, b, c⟩
                  rcases Nat.lt_succ_iff_lt_or_eq.mp a with a | rfl
                  · exact absurd ⟨j, a, b, c⟩ hk1
                  · exact c
                · intro c
                  exact ⟨i, by omega, hna, c⟩
              simp only [this]
        · simp [hkn])
  exact ⟨s.1, s.2, hs, h1, h2⟩

end Verif.Covdet
