import Verif.Aib.BetaLemmas

/-!
# Merging two entries
-/

namespace Verif.Aib

open Spec

set_option linter.unusedSectionVars false

variable {K : Type} [Field K] [LinearOrder K] [IsStrictOrderedRing K]

theorem iter_row_from {α : Type} {l : List α} {C D : Nat} {f : Nat → Nat → α} (h : Flat l C D f) {k k' : Nat} (hk : k < C) (g : α → α → α) {body : Nat → List α → Option (List α)}
    (hbody : ∀ d < D, ∀ (l : List α) (f : Nat → Nat → α), Flat l C D f → body d l = wr l (k * D + d) (g (f k d) (f k' d))) :
    ∃ l', iter D body l = some l' ∧ Flat l' C D (fun a b => if a = k then g (f k b) (f k' b) else f a b) := by
  obtain ⟨l', h1, h2⟩ := iter_inv (n := D) (f := body) (s := l)
    (fun d l => Flat l C D (fun a b => if a = k ∧ b < d then g (f k b) (f k' b) else f a b)) (h.congr (by intro a _ b _; simp)) (by
      intro d hd l hl
      obtain ⟨l', e1, e2⟩ := hl.wr hk hd (g (f k d) (f k' d))
      refine ⟨l', ?_, e2.congr ?_⟩
      · rw [hbody d hd l _ hl, if_neg (by omega), if_neg (by omega), e1]
      · intro a ha b hb
        unfold upd2
        beta_reduce
        by_cases h1 : a = k ∧ b = d
        · rw [if_pos h1, if_pos (by omega), h1.2]
        · rw [if_neg h1]
          by_cases h2 : a = k ∧ b < d
          · rw [if_pos h2, if_pos (by omega)]
          · rw [if_neg h2, if_neg (by omega)])
  refine ⟨l', h1, h2.congr ?_⟩
  intro a ha b hb
  by_cases h : a = k
  · rw [if_pos ⟨h, hb⟩, if_pos h]
  · rw [if_neg (fun h' => h h'.1), if_neg h]

/-- The partner after the scan -/
def scanQ (i j last : Nat) (q : Nat) : Nat := if q = i ∨ q = j then 0 else if q = last then j else q

theorem scan_eq {n ne : Nat} (hne : ne ≤ n) {s : St K} (hs : s.nentries = ne) (h0 : s.nwhich = 0) {β : Nat → WithTop K} {q wh : Nat → Nat} (hβ : Arr s.beta n β) (hq : Arr s.bidx n q) (hw : Arr s.which n wh) (i j last : Nat) :
    ∃ l k w nw wh', scan i j last s = some { s with beta := l, bidx := k, which := w, nwhich := nw } ∧
      Arr l n (fun r => if r < ne ∧ (q r = i ∨ q r = j) then ⊤ else β r) ∧ Arr k n (fun r => if r < ne then scanQ i j last (q r) else q r) ∧ Arr w n wh' ∧ nw ≤ ne ∧
      (∀ t < nw, wh' t < ne ∧ (q (wh' t) = i ∨ q (wh' t) = j)) ∧ ∀ r < ne, (q r = i ∨ q r = j) → ∃ t < nw, wh' t = r := by
  subst hs
  unfold scan
  let Q : Nat → St K → Prop := fun m t => ∃ l k w nw wh', t = { s with beta := l, bidx := k, which := w, nwhich := nw } ∧
      Arr l n (fun r => if r < m ∧ (q r = i ∨ q r = j) then ⊤ else β r) ∧ Arr k n (fun r => if r < m then scanQ i j last (q r) else q r) ∧ Arr w n wh' ∧ nw ≤ m ∧
      (∀ t < nw, wh' t < m ∧ (q (wh' t) = i ∨ q (wh' t) = j)) ∧ ∀ r < m, (q r = i ∨ q r = j) → ∃ t < nw, wh' t = r
  obtain ⟨t, e, l, k, w, nw, wh', rfl, h1, h2, h3, h4, h5, h6⟩ := iter_inv Q (n := s.nentries) (s := s) (f := fun n (s : St K) => (Verif.rd s.bidx n).bind fun q =>
      if q = i ∨ q = j then (Verif.wr s.bidx n 0).bind fun bidx => (Verif.wr s.beta n ⊤).bind fun beta => (Verif.wr s.which s.nwhich n).bind fun which => some { s with bidx := bidx, beta := beta, which := which, nwhich := s.nwhich + 1 }
      else if q = last then (Verif.wr s.bidx n j).bind fun bidx => some { s with bidx := bidx }
      else some s)
    ⟨s.beta, s.bidx, s.which, s.nwhich, wh, rfl, hβ.congr (fun r hr => by simp), hq.congr (fun r hr => by simp), hw, by omega, fun t ht => by omega, fun r hr => by omega⟩
    (by
      rintro m hm t ⟨l, k, w, nw, wh', rfl, h1, h2, h3, h4, h5, h6⟩
      dsimp only
      rw [h2.rd (by omega), if_neg (by omega)]
      simp only [Option.bind_some]
      by_cases hc : q m = i ∨ q m = j
      · rw [if_pos hc]
        obtain ⟨k', ek, hk'⟩ := h2.wr (show m < n by omega) 0
        obtain ⟨l', el, hl'⟩ := h1.wr (show m < n by omega) ⊤
        obtain ⟨w', ew, hw'⟩ := h3.wr (show nw < n by omega) m
        rw [ek, el, ew]
        refine ⟨_, rfl, l', k', w', nw + 1, _, rfl, hl'.congr ?_, hk'.congr ?_, hw', by omega, ?_, ?_⟩
        · intro r hr
          unfold upd1
          by_cases hrm : r = m
          · subst hrm
            simp [hc]
          · simp only [if_neg hrm, show (r < m + 1 ↔ r < m) by omega]
        · intro r hr
          unfold upd1
          by_cases hrm : r = m
          · subst hrm
            simp [scanQ, hc]
          · simp only [if_neg hrm, show (r < m + 1 ↔ r < m) by omega]
        · intro t ht
          unfold upd1
          by_cases htn : t = nw
          · simp only [if_pos htn]
            exact ⟨by omega, hc⟩
          · simp only [if_neg htn]
            have := h5 t (by omega)
            exact ⟨by omega, this.2⟩
        · intro r hr hqr
          unfold upd1
          by_cases hrm : r = m
          · exact ⟨nw, by omega, by simp [hrm]⟩
          · obtain ⟨t, ht, e⟩ := h6 r (by omega) hqr
            exact ⟨t, by omega, by rw [if_neg (by omega), e]⟩
      · rw [if_neg hc]
        by_cases hl : q m = last
        · rw [if_pos hl]
          obtain ⟨k', ek, hk'⟩ := h2.wr (show m < n by omega) j
          rw [ek]
          refine ⟨_, rfl, l, k', w, nw, wh', rfl, h1.congr ?_, hk'.congr ?_, h3, by omega, fun t ht => ⟨by have := h5 t ht; omega, (h5 t ht).2⟩, ?_⟩
          · intro r hr
            by_cases hrm : r = m
            · subst hrm
              rw [if_neg (fun h => hc h.2), if_neg (fun h => hc h.2)]
            · simp only [show (r < m + 1 ↔ r < m) by omega]
          · intro r hr
            unfold upd1
            by_cases hrm : r = m
            · subst hrm
              rw [if_pos rfl, if_pos (by omega)]
              unfold scanQ
              rw [if_neg hc, if_pos hl]
            · simp only [if_neg hrm, show (r < m + 1 ↔ r < m) by omega]
          · intro r hr hqr
            by_cases hrm : r = m
            · exact absurd (hrm ▸ hqr) hc
            · exact h6 r (by omega) hqr
        · rw [if_neg hl]
          refine ⟨_, rfl, l, k, w, nw, wh', rfl, h1.congr ?_, h2.congr ?_, h3, by omega, fun t ht => ⟨by have := h5 t ht; omega, (h5 t ht).2⟩, ?_⟩
          · intro r hr
            by_cases hrm : r = m
            · subst hrm
              rw [if_neg (fun h => hc h.2), if_neg (fun h => hc h.2)]
            · simp only [show (r < m + 1 ↔ r < m) by omega]
          · intro r hr
            by_cases hrm : r = m
            · subst hrm
              rw [if_neg (by omega), if_pos (by omega)]
              unfold scanQ
              rw [if_neg hc, if_neg hl]
            · simp only [show (r < m + 1 ↔ r < m) by omega]
          · intro r hr hqr
            by_cases hrm : r = m
            · exact absurd (hrm ▸ hqr) hc
            · exact h6 r (by omega) hqr)
  exact ⟨l, k, w, nw, wh', e, h1, h2, h3, h4, h5, h6⟩

/-- The effect of a merge on a table of the entries: `a` is stored in `i`, and the entry `last` in `j`. -/
def moved {α : Type} (i j last : Nat) (a : α) (f : Nat → α) : Nat → α := fun r => if r = j then f last else if r = i then a else f r

theorem upd_moved {α : Type} {i j last : Nat} (hij : i < j) (hj : j ≤ last) (a : α) (f : Nat → α) : upd1 (upd1 f i a) j (upd1 f i a last) = moved i j last a f := by
  funext r
  unfold upd1 moved
  rw [if_neg (show ¬ last = i by omega)]

theorem mergeOrdered_eq {n L ne : Nat} (hne : ne ≤ n) {s : St K} (hs : s.nentries = ne) {R : Nat → Nat → K} {X : Nat → K} {β : Nat → WithTop K} {q wh node : Nat → Nat}
    (hR : Flat s.Pcx n L R) (hX : Arr s.Px n X) (hβ : Arr s.beta n β) (hq : Arr s.bidx n q) (hw : Arr s.which n wh) (hn : Arr s.nodes n node) {i j : Nat} (hij : i < j) (hj : j < ne) (new : Nat) :
    ∃ P x nd l k w nw wh', mergeOrdered L s i j new = some { s with Pcx := P, Px := x, nodes := nd, nentries := ne - 1, beta := l, bidx := k, which := w, nwhich := nw } ∧
      Flat P n L (moved i j (ne - 1) (fun c => R i c + R j c) R) ∧ Arr x n (moved i j (ne - 1) (X i + X j) X) ∧ Arr nd n (moved i j (ne - 1) new node) ∧
      Arr l n (fun r => if r < ne - 1 ∧ (moved i j (ne - 1) (q i) q r = i ∨ moved i j (ne - 1) (q i) q r = j) then ⊤ else moved i j (ne - 1) ⊤ β r) ∧
      Arr k n (fun r => if r < ne - 1 then scanQ i j (ne - 1) (moved i j (ne - 1) (q i) q r) else moved i j (ne - 1) (q i) q r) ∧ Arr w n wh' ∧ nw ≤ ne - 1 ∧
      (∀ t < nw, wh' t < ne - 1 ∧ (moved i j (ne - 1) (q i) q (wh' t) = i ∨ moved i j (ne - 1) (q i) q (wh' t) = j)) ∧
      ∀ r < ne - 1, (moved i j (ne - 1) (q i) q r = i ∨ moved i j (ne - 1) (q i) q r = j) → ∃ t < nw, wh' t = r := by
  subst hs
  have hi : i < n := by omega
  have hjn : j < n := by omega
  have hl : s.nentries - 1 < n := by omega
  unfold mergeOrdered
  rw [hX.rd hi, hX.rd hjn]
  simp only [Option.bind_eq_bind, Option.bind_some]
  obtain ⟨x1, ex1, hx1⟩ := hX.wr hi (X i + X j)
  obtain ⟨b1, eb1, hb1⟩ := hβ.wr hi ⊤
  obtain ⟨n1, en1, hn1⟩ := hn.wr hi new
  obtain ⟨P1, eP1, hP1⟩ := iter_row_from (k' := j) hR hi (fun a b => a + b) (body := fun c P => (Verif.rd P (i * L + c)).bind fun a => (Verif.rd P (j * L + c)).bind fun b => Verif.wr P (i * L + c) (a + b))
    (fun d hd l f hf => by rw [hf.rd hi hd, hf.rd hjn hd]; rfl)
  rw [ex1, eb1, en1]
  simp only [Option.bind_some]
  rw [eP1]
  simp only [Option.bind_some]
  rw [hx1.rd hl]
  obtain ⟨x2, ex2, hx2⟩ := hx1.wr hjn (upd1 X i (X i + X j) (s.nentries - 1))
  simp only [Option.bind_some]
  rw [ex2, hb1.rd hl]
  obtain ⟨b2, eb2, hb2⟩ := hb1.wr hjn (upd1 β i ⊤ (s.nentries - 1))
  simp only [Option.bind_some]
  rw [eb2, hq.rd hl]
  obtain ⟨q2, eq2, hq2⟩ := hq.wr hjn (q (s.nentries - 1))
  simp only [Option.bind_some]
  rw [eq2, hn1.rd hl]
  obtain ⟨n2, en2, hn2⟩ := hn1.wr hjn (upd1 node i new (s.nentries - 1))
  simp only [Option.bind_some]
  rw [en2]
  obtain ⟨P2, eP2, hP2⟩ := iter_row_from (k' := s.nentries - 1) hP1 hjn (fun _ b => b) (body := fun c P => (Verif.rd P ((s.nentries - 1) * L + c)).bind fun a => Verif.wr P (j * L + c) a)
    (fun d hd l f hf => by rw [hf.rd hl hd]; rfl)
  simp only [Option.bind_some]
  rw [eP2]
  simp only [Option.bind_some]
  rw [upd_moved hij (by omega)] at hx2 hb2 hn2
  have hq2' : Arr q2 n (moved i j (s.nentries - 1) (q i) q) := hq2.congr fun r _ => by
    unfold upd1 moved
    by_cases h1 : r = j
    · rw [if_pos h1, if_pos h1]
    · rw [if_neg h1, if_neg h1]
      by_cases h2 : r = i
      · rw [if_pos h2, h2]
      · rw [if_neg h2]
  obtain ⟨l, k, w, nw, wh', e, h1, h2, h3, h4, h5, h6⟩ := scan_eq (s := { s with Px := x2, beta := b2, nodes := n2, Pcx := P2, bidx := q2, nentries := s.nentries - 1, nwhich := 0 })
    (show s.nentries - 1 ≤ n by omega) rfl rfl hb2 hq2' hw i j (s.nentries - 1)
  refine ⟨P2, x2, n2, l, k, w, nw, wh', e, hP2.congr ?_, hx2, hn2, h1, h2, h3, h4, h5, h6⟩
  intro a ha b hb
  unfold moved
  rw [if_neg (show ¬ s.nentries - 1 = i by omega)]
  by_cases hc : a = j
  · rw [if_pos hc, if_pos hc]
  · rw [if_neg hc, if_neg hc]
    by_cases hc2 : a = i
    · rw [if_pos hc2, if_pos hc2]
    · rw [if_neg hc2, if_neg hc2]

/-- The old index of an entry -/
def old (j last r : Nat) : Nat := if r = j then last else r

theorem moved_old {α : Type} {i j last r : Nat} (h : r ≠ i ∨ r = j) (a : α) (f : Nat → α) : moved i j last a f r = f (old j last r) := by
  unfold moved old
  by_cases h1 : r = j
  · rw [if_pos h1, if_pos h1]
  · rw [if_neg h1, if_neg h1, if_neg (h.resolve_right h1)]

theorem moved_i {α : Type} {i j last : Nat} (hij : i < j) (a : α) (f : Nat → α) : moved i j last a f i = a := by
  unfold moved
  rw [if_neg (by omega), if_pos rfl]

/-- The partners remain valid and minimal after a merge, but for the entries to update. -/
theorem merge_partner {log : K → K} {L ne : Nat} {R : Nat → Nat → K} {X : Nat → K} {β : Nat → WithTop K} {q : Nat → Nat} {i j : Nat} (hij : i < j) (hj : j < ne)
    (hP : Partner ne (fun a b => loss log L (R a) (R b)) X β q) (hC : Cov ne (fun a b => loss log L (R a) (R b)) X β (fun _ _ => True)) (hqi : q i = j) {nw : Nat} {wh' : Nat → Nat}
    (hwh : ∀ r < ne - 1, (moved i j (ne - 1) (q i) q r = i ∨ moved i j (ne - 1) (q i) q r = j) → ∃ t < nw, wh' t = r) :
    Partner (ne - 1) (fun a b => loss log L (moved i j (ne - 1) (fun c => R i c + R j c) R a) (moved i j (ne - 1) (fun c => R i c + R j c) R b)) (moved i j (ne - 1) (X i + X j) X)
      (fun r => if r < ne - 1 ∧ (moved i j (ne - 1) (q i) q r = i ∨ moved i j (ne - 1) (q i) q r = j) then ⊤ else moved i j (ne - 1) ⊤ β r)
      (fun r => if r < ne - 1 then scanQ i j (ne - 1) (moved i j (ne - 1) (q i) q r) else moved i j (ne - 1) (q i) q r) ∧
    Cov (ne - 1) (fun a b => loss log L (moved i j (ne - 1) (fun c => R i c + R j c) R a) (moved i j (ne - 1) (fun c => R i c + R j c) R b)) (moved i j (ne - 1) (X i + X j) X)
      (fun r => if r < ne - 1 ∧ (moved i j (ne - 1) (q i) q r = i ∨ moved i j (ne - 1) (q i) q r = j) then ⊤ else moved i j (ne - 1) ⊤ β r)
      (fun r b => (∀ t < nw, wh' t ≠ r) ∧ ∀ t < nw, wh' t ≠ b) := by
  have hii : moved i j (ne - 1) (q i) q i = j := by rw [moved_i hij, hqi]
  have hold : ∀ r < ne - 1, old j (ne - 1) r < ne := fun r hr => by unfold old; split <;> omega
  constructor
  · intro r hr
    beta_reduce
    by_cases hc : moved i j (ne - 1) (q i) q r = i ∨ moved i j (ne - 1) (q i) q r = j
    · exact Or.inl (if_pos ⟨hr, hc⟩)
    · have hri : r ≠ i := fun e => hc (by rw [e]; exact Or.inr hii)
      rw [if_neg (fun h => hc h.2), if_pos hr, moved_old (Or.inl hri), moved_old (Or.inl hri)]
      rw [moved_old (Or.inl hri)] at hc
      push Not at hc
      rcases hP (old j (ne - 1) r) (hold r hr) with h | ⟨h1, h2, h3, h4, h5⟩
      · exact Or.inl h
      · right
        have hs : old j (ne - 1) (scanQ i j (ne - 1) (q (old j (ne - 1) r))) = q (old j (ne - 1) r) ∧ scanQ i j (ne - 1) (q (old j (ne - 1) r)) ≠ i ∧ scanQ i j (ne - 1) (q (old j (ne - 1) r)) < ne - 1 := by
          unfold scanQ
          rw [if_neg (by push Not; exact hc)]
          by_cases h6 : q (old j (ne - 1) r) = ne - 1
          · rw [if_pos h6]
            refine ⟨by unfold old; rw [if_pos rfl]; exact h6.symm, by omega, ?_⟩
            have := hc.2
            omega
          · rw [if_neg h6]
            refine ⟨?_, hc.1, by omega⟩
            generalize q (old j (ne - 1) r) = z at *
            unfold old
            rw [if_neg hc.2]
        refine ⟨hs.2.2, ?_, by rw [moved_old (Or.inl hri)]; exact h3, ?_, ?_⟩
        · intro e
          apply h2
          rw [← hs.1, e]
        · rw [moved_old (Or.inl hs.2.1), hs.1]
          exact h4
        · rw [moved_old (Or.inl hs.2.1), hs.1, moved_old (Or.inl hri)]
          exact h5
  · intro r hr b hb hrb hXr hXb hS
    beta_reduce
    have hnr : ¬ (moved i j (ne - 1) (q i) q r = i ∨ moved i j (ne - 1) (q i) q r = j) := fun h => by
      obtain ⟨t, ht, e⟩ := hwh r hr h
      exact hS.1 t ht e
    have hnb : ¬ (moved i j (ne - 1) (q i) q b = i ∨ moved i j (ne - 1) (q i) q b = j) := fun h => by
      obtain ⟨t, ht, e⟩ := hwh b hb h
      exact hS.2 t ht e
    have hri : r ≠ i := fun e => hnr (by rw [e]; exact Or.inr hii)
    have hbi : b ≠ i := fun e => hnb (by rw [e]; exact Or.inr hii)
    rw [moved_old (Or.inl hri)] at hXr
    rw [moved_old (Or.inl hbi)] at hXb
    rw [if_neg (fun h => hnr h.2), moved_old (Or.inl hri), moved_old (Or.inl hri), moved_old (Or.inl hbi)]
    refine hC _ (hold r hr) _ (hold b hb) ?_ hXr hXb trivial
    unfold old
    split <;> split <;> omega

/-- The probabilities after a merge -/
theorem merge_tab {n L ne : Nat} {s s' : St K} {R : Nat → Nat → K} {X : Nat → K} (h : Tab n L ne s R X) {i j : Nat} (hij : i < j) (hj : j < ne)
    (hR : Flat s'.Pcx n L (moved i j (ne - 1) (fun c => R i c + R j c) R)) (hX : Arr s'.Px n (moved i j (ne - 1) (X i + X j) X)) :
    Tab n L (ne - 1) s' (moved i j (ne - 1) (fun c => R i c + R j c) R) (moved i j (ne - 1) (X i + X j) X) := by
  have hold : ∀ r < ne - 1, old j (ne - 1) r < ne := fun r hr => by unfold old; split <;> omega
  refine ⟨by have := h.le; omega, hR, hX, ?_, ?_⟩
  · intro r hr c hc
    by_cases hri : r = i
    · rw [hri, moved_i hij]
      exact add_nonneg (h.nonneg i (by omega) c hc) (h.nonneg j hj c hc)
    · rw [moved_old (Or.inl hri)]
      exact h.nonneg _ (hold r hr) c hc
  · intro r hr
    by_cases hri : r = i
    · rw [hri, moved_i hij, moved_i hij, Finset.sum_add_distrib, h.sum i (by omega), h.sum j hj]
    · rw [moved_old (Or.inl hri), moved_old (Or.inl hri)]
      exact h.sum _ (hold r hr)

theorem information_eq {log : K → K} {n L ne : Nat} {s : St K} {R : Nat → Nat → K} {X Pc : Nat → K} (h : Tab n L ne s R X) (hs : s.nentries = ne) (hPc : Arr s.Pc L Pc) (hle : ∀ r < ne, ∀ c < L, R r c ≤ Pc c) :
    information log L s = some (∑ r ∈ Finset.range ne, contrib log L Pc (R r)) := by
  subst hs
  unfold information
  rw [iter_sum s.nentries (fun r => contrib log L Pc (R r)) 0, zero_add]
  intro r hr I
  rw [h.px.rd (lt_of_lt_of_le hr h.le)]
  simp only [Option.bind_eq_bind, Option.bind_some, Option.pure_def]
  by_cases h0 : X r = 0
  · rw [if_pos h0]
    unfold contrib
    rw [Finset.sum_eq_zero, add_zero]
    intro c hc
    rw [if_pos]
    by_contra hne
    exact absurd h0 (h.X_pos hr (Finset.mem_range.1 hc) hne).ne'
  · rw [if_neg h0]
    unfold contrib
    apply iter_sum L
    intro c hc t
    rw [h.pcx.rd (lt_of_lt_of_le hr h.le) hc]
    simp only [Option.bind_some]
    by_cases hz : R r c = 0
    · rw [if_pos hz, if_pos hz, add_zero]
    · have h1 := h.pos hr hc hz
      have h2 := mul_pos (h.X_pos hr hc hz) (lt_of_lt_of_le h1 (hle r hr c hc))
      rw [if_neg hz, if_neg hz, hPc.rd hc]
      simp only [Option.bind_some]
      unfold divv logv
      rw [if_neg h2.ne']
      simp only [Option.bind_some]
      rw [if_pos (div_pos h1 h2), h.sum r hr]
      rfl

end Verif.Aib
