import Verif.Aib.TreeLemmas
import Mathlib.Analysis.SpecialFunctions.Log.Basic

/-!
# Properties of the agglomerative information bottleneck
-/

namespace Verif.Aib

open Spec

set_option linter.unusedSectionVars false

variable {K : Type} [Field K] [LinearOrder K] [IsStrictOrderedRing K]

/-- What the program returns: `m` merges, the parents `p` and the information levels `cost`. -/
structure Result (log : K → K) (n L : Nat) (P : Nat → Nat → K) (parents : List Nat) (costs : List (Option K)) (m : Nat) (p : Nat → Nat) (cost : Nat → Option K) : Prop where
  le : m < n
  parents : Arr parents (2 * n - 1) p
  costs : Arr costs n cost
  /-- the parents form a binary tree over the values that have positive probability -/
  tree : IsTree n m (fun v => value L P v = 0) p
  /-- each cost is the information left by the merges up to there -/
  info : ∀ t ≤ m, cost t = some (info log n L P (clustering n p t))
  /-- the costs of the merges that did not take place are not numbers -/
  nan : ∀ t < n, m < t → cost t = none
  /-- no other merge of two clusters of positive probability would have left more information -/
  greedy : ∀ t < m, ∀ u u', u ≠ u' → ∑ c ∈ Finset.range L, joint n P (clustering n p t) u c ≠ 0 → ∑ c ∈ Finset.range L, joint n P (clustering n p t) u' c ≠ 0 →
    Spec.info log n L P (merge (clustering n p t) u u' (n + t)) ≤ Spec.info log n L P (clustering n p (t + 1))

/-- The invariant of the loop over the merges -/
structure Inv (log : K → K) (n L : Nat) (P : Nat → Nat → K) (i : Nat) (s : St K) (R : Nat → Nat → K) (X : Nat → K) (node q wh p : Nat → Nat) (β : Nat → WithTop K) (cost : Nat → Option K) : Prop where
  ne : s.nentries = n - i
  tab : Tab n L (n - i) s R X
  pc : Arr s.Pc L (label n P)
  nodes : Arr s.nodes n node
  beta : Arr s.beta n β
  bidx : Arr s.bidx n q
  which : Arr s.which n wh
  nw : s.nwhich ≤ n
  whlt : ∀ t < s.nwhich, wh t < n - i
  partner : Partner (n - i) (fun a b => loss log L (R a) (R b)) X β q
  cov : Cov (n - i) (fun a b => loss log L (R a) (R b)) X β (fun r b => (∀ t < s.nwhich, wh t ≠ r) ∧ ∀ t < s.nwhich, wh t ≠ b)
  parents : Arr s.parents (2 * n - 1) p
  costs : Arr s.costs n cost
  tree : Tree n L P i R X node p
  info : ∀ t ≤ i, cost t = some (Spec.info log n L P (clustering n p t))
  greedy : ∀ t < i, ∀ u u', u ≠ u' → Live n L P (clustering n p t) u → Live n L P (clustering n p t) u' →
    Spec.info log n L P (merge (clustering n p t) u u' (n + t)) ≤ Spec.info log n L P (clustering n p (t + 1))

theorem processLoop_spec {log : K → K} (hl : IsLog log) {n L : Nat} {P : Nat → Nat → K} (hP : ∀ v < n, ∀ c < L, 0 ≤ P v c) :
    ∀ (k i : Nat) (s : St K) (R : Nat → Nat → K) (X : Nat → K) (node q wh p : Nat → Nat) (β : Nat → WithTop K) (cost : Nat → Option K),
      Inv log n L P i s R X node q wh p β cost → i + k = n - 1 →
      ∃ s' m p' cost', processLoop log n L k i s = some s' ∧ Result log n L P s'.parents s'.costs m p' cost' := by
  intro k
  induction k with
  | zero =>
    intro i s R X node q wh p β cost h hik
    have hn := h.tree.hi
    refine ⟨s, i, p, cost, rfl, hn, h.parents, h.costs, h.tree.isTree (fun r hr r' hr' _ _ => by omega), h.info, fun t ht ht' => by omega, h.greedy⟩
  | succ k ih =>
    intro i s R X node q wh p β cost h hik
    have hn := h.tree.hi
    rw [processLoop]
    obtain ⟨l, qs, β1, q1, e1, hl1, hq1, hp1, hc1⟩ := updateBeta_eq hl h.tab h.ne h.beta h.bidx h.which h.nw h.whlt h.partner h.cov
    rw [e1]
    simp only [Option.bind_eq_bind, Option.bind_some]
    obtain ⟨a, ha, e2, hmin, hfirst⟩ := minBeta_eq (s := { s with beta := l, bidx := qs }) (h.tab.le) (by omega) h.ne hl1 hq1
    rw [e2]
    simp only [Option.bind_some]
    by_cases htop : β1 a = ⊤
    · rw [if_pos htop]
      have huniq : ∀ r < n - i, ∀ r' < n - i, X r ≠ 0 → X r' ≠ 0 → r = r' := fun r hr r' hr' hx hx' => by
        by_contra hne
        have h1 := le_trans (hmin r hr) (hc1 r hr r' hr' hne hx hx' trivial)
        rw [htop, top_le_iff] at h1
        exact absurd h1 (WithTop.coe_ne_top)
      unfold fillNan
      obtain ⟨cs, ec, hcs⟩ := iter_inv (fun t (l : List (Option K)) => Arr l n (fun r => if i < r ∧ r < i + 1 + t then none else cost r)) (n := k + 1) (s := s.costs) (f := fun t costs => Verif.wr costs (i + t + 1) none)
        (h.costs.congr fun r _ => by rw [if_neg (by omega)]) (by
          intro t ht l hl
          obtain ⟨l', e, hl'⟩ := hl.wr (show i + t + 1 < n by omega) none
          refine ⟨l', e, hl'.congr fun r hr => ?_⟩
          unfold upd1
          beta_reduce
          by_cases h1 : r = i + t + 1
          · rw [if_pos h1, if_pos (by omega)]
          · rw [if_neg h1]
            by_cases h2 : i < r ∧ r < i + 1 + t
            · rw [if_pos h2, if_pos (by omega)]
            · rw [if_neg h2, if_neg (by omega)])
      simp only [Option.bind_eq_bind, Option.pure_def]
      rw [ec]
      refine ⟨_, i, p, _, rfl, hn, h.parents, hcs, h.tree.isTree huniq, ?_, ?_, h.greedy⟩
      · intro t ht
        rw [if_neg (by omega)]
        exact h.info t ht
      · intro t ht ht'
        rw [if_pos (by omega)]
    · rw [if_neg htop]
      obtain ⟨hb, hba, hXa, hXb, hβ⟩ := (hp1 a ha).resolve_left htop
      generalize hqa : q1 a = b at *
      have hab : a < b := by
        by_contra hlt
        have h1 := hfirst b (by omega)
        have h2 := hc1 b hb a ha hba hXb hXa trivial
        rw [hβ] at h1
        beta_reduce at h1 h2
        rw [loss_comm log L (R a) (R b)] at h1
        exact absurd h1 (not_lt.2 h2)
      have hla := h.tree.lt a ha
      have hlb := h.tree.lt b hb
      unfold link
      dsimp only
      rw [h.nodes.rd (by omega), h.nodes.rd (by omega)]
      simp only [Option.bind_eq_bind, Option.bind_some, Option.pure_def]
      obtain ⟨p1, ep1, hp1'⟩ := h.parents.wr (show node a < 2 * n - 1 by omega) (n + i)
      obtain ⟨p2, ep2, hp2'⟩ := hp1'.wr (show node b < 2 * n - 1 by omega) (n + i)
      obtain ⟨p3, ep3, hp3'⟩ := hp2'.wr (show n + i < 2 * n - 1 by omega) 0
      rw [ep1]
      simp only [Option.bind_some]
      rw [ep2]
      simp only [Option.bind_some]
      rw [ep3]
      simp only [Option.bind_some]
      unfold mergeNodes
      rw [if_neg (by omega)]
      obtain ⟨P4, x4, nd4, l4, k4, w4, nw4, wh4, e4, hP4, hx4, hnd4, hl4, hk4, hw4, hnw4, hwh4, hall4⟩ := mergeOrdered_eq (s := { s with beta := l, bidx := qs, parents := p3 })
        h.tab.le h.ne h.tab.pcx h.tab.px hl1 hq1 h.which h.nodes hab hb (n + i)
      rw [e4]
      simp only [Option.bind_some]
      have htab4 := merge_tab (s' := { s with Pcx := P4, Px := x4, nodes := nd4, nentries := n - i - 1, beta := l4, bidx := k4, which := w4, nwhich := nw4, parents := p3 }) h.tab hab hb hP4 hx4
      have htree4 := h.tree.step h.tab.nonneg hab hb hXa hXb
      have hpart4 := merge_partner hab hb hp1 hc1 hqa hall4
      have hne : n - (i + 1) = n - i - 1 := by omega
      have hle4 : ∀ r < n - i - 1, ∀ c < L, moved a b (n - i - 1) (fun c => R a c + R b c) R r c ≤ label n P c := fun r hr c hc => by
        rw [htree4.row r (by omega) c hc]
        exact joint_le hP _ _ hc
      rw [information_eq htab4 rfl h.pc hle4]
      simp only [Option.bind_some]
      have einfo := htree4.info_eq log
      rw [hne] at einfo
      rw [einfo]
      obtain ⟨cs, ecs, hcs⟩ := h.costs.wr (show i + 1 < n by omega) (some (Spec.info log n L P (clustering n (linked p (node a) (node b) (n + i)) (i + 1))))
      rw [ecs]
      simp only [Option.bind_some]
      apply ih (i + 1) _ _ _ _ _ _ _ _ _ ?_ (by omega)
      rotate_right
      refine { ne := hne.symm, tab := ?_, pc := h.pc, nodes := hnd4, beta := hl4, bidx := hk4, which := hw4, nw := ?_, whlt := ?_, partner := ?_, cov := ?_, parents := hp3', costs := hcs, tree := htree4, info := ?_, greedy := ?_ }
      · rw [hne]
        exact ⟨htab4.le, htab4.pcx, htab4.px, htab4.nonneg, htab4.sum⟩
      · show nw4 ≤ n
        omega
      · rw [hne]
        exact fun t ht => (hwh4 t ht).1
      · rw [hne]
        exact hpart4.1
      · rw [hne]
        exact hpart4.2
      · intro t ht
        unfold upd1
        by_cases hti : t = i + 1
        · rw [if_pos hti, hti]
          rfl
        · rw [if_neg hti, h.info t (by omega)]
          exact congrArg some (info_congr log fun v _ => (h.tree.clustering_old hab hb (by omega) v).symm)
      · intro t ht u u' huu hu hu'
        have ecl : clustering n (linked p (node a) (node b) (n + i)) t = clustering n p t := funext fun v => h.tree.clustering_old hab hb (by omega) v
        change Live n L P (clustering n (linked p (node a) (node b) (n + i)) t) u at hu
        change Live n L P (clustering n (linked p (node a) (node b) (n + i)) t) u' at hu'
        change Spec.info log n L P (merge (clustering n (linked p (node a) (node b) (n + i)) t) u u' (n + t)) ≤ Spec.info log n L P (clustering n (linked p (node a) (node b) (n + i)) (t + 1))
        rw [ecl] at hu hu' ⊢
        by_cases hti : t = i
        · subst hti
          obtain ⟨r, hr, er, hXr⟩ := h.tree.live hu
          obtain ⟨r', hr', er', hXr'⟩ := h.tree.live hu'
          have hrr : r ≠ r' := fun e => huu (by rw [← er, ← er', e])
          rw [info_congr log (fun v hv => h.tree.clustering_new hab hb hv), h.tree.info_merge_eq hl hP (by omega) hb (by omega), ← er, ← er', h.tree.info_merge_eq hl hP hr hr' hrr]
          have h1 := le_trans (hmin r hr) (hc1 r hr r' hr' hrr hXr hXr' trivial)
          rw [hβ] at h1
          exact sub_le_sub_left (WithTop.coe_le_coe.1 h1) _
        · have ecl' : clustering n (linked p (node a) (node b) (n + i)) (t + 1) = clustering n p (t + 1) := funext fun v => h.tree.clustering_old hab hb (by omega) v
          rw [ecl']
          exact h.greedy t (by omega) u u' huu hu hu'

theorem process_eq {log : K → K} {n L : Nat} (hn : 0 < n) {s : St K} {I : K} (h : information log L s = some I) {cs : List (Option K)} (hc : Verif.wr s.costs 0 (some I) = some cs) :
    process log n L s = processLoop log n L (n - 1) 0 { s with costs := cs } := by
  unfold process assert'
  rw [h]
  simp only [Option.bind_eq_bind, Option.bind_some]
  rw [hc, if_pos (by simp; omega)]
  rfl

theorem normalizeP_eq {l : List K} {n : Nat} {f : Nat → K} (h : Arr l n f) (hs : ∑ i ∈ Finset.range n, f i ≠ 0) :
    ∃ l', normalizeP l n = some l' ∧ Arr l' n (fun i => f i / ∑ i ∈ Finset.range n, f i) := by
  unfold normalizeP
  have e : iter n (fun i s => do
      let x ← Verif.rd l i
      pure (s + x)) (0 : K) = some (0 + ∑ i ∈ Finset.range n, f i) := iter_sum n f 0 fun i hi s => by rw [h.rd hi]; rfl
  rw [e, zero_add]
  simp only [Option.bind_eq_bind, Option.bind_some]
  apply iter_arr h (fun _ x => x / ∑ i ∈ Finset.range n, f i)
  intro d hd l f' hf
  rw [hf.rd hd]
  simp only [Option.bind_some]
  unfold divv
  rw [if_neg hs]
  rfl

/-- The distribution of the histogram -/
def normalized (n L : Nat) (H : Nat → Nat → K) (v c : Nat) : K := H v c / ∑ v ∈ Finset.range n, ∑ c ∈ Finset.range L, H v c

/-- **The program clusters every histogram** that has at least one value and no negative entry, but not only zeros.  No access is out of bounds, whatever the allocated blocks contain; the parents form a binary tree over
the values of positive probability; each cost is the mutual information of the clustering and the label; each merge leaves the largest possible information. -/
theorem process_correct {log : K → K} (hl : IsLog log) {n L : Nat} {H : Nat → Nat → K} {hist : List K} (hH : Flat hist n L H) (hpos : ∀ v < n, ∀ c < L, 0 ≤ H v c)
    (hsum : ∑ v ∈ Finset.range n, ∑ c ∈ Finset.range L, H v c ≠ 0) {Px Pc : List K} {bidx : List Nat} {costs : List (Option K)} (hPx : Px.length = n) (hPc : Pc.length = L) (hb : bidx.length = n) (hc : costs.length = n) :
    ∃ s s' m p cost, new hist n L Px Pc bidx costs = some s ∧ process log n L s = some s' ∧ Result log n L (normalized n L H) s'.parents s'.costs m p cost := by
  have hn : 0 < n := by
    rcases Nat.eq_zero_or_pos n with h | h
    · subst h
      simp at hsum
    · exact h
  have hL : 0 < L := by
    rcases Nat.eq_zero_or_pos L with h | h
    · subst h
      simp at hsum
    · exact h
  have hsp : 0 < ∑ v ∈ Finset.range n, ∑ c ∈ Finset.range L, H v c :=
    lt_of_le_of_ne (Finset.sum_nonneg fun v hv => Finset.sum_nonneg fun c hc => hpos v (Finset.mem_range.1 hv) c (Finset.mem_range.1 hc)) (Ne.symm hsum)
  have hP : ∀ v < n, ∀ c < L, 0 ≤ normalized n L H v c := fun v hv c hc => div_nonneg (hpos v hv c hc) hsp.le
  have hfl : ∑ i ∈ Finset.range (n * L), H (i / L) (i % L) = ∑ v ∈ Finset.range n, ∑ c ∈ Finset.range L, H v c := by
    exact sum_flat n L H
  obtain ⟨P1, e1, h1⟩ := normalizeP_eq hH.arr (by rw [hfl]; exact hsum)
  rw [hfl] at h1
  have h1' : Flat P1 n L (normalized n L H) := Arr.flat h1
  have e2 : ∃ l, newPx P1 n L Px = some l ∧ Arr l n (fun r => ∑ c ∈ Finset.range L, normalized n L H r c) := by
    unfold newPx
    refine iter_arr (Arr.of_len' hPx 0) (fun r _ => ∑ c ∈ Finset.range L, normalized n L H r c) ?_
    intro d hd l f hf
    rw [iter_sum L (fun c => normalized n L H d c) 0 (fun c hc s => by rw [h1'.rd hd hc]; rfl), zero_add]
    rfl
  have e3 : ∃ l, newPc P1 n L Pc = some l ∧ Arr l L (fun c => label n (normalized n L H) c) := by
    unfold newPc
    refine iter_arr (Arr.of_len' hPc 0) (fun c _ => label n (normalized n L H) c) ?_
    intro d hd l f hf
    rw [iter_sum n (fun r => normalized n L H r d) 0 (fun r hr s => by rw [h1'.rd hr hd]; rfl), zero_add]
    rfl
  obtain ⟨Px1, ePx, hPx1⟩ := e2
  obtain ⟨Pc1, ePc, hPc1⟩ := e3
  unfold new
  rw [e1]
  simp only [Option.bind_eq_bind, Option.bind_some, Option.pure_def]
  rw [ePx]
  simp only [Option.bind_some]
  rw [ePc]
  simp only [Option.bind_some]
  generalize hs0 : ({ Pcx := P1, Px := Px1, Pc := Pc1, nentries := n, nodes := newNodelist n, beta := List.replicate n ⊤, bidx := bidx, which := newNodelist n, nwhich := n, parents := List.replicate (2 * n - 1) (2 * n), costs := costs } : St K) = s0
  have hnode : Arr (newNodelist n) n (fun r => r) := ⟨by simp [newNodelist], fun i hi => by simp [newNodelist, hi]⟩
  have hid : clustering n (fun _ => 2 * n) 0 = fun v => v := rfl
  have hj : ∀ r < n, ∀ c, joint n (normalized n L H) (fun v => v) r c = normalized n L H r c := fun r hr c => by
    unfold joint
    rw [show (Finset.range n).filter (fun v => v = r) = {r} by ext z; simp only [Finset.mem_filter, Finset.mem_range, Finset.mem_singleton]; constructor; exact fun h => h.2; rintro rfl; exact ⟨hr, rfl⟩, Finset.sum_singleton]
  have htab : Tab n L (n - 0) s0 (normalized n L H) (fun r => ∑ c ∈ Finset.range L, normalized n L H r c) := by
    subst hs0
    exact ⟨le_refl _, h1', hPx1, hP, fun _ _ => rfl⟩
  have htree : Tree n L (normalized n L H) 0 (normalized n L H) (fun r => ∑ c ∈ Finset.range L, normalized n L H r c) (fun r => r) (fun _ => 2 * n) := by
    refine { hi := hn, inj := fun _ _ _ _ e => e, lt := fun r hr => hr, row := fun r hr c _ => (hj r hr c).symm, sum := fun _ _ => rfl, mem := fun v hv => ⟨v, hv, rfl⟩, active := fun r hr => (if_pos hr).symm,
             inactive := fun v hv hno => absurd rfl (hno v hv), unused := fun _ _ _ => rfl, two := fun t ht => absurd ht (Nat.not_lt_zero t), null := fun v hv _ => ⟨v, hv, rfl⟩,
             nullr := fun r hr => ⟨fun e => ⟨hr, e⟩, fun e => e.2⟩, ex := ?_, count := rfl, last := fun h => absurd h (Nat.lt_irrefl 0) }
    by_contra hno
    push Not at hno
    have hz : ∀ v < n, ∀ c < L, H v c = 0 := fun v hv c hc => by
      by_contra hne
      have hpos' : normalized n L H v c ≠ 0 := div_ne_zero hne hsum
      exact absurd (hno v hv) (pos_sum (hP v hv) hc hpos').ne'
    exact hsum (Finset.sum_eq_zero fun v hv => Finset.sum_eq_zero fun c hc => hz v (Finset.mem_range.1 hv) c (Finset.mem_range.1 hc))
  have einf := information_eq (log := log) (Pc := label n (normalized n L H)) htab (by subst hs0; rfl) (by subst hs0; exact hPc1) (fun r hr c hc => by rw [← hj r hr c]; exact joint_le hP _ _ hc)
  rw [htree.info_eq log] at einf
  obtain ⟨cs, ecs, hcs⟩ := (Arr.of_len' hc none).wr hn (some (Spec.info log n L (normalized n L H) (clustering n (fun _ => 2 * n) 0)))
  have ecs' : Verif.wr s0.costs 0 (some (Spec.info log n L (normalized n L H) (clustering n (fun _ => 2 * n) 0))) = some cs := by subst hs0; exact ecs
  obtain ⟨s', m, p', cost', e, hres⟩ := processLoop_spec hl hP (n - 1) 0 { s0 with costs := cs } (normalized n L H) (fun r => ∑ c ∈ Finset.range L, normalized n L H r c) (fun r => r) (fun i => bidx.getD i 0) (fun r => r) (fun _ => 2 * n) (fun _ => ⊤) _
    (by
      subst hs0
      exact { ne := rfl, tab := ⟨htab.le, htab.pcx, htab.px, htab.nonneg, htab.sum⟩, pc := hPc1, nodes := hnode, beta := Arr.replicate n ⊤, bidx := Arr.of_len' hb 0, which := hnode, nw := le_refl _, whlt := fun t ht => ht,
              partner := fun _ _ => Or.inl rfl, cov := fun r hr b hb _ _ _ hS => absurd rfl (hS.1 r hr), parents := Arr.replicate (2 * n - 1) (2 * n), costs := hcs, tree := htree,
              info := fun t ht => by obtain rfl : t = 0 := by omega
                                     unfold upd1; rw [if_pos rfl],
              greedy := fun t ht => absurd ht (Nat.not_lt_zero t) }) (by omega)
  exact ⟨s0, s', m, p', cost', rfl, by rw [process_eq hn einf ecs']; exact e, hres⟩

theorem isTree_reach {n m : Nat} {null : Nat → Prop} {p : Nat → Nat} (h : IsTree n m null p) (hm : 0 < m) : ∀ k v, v < n + m → n + m - 1 - v ≤ k → ¬ (v < n ∧ null v) → ∃ j, p^[j] v = n + m - 1 := by
  intro k
  induction k with
  | zero =>
    intro v hv hk _
    exact ⟨0, by simp only [Function.iterate_zero, id_eq]; omega⟩
  | succ k ih =>
    intro v hv hk hn
    by_cases hr : v = n + m - 1
    · exact ⟨0, hr⟩
    · have hi := h.inner hm v (by omega) hn
      obtain ⟨j, hj⟩ := ih (p v) hi.2.2 (by omega) (by omega)
      exact ⟨j + 1, by rw [Function.iterate_succ_apply]; exact hj⟩

/-- **Following the parents from every value of positive probability, and from every node created, ends at the root**, which is the node created last. -/
theorem reaches_root {log : K → K} {n L : Nat} {P : Nat → Nat → K} {parents : List Nat} {costs : List (Option K)} {m : Nat} {p : Nat → Nat} {cost : Nat → Option K}
    (h : Result log n L P parents costs m p cost) (hm : 0 < m) {v : Nat} (hv : v < n + m) (hn : v < n → value L P v ≠ 0) : ∃ j, p^[j] v = n + m - 1 :=
  isTree_reach h.tree hm (n + m - 1 - v) v hv (le_refl _) fun h => hn h.1 h.2

theorem real_isLog : IsLog Real.log := fun _ _ hx hy => Real.log_mul hx.ne' hy.ne'

theorem term_bound {x A y : ℝ} (hx : 0 ≤ x) (hA : 0 ≤ A) (hxA : x ≠ 0 → 0 < A) (hy : 0 < y) : x - y * A ≤ (if x = 0 then 0 else x * Real.log (x / A)) - x * Real.log y := by
  by_cases h0 : x = 0
  · rw [if_pos h0, h0]
    have := mul_nonneg hy.le hA
    linarith
  · have hx' : 0 < x := lt_of_le_of_ne hx (Ne.symm h0)
    have hA' := hxA h0
    rw [if_neg h0, ← mul_sub, ← Real.log_div (div_pos hx' hA').ne' hy.ne']
    have h1 := Real.one_sub_inv_le_log_of_pos (div_pos (div_pos hx' hA') hy)
    have h2 := mul_le_mul_of_nonneg_left h1 hx
    have h3 : x * (1 - (x / A / y)⁻¹) = x - y * A := by
      field_simp
    linarith

theorem loss_nonneg {L : Nat} {r s : Nat → ℝ} (hr : ∀ c < L, 0 ≤ r c) (hs : ∀ c < L, 0 ≤ s c) : 0 ≤ loss Real.log L r s := by
  unfold loss tv
  rw [← Finset.sum_add_distrib, ← Finset.sum_sub_distrib]
  apply Finset.sum_nonneg
  intro c hc
  have hc := Finset.mem_range.1 hc
  rw [Finset.sum_add_distrib]
  have hA : 0 ≤ ∑ d ∈ Finset.range L, r d := Finset.sum_nonneg fun d hd => hr d (Finset.mem_range.1 hd)
  have hB : 0 ≤ ∑ d ∈ Finset.range L, s d := Finset.sum_nonneg fun d hd => hs d (Finset.mem_range.1 hd)
  by_cases h0 : r c + s c = 0
  · have h1 : r c = 0 := by have := hr c hc; have := hs c hc; linarith
    have h2 : s c = 0 := by linarith
    rw [if_pos h0, if_pos h1, if_pos h2]
    simp
  · have hp : 0 < r c + s c := lt_of_le_of_ne (add_nonneg (hr c hc) (hs c hc)) (Ne.symm h0)
    have hAB : 0 < ∑ d ∈ Finset.range L, r d + ∑ d ∈ Finset.range L, s d := by
      by_cases h1 : r c = 0
      · have h2 : s c ≠ 0 := fun e => h0 (by rw [h1, e, add_zero])
        exact add_pos_of_nonneg_of_pos hA (pos_sum hs hc h2)
      · exact add_pos_of_pos_of_nonneg (pos_sum hr hc h1) hB
    have hy := div_pos hp hAB
    have t1 := term_bound (hr c hc) hA (fun h => pos_sum hr hc h) hy
    have t2 := term_bound (hs c hc) hB (fun h => pos_sum hs hc h) hy
    rw [if_neg h0]
    have e : (r c + s c) / (∑ d ∈ Finset.range L, r d + ∑ d ∈ Finset.range L, s d) * ∑ d ∈ Finset.range L, r d + (r c + s c) / (∑ d ∈ Finset.range L, r d + ∑ d ∈ Finset.range L, s d) * ∑ d ∈ Finset.range L, s d = r c + s c := by
      rw [← mul_add, div_mul_cancel₀ _ hAB.ne']
    linarith

/-- **Merging clusters never increases the information** (for the real logarithm). -/
theorem info_merge_le {n L : Nat} {P : Nat → Nat → ℝ} (hP : ∀ v < n, ∀ c < L, 0 ≤ P v c) {f : Nat → Nat} {x y w : Nat} (hxy : x ≠ y) (hw : ∀ v < n, f v ≠ w) :
    info Real.log n L P (merge f x y w) ≤ info Real.log n L P f := by
  rw [info_merge real_isLog hP hxy hw]
  have := loss_nonneg (fun c hc => joint_nonneg hP f x hc) (fun c hc => joint_nonneg hP f y hc)
  linarith

theorem clustering_lt {n : Nat} (p : Nat → Nat) : ∀ t v, v < n → clustering n p t v < n + t := by
  intro t
  induction t with
  | zero => exact fun v hv => hv
  | succ t ih =>
    intro v hv
    have := ih v hv
    rw [clustering]
    split <;> omega

/-- **The information levels never increase** (for the real logarithm). -/
theorem costs_antitone {n L : Nat} {P : Nat → Nat → ℝ} (hP : ∀ v < n, ∀ c < L, 0 ≤ P v c) {parents : List Nat} {costs : List (Option ℝ)} {m : Nat} {p : Nat → Nat} {cost : Nat → Option ℝ}
    (h : Result Real.log n L P parents costs m p cost) {t : Nat} (ht : t < m) : ∃ a b, cost t = some a ∧ cost (t + 1) = some b ∧ b ≤ a := by
  refine ⟨_, _, h.info t (by omega), h.info (t + 1) (by omega), ?_⟩
  have hm := h.le
  obtain ⟨x, y, hxy, hy, hp⟩ := h.tree.two t ht
  have e : ∀ v < n, clustering n p (t + 1) v = merge (clustering n p t) x y (n + t) v := fun v hv => by
    have hlt := clustering_lt p t v hv
    unfold merge
    rw [clustering]
    have := hp (clustering n p t v) (by omega)
    by_cases hc : p (clustering n p t v) = n + t
    · rw [if_pos hc, if_pos (this.1 hc)]
    · rw [if_neg hc, if_neg (fun h => hc (this.2 h))]
  rw [info_congr Real.log e]
  exact info_merge_le hP (by omega) fun v hv e => by
    have := clustering_lt p t v hv
    omega

/-- The hypotheses are met, and the program runs, on a histogram with a null value; with a logarithm that is constantly zero all the merges cost the same and the first pairs are merged. -/
example : IsLog (fun _ : ℚ => 0) ∧ ((new (K := ℚ) [1, 0, 0, 0, 1, 1, 0, 3] 4 2 [9, 9, 9, 9] [9, 9] [7, 7, 7, 7] [none, none, none, none]).bind (process (fun _ => 0) 4 2)).map
    (fun s => (s.parents, s.costs)) = some ([4, 8, 4, 5, 5, 0, 8], [some 0, some 0, some 0, none]) := ⟨fun _ _ _ _ => by simp, by decide +kernel⟩

/-- The real logarithm is a logarithm. -/
example : IsLog Real.log ∧ Flat [(1 : ℝ), 0, 0, 3] 2 2 (fun v c => [(1 : ℝ), 0, 0, 3].getD (v * 2 + c) 0) := ⟨real_isLog, Flat.of_len (by simp) 0⟩

end Verif.Aib
