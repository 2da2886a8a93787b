import Verif.Hikm.MatlabModel
import Verif.Hikm.Props
import Verif.Ikm.ElkanProps

/-!
# Hierarchical integer k-means in MATLAB: properties (C167–C169)
-/

set_option linter.unusedSectionVars false

namespace Verif.Hikm

open Ikm

variable {m m' : Method} {M N K : Nat} {data : List UInt8} {ρ : Type}

/-! ## Training with the Elkan method -/

/-- **C31.** The seeding followed by the Elkan training satisfies the hypothesis of `train_push`. -/
theorem fitElkan_good (hM : M ≤ 8192) (maxIters : Nat) {perm : ρ → Nat → List Nat × ρ} {inv : ρ → Prop}
    (hperm : ∀ r n, inv r → (perm r n).1.Perm (List.range n) ∧ inv (perm r n).2) {memInt : Nat → List Int}
    (hi : ∀ n, (memInt n).length = n) {memNat : Nat → List Nat} (hn : ∀ n, (memNat n).length = n) :
    GoodFit .elkan M 8421504 inv (fitElkan M maxIters perm memInt memNat) := by
  intro data N K r hr hd hKN hN hpos
  rcases Nat.eq_zero_or_pos N with rfl | hN0
  · obtain rfl : K = 0 := by omega
    have hz : trainElkan data M 0 0 maxIters (memInt (0 * M)) (memInt (0 * 0)) (memNat 0) (memInt 0) (memNat 0) =
        some ⟨memInt (0 * M), memInt (0 * 0), memNat 0, true⟩ := by
      unfold trainElkan elkanLoop elkanPass updateBounds updateInterDist closest trainUpdate trainAccumulate trainDivide
      simp [iter]
    refine ⟨{ centers := memInt (0 * M), inter := memInt (0 * 0), K := 0 }, (perm r 0).2, ?_, (hperm r 0 hr).2, rfl, ?_⟩
    · unfold fitElkan initRandData
      simp only [iter, Option.bind_eq_bind, Option.bind_some, updateInterDist, hz]
    · exact ⟨by simp [hi], fun k hk => by simp at hk, by simp, fun k hk => by simp at hk⟩
  · obtain ⟨cs, sel, c1, c2, ⟨c3, c4, c5⟩, -⟩ := initRandData_correct (by omega) hd hN0 (hperm r N hr).1 (hi (K * M))
    have hcl : cs.length = K * M := by rw [c3, c2]
    have hcb : Bytes cs M K := fun k hk i hik => by
      rw [c5 k (by omega) i hik]; exact pt_byte _ _ _ _
    obtain ⟨inter, i1, i2, -⟩ := updateInterDist_spec hcl.ge (hi (K * K)) (fun j hj k hk =>
      byte_fits' (by omega) (fun i h => hcb j hj i h) (fun i h => hcb k hk i h))
    obtain ⟨t, n, a, b, t1, t2, -, -, t3, t4, -⟩ := trainElkan_correct hM hd hN (hpos hN0) hKN maxIters hcl hcb i2 (hn N) (hi K) (hn N)
    refine ⟨{ centers := t.centers, inter := t.inter, K := K }, (perm r N).2, ?_, (hperm r N hr).2, rfl, ?_, t3, by simp; omega, t4⟩
    · unfold fitElkan
      rw [c1]
      simp only [Option.bind_eq_bind, Option.bind_some]
      rw [i1]
      simp only [Option.bind_some]
      rw [t1]
      rfl
    · cases t2 with
      | first _ h _ => exact h.1
      | pass _ h _ => exact h.1

theorem fit_good (hM : M ≤ 8192) (maxIters : Nat) {perm : ρ → Nat → List Nat × ρ} {inv : ρ → Prop}
    (hperm : ∀ r n, inv r → (perm r n).1.Perm (List.range n) ∧ inv (perm r n).2) {memInt : Nat → List Int}
    (hi : ∀ n, (memInt n).length = n) {memNat : Nat → List Nat} (hn : ∀ n, (memNat n).length = n) :
    GoodFit m M 8421504 inv (fit m M maxIters perm memInt memNat) := by
  cases m with
  | lloyd => exact fitLloyd_good (by omega) maxIters hperm hi hn
  | elkan => exact fitElkan_good hM maxIters hperm hi hn

/-! ## Saving and loading -/

/-- The node with pointers to its children. -/
def erase : (h : Nat) → Node h → GNode
  | 0, f => .mk f none
  | h + 1, n => .mk n.1 (some (n.2.map (erase h)))

/-- The number of rows of the centres of the root. -/
def MNode.rows : MNode → Nat
  | .mk rows _ _ _ => rows

theorem initFilt_spec (hM : M ≤ 33025) {memInt : Nat → List Int} (hi : ∀ n, (memInt n).length = n) {f : Filt} (hf : GoodFilt m M f)
    (m' : Method) : ∃ f', initFilt m' memInt f.centers M f.K = some f' ∧ GoodFilt m' M f' ∧ f'.centers = f.centers ∧ f'.K = f.K := by
  have hl : M * f.K = f.centers.length := by rw [hf.len, Nat.mul_comm]
  have hc : copyN f.centers (M * f.K) = some f.centers := by
    unfold copyN
    rw [if_pos hl.le, hl, List.take_length]
  unfold initFilt
  rw [hc]
  simp only [Option.bind_eq_bind, Option.bind_some]
  cases m' with
  | lloyd => exact ⟨_, rfl, ⟨hf.len, hf.bytes, hf.count, trivial⟩, rfl, rfl⟩
  | elkan =>
    obtain ⟨inter, i1, -, i3⟩ := updateInterDist_spec hf.len.ge (hi (f.K * f.K)) (fun j hj k hk =>
      byte_fits' (by omega) (fun i h => hf.bytes j hj i h) (fun i h => hf.bytes k hk i h))
    simp only [i1, Option.bind_some]
    exact ⟨_, rfl, ⟨hf.len, hf.bytes, hf.count, i3⟩, rfl, rfl⟩

theorem loadList_append {memInt : Nat → List Int} {t : MNode} {b : GNode} (ht : load m memInt K M t = some (some b)) :
    ∀ (l : List MNode) (a : List GNode), loadList m memInt K M l = some (some a) →
      loadList m memInt K M (l ++ [t]) = some (some (a ++ [b])) := by
  intro l
  induction l with
  | nil =>
    intro a ha
    simp only [loadList, Option.some.injEq] at ha
    subst ha
    simp [loadList, ht]
  | cons c l ih =>
    intro a ha
    simp only [loadList] at ha
    split at ha
    · simp at ha
    · simp at ha
    · rename_i n hn
      split at ha
      · simp at ha
      · simp at ha
      · rename_i c' hc'
        simp only [Option.some.injEq] at ha
        subst ha
        simp only [List.cons_append, loadList, hn, ih c' hc']

theorem load_save (hM0 : 0 < M) (hM : M ≤ 33025) {memInt : Nat → List Int} (hi : ∀ n, (memInt n).length = n) (m' : Method) :
    ∀ (h : Nat) (n : Node h), GoodTree m M h n → AtMost K h n →
      ∃ t, save M h n = some t ∧ t.rows = M ∧ ∃ n' : Node h, GoodTree m' M h n' ∧
        (∀ x p, IsPath M x h n p → IsPath M x h n' p) ∧ (∀ x p, IsPath M x h n' p → IsPath M x h n p) ∧
        ∀ treeM, treeM = 0 ∨ treeM = M → load m' memInt K treeM t = some (some (erase h n')) := by
  have hcopy : ∀ {f : Filt}, GoodFilt m M f → copyN f.centers (M * f.K) = some f.centers := by
    intro f hf
    have hl : M * f.K = f.centers.length := by rw [hf.len, Nat.mul_comm]
    unfold copyN
    rw [if_pos hl.le, hl, List.take_length]
  intro h
  induction h with
  | zero =>
    intro f hf hK
    have hf' : GoodFilt m M f := hf
    obtain ⟨f', e1, e2, e3, e4⟩ := initFilt_spec hM hi hf' m'
    refine ⟨.mk M f.K f.centers none, ?_, rfl, f', e2, ?_, ?_, ?_⟩
    · unfold save
      rw [hcopy hf']
      rfl
    · rintro x p ⟨k, rfl, hk⟩
      exact ⟨k, rfl, by rw [e3, e4]; exact hk⟩
    · rintro x p ⟨k, rfl, hk⟩
      exact ⟨k, rfl, by rw [e3, e4] at hk; exact hk⟩
    · intro treeM ht
      have hK' : f.K ≤ K := hK
      unfold load
      rw [if_neg (by omega), if_neg (by omega), if_neg (by omega), e1]
      rfl
  | succ h ih =>
    intro n hn hK
    obtain ⟨hf, hlen, hch⟩ := hn
    obtain ⟨hK1, hK2⟩ := hK
    obtain ⟨f', e1, e2, e3, e4⟩ := initFilt_spec hM hi hf m'
    obtain ⟨s, s1, ns, s2, s3, s4, s5, s6⟩ := iter_inv (n := n.1.K) (f := fun k (s : List MNode) => do
        let child ← rd n.2 k
        let t ← save M h child
        some (s ++ [t])) (s := [])
      (fun q (s : List MNode) => ∃ ns : List (Node h), s.length = q ∧ ns.length = q ∧ (∀ c ∈ ns, GoodTree m' M h c) ∧
        loadList m' memInt K M s = some (some (ns.map (erase h))) ∧
        ∀ k < q, ∀ c c', n.2[k]? = some c → ns[k]? = some c' → ∀ x p, IsPath M x h c p ↔ IsPath M x h c' p)
      ⟨[], rfl, rfl, by simp, by simp [loadList], by simp⟩ (by
      intro k hk s ⟨ns, q1, q2, q3, q4, q5⟩
      have hk' : k < n.2.length := by omega
      obtain ⟨t, t1, t2, n', t3, t4, t5, t6⟩ := ih n.2[k] (hch _ (List.getElem_mem hk')) (hK2 _ (List.getElem_mem hk'))
      rw [rd_of_lt hk']
      simp only [Option.bind_eq_bind, Option.bind_some]
      rw [t1]
      refine ⟨_, rfl, ns ++ [n'], by simp [q1], by simp [q2], ?_, ?_, ?_⟩
      · intro c hc
        rcases List.mem_append.mp hc with h' | h'
        · exact q3 c h'
        · simp at h'; rw [h']; exact t3
      · rw [List.map_append]
        exact loadList_append (t6 M (Or.inr rfl)) s _ q4
      · intro k' hk'' c c' h1 h2 x p
        rcases Nat.lt_or_ge k' k with h' | h'
        · rw [List.getElem?_append_left (by omega)] at h2
          exact q5 k' h' c c' h1 h2 x p
        · obtain rfl : k' = k := by omega
          rw [List.getElem?_append_right (by omega)] at h2
          simp [q2] at h2
          rw [List.getElem?_eq_getElem hk'] at h1
          simp at h1
          subst h1 h2
          exact ⟨t4 x p, t5 x p⟩)
    refine ⟨.mk M n.1.K n.1.centers (some s), ?_, rfl, (f', ns), ⟨e2, by rw [s3, e4], s4⟩, ?_, ?_, ?_⟩
    · unfold save
      rw [hcopy hf]
      simp only [Option.bind_eq_bind, Option.bind_some] at s1 ⊢
      rw [s1]
      rfl
    · rintro x p ⟨k, q, c, rfl, hk, hc, hq⟩
      have hkK : k < n.1.K := hk.1
      have hkn : k < ns.length := by omega
      refine ⟨k, q, ns[k], rfl, by rw [e3, e4]; exact hk, List.getElem?_eq_getElem hkn, ?_⟩
      exact (s6 k hkK c _ hc (List.getElem?_eq_getElem hkn) x q).mp hq
    · rintro x p ⟨k, q, c, rfl, hk, hc, hq⟩
      rw [e3, e4] at hk
      have hkK : k < n.1.K := hk.1
      have hkn : k < n.2.length := by omega
      refine ⟨k, q, n.2[k], rfl, hk, List.getElem?_eq_getElem hkn, ?_⟩
      exact (s6 k hkK _ c (List.getElem?_eq_getElem hkn) hc x q).mpr hq
    · intro treeM ht
      unfold load
      rw [if_neg (by omega), if_neg (by omega), if_neg (by omega), e1]
      simp only
      rw [if_neg (by omega), s5]
      rfl

theorem descendTo_eq {depth i d : Nat} {asgn : List Nat} :
    ∀ (l : List GNode) (k : Nat), descendTo m M depth data i k l d asgn =
      (rd l k).bind fun n => descend m M depth data i n d asgn := by
  intro l
  induction l with
  | nil => intro k; cases k <;> simp [descendTo, rd_getElem?]
  | cons n l ih =>
    intro k
    cases k with
    | zero => simp [descendTo, rd_getElem?]
    | succ k => rw [descendTo, ih]; simp [rd_getElem?]

theorem descend_erase {depth i : Nat} : ∀ (h : Nat) (n : Node h) (d : Nat) (asgn : List Nat),
    descend m M depth data i (erase h n) d asgn = pushNode m M depth data i h n d asgn := by
  intro h
  induction h with
  | zero =>
    intro f d asgn
    unfold erase descend pushNode
    simp only [Option.bind_eq_bind]
    cases pushFilt m f [0] (data.drop (i * M)) M 1 with
    | none => rfl
    | some b =>
      simp only [Option.bind_some]
      cases rd b 0 with
      | none => rfl
      | some best =>
        simp only [Option.bind_some]
        cases wr asgn (i * depth + d) best <;> rfl
  | succ h ih =>
    intro n d asgn
    unfold erase descend pushNode
    simp only [Option.bind_eq_bind]
    cases pushFilt m n.1 [0] (data.drop (i * M)) M 1 with
    | none => rfl
    | some b =>
      simp only [Option.bind_some]
      cases rd b 0 with
      | none => rfl
      | some best =>
        simp only [Option.bind_some]
        cases wr asgn (i * depth + d) best with
        | none => rfl
        | some asgn =>
          simp only [Option.bind_some]
          rw [descendTo_eq, rd_getElem?, rd_getElem?, List.getElem?_map]
          cases n.2[best]? with
          | none => rfl
          | some c => simp [ih]

/-! ## Projection -/

theorem incr_loop {n : Nat} {l : List Nat} (hl : l.length = n) :
    iter n (fun j ids => do
      let v ← rd ids j
      wr ids j ((v + 1) % 4294967296)) l = some (l.map fun v => (v + 1) % 4294967296) := by
  obtain ⟨s, s1, s2, s3, s4⟩ := iter_inv (n := n) (f := fun j ids => do
      let v ← rd ids j
      wr ids j ((v + 1) % 4294967296)) (s := l)
    (fun q (s : List Nat) => s.length = n ∧ (∀ j < q, s[j]? = (l[j]?).map fun v => (v + 1) % 4294967296) ∧ ∀ j, q ≤ j → s[j]? = l[j]?)
    ⟨hl, by simp, fun _ _ => rfl⟩ (by
    intro j hj s ⟨q1, q2, q3⟩
    have hjs : j < s.length := by omega
    rw [rd_of_lt hjs]
    simp only [Option.bind_eq_bind, Option.bind_some]
    rw [wr_of_lt hjs]
    refine ⟨_, rfl, by simpa using q1, fun j' hj' => ?_, fun j' hj' => ?_⟩
    · by_cases e : j' = j
      · subst e
        have := q3 j' le_rfl
        rw [List.getElem?_set_self hjs, ← this, List.getElem?_eq_getElem hjs]
        rfl
      · rw [List.getElem?_set_ne (by omega), q2 j' (by omega)]
    · rw [List.getElem?_set_ne (by omega), q3 j' (by omega)])
  rw [s1]
  congr 1
  apply List.ext_getElem?
  intro j
  rw [List.getElem?_map]
  rcases Nat.lt_or_ge j n with h | h
  · exact s3 j h
  · rw [List.getElem?_eq_none (by omega), List.getElem?_eq_none (by omega)]
    rfl

theorem path_bound {h : Nat} {n : Node h} (hK : AtMost K h n) {x : Nat → Int} {p : List Nat} (hp : IsPath M x h n p) :
    ∀ k ∈ p, k < K := by
  induction h generalizing p with
  | zero =>
    obtain ⟨k, rfl, hk⟩ := hp
    intro k' hk'
    simp at hk'
    subst hk'
    exact lt_of_lt_of_le hk.1 hK
  | succ h ih =>
    obtain ⟨k, q, c, rfl, hk, hc, hq⟩ := hp
    intro k' hk'
    rcases List.mem_cons.mp hk' with rfl | h'
    · exact lt_of_lt_of_le hk.1 hK.1
    · exact ih (hK.2 c (List.mem_of_getElem? hc)) hq k' h'

/-- The column of each datum is its path, counted from one. -/
def ColumnsArePaths (data : List UInt8) (M N h : Nat) (root : Node h) (ids : List Nat) : Prop :=
  ids.length = N * (h + 1) ∧ ∀ i < N, ∃ p, IsPath M (pt data M i) h root p ∧ p.length = h + 1 ∧
    ∀ d < h + 1, ids[i * (h + 1) + d]? = (p[d]?).map (· + 1)

theorem columns {h : Nat} {root : Node h} (hKr : AtMost K h root) (hK : K < 4294967296) {asgn : List Nat} (hl : asgn.length = N * (h + 1))
    (ha : ∀ i < N, ∃ p, IsPath M (pt data M i) h root p ∧ p.length = h + 1 ∧ ∀ d < h + 1, asgn[i * (h + 1) + d]? = p[d]?) :
    ColumnsArePaths data M N h root (asgn.map fun v => (v + 1) % 4294967296) := by
  refine ⟨by simpa using hl, fun i hi => ?_⟩
  obtain ⟨p, p1, p2, p3⟩ := ha i hi
  refine ⟨p, p1, p2, fun d hd => ?_⟩
  rw [List.getElem?_map, p3 d hd, List.getElem?_eq_getElem (by omega)]
  have := path_bound hKr p1 _ (List.getElem_mem (show d < p.length by omega))
  simp only [Option.map_some]
  rw [Nat.mod_eq_of_lt (by omega)]

theorem columns_unique {h : Nat} {root : Node h} {a b : List Nat} (ha : ColumnsArePaths data M N h root a)
    (hb : ColumnsArePaths data M N h root b) : a = b := by
  have hu : ∀ (h : Nat) (n : Node h) (x : Nat → Int) (p q : List Nat), IsPath M x h n p → IsPath M x h n q → p = q := by
    intro h
    induction h with
    | zero =>
      rintro n x p q ⟨k, rfl, hk⟩ ⟨k', rfl, hk'⟩
      rw [firstNearest_unique hk hk']
    | succ h ih =>
      rintro n x p q ⟨k, p', c, rfl, hk, hc, hp⟩ ⟨k', q', c', rfl, hk', hc', hq⟩
      obtain rfl := firstNearest_unique hk hk'
      rw [hc] at hc'
      simp at hc'
      subst hc'
      rw [ih c x p' q' hp hq]
  apply List.ext_getElem?
  intro j
  rcases Nat.lt_or_ge j (N * (h + 1)) with hj | hj
  · have hi : j / (h + 1) < N := Nat.div_lt_of_lt_mul (by rw [Nat.mul_comm]; exact hj)
    have hd : j % (h + 1) < h + 1 := Nat.mod_lt _ (by omega)
    obtain ⟨p, p1, -, p3⟩ := ha.2 _ hi
    obtain ⟨q, q1, -, q3⟩ := hb.2 _ hi
    have := hu _ _ _ _ _ p1 q1
    subst this
    have e : j / (h + 1) * (h + 1) + j % (h + 1) = j := Nat.div_add_mod' _ _
    rw [← e, p3 _ hd, q3 _ hd]
  · rw [List.getElem?_eq_none (by rw [ha.1]; omega), List.getElem?_eq_none (by rw [hb.1]; omega)]

/-- **C167.** A tree that is saved as a MATLAB structure and given to `vl_hikmeanspush`, with either method, classifies each datum
that has a path in the tree by this path, whatever the memory contained. -/
theorem hikmeanspush_correct (hM0 : 0 < M) (hM : M ≤ 33025) {h : Nat} {root : Node h} (hg : GoodTree m M h root)
    (hKr : AtMost K h root) (hK0 : 0 < K) (hK : K < 4294967296) (hd : data.length = N * M)
    (hp : ∀ i < N, ∃ p, IsPath M (pt data M i) h root p) (m' : Method) {memInt : Nat → List Int} (hi : ∀ n, (memInt n).length = n) :
    ∃ t ids, save M h root = some t ∧ hikmeanspush m' memInt K (h + 1) t data N = some (some ids) ∧
      ColumnsArePaths data M N h root ids := by
  obtain ⟨t, t1, t2, n', t3, t4, t5, t6⟩ := load_save hM0 hM hi m' h root hg hKr
  obtain ⟨a, a1, a2, a3⟩ := push_partial (N := N) hM t3 hd (asgn := List.replicate ((h + 1) * N) 0) (by simp [Nat.mul_comm])
    (fun i hi' => (hp i hi').imp fun p => t4 _ p)
  refine ⟨t, _, t1, ?_, columns hKr hK a2 (fun i hi' => ?_)⟩
  · unfold hikmeanspush
    rw [if_neg (by omega), if_neg (by omega), t6 0 (Or.inl rfl)]
    cases t with
    | mk rows cols centers sub =>
      simp only
      have hr : rows = M := t2
      subst hr
      unfold push at a1
      rw [show (fun i ids => descend m' rows (h + 1) data i (erase h n') 0 ids) = fun i asgn => pushNode m' rows (h + 1) data i h n' 0 asgn from
        funext fun i => funext fun ids => descend_erase h n' 0 ids]
      rw [a1]
      simp only [Option.bind_eq_bind, Option.bind_some]
      have := incr_loop a2
      simp only [Option.bind_eq_bind] at this
      rw [this]
      rfl
  · obtain ⟨p, p1, p2, p3⟩ := a3 i hi'
    exact ⟨p, t5 _ p p1, p2, p3⟩

/-- **C167.** `vl_hikmeans` succeeds on data of which there are at least as many as clusters; each column of the assignments is the path
of a datum, with entries between one and `K`, and `vl_hikmeanspush`, with either method, gives the same assignments for the tree that was
returned. -/
theorem hikmeans_push (hM0 : 0 < M) (hM : M ≤ 8192) (hK0 : 0 < K) (hKN : K ≤ N) (hN : N ≤ 8421504) (h : Nat) (hd : data.length = N * M)
    {perm : ρ → Nat → List Nat × ρ} {inv : ρ → Prop} (hperm : ∀ r n, inv r → (perm r n).1.Perm (List.range n) ∧ inv (perm r n).2)
    {r : ρ} (hr : inv r) {mem : Nat → List UInt8} (hmem : ∀ n, (mem n).length = n) {memInt memInt' : Nat → List Int}
    (hi : ∀ n, (memInt n).length = n) (hi' : ∀ n, (memInt' n).length = n) {memNat : Nat → List Nat} (hn : ∀ n, (memNat n).length = n)
    (maxNiters : Nat) (hit : 0 < maxNiters) (m' : Method) :
    ∃ s r', ∃ root : Node h, hikmeans m perm mem memInt memNat M K h maxNiters data N r = some (some (s, r')) ∧
      save M h root = some s.tree ∧ GoodTree m M h root ∧ AtMost K h root ∧ ColumnsArePaths data M N h root s.asgn ∧
      (∀ v ∈ s.asgn, 1 ≤ v ∧ v ≤ K) ∧ hikmeanspush m' memInt' s.K s.depth s.tree data N = some (some s.asgn) := by
  have hfit := fit_good (m := m) hM 200 hperm hi hn
  have hfit' : GoodFit m M N inv (fit m M 200 perm memInt memNat) := fun data N' K r hr h1 h2 h3 => hfit data N' K r hr h1 h2 (by omega)
  obtain ⟨root, r', asgn, t1, t2, t3, t4, t5, t6⟩ := train_push (by omega) hmem hn hfit' hK0 h hd hr
    (asgn := List.replicate ((h + 1) * N) 0) (by simp [Nat.mul_comm])
  obtain ⟨t, ids, p1, p2, p3⟩ := hikmeanspush_correct hM0 (by omega) t2 t3 hK0 (by omega) hd
    (fun i hi => (t6 i hi).imp fun _ h => h.1) m' hi'
  have hc := columns t3 (by omega) t5 t6
  have he := columns_unique p3 hc
  refine ⟨⟨K, h + 1, t, ids⟩, r', root, ?_, p1, t2, t3, p3, ?_, p2⟩
  · unfold hikmeans
    rw [if_neg (by omega), if_neg (by omega), if_neg (by omega), t1]
    simp only [Option.bind_eq_bind, Option.bind_some]
    rw [p1]
    simp only [Option.bind_some]
    rw [t4]
    simp only [Option.bind_some]
    have := incr_loop t5
    simp only [Option.bind_eq_bind] at this
    rw [this, he]
    rfl
  · intro v hv
    obtain ⟨j, hj, rfl⟩ := List.getElem_of_mem hv
    have hj' : j < N * (h + 1) := by rw [← p3.1]; exact hj
    have hi : j / (h + 1) < N := Nat.div_lt_of_lt_mul (by rw [Nat.mul_comm]; exact hj')
    have hdd : j % (h + 1) < h + 1 := Nat.mod_lt _ (by omega)
    obtain ⟨p, q1, q2, q3⟩ := p3.2 _ hi
    have := q3 _ hdd
    rw [Nat.div_add_mod', List.getElem?_eq_getElem hj, List.getElem?_eq_getElem (by omega)] at this
    simp only [Option.map_some, Option.some.injEq] at this
    have hb := path_bound t3 q1 _ (List.getElem_mem (show j % (h + 1) < p.length by omega))
    rw [this]
    omega

/-! ## Instances -/

/-- Data in two groups of two. -/
def fourData : List UInt8 := [0, 1, 10, 11]

example : ∃ s, hikmeans .elkan idPerm (zeros 0) (zeros 3) (zeros 9) 1 2 1 5 fourData 4 () = some (some (s, ())) ∧
    s.asgn = [1, 1, 1, 2, 2, 1, 2, 2] := by
  obtain ⟨s, r', root, h1, -⟩ := hikmeans_push (m := .elkan) (M := 1) (N := 4) (K := 2) (data := fourData) (by decide) (by decide) (by decide)
    (by decide) (by decide) 1 rfl (perm := idPerm) (inv := fun _ => True) (fun _ _ _ => ⟨.refl _, trivial⟩) (r := ()) trivial
    (mem := zeros 0) (by simp [zeros]) (memInt := zeros 3) (memInt' := zeros 8) (by simp [zeros]) (by simp [zeros]) (memNat := zeros 9)
    (by simp [zeros]) 5 (by decide) .lloyd
  refine ⟨s, h1, ?_⟩
  have h : (hikmeans .elkan idPerm (zeros 0) (zeros 3) (zeros 9) 1 2 1 5 fourData 4 ()).map (fun o => o.map fun s => s.1.asgn) =
      some (some [1, 1, 1, 2, 2, 1, 2, 2]) := by decide +kernel
  rw [h1] at h
  simpa using h

/-! ## Arguments that are not checked -/

/-- The property for all arguments: `vl_hikmeanspush` reports an error or writes within the result and reads within the data, a matrix of
`R` rows and `N` columns. -/
def PushArgsClaim : Prop :=
  ∀ (m : Method) (memInt : Nat → List Int) (K depth : Nat) (tree : MNode) (data : List UInt8) (R N : Nat), (∀ n, (memInt n).length = n) →
    data.length = R * N → hikmeanspush m memInt K depth tree data N ≠ none

/-- **C168.** Data of fewer rows than the centres are read beyond their end. -/
theorem pushArgs_claim_false : ¬ PushArgsClaim := by
  intro h
  exact h .lloyd (zeros 0) 2 1 (.mk 2 1 [0, 0] none) [7] 1 1 (by simp [zeros]) rfl (by decide +kernel)

/-- The property for data of the right size: `vl_hikmeanspush` reports an error or writes within the result. -/
def PushDepthClaim : Prop :=
  ∀ (m : Method) (memInt : Nat → List Int) (K depth : Nat) (tree : MNode) (data : List UInt8) (N : Nat), (∀ n, (memInt n).length = n) →
    data.length = tree.rows * N → hikmeanspush m memInt K depth tree data N ≠ none

/-- **C168.** A tree with more levels than its field `depth` says makes it write beyond the end of the result. -/
theorem pushDepth_claim_false : ¬ PushDepthClaim := by
  intro h
  exact h .lloyd (zeros 0) 2 1 (.mk 1 1 [0] (some [.mk 1 1 [0] none])) [7] 1 (by simp [zeros]) rfl (by decide +kernel)

/-- The property of the option `MaxIters`: `vl_hikmeans` gives the tree that training with so many iterations gives. -/
def MaxItersClaim : Prop :=
  ∀ (M K N maxNiters : Nat) (data : List UInt8) (s : Saved) (t : Node 0 × Unit), data.length = N * M →
    hikmeans .lloyd idPerm (zeros 0) (zeros 0) (zeros 9) M K 0 maxNiters data N () = some (some (s, ())) →
    train .lloyd (fit .lloyd M maxNiters idPerm (zeros 0) (zeros 9)) (zeros 0) (zeros 9) M K 0 data N () = some t →
    save M 0 t.1 = some s.tree

/-- **C169.** With the data 0, 1, 10 and 11, of which the first two are the seeds, more than one iteration is done when one is asked
for. -/
theorem maxIters_claim_false : ¬ MaxItersClaim := by
  intro h
  obtain ⟨s, r', root, h1, -⟩ := hikmeans_push (m := .lloyd) (M := 1) (N := 4) (K := 2) (data := fourData) (by decide) (by decide) (by decide)
    (by decide) (by decide) 0 rfl (perm := idPerm) (inv := fun _ => True) (fun _ _ _ => ⟨.refl _, trivial⟩) (r := ()) trivial
    (mem := zeros 0) (by simp [zeros]) (memInt := zeros 0) (memInt' := zeros 8) (by simp [zeros]) (by simp [zeros]) (memNat := zeros 9)
    (by simp [zeros]) 1 (by decide) .lloyd
  have e1 : ((hikmeans .lloyd idPerm (zeros 0) (zeros 0) (zeros 9) 1 2 0 1 fourData 4 ()).bind fun o => o.bind fun s =>
      match s.1.tree with | .mk _ _ c _ => some c) = some [0, 10] := by decide +kernel
  have e2 : ((train .lloyd (fit .lloyd 1 1 idPerm (zeros 0) (zeros 9)) (zeros 0) (zeros 9) 1 2 0 fourData 4 ()).bind fun t =>
      (save 1 0 t.1).bind fun t => match t with | .mk _ _ c _ => some c) = some [0, 7] := by decide +kernel
  cases ht : train .lloyd (fit .lloyd 1 1 idPerm (zeros 0) (zeros 9)) (zeros 0) (zeros 9) 1 2 0 fourData 4 () with
  | none => rw [ht] at e2; exact absurd e2 (by simp)
  | some t =>
    have e3 := h 1 2 4 1 fourData s t rfl h1 ht
    rw [ht, Option.bind_some, e3, Option.bind_some] at e2
    rw [h1, Option.bind_some, Option.bind_some] at e1
    rw [e1] at e2
    simp at e2

end Verif.Hikm
