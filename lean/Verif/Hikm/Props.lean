import Verif.Hikm.Model
import Verif.Ikm.TrainProps

/-!
# Hierarchical integer k-means: properties (C31)
-/

set_option linter.unusedSectionVars false

namespace Verif.Hikm

open Ikm

/-! ## Specification -/

/-- `p` is the path of the vector `x` down the tree: at each level the first nearest of the centres of the node, which is the
child to descend to. -/
def IsPath (M : Nat) (x : Nat → Int) : (h : Nat) → Node h → List Nat → Prop
  | 0, f, p => ∃ k, p = [k] ∧ FirstNearest f.K (fun k => sq M x (ctr f.centers M k)) k
  | h + 1, n, p => ∃ k q c, p = k :: q ∧ FirstNearest n.1.K (fun k => sq M x (ctr n.1.centers M k)) k ∧
      n.2[k]? = some c ∧ IsPath M x h c q

/-- A filter with byte centres; for the Elkan method with the table of their distances. -/
structure GoodFilt (m : Method) (M : Nat) (f : Filt) : Prop where
  len : f.centers.length = f.K * M
  bytes : Bytes f.centers M f.K
  count : f.K ≤ 4294967296
  table : match m with
    | .lloyd => True
    | .elkan => InterOk f.centers M f.K f.inter

/-- Every node has a good filter and one child for each centre. -/
def GoodTree (m : Method) (M : Nat) : (h : Nat) → Node h → Prop
  | 0, f => GoodFilt m M f
  | h + 1, n => GoodFilt m M n.1 ∧ n.2.length = n.1.K ∧ ∀ c ∈ n.2, GoodTree m M h c

/-- Every node has centres. -/
def NonEmpty : (h : Nat) → Node h → Prop
  | 0, f => 0 < f.K
  | h + 1, n => 0 < n.1.K ∧ ∀ c ∈ n.2, NonEmpty h c

/-- No node has more than `K` centres. -/
def AtMost (K : Nat) : (h : Nat) → Node h → Prop
  | 0, f => f.K ≤ K
  | h + 1, n => n.1.K ≤ K ∧ ∀ c ∈ n.2, AtMost K h c

/-! ## Projection -/

variable {m : Method} {M N K : Nat} {data : List UInt8}

theorem pushFilt_spec (hM : M ≤ 33025) {f : Filt} (hf : GoodFilt m M f) (hK : N = 0 ∨ 0 < f.K) (hd : N * M ≤ data.length)
    {asgn : List Nat} (ha : asgn.length = N) :
    ∃ a, pushFilt m f asgn data M N = some a ∧ a.length = N ∧
      ∀ j < N, ∃ k, a[j]? = some k ∧ FirstNearest f.K (fun k => sq M (pt data M j) (ctr f.centers M k)) k := by
  rcases Nat.eq_zero_or_pos N with rfl | hN
  · refine ⟨asgn, ?_, ha, by simp⟩
    cases m <;> rfl
  have hK : 0 < f.K := by omega
  have hfit : ∀ j < N, ∀ k < f.K, sq M (pt data M j) (ctr f.centers M k) ≤ accMax := fun j _ k hk =>
    byte_fits' hM (fun i _ => pt_byte _ _ _ _) (hf.bytes k hk)
  cases m with
  | lloyd =>
    obtain ⟨a, h1, h2, h3, -⟩ := pushLloyd_nearest (asgn := asgn) hf.len.ge hd hK hf.count hfit (by omega)
    exact ⟨a, h1, by omega, h3⟩
  | elkan =>
    obtain ⟨a, h1, h2, h3, -⟩ := asgn_loop (asgn := asgn) (N := N)
      (f := fun x => do
        let s ← iter f.K (elkanStep f.centers f.inter data M f.K (x * M)) (0, accMax)
        some (s.1 % 4294967296))
      (P := fun j k => FirstNearest f.K (fun k => sq M (pt data M j) (ctr f.centers M k)) k) (by omega) (by
      intro j hj
      obtain ⟨s, s1, s2⟩ := elkan_scan hf.len.ge hd hK hf.table hj (hfit j hj)
      refine ⟨s.1, ?_, s2⟩
      rw [s1]
      simp only [Option.bind_eq_bind, Option.bind_some]
      have := s2.1
      have := hf.count
      rw [Nat.mod_eq_of_lt (by omega)])
    refine ⟨a, ?_, by omega, h3⟩
    unfold pushFilt pushElkan
    simpa [Option.bind_assoc] using h1

theorem pt_drop (i j : Nat) : pt (data.drop (i * M)) M 0 j = pt data M i j := by
  unfold pt
  rw [List.getD_eq_getElem?_getD, List.getElem?_drop, List.getD_eq_getElem?_getD]
  simp

theorem sq_congr {u u' v : Nat → Int} (h : ∀ i, u i = u' i) : sq M u v = sq M u' v := by
  rw [show u = u' from funext h]

theorem path_filter {h : Nat} {n : Node h} {x : Nat → Int} {p : List Nat} (hp : IsPath M x h n p) : 0 < (Node.filter h n).K := by
  cases h with
  | zero => obtain ⟨k, -, hk⟩ := hp; exact Nat.lt_of_le_of_lt (Nat.zero_le _) hk.1
  | succ h => obtain ⟨k, q, c, -, hk, -⟩ := hp; exact Nat.lt_of_le_of_lt (Nat.zero_le _) hk.1

theorem path_length {h : Nat} {n : Node h} {x : Nat → Int} {p : List Nat} (hp : IsPath M x h n p) : p.length = h + 1 := by
  induction h generalizing p with
  | zero => obtain ⟨k, rfl, -⟩ := hp; rfl
  | succ h ih => obtain ⟨k, q, c, rfl, -, -, hq⟩ := hp; simp [ih hq]

theorem pushOne_filt (hM : M ≤ 33025) {f : Filt} (hf : GoodFilt m M f) (hd : data.length = N * M) {i : Nat} (hi : i < N)
    {k : Nat} (hk : FirstNearest f.K (fun k => sq M (pt data M i) (ctr f.centers M k)) k) :
    (pushFilt m f [0] (data.drop (i * M)) M 1).bind (fun b => rd b 0) = some k := by
  obtain ⟨a, h1, h2, h3⟩ := pushFilt_spec (m := m) (data := data.drop (i * M)) (N := 1) (asgn := [0]) hM hf
    (Or.inr (Nat.lt_of_le_of_lt (Nat.zero_le _) hk.1)) (by
      rw [List.length_drop, hd]
      have := Nat.mul_le_mul_right M hi
      rw [Nat.succ_mul] at this
      omega) rfl
  obtain ⟨k', e1, e2⟩ := h3 0 (by omega)
  rw [h1, Option.bind_some, rd_getElem?, e1]
  congr 1
  apply firstNearest_unique _ hk
  rwa [show (fun k => sq M (pt (data.drop (i * M)) M 0) (ctr f.centers M k)) =
    fun k => sq M (pt data M i) (ctr f.centers M k) from funext fun k => sq_congr fun j => pt_drop i j] at e2

theorem pushNode_spec (hM : M ≤ 33025) (hd : data.length = N * M) {i : Nat} (hi : i < N) (depth : Nat) :
    ∀ (h : Nat) (n : Node h) (d : Nat) (asgn : List Nat) (p : List Nat), GoodTree m M h n → IsPath M (pt data M i) h n p →
      i * depth + d + h < asgn.length →
      ∃ asgn', pushNode m M depth data i h n d asgn = some asgn' ∧ asgn'.length = asgn.length ∧
        (∀ q < h + 1, asgn'[i * depth + d + q]? = p[q]?) ∧
        ∀ q, (q < i * depth + d ∨ i * depth + d + h < q) → asgn'[q]? = asgn[q]? := by
  intro h
  induction h with
  | zero =>
    intro n d asgn p hg hp hl
    obtain ⟨k, rfl, hk⟩ := hp
    have h1 := pushOne_filt hM hg hd hi hk
    refine ⟨asgn.set (i * depth + d) k, ?_, by simp, fun q hq => ?_, fun q hq => ?_⟩
    · unfold pushNode
      simp only [Option.bind_eq_bind]
      rw [← Option.bind_assoc]
      erw [h1]
      rw [Option.bind_some, wr_of_lt (by omega)]
    · obtain rfl : q = 0 := by omega
      rw [Nat.add_zero, List.getElem?_set_self (by omega)]
      rfl
    · rw [List.getElem?_set_ne (by omega)]
  | succ h ih =>
    intro n d asgn p hg hp hl
    obtain ⟨k, q, c, rfl, hk, hc, hq⟩ := hp
    have h1 := pushOne_filt hM hg.1 hd hi hk
    have hcm : c ∈ n.2 := List.mem_of_getElem? hc
    obtain ⟨a', e1, e2, e3, e4⟩ := ih c (d + 1) (asgn.set (i * depth + d) k) q (hg.2.2 c hcm) hq (by simp; omega)
    refine ⟨a', ?_, by simpa using e2, fun r hr => ?_, fun r hr => ?_⟩
    · unfold pushNode
      simp only [Option.bind_eq_bind]
      rw [← Option.bind_assoc, h1, Option.bind_some, wr_of_lt (by omega), Option.bind_some, rd_getElem?, hc]
      exact e1
    · cases r with
      | zero =>
        rw [e4 _ (by omega), Nat.add_zero, List.getElem?_set_self (by omega)]
        rfl
      | succ r =>
        have := e3 r (by omega)
        rw [show i * depth + d + (r + 1) = i * depth + (d + 1) + r by omega, this]
        simp
    · rw [e4 r (by omega), List.getElem?_set_ne (by omega)]

/-- **C31, partial.** For every tree and data set, projecting data that have a path in the tree writes, for each of them, the
entries of that path and nothing else.  Missing: a datum without path, one that reaches a node without centres; see
`push_claim_false`. -/
theorem push_partial (hM : M ≤ 33025) {h : Nat} {root : Node h} (hg : GoodTree m M h root) (hd : data.length = N * M)
    {asgn : List Nat} (ha : asgn.length = N * (h + 1)) (hp : ∀ i < N, ∃ p, IsPath M (pt data M i) h root p) :
    ∃ asgn', push m M h root asgn data N = some asgn' ∧ asgn'.length = N * (h + 1) ∧
      ∀ i < N, ∃ p, IsPath M (pt data M i) h root p ∧ p.length = h + 1 ∧ ∀ d < h + 1, asgn'[i * (h + 1) + d]? = p[d]? := by
  obtain ⟨s, h1, h2, h3⟩ := iter_inv (n := N) (f := fun i asgn => pushNode m M (h + 1) data i h root 0 asgn) (s := asgn)
    (fun n (a : List Nat) => a.length = N * (h + 1) ∧ ∀ i < n, ∃ p, IsPath M (pt data M i) h root p ∧
      ∀ d < h + 1, a[i * (h + 1) + d]? = p[d]?) ⟨ha, by simp⟩ (by
    intro i hi s ⟨q1, q2⟩
    obtain ⟨p, hp⟩ := hp i hi
    have hb : i * (h + 1) + h < N * (h + 1) := mul_add_lt hi (by omega)
    obtain ⟨a', e1, e2, e3, e4⟩ := pushNode_spec hM hd hi (h + 1) h root 0 s p hg hp (by rw [q1]; simpa using hb)
    refine ⟨a', e1, by omega, fun i' hi' => ?_⟩
    rcases Nat.lt_or_ge i' i with hlt | hge
    · obtain ⟨p', hp', hq'⟩ := q2 i' hlt
      refine ⟨p', hp', fun d hd' => ?_⟩
      have := mul_add_lt hlt hd'
      rw [e4 _ (by omega), hq' d hd']
    · obtain rfl : i' = i := by omega
      exact ⟨p, hp, fun d hd' => by have := e3 d hd'; simpa using this⟩)
  exact ⟨s, h1, h2, fun i hi => by
    obtain ⟨p, hp, hq⟩ := h3 i hi
    exact ⟨p, hp, path_length hp, hq⟩⟩

theorem firstNearest_exists (d : Nat → Int) (hK : 0 < K) : ∃ k, FirstNearest K d k := by
  obtain ⟨n, rfl⟩ : ∃ n, K = n + 1 := ⟨K - 1, by omega⟩
  clear hK
  induction n with
  | zero => exact ⟨0, by omega, fun k' hk' => by rw [show k' = 0 by omega], fun k' hk' => by omega⟩
  | succ n ih =>
    obtain ⟨k, h1, h2, h3⟩ := ih
    by_cases hlt : d (n + 1) < d k
    · refine ⟨n + 1, by omega, fun k' hk' => ?_, fun k' hk' => lt_of_lt_of_le hlt (h2 k' (by omega))⟩
      rcases Nat.lt_or_ge k' (n + 1) with h | h
      · exact hlt.le.trans (h2 k' h)
      · rw [show k' = n + 1 by omega]
    · refine ⟨k, by omega, fun k' hk' => ?_, h3⟩
      rcases Nat.lt_or_ge k' (n + 1) with h | h
      · exact h2 k' h
      · rw [show k' = n + 1 by omega]; exact not_lt.mp hlt

/-- **C31.** In a tree whose nodes all have centres every vector has a path. -/
theorem path_exists {h : Nat} {n : Node h} (hg : GoodTree m M h n) (hn : NonEmpty h n) (x : Nat → Int) :
    ∃ p, IsPath M x h n p := by
  induction h with
  | zero =>
    obtain ⟨k, hk⟩ := firstNearest_exists (fun k => sq M x (ctr n.centers M k)) (show 0 < n.K from hn)
    exact ⟨[k], k, rfl, hk⟩
  | succ h ih =>
    obtain ⟨k, hk⟩ := firstNearest_exists (fun k => sq M x (ctr n.1.centers M k)) hn.1
    have hlt : k < n.2.length := by rw [hg.2.1]; exact hk.1
    obtain ⟨p, hp⟩ := ih (hg.2.2 _ (List.getElem_mem hlt)) (hn.2 _ (List.getElem_mem hlt))
    exact ⟨k :: p, k, p, _, rfl, hk, List.getElem?_eq_getElem hlt, hp⟩

/-! ## Training -/

theorem countIds_spec {ids : List Nat} (hi : ids.length = N) (id : Nat) :
    countIds ids N id = some ((List.range N).filter fun j => ids[j]? = some id).length := by
  obtain ⟨c, h1, h2⟩ := iter_inv (n := N) (f := fun i c => do
      let a ← rd ids i
      some (if a = id then c + 1 else c)) (s := 0)
    (fun n (c : Nat) => c = ((List.range n).filter fun j => ids[j]? = some id).length) (by simp) (by
    intro i hlt c hc
    rw [rd_of_lt (by omega)]
    refine ⟨_, rfl, ?_⟩
    rw [List.range_succ, List.filter_append, List.length_append, ← hc]
    by_cases e : ids[i] = id
    · simp [e, hi, hlt]
    · simp [e, hi, hlt])
  unfold countIds
  rw [h1, h2]

/-- The copy consists of the data with the given identifier. -/
theorem copySubset_spec {mem : Nat → List UInt8} (hmem : ∀ n, (mem n).length = n) (hd : data.length = N * M) {ids : List Nat}
    (hi : ids.length = N) (id : Nat) :
    ∃ buf, copySubset mem data ids N M id = some (buf, ((List.range N).filter fun j => ids[j]? = some id).length) ∧
      buf.length = ((List.range N).filter fun j => ids[j]? = some id).length * M ∧
      ∀ c (h : c < ((List.range N).filter fun j => ids[j]? = some id).length), ∀ j < M,
        pt buf M c j = pt data M (((List.range N).filter fun j => ids[j]? = some id)[c]) j := by
  let sel : Nat → List Nat := fun n => (List.range n).filter fun j => ids[j]? = some id
  have hsucc : ∀ n, sel (n + 1) = sel n ++ if ids[n]? = some id then [n] else [] := fun n => by
    simp only [sel]
    rw [List.range_succ, List.filter_append]
    congr 1
    by_cases e : ids[n]? = some id
    · simp [e]
    · simp [e]
  have hmono : ∀ n, n ≤ N → (sel n).length ≤ (sel N).length := by
    intro n hn
    exact (List.Sublist.filter _ (List.range_sublist.mpr hn)).length_le
  obtain ⟨s, h1, h2, h3, h4⟩ := iter_inv (n := N) (f := fun i (s : List UInt8 × Nat) => do
      let a ← rd ids i
      if a = id then do
        let buf ← iter M (fun j buf => do
          let b ← rd data (i * M + j)
          wr buf (s.2 * M + j) b) s.1
        some (buf, s.2 + 1)
      else some s) (s := (mem (M * (sel N).length), 0))
    (fun n (s : List UInt8 × Nat) => s.2 = (sel n).length ∧ s.1.length = (sel N).length * M ∧
      ∀ c (h : c < (sel n).length), ∀ j < M, s.1[c * M + j]? = data[(sel n)[c] * M + j]?)
    ⟨rfl, by rw [hmem, Nat.mul_comm], by simp [sel]⟩ (by
    intro i hlt s ⟨q1, q2, q3⟩
    have hsi := hmono (i + 1) hlt
    rw [rd_of_lt (show i < ids.length by omega)]
    simp only [Option.bind_eq_bind, Option.bind_some]
    by_cases e : ids[i] = id
    · have e' : ids[i]? = some id := by rw [List.getElem?_eq_getElem (by omega), e]
      have hs1 : sel (i + 1) = sel i ++ [i] := by rw [hsucc, if_pos e']
      rw [if_pos e]
      have hsl : (sel i).length < (sel N).length := by rw [hs1] at hsi; simp at hsi; omega
      obtain ⟨buf, b1, b2, b3, b4⟩ := iter_inv (n := M) (f := fun j buf => do
          let b ← rd data (i * M + j)
          wr buf (s.2 * M + j) b) (s := s.1)
        (fun d (buf : List UInt8) => buf.length = (sel N).length * M ∧ (∀ j < d, buf[s.2 * M + j]? = data[i * M + j]?) ∧
          ∀ q, q < s.2 * M → buf[q]? = s.1[q]?) ⟨q2, by simp, fun _ _ => rfl⟩ (by
        intro d hdd buf ⟨p1, p2, p3⟩
        have hr : i * M + d < data.length := by rw [hd]; exact mul_add_lt hlt hdd
        have hw : s.2 * M + d < buf.length := by rw [p1, q1]; exact mul_add_lt hsl hdd
        rw [rd_of_lt hr]
        simp only [Option.bind_eq_bind, Option.bind_some]
        rw [wr_of_lt hw]
        refine ⟨_, rfl, by simpa using p1, fun j hj => ?_, fun q hq => ?_⟩
        · by_cases ej : j = d
          · subst ej
            rw [List.getElem?_set_self hw, List.getElem?_eq_getElem hr]
          · rw [List.getElem?_set_ne (by omega), p2 j (by omega)]
        · rw [List.getElem?_set_ne (by omega), p3 q hq])
      simp only [Option.bind_eq_bind] at b1
      rw [b1]
      refine ⟨_, rfl, by rw [hs1]; simp [q1], b2, fun c hc j hj => ?_⟩
      rcases Nat.lt_or_ge c (sel i).length with hcl | hcl
      · have : c * M + j < s.2 * M := by rw [q1]; exact mul_add_lt hcl hj
        have hg : (sel (i + 1))[c] = (sel i)[c] := by
          simp only [hs1]
          rw [List.getElem_append_left hcl]
        rw [hg]
        exact (b4 _ this).trans (q3 c hcl j hj)
      · have hc' : c = s.2 := by rw [q1]; rw [hs1] at hc; simp at hc; omega
        have hg : (sel (i + 1))[c] = i := by
          simp only [hs1]
          rw [List.getElem_append_right (by omega)]
          simp
        rw [hg]
        have := b3 j hj
        rw [← hc'] at this
        exact this
    · have e' : ¬ ids[i]? = some id := by rw [List.getElem?_eq_getElem (by omega)]; simpa using e
      have hs1 : sel (i + 1) = sel i := by rw [hsucc, if_neg e']; simp
      rw [if_neg e]
      exact ⟨s, rfl, by rw [hs1]; exact q1, q2, fun c hc j hj => by
        have := q3 c (by rw [hs1] at hc; exact hc) j hj
        rw [this]
        congr 2
        simp only [hs1]⟩)
  refine ⟨s.1, ?_, h3, fun c hc j hj => ?_⟩
  · unfold copySubset
    rw [countIds_spec hi id]
    simp only [Option.bind_eq_bind, Option.bind_some] at h1 ⊢
    rw [h1, ← h2]
  · unfold pt
    rw [List.getD_eq_getElem?_getD, List.getD_eq_getElem?_getD, h4 c hc j hj]

variable {ρ : Type}

/-- Training one filter on `N` data with `K ≤ N` clusters gives a good filter with `K` centres. -/
def GoodFit (m : Method) (M : Nat) (maxN : Nat) (inv : ρ → Prop) (fit : List UInt8 → Nat → Nat → ρ → Option (Filt × ρ)) : Prop :=
  ∀ data N K r, inv r → data.length = N * M → K ≤ N → N ≤ maxN → (0 < N → 0 < K) →
    ∃ f r', fit data N K r = some (f, r') ∧ inv r' ∧ f.K = K ∧ GoodFilt m M f

theorem path_congr {x y : Nat → Int} (hsq : ∀ v, sq M x v = sq M y v) :
    ∀ (h : Nat) (n : Node h) (p : List Nat), IsPath M x h n p → IsPath M y h n p := by
  intro h
  induction h with
  | zero => rintro n p ⟨k, rfl, hk⟩; exact ⟨k, rfl, by simpa [hsq] using hk⟩
  | succ h ih => rintro n p ⟨k, q, c, rfl, hk, hc, hq⟩; exact ⟨k, q, c, rfl, by simpa [hsq] using hk, hc, ih c q hq⟩

theorem AtMost.mono {K K' : Nat} (hK : K ≤ K') : ∀ {h : Nat} {n : Node h}, AtMost K h n → AtMost K' h n := by
  intro h
  induction h with
  | zero => intro n hn; exact Nat.le_trans hn hK
  | succ h ih => intro n hn; exact ⟨Nat.le_trans hn.1 hK, fun c hc => ih (hn.2 c hc)⟩

theorem xmeans_spec (hM : M ≤ 33025) {mem : Nat → List UInt8} (hmem : ∀ n, (mem n).length = n) {memIds : Nat → List Nat}
    (hids : ∀ n, (memIds n).length = n) {maxN : Nat} {inv : ρ → Prop} {fit : List UInt8 → Nat → Nat → ρ → Option (Filt × ρ)}
    (hfit : GoodFit m M maxN inv fit) :
    ∀ (h : Nat) (data : List UInt8) (N K : Nat) (r : ρ), inv r → data.length = N * M → K ≤ N → N ≤ maxN → (0 < N → 0 < K) →
      ∃ n r', xmeans m fit mem memIds M h data N K r = some (n, r') ∧ inv r' ∧ GoodTree m M h n ∧ (Node.filter h n).K = K ∧ AtMost K h n ∧
        ∀ i < N, ∃ p, IsPath M (pt data M i) h n p := by
  intro h
  induction h with
  | zero =>
    intro data N K r hr hd hK hN hKN
    obtain ⟨f, r', f1, f2, f3, f4⟩ := hfit data N K r hr hd hK hN hKN
    obtain ⟨a, a1, a2, a3⟩ := pushFilt_spec hM f4 (by omega) hd.ge (hids N)
    refine ⟨f, r', ?_, f2, f4, f3, f3.le, fun i hi => ?_⟩
    · unfold xmeans
      rw [f1]
      simp only [Option.bind_eq_bind, Option.bind_some]
      rw [a1]
      rfl
    · obtain ⟨k, -, hk⟩ := a3 i hi
      exact ⟨[k], k, rfl, hk⟩
  | succ h ih =>
    intro data N K r hr hd hK hN hKN
    obtain ⟨f, r', f1, f2, f3, f4⟩ := hfit data N K r hr hd hK hN hKN
    obtain ⟨a, a1, a2, a3⟩ := pushFilt_spec hM f4 (by omega) hd.ge (hids N)
    obtain ⟨s, s1, s2, s3, s4, s6, s5⟩ := iter_inv (n := K) (f := fun k (s : List (Node h) × ρ) => do
        let p ← copySubset mem data a N M k
        let c ← xmeans m fit mem memIds M h p.1 p.2 (min K p.2) s.2
        some (s.1 ++ [c.1], c.2)) (s := ([], r'))
      (fun q (s : List (Node h) × ρ) => inv s.2 ∧ s.1.length = q ∧ (∀ c ∈ s.1, GoodTree m M h c) ∧ (∀ c ∈ s.1, AtMost K h c) ∧
        ∀ i < N, ∀ k < q, a[i]? = some k → ∃ c, s.1[k]? = some c ∧ ∃ p, IsPath M (pt data M i) h c p)
      ⟨f2, rfl, by simp, by simp, fun _ _ _ hk => by omega⟩ (by
      intro k hk s ⟨q1, q2, q3, q5, q4⟩
      obtain ⟨buf, b1, b2, b3⟩ := copySubset_spec hmem hd a2 k
      have hlen : ((List.range N).filter fun j => a[j]? = some k).length ≤ N :=
        (List.length_filter_le _ _).trans (by simp)
      obtain ⟨n, rr, e1, e2, e3, -, e5, e4⟩ := ih buf _ (min K ((List.range N).filter fun j => a[j]? = some k).length) s.2 q1 b2
        (Nat.min_le_right _ _) (by omega) (by omega)
      rw [b1]
      simp only [Option.bind_eq_bind, Option.bind_some]
      rw [e1]
      refine ⟨_, rfl, e2, by simp [q2], ?_, ?_, fun i hi k' hk' hik => ?_⟩
      · intro c hc
        rcases List.mem_append.mp hc with h' | h'
        · exact q3 c h'
        · simp at h'; rw [h']; exact e3
      · intro c hc
        rcases List.mem_append.mp hc with h' | h'
        · exact q5 c h'
        · simp at h'; rw [h']; exact e5.mono (Nat.min_le_left _ _)
      · rcases Nat.lt_or_ge k' k with h' | h'
        · obtain ⟨c, c1, c2⟩ := q4 i hi k' h' hik
          refine ⟨c, ?_, c2⟩
          simp only
          rw [List.getElem?_append_left (by omega)]
          exact c1
        · obtain rfl : k' = k := by omega
          refine ⟨n, by simp only; rw [List.getElem?_append_right (by omega)]; simp [q2], ?_⟩
          have hmemi : i ∈ (List.range N).filter fun j => a[j]? = some k' := by simp [hi, hik]
          obtain ⟨c, hc, hci⟩ := List.getElem_of_mem hmemi
          obtain ⟨p, hp⟩ := e4 c hc
          refine ⟨p, ?_⟩
          have hpt : ∀ j < M, pt buf M c j = pt data M i j := fun j hj => by rw [b3 c hc j hj, hci]
          have hsq : ∀ v, sq M (pt buf M c) v = sq M (pt data M i) v := fun v =>
            Finset.sum_congr rfl fun j hj => by rw [hpt j (by simpa using hj)]
          exact path_congr hsq h n p hp)
    refine ⟨(f, s.1), s.2, ?_, s2, ⟨f4, by rw [s3, f3], s4⟩, f3, ⟨f3.le, s6⟩, fun i hi => ?_⟩
    · unfold xmeans
      rw [f1]
      simp only [Option.bind_eq_bind, Option.bind_some]
      rw [a1]
      simp only [Option.bind_some]
      simp only [Option.bind_eq_bind] at s1
      rw [s1]
      rfl
    · obtain ⟨k, k1, k2⟩ := a3 i hi
      obtain ⟨c, c1, p, hp⟩ := s5 i hi k (by have := k2.1; rw [f3] at this; exact this) k1
      exact ⟨k :: p, k, p, c, rfl, k2, c1, hp⟩

/-- **C31.** Training builds a tree with one child for every centre and at most `K` centres at each node, in which every datum of the training set has a path, so that
projecting the training set writes the path of every datum. -/
theorem train_push (hM : M ≤ 33025) {mem : Nat → List UInt8} (hmem : ∀ n, (mem n).length = n) {memIds : Nat → List Nat}
    (hids : ∀ n, (memIds n).length = n) {inv : ρ → Prop} {fit : List UInt8 → Nat → Nat → ρ → Option (Filt × ρ)}
    (hfit : GoodFit m M N inv fit) (hK : 0 < K) (h : Nat) (hd : data.length = N * M) {r : ρ} (hr : inv r)
    {asgn : List Nat} (ha : asgn.length = N * (h + 1)) :
    ∃ root r' asgn', train m fit mem memIds M K h data N r = some (root, r') ∧ GoodTree m M h root ∧ AtMost K h root ∧
      push m M h root asgn data N = some asgn' ∧ asgn'.length = N * (h + 1) ∧
      ∀ i < N, ∃ p, IsPath M (pt data M i) h root p ∧ p.length = h + 1 ∧ ∀ d < h + 1, asgn'[i * (h + 1) + d]? = p[d]? := by
  obtain ⟨root, r', h1, -, h2, -, h4, h3⟩ := xmeans_spec hM hmem hids hfit h data N (min K N) r hr hd (Nat.min_le_right _ _) (le_refl _)
    (by omega)
  obtain ⟨a, a1, a2, a3⟩ := push_partial hM h2 hd ha h3
  exact ⟨root, r', a, h1, h2, h4.mono (Nat.min_le_left _ _), a1, a2, a3⟩

/-- The seeding followed by the Lloyd training satisfies the hypothesis of `train_push`. -/
theorem fitLloyd_good (hM : M ≤ 33025) (maxIters : Nat) {perm : ρ → Nat → List Nat × ρ} {inv : ρ → Prop}
    (hperm : ∀ r n, inv r → (perm r n).1.Perm (List.range n) ∧ inv (perm r n).2) {memInt : Nat → List Int}
    (hi : ∀ n, (memInt n).length = n) {memNat : Nat → List Nat} (hn : ∀ n, (memNat n).length = n) :
    GoodFit .lloyd M 8421504 inv (fitLloyd M maxIters perm memInt memNat) := by
  intro data N K r hr hd hKN hN hpos
  rcases Nat.eq_zero_or_pos N with rfl | hN0
  · obtain rfl : K = 0 := by omega
    have hz : ∀ n cs a c, trainLoop data M 0 0 n cs a c = some { centers := cs, asgn := a, done := true } := by
      intro n cs a c
      rw [trainLoop]
      rfl
    refine ⟨{ centers := memInt (0 * M), inter := [], K := 0 }, (perm r 0).2, ?_, (hperm r 0 hr).2, ?_, ?_⟩
    · unfold fitLloyd initRandData trainLloyd
      simp [iter, hz]
    · rfl
    · exact ⟨by simp [hi], fun k hk => by simp at hk, by simp, trivial⟩
  · obtain ⟨cs, sel, c1, c2, ⟨c3, c4, c5⟩, -⟩ := initRandData_correct hM hd hN0 (hperm r N hr).1 (hi (K * M))
    have hcl : cs.length = K * M := by rw [c3, c2]
    have hcb : Bytes cs M K := fun k hk i hik => by
      rw [c5 k (by omega) i hik]; exact pt_byte _ _ _ _
    obtain ⟨t, a, t1, t2, t3, -⟩ := trainLloyd_partial hM hd hN (hpos hN0) hKN maxIters hcl hcb (hn N) (hn N)
    refine ⟨{ centers := t.centers, inter := [], K := K }, (perm r N).2, ?_, (hperm r N hr).2, rfl, t2, t3, by simp; omega, trivial⟩
    unfold fitLloyd
    rw [c1]
    simp only [Option.bind_eq_bind, Option.bind_some]
    rw [t1]
    rfl

/-! ## Instances and the missing case -/

/-- The generator of the instances below: data in their order. -/
def idPerm (_ : Unit) (n : Nat) : List Nat × Unit := (List.range n, ())

/-- Blocks of zeros. -/
def zeros {α : Type} (a : α) (n : Nat) : List α := List.replicate n a

example : (train .lloyd (fitLloyd 1 10 idPerm (zeros 0) (zeros 9)) (zeros 0) (zeros 0) 1 2 1 [0, 1, 10, 11] 4 ()).bind
    (fun t => push .lloyd 1 1 t.1 (zeros 7 8) [0, 1, 10, 11] 4) = some [0, 0, 0, 1, 1, 0, 1, 1] := by decide +kernel

example := train_push (m := .lloyd) (M := 1) (N := 4) (K := 2) (data := [0, 1, 10, 11]) (by decide) (mem := zeros 0)
  (by simp [zeros]) (memIds := zeros 0) (by simp [zeros])
  (fun data N K r hr h1 h2 h3 => fitLloyd_good (by decide) 10 (perm := idPerm) (inv := fun _ => True)
    (fun _ _ _ => ⟨.refl _, trivial⟩) (memInt := zeros 0) (by simp [zeros]) (memNat := zeros 9) (by simp [zeros]) data N K r hr h1 h2
    (by omega)) (by decide) 1 rfl (r := ()) trivial (asgn := zeros 7 8) rfl

/-- The property for all data, on trees of depth two trained by the library: projection is defined. -/
def PushClaim : Prop :=
  ∀ (M K N N' : Nat) (data data' : List UInt8) (t : Node 1 × Unit), data.length = N * M →
    data'.length = N' * M → 0 < K → 0 < N →
    train .lloyd (fitLloyd M 10 idPerm (zeros 0) (zeros 9)) (zeros 0) (zeros 0) M K 1 data N () = some t →
    ∃ asgn, push .lloyd M 1 t.1 (zeros 7 (N' * 2)) data' N' = some asgn ∧ ∀ a ∈ asgn, a < K

/-- Two equal data leave the second cluster empty, with its centre at zero and a child without centres: projecting the datum zero
gives the index `2^32 - 1`. -/
theorem push_claim_false : ¬ PushClaim := by
  intro h
  have hd : (train .lloyd (fitLloyd 1 10 idPerm (zeros 0) (zeros 9)) (zeros 0) (zeros 0) 1 2 1 [5, 5] 2 ()).bind
      (fun t => push .lloyd 1 1 t.1 (zeros 7 2) [0] 1) = some [1, 4294967295] := by decide +kernel
  cases ht : train .lloyd (fitLloyd 1 10 idPerm (zeros 0) (zeros 9)) (zeros 0) (zeros 0) 1 2 1 [5, 5] 2 () with
  | none => rw [ht] at hd; exact absurd hd (by simp)
  | some t =>
    rw [ht] at hd
    obtain ⟨a, a1, a2⟩ := h 1 2 2 1 [5, 5] [0] t rfl rfl (by decide) (by decide) ht
    rw [Option.bind_some] at hd
    simp only [Nat.one_mul] at a1
    rw [hd] at a1
    have := a2 4294967295 (by rw [← Option.some.inj a1]; simp)
    omega

end Verif.Hikm
