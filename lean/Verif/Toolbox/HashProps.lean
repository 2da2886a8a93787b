import Verif.Toolbox.HashModel
import Verif.Flat
import Mathlib.Data.List.Count
import Mathlib.Data.Nat.Basic

/-!
# Hash tables of label vectors: properties (C40)
-/

set_option linter.unusedSectionVars false

namespace Verif.Toolbox

variable {K ndims : Nat}

/-- The search stops at a column that is free or contains `x`. -/
def Stops (x s : Key) : Prop := isNull s = true ∨ s = x

theorem stops_iff {x s : Key} : (isNull s || s == x) = true ↔ Stops x s := by
  simp [Stops]

instance (x s : Key) : Decidable (Stops x s) := by unfold Stops; infer_instance

/-- `t'` keeps the occupied columns and the links of `t`. -/
structure Ext (id : List Key) (next : List Nat) (id' : List Key) (next' : List Nat) : Prop where
  id : ∀ (p : Nat) s, id[p]? = some s → ¬ isNull s = true → id'[p]? = some s
  next : ∀ p n : Nat, next[p]? = some n → n ≠ 0 → next'[p]? = some n

/-- The links go forward and stay in the table. -/
def Links (next : List Nat) (n : Nat) : Prop :=
  ∀ p q : Nat, next[p]? = some q → q = 0 ∨ (p + 1 < q ∧ q ≤ n)

theorem probe_lt (id : List Key) (x : Key) (hK : 0 < K) (h2 : UInt32) {j : Nat} {h1 : UInt32} {p : Nat}
    (h : probe id x K h2 j h1 = some p) : p < K := by
  induction j generalizing h1 with
  | zero => simp [probe] at h; rw [← h]; exact Nat.mod_lt _ hK
  | succ j ih =>
    unfold probe at h
    cases hr : rd id (h1.toNat % K) with
    | none => rw [hr] at h; simp at h
    | some s =>
      rw [hr] at h
      simp only [Option.bind_eq_bind, Option.bind_some] at h
      by_cases hs : (isNull s || s == x) = true
      · rw [if_pos hs] at h; rw [← Option.some.inj h]; exact Nat.mod_lt _ hK
      · rw [if_neg hs] at h; exact ih h

theorem probe_total {id : List Key} (x : Key) (hK : 0 < K) (hl : K ≤ id.length) (h2 : UInt32) (j : Nat) (h1 : UInt32) :
    ∃ p, probe id x K h2 j h1 = some p := by
  induction j generalizing h1 with
  | zero => exact ⟨_, rfl⟩
  | succ j ih =>
    unfold probe
    have := Nat.mod_lt h1.toNat hK
    rw [rd_of_lt (show h1.toNat % K < id.length by omega)]
    simp only [Option.bind_eq_bind, Option.bind_some]
    split
    · exact ⟨_, rfl⟩
    · exact ih _

/-- The probes pass the same columns as long as these are occupied by other vectors. -/
theorem probe_ext {id id' : List Key} {next next' : List Nat} (he : Ext id next id' next') {x : Key} (h2 : UInt32) {j : Nat} {h1 : UInt32}
    {p q : Nat} (h : probe id x K h2 j h1 = some p) (hq' : id'[q]? = some x)
    (hpq : (∃ s', id[p]? = some s' ∧ Stops x s') → p = q) :
    probe id' x K h2 j h1 = some p := by
  induction j generalizing h1 with
  | zero => exact h
  | succ j ih =>
    unfold probe at h ⊢
    cases hr : rd id (h1.toNat % K) with
    | none => rw [hr] at h; simp at h
    | some s1 =>
      rw [hr] at h
      simp only [Option.bind_eq_bind, Option.bind_some] at h
      rw [rd_getElem?] at hr ⊢
      by_cases hs1 : (isNull s1 || s1 == x) = true
      · rw [if_pos hs1] at h
        have hp := Option.some.inj h
        have : p = q := hpq ⟨s1, by rw [← hp]; exact hr, stops_iff.mp hs1⟩
        rw [hp, this, hq']
        simp
      · rw [if_neg hs1] at h
        have hn : ¬ isNull s1 = true := fun e => hs1 (by simp [e])
        rw [he.id _ _ hr hn]
        simp only [Option.bind_eq_bind, Option.bind_some]
        rw [if_neg hs1]
        exact ih h

theorem probe_congr {id id' : List Key} (x : Key) (hK : 0 < K) (h2 : UInt32) (h : ∀ p < K, id'[p]? = id[p]?) {j : Nat} {h1 : UInt32} :
    probe id' x K h2 j h1 = probe id x K h2 j h1 := by
  induction j generalizing h1 with
  | zero => rfl
  | succ j ih =>
    unfold probe
    rw [rd_getElem?, rd_getElem?, h _ (Nat.mod_lt _ hK)]
    simp only [ih]

theorem chain_total {id : List Key} {next : List Nat} (hn : next.length = id.length) (hl : Links next id.length) (x : Key) :
    ∀ n p, p < id.length → id.length - p ≤ n → ∃ q, chain id next x n p = some q ∧ q < id.length := by
  intro n
  induction n with
  | zero => intro p h1 h2; omega
  | succ n ih =>
    intro p h1 h2
    unfold chain
    rw [rd_of_lt h1]
    simp only [Option.bind_eq_bind, Option.bind_some]
    split
    · exact ⟨p, rfl, h1⟩
    · rw [rd_of_lt (show p < next.length by omega)]
      simp only [Option.bind_some]
      split
      · exact ⟨p, rfl, h1⟩
      · rename_i hq
        rcases hl p next[p] (List.getElem?_eq_getElem (by omega)) with h | h
        · exact absurd h hq
        · exact ih _ (by omega) (by omega)

/-- A search that ends at a column that is free or contains `x` ends there in an extended table where that column contains `x`. -/
theorem chain_ext {id id' : List Key} {next next' : List Nat} (he : Ext id next id' next') (hl : Links next' id'.length) {x : Key}
    {q : Nat} {s : Key} (hq : id[q]? = some s) (hs : Stops x s) (hq' : id'[q]? = some x) :
    ∀ n p n', chain id next x n p = some q → p < id'.length → id'.length - p ≤ n' → chain id' next' x n' p = some q := by
  intro n
  induction n with
  | zero => intro p n' h; simp [chain] at h
  | succ n ih =>
    intro p n' h hp hn'
    obtain ⟨m, rfl⟩ : ∃ m, n' = m + 1 := ⟨n' - 1, by omega⟩
    unfold chain at h ⊢
    cases hr : rd id p with
    | none => rw [hr] at h; simp at h
    | some s1 =>
      rw [hr] at h
      simp only [Option.bind_eq_bind, Option.bind_some] at h
      rw [rd_getElem?] at hr ⊢
      by_cases hs1 : (isNull s1 || s1 == x) = true
      · rw [if_pos hs1] at h
        obtain rfl := Option.some.inj h
        rw [hq']
        simp
      · rw [if_neg hs1] at h
        have hn : ¬ isNull s1 = true := fun e => hs1 (by simp [e])
        rw [he.id _ _ hr hn]
        simp only [Option.bind_eq_bind, Option.bind_some]
        rw [if_neg hs1]
        cases hr2 : rd next p with
        | none => rw [hr2] at h; simp at h
        | some k =>
          rw [hr2] at h
          simp only [Option.bind_some] at h
          rw [rd_getElem?] at hr2
          by_cases hk : k = 0
          · rw [if_pos hk] at h
            obtain rfl := Option.some.inj h
            rw [hr] at hq
            obtain rfl := Option.some.inj hq
            exact absurd (stops_iff.mpr hs) hs1
          · rw [if_neg hk] at h
            have := he.next _ _ hr2 hk
            rw [rd_getElem?, this]
            simp only [Option.bind_some]
            rw [if_neg hk]
            rcases hl p k this with h' | h'
            · exact absurd h' hk
            · exact ih _ _ h (by omega) (by omega)

/-- Where the search for `x` ends. -/
def locate (id : List Key) (next : List Nat) (K : Nat) (x : Key) : Option Nat := do
  let p ← start id x K
  chain id next x id.length p

theorem locate_ext {id id' : List Key} {next next' : List Nat} (he : Ext id next id' next') (hl : Links next' id'.length)
    (hK : 0 < K) (hK' : K ≤ id'.length) {x : Key} {p q n : Nat} {s : Key}
    (h1 : start id x K = some p) (h2 : chain id next x n p = some q) (hq : id[q]? = some s) (hs : Stops x s)
    (hq' : id'[q]? = some x) : locate id' next' K x = some q := by
  have hpq : (∃ s', id[p]? = some s' ∧ Stops x s') → p = q := by
    rintro ⟨s', e1, e2⟩
    cases n with
    | zero => simp [chain] at h2
    | succ n =>
      unfold chain at h2
      rw [rd_getElem?, e1] at h2
      simp only [Option.bind_eq_bind, Option.bind_some] at h2
      rw [if_pos (stops_iff.mpr e2)] at h2
      exact Option.some.inj h2
  have e1 : start id' x K = some p := probe_ext he _ h1 hq' hpq
  have hp : p < K := probe_lt id x hK _ h1
  unfold locate
  rw [e1]
  simp only [Option.bind_eq_bind, Option.bind_some]
  exact chain_ext he hl hq hs hq' _ _ _ h2 (by omega) (by omega)

/-- The table contains the counts of the vectors `ks`. -/
structure Inv (ndims K : Nat) (t : Table) (ks : List Key) : Prop where
  hlen : t.h.length = t.id.length
  nlen : t.next.length = t.id.length
  pos : 0 < K
  count : K ≤ t.last
  last : t.last ≤ t.id.length
  links : Links t.next t.last
  width : ∀ s ∈ t.id, s.length = ndims
  free : ∀ p, t.last ≤ p → (∀ s, t.id[p]? = some s → isNull s = true) ∧ ∀ n : Nat, t.next[p]? = some n → n = 0
  null : ∀ (p : Nat) s, t.id[p]? = some s → isNull s = true → t.h[p]? = some 0
  full : ∀ (p : Nat) s, t.id[p]? = some s → ¬ isNull s = true →
    locate t.id t.next K s = some p ∧ t.h[p]? = some (ks.count s % 4294967296) ∧ s ∈ ks
  mem : ∀ k ∈ ks, ∃ p : Nat, t.id[p]? = some k

theorem links_mono {next : List Nat} {n m : Nat} (h : Links next n) (hm : n ≤ m) : Links next m := fun p q e => by
  have := h p q e
  omega

theorem Ext.refl (id : List Key) (next : List Nat) : Ext id next id next := ⟨fun _ _ h _ => h, fun _ _ h _ => h⟩

theorem Ext.trans {id id' id'' : List Key} {next next' next'' : List Nat} (h : Ext id next id' next') (h' : Ext id' next' id'' next'') :
    Ext id next id'' next'' :=
  ⟨fun p s e hn => h'.id p s (h.id p s e hn) hn, fun p n e hn => h'.next p n (h.next p n e hn) hn⟩

theorem isNull_replicate (n : Nat) : isNull (List.replicate n 0) = true := by simp [isNull]

/-- Structure of a table, without counts. -/
structure Shape (ndims K : Nat) (t : Table) : Prop where
  hlen : t.h.length = t.id.length
  nlen : t.next.length = t.id.length
  count : K ≤ t.last
  last : t.last ≤ t.id.length
  links : Links t.next t.last
  width : ∀ s ∈ t.id, s.length = ndims
  free : ∀ p, t.last ≤ p → (∀ s, t.id[p]? = some s → isNull s = true) ∧ ∀ n : Nat, t.next[p]? = some n → n = 0

/-- `t'` is `t` with free columns added. -/
structure More (t t' : Table) : Prop where
  len : t.id.length ≤ t'.id.length
  old : ∀ p < t.id.length, t'.id[p]? = t.id[p]? ∧ t'.h[p]? = t.h[p]?
  new : ∀ p s, t.id.length ≤ p → t'.id[p]? = some s → isNull s = true ∧ t'.h[p]? = some 0

theorem grow_spec {t : Table} (h : Shape ndims K t) : Shape ndims K (grow t ndims) ∧ More t (grow t ndims) ∧
    (grow t ndims).last = t.last ∧ t.last < (grow t ndims).id.length ∧ (∀ p < t.id.length, (grow t ndims).next[p]? = t.next[p]?) ∧
    Ext t.id t.next (grow t ndims).id (grow t ndims).next := by
  unfold grow
  by_cases hc : t.id.length ≤ t.last
  · have hl := h.last
    rw [if_pos hc]
    simp only
    generalize hd : max (t.id.length / 2) 2 = d
    have hd2 : 2 ≤ d := by omega
    refine ⟨⟨?_, ?_, h.count, ?_, ?_, ?_, ?_⟩, ⟨?_, ?_, ?_⟩, trivial, ?_, ?_, ⟨?_, ?_⟩⟩
    · simp [h.hlen]
    · simp [h.nlen]
    · simp; omega
    · intro p q e
      rcases Nat.lt_or_ge p t.next.length with hp | hp
      · rw [List.getElem?_append_left hp] at e; exact h.links p q e
      · rw [List.getElem?_append_right hp, List.getElem?_replicate] at e
        split at e
        · left; exact (Option.some.inj e).symm
        · simp at e
    · intro s hs
      rcases List.mem_append.mp hs with h' | h'
      · exact h.width s h'
      · rw [(List.mem_replicate.mp h').2]; simp
    · intro p hp
      simp only at hp
      refine ⟨fun s e => ?_, fun n e => ?_⟩
      · rw [List.getElem?_append_right (by omega), List.getElem?_replicate] at e
        split at e
        · rw [← Option.some.inj e]; exact isNull_replicate _
        · simp at e
      · rw [List.getElem?_append_right (by rw [h.nlen]; omega), List.getElem?_replicate] at e
        split at e
        · exact (Option.some.inj e).symm
        · simp at e
    · simp
    · intro p hp
      exact ⟨List.getElem?_append_left hp, List.getElem?_append_left (by rw [h.hlen]; exact hp)⟩
    · intro p s hp e
      rw [List.getElem?_append_right hp, List.getElem?_replicate] at e
      split at e
      · rename_i hlt
        refine ⟨by rw [← Option.some.inj e]; exact isNull_replicate _, ?_⟩
        rw [List.getElem?_append_right (by rw [h.hlen]; exact hp), List.getElem?_replicate, if_pos (by rw [h.hlen]; exact hlt)]
      · simp at e
    · simp; omega
    · intro p hp
      exact List.getElem?_append_left (by rw [h.nlen]; exact hp)
    · intro p s e _
      rw [List.getElem?_append_left (List.getElem?_eq_some_iff.mp e).1]; exact e
    · intro p n e _
      rw [List.getElem?_append_left (List.getElem?_eq_some_iff.mp e).1]; exact e
  · rw [if_neg hc]
    exact ⟨h, ⟨le_refl _, fun _ _ => ⟨rfl, rfl⟩, fun p s hp e => absurd (List.getElem?_eq_some_iff.mp e).1 (by omega)⟩, rfl, by omega,
      fun _ _ => rfl, Ext.refl _ _⟩

theorem chainAdd_spec {x : Key} :
    ∀ n (t : Table) p, Shape ndims K t → p < t.last → t.id.length - p < n →
      ∃ t' q, chainAdd ndims x n t p = some (t', q) ∧ Shape ndims K t' ∧ More t t' ∧ Ext t.id t.next t'.id t'.next ∧
        q < t'.last ∧ (∃ s, t'.id[q]? = some s ∧ Stops x s) ∧ ∃ m, chain t'.id t'.next x m p = some q := by
  intro n
  induction n with
  | zero => intro t p h hp hn; omega
  | succ n ih =>
    intro t p h hp hn
    have hp' : p < t.id.length := lt_of_lt_of_le hp h.last
    unfold chainAdd
    rw [rd_of_lt hp']
    simp only [Option.bind_eq_bind, Option.bind_some]
    by_cases hs : (isNull t.id[p] || t.id[p] == x) = true
    · rw [if_pos hs]
      refine ⟨t, p, rfl, h, ⟨le_refl _, fun _ _ => ⟨rfl, rfl⟩,
        fun p s hp e => absurd (List.getElem?_eq_some_iff.mp e).1 (by omega)⟩, Ext.refl _ _, hp,
        ⟨_, List.getElem?_eq_getElem hp', stops_iff.mp hs⟩, 1, ?_⟩
      unfold chain
      rw [rd_of_lt hp']
      simp only [Option.bind_eq_bind, Option.bind_some]
      rw [if_pos hs]
    · rw [if_neg hs, rd_of_lt (show p < t.next.length by rw [h.nlen]; exact hp')]
      simp only [Option.bind_some]
      have hnp : t.next[p]? = some (t.next[p]'(by rw [h.nlen]; exact hp')) := List.getElem?_eq_getElem _
      have hlk := h.links p _ hnp
      have hll := h.last
      generalize hg : t.next[p]'(by rw [h.nlen]; exact hp') = k at hlk hnp ⊢
      rw [if_neg (by omega)]
      have hnull : ¬ isNull t.id[p] = true := fun e => hs (by simp [e])
      by_cases hk : k = 0
      · rw [if_pos hk]
        obtain ⟨g1, g2, g3, g4, g5, g6⟩ := grow_spec (t := t) h
        generalize grow t ndims = u at g1 g2 g3 g4 g5 g6 ⊢
        have hpu : p < u.next.length := by have := g2.len; rw [g1.nlen]; omega
        rw [wr_of_lt hpu]
        simp only [Option.bind_some]
        have hshape : Shape ndims K { u with next := u.next.set p (u.last + 1), last := u.last + 1 } := by
          refine ⟨g1.hlen, by simp [g1.nlen], ?_, ?_, ?_, g1.width, ?_⟩
          · have := g1.count; simp; omega
          · simp only; omega
          · intro a b e
            simp only at e ⊢
            by_cases ea : a = p
            · subst ea
              rw [List.getElem?_set_self hpu] at e
              have := Option.some.inj e
              right; omega
            · rw [List.getElem?_set_ne (by omega)] at e
              have := g1.links a b e
              omega
          · intro a ha
            simp only at ha ⊢
            refine ⟨(g1.free a (by omega)).1, fun b e => ?_⟩
            rw [List.getElem?_set_ne (by omega)] at e
            exact (g1.free a (by omega)).2 b e
        have hul : u.last < u.id.length := by omega
        have hfree := (g1.free u.last (le_refl _)).1 _ (List.getElem?_eq_getElem hul)
        have hnull' : (isNull u.id[u.last] || u.id[u.last] == x) = true := by simp [hfree]
        obtain ⟨m, rfl⟩ : ∃ m, n = m + 1 := ⟨n - 1, by omega⟩
        have hext : Ext t.id t.next u.id (u.next.set p (u.last + 1)) := by
          refine ⟨g6.id, fun a b e hb => ?_⟩
          by_cases ea : a = p
          · subst ea
            rw [hnp] at e
            exact absurd ((Option.some.inj e).symm.trans hk) hb
          · rw [List.getElem?_set_ne (by omega)]
            exact g6.next a b e hb
        refine ⟨{ u with next := u.next.set p (u.last + 1), last := u.last + 1 }, u.last, ?_, hshape, ?_, hext, ?_, ?_, 2, ?_⟩
        · unfold chainAdd
          simp only [rd_of_lt hul, Option.bind_eq_bind, Option.bind_some]
          rw [if_pos hnull']
        · exact ⟨g2.len, g2.old, g2.new⟩
        · simp
        · exact ⟨_, List.getElem?_eq_getElem hul, stops_iff.mp hnull'⟩
        · simp only
          have e1 : rd u.id p = some t.id[p] := by rw [rd_getElem?, (g2.old p hp').1, List.getElem?_eq_getElem hp']
          have e2 : rd (u.next.set p (u.last + 1)) p = some (u.last + 1) := by rw [rd_getElem?, List.getElem?_set_self hpu]
          simp only [chain]
          rw [e1]
          simp only [Option.bind_eq_bind, Option.bind_some]
          rw [if_neg hs, e2]
          simp only [Option.bind_some]
          rw [if_neg (by omega), Nat.add_sub_cancel, rd_of_lt hul]
          simp only [Option.bind_some]
          rw [if_pos hnull']
      · rw [if_neg hk]
        obtain ⟨t', q, c1, c2, c3, c4, c5, c6, m, c7⟩ := ih t (k - 1) h (by omega) (by omega)
        refine ⟨t', q, c1, c2, c3, c4, c5, c6, m + 1, ?_⟩
        unfold chain
        rw [rd_getElem?, c4.id p _ (List.getElem?_eq_getElem hp') hnull]
        simp only [Option.bind_eq_bind, Option.bind_some]
        rw [if_neg hs, rd_getElem?, c4.next p k hnp hk]
        simp only [Option.bind_some]
        rw [if_neg hk]
        exact c7

/-- Insertion of one vector. -/
theorem add1_spec {t : Table} {ks : List Key} (h : Inv ndims K t ks) (hks : ∀ k ∈ ks, ¬ isNull k = true) {x : Key} (hx : ¬ isNull x = true) (hl : x.length = ndims) :
    ∃ t', add1 ndims K x t = some t' ∧ Inv ndims K t' (ks ++ [x]) := by
  obtain ⟨p, hp⟩ : ∃ p, start t.id x K = some p := probe_total x h.pos (h.count.trans h.last) _ _ _
  have hpK : p < K := probe_lt _ _ h.pos _ hp
  obtain ⟨u, q, c1, c2, c3, c4, c5, ⟨s, c6, c7⟩, m, c8⟩ := chainAdd_spec (x := x) (t.id.length + 1) t p
    ⟨h.hlen, h.nlen, h.count, h.last, h.links, h.width, h.free⟩ (by have := h.count; omega) (by omega)
  have hqi : q < u.id.length := (List.getElem?_eq_some_iff.mp c6).1
  have hqh : q < u.h.length := by rw [c2.hlen]; exact hqi
  -- the counts of `u` are those of `t`
  have hold : ∀ (a : Nat) s, u.id[a]? = some s → ¬ isNull s = true → t.id[a]? = some s ∧ u.h[a]? = t.h[a]? := by
    intro a s e hn
    rcases Nat.lt_or_ge a t.id.length with ha | ha
    · have := c3.old a ha
      exact ⟨by rw [← this.1]; exact e, this.2⟩
    · exact absurd (c3.new a s ha e).1 hn
  have hstart : start u.id x K = some p := by
    rw [← hp]
    refine probe_congr _ h.pos _ fun a ha => (c3.old a ?_).1
    have := h.count.trans h.last
    omega
  have hK' : K ≤ u.id.length := c2.count.trans c2.last
  have hext : Ext u.id u.next (u.id.set q x) u.next := by
    refine ⟨fun a s' e hn => ?_, fun _ _ e _ => e⟩
    by_cases ea : a = q
    · subst ea
      rw [c6] at e
      obtain rfl := Option.some.inj e
      rcases c7 with h7 | h7
      · exact absurd h7 hn
      · rw [h7, List.getElem?_set_self hqi]
    · rw [List.getElem?_set_ne (by omega)]; exact e
  have hlinks : Links u.next (u.id.set q x).length := by
    rw [List.length_set]; exact links_mono c2.links c2.last
  have hloc : locate (u.id.set q x) u.next K x = some q :=
    locate_ext hext hlinks h.pos (by simpa using hK') hstart c8 c6 c7 (List.getElem?_set_self hqi)
  -- the count at `q`
  have hcount : u.h[q]? = some (ks.count x % 4294967296) := by
    rcases c7 with h7 | h7
    · -- a free column: `x` is not in the table
      have hnot : x ∉ ks := by
        intro hmem
        obtain ⟨a, ha⟩ := h.mem x hmem
        obtain ⟨l1, -, -⟩ := h.full a x ha hx
        have hal : a < t.id.length := (List.getElem?_eq_some_iff.mp ha).1
        have hau : (u.id.set q x)[a]? = some x := by
          by_cases e : a = q
          · rw [e, List.getElem?_set_self hqi]
          · rw [List.getElem?_set_ne (by omega), (c3.old a hal).1]; exact ha
        have hloc' : locate (u.id.set q x) u.next K x = some a := by
          unfold locate at l1
          rw [hp] at l1
          simp only [Option.bind_eq_bind, Option.bind_some] at l1
          exact locate_ext (c4.trans hext) hlinks h.pos (by simpa using hK') hp l1 ha (Or.inr rfl) hau
        rw [hloc] at hloc'
        have hqa := Option.some.inj hloc'
        subst hqa
        rw [(c3.old q hal).1, ha] at c6
        rw [← Option.some.inj c6] at h7
        exact hx h7
      rw [List.count_eq_zero.mpr hnot]
      rcases Nat.lt_or_ge q t.id.length with hq | hq
      · rw [(c3.old q hq).2]
        exact h.null q s (by rw [← (c3.old q hq).1]; exact c6) h7
      · exact (c3.new q s hq c6).2
    · subst h7
      obtain ⟨e1, e2⟩ := hold q s c6 hx
      rw [e2]
      exact (h.full q s e1 hx).2.1
  refine ⟨{ u with h := u.h.set q ((ks.count x % 4294967296 + 1) % 4294967296), id := u.id.set q x }, ?_, ?_⟩
  · unfold add1
    rw [if_neg hx, hp]
    simp only [Option.bind_eq_bind, Option.bind_some]
    rw [c1]
    simp only [Option.bind_some]
    rw [rd_getElem?, hcount]
    simp only [Option.bind_some]
    rw [wr_of_lt hqh]
    simp only [Option.bind_some]
    rw [wr_of_lt hqi]
    rfl
  · refine ⟨by simp [c2.hlen], by simp [c2.nlen], h.pos, c2.count, by simpa using c2.last, c2.links, ?_, ?_, ?_, ?_, ?_⟩
    · intro s' hs'
      rcases List.mem_or_eq_of_mem_set hs' with h' | h'
      · exact c2.width s' h'
      · rw [h', hl]
    · intro a ha
      simp only at ha ⊢
      rw [List.getElem?_set_ne (by omega)]
      exact c2.free a ha
    · intro a s' e hn
      simp only at e ⊢
      by_cases ea : a = q
      · subst ea
        rw [List.getElem?_set_self hqi] at e
        rw [← Option.some.inj e] at hn
        exact absurd hn hx
      · rw [List.getElem?_set_ne (by omega)] at e ⊢
        rcases Nat.lt_or_ge a t.id.length with hq | hq
        · rw [(c3.old a hq).2]
          exact h.null a s' (by rw [← (c3.old a hq).1]; exact e) hn
        · exact (c3.new a s' hq e).2
    · intro a s' e hn
      simp only at e ⊢
      by_cases ea : a = q
      · subst ea
        rw [List.getElem?_set_self hqi] at e
        obtain rfl := Option.some.inj e
        refine ⟨hloc, ?_, by simp⟩
        rw [List.getElem?_set_self hqh, List.count_append]
        simp
      · have e' := e
        rw [List.getElem?_set_ne (by omega)] at e ⊢
        obtain ⟨e1, e2⟩ := hold a s' e hn
        obtain ⟨l1, l2, l3⟩ := h.full a s' e1 hn
        have hloc' : locate (u.id.set q x) u.next K s' = some a := by
          unfold locate at l1
          cases hst : start t.id s' K with
          | none => rw [hst] at l1; simp at l1
          | some p' =>
            rw [hst] at l1
            simp only [Option.bind_eq_bind, Option.bind_some] at l1
            exact locate_ext (c4.trans hext) hlinks h.pos (by simpa using hK') hst l1 e1 (Or.inr rfl) e'
        refine ⟨hloc', ?_, by simp [l3]⟩
        have hne : s' ≠ x := by
          rintro rfl
          rw [hloc] at hloc'
          exact ea (Option.some.inj hloc').symm
        rw [e2, l2, List.count_append]
        simp [hne.symm]
    · intro k hk
      simp only
      rcases List.mem_append.mp hk with h' | h'
      · obtain ⟨a, ha⟩ := h.mem k h'
        by_cases hkn : isNull k = true
        · -- a null vector is never inserted
          exact absurd hkn (hks k h')
        · exact ⟨a, (c4.trans hext).id a k ha hkn⟩
      · rw [List.mem_singleton] at h'
        exact ⟨q, by rw [h', List.getElem?_set_self hqi]⟩

theorem inv_empty (hK : 0 < K) {n : Nat} (hn : K ≤ n) : Inv ndims K (emptyTable ndims n) [] := by
  have hid : ∀ (p : Nat) s, (emptyTable ndims n).id[p]? = some s → p < n ∧ isNull s = true := fun p s e => by
    simp only [emptyTable, List.getElem?_replicate] at e
    split at e
    · rw [← Option.some.inj e]; exact ⟨‹_›, isNull_replicate _⟩
    · simp at e
  have hnx : ∀ (p : Nat) (m : Nat), (emptyTable ndims n).next[p]? = some m → m = 0 := fun p m e => by
    simp only [emptyTable, List.getElem?_replicate] at e
    split at e
    · exact (Option.some.inj e).symm
    · simp at e
  refine ⟨by simp [emptyTable], by simp [emptyTable], hK, hn, by simp [emptyTable], fun p q e => Or.inl (hnx p q e), ?_,
    fun p _ => ⟨fun s e => (hid p s e).2, fun m e => hnx p m e⟩, ?_, fun p s e hs => absurd (hid p s e).2 hs, by simp⟩
  · intro s hs
    rw [(List.mem_replicate.mp hs).2]; simp
  · intro p s e _
    simp [emptyTable, (hid p s e).1]

theorem adds_spec (X : List Key) {t : Table} {ks : List Key} (h : Inv ndims K t ks) (hks : ∀ k ∈ ks, ¬ isNull k = true)
    (hX : ∀ x ∈ X, isNull x = false ∧ x.length = ndims) :
    ∃ t', X.foldlM (fun t x => add1 ndims K x t) t = some t' ∧ Inv ndims K t' (ks ++ X) := by
  induction X generalizing t ks with
  | nil => exact ⟨t, rfl, by simpa using h⟩
  | cons x X ih =>
    obtain ⟨h1, h2⟩ := hX x (by simp)
    obtain ⟨t1, e1, e2⟩ := add1_spec h hks (by simp [h1]) h2
    obtain ⟨t2, f1, f2⟩ := ih e2 (by
      intro k hk
      rcases List.mem_append.mp hk with h' | h'
      · exact hks k h'
      · rw [List.mem_singleton.mp h']; simp [h1]) fun y hy => hX y (by simp [hy])
    refine ⟨t2, ?_, by simpa using f2⟩
    rw [List.foldlM_cons, e1]
    exact f1

theorem trim_spec {t : Table} {ks : List Key} (h : Inv ndims K t ks) (hks : ∀ k ∈ ks, ¬ isNull k = true) :
    Inv ndims K { h := t.h.take t.last, id := t.id.take t.last, next := t.next.take t.last, last := t.last } ks := by
  have hl := h.last
  have hlen : (t.id.take t.last).length = t.last := by rw [List.length_take]; omega
  have hget : ∀ (p : Nat) s, (t.id.take t.last)[p]? = some s → p < t.last ∧ t.id[p]? = some s := fun p s e => by
    have := (List.getElem?_eq_some_iff.mp e).1
    rw [List.getElem?_take_of_lt (by omega)] at e
    exact ⟨by omega, e⟩
  have hext : Ext t.id t.next (t.id.take t.last) (t.next.take t.last) := by
    refine ⟨fun p s e hs => ?_, fun p m e hm => ?_⟩
    · rcases Nat.lt_or_ge p t.last with hp | hp
      · rw [List.getElem?_take_of_lt hp]; exact e
      · exact absurd ((h.free p hp).1 s e) hs
    · rcases Nat.lt_or_ge p t.last with hp | hp
      · rw [List.getElem?_take_of_lt hp]; exact e
      · exact absurd ((h.free p hp).2 m e) hm
  have hlinks : Links (t.next.take t.last) t.last := fun p q e => by
    have := (List.getElem?_eq_some_iff.mp e).1
    rw [List.length_take] at this
    rw [List.getElem?_take_of_lt (by omega)] at e
    exact h.links p q e
  refine ⟨by simp [h.hlen], by simp [h.nlen], h.pos, h.count, by simp only [hlen, le_refl], hlinks,
    fun s hs => h.width s (List.mem_of_mem_take hs), fun p hp => ?_, fun p s e hs => ?_, fun p s e hs => ?_, fun k hk => ?_⟩
  · simp only at hp ⊢
    refine ⟨fun s e => ?_, fun m e => ?_⟩
    · exact absurd (hget p s e).1 (by omega)
    · have := (List.getElem?_eq_some_iff.mp e).1
      rw [List.length_take] at this
      omega
  · obtain ⟨g1, g2⟩ := hget p s e
    simp only
    rw [List.getElem?_take_of_lt g1]
    exact h.null p s g2 hs
  · obtain ⟨g1, g2⟩ := hget p s e
    obtain ⟨l1, l2, l3⟩ := h.full p s g2 hs
    refine ⟨?_, ?_, l3⟩
    · unfold locate at l1
      cases hst : start t.id s K with
      | none => rw [hst] at l1; simp at l1
      | some p' =>
        rw [hst] at l1
        simp only [Option.bind_eq_bind, Option.bind_some] at l1
        exact locate_ext hext (by rw [hlen]; exact hlinks) h.pos (by rw [hlen]; exact h.count) hst l1 g2 (Or.inr rfl) e
    · simp only
      rw [List.getElem?_take_of_lt g1]
      exact l2
  · obtain ⟨p, hp⟩ := h.mem k hk
    exact ⟨p, hext.id p k hp (hks k hk)⟩

theorem calls_inv {Xs : List (List Key)} (hX : ∀ X ∈ Xs, ∀ x ∈ X, isNull x = false ∧ x.length = ndims) {t : Table} {ks : List Key}
    (h : Inv ndims K t ks) (hks : ∀ k ∈ ks, ¬ isNull k = true) (hl : t.last = t.id.length) :
    ∃ t', calls t ndims K Xs = some t' ∧ Inv ndims K t' (ks ++ Xs.flatten) ∧ t'.last = t'.id.length := by
  induction Xs generalizing t ks with
  | nil => exact ⟨t, rfl, by simpa using h, hl⟩
  | cons X Xs ih =>
    obtain ⟨u, u1, u2⟩ := adds_spec X h hks (hX X (by simp))
    have hks' : ∀ k ∈ ks ++ X, ¬ isNull k = true := by
      intro k hk
      rcases List.mem_append.mp hk with h' | h'
      · exact hks k h'
      · have := (hX X (by simp) k h').1
        simp [this]
    have hu := u2.last
    obtain ⟨v, v1, v2, v3⟩ := ih (fun Y hY => hX Y (by simp [hY])) (trim_spec u2 hks') hks' (by
      simp only [List.length_take]; omega)
    refine ⟨v, ?_, by simpa using v2, v3⟩
    have ht : { t with last := t.id.length } = t := by rw [← hl]
    unfold calls at v1 ⊢
    rw [List.foldlM_cons]
    have hc : K ≤ t.id.length ∧ ∀ n ∈ t.next, n ≤ t.id.length := by
      refine ⟨by rw [← hl]; exact h.count, fun m hm => ?_⟩
      obtain ⟨p, hp, e⟩ := List.getElem_of_mem hm
      have := h.links p m (by rw [List.getElem?_eq_getElem hp, e])
      omega
    have : ihashsum t ndims K X = some { h := u.h.take u.last, id := u.id.take u.last, next := u.next.take u.last, last := u.last } := by
      unfold ihashsum
      rw [if_pos hc, ht, u1]
      rfl
    rw [this]
    exact v1

theorem find1_spec {t : Table} {ks : List Key} (h : Inv ndims K t ks) {k : Key} (hk : isNull k = false) :
    (k ∈ ks → ∃ p, find1 t K k = some (p + 1) ∧ t.id[p]? = some k ∧ t.h[p]? = some (ks.count k % 4294967296)) ∧
      (k ∉ ks → find1 t K k = some 0) := by
  have hk' : ¬ isNull k = true := by simp [hk]
  have hf : ∀ q, locate t.id t.next K k = some q → find1 t K k = (rd t.id q).bind fun s => some (if s == k then q + 1 else 0) := by
    intro q hq
    unfold find1 locate at *
    rw [if_neg hk']
    simp only [Option.bind_eq_bind] at hq ⊢
    rw [← Option.bind_assoc, hq, Option.bind_some]
  refine ⟨fun hm => ?_, fun hm => ?_⟩
  · obtain ⟨p, hp⟩ := h.mem k hm
    obtain ⟨l1, l2, -⟩ := h.full p k hp hk'
    refine ⟨p, ?_, hp, l2⟩
    rw [hf p l1, rd_getElem?, hp]
    simp
  · obtain ⟨p, hp⟩ : ∃ p, start t.id k K = some p := probe_total k h.pos (h.count.trans h.last) _ _ _
    have hpK : p < K := probe_lt _ _ h.pos _ hp
    have := h.count.trans h.last
    obtain ⟨q, hq, hql⟩ := chain_total h.nlen (links_mono h.links h.last) k t.id.length p (by omega) (by omega)
    have hl : locate t.id t.next K k = some q := by
      unfold locate
      rw [hp]
      exact hq
    rw [hf q hl, rd_of_lt hql, Option.bind_some, if_neg]
    intro e
    have e : t.id[q] = k := by simpa using e
    exact hm (h.full q k (by rw [List.getElem?_eq_getElem hql, e]) hk').2.2

/-- **C40.** Any sequence of calls on an empty table, with any number of columns not below `K`, ends without an error as long as no
vector is null.  The resulting table contains every vector once; a vector that was presented is found at the column that contains
it, with the number of times it was presented (modulo `2^32`); any other vector is not found. -/
theorem calls_correct (hK : 0 < K) {n : Nat} (hn : K ≤ n) {Xs : List (List Key)}
    (hX : ∀ X ∈ Xs, ∀ x ∈ X, isNull x = false ∧ x.length = ndims) :
    ∃ t, calls (emptyTable ndims n) ndims K Xs = some t ∧ t.h.length = t.id.length ∧
      (∀ k : Key, k.length = ndims → isNull k = false →
        (k ∈ Xs.flatten → ∃ p, find1 t K k = some (p + 1) ∧ t.id[p]? = some k ∧ t.h[p]? = some (Xs.flatten.count k % 4294967296)) ∧
        (k ∉ Xs.flatten → find1 t K k = some 0)) ∧
      (∀ (p q : Nat) s, t.id[p]? = some s → t.id[q]? = some s → isNull s = false → p = q) ∧
      ∀ (p : Nat) s, t.id[p]? = some s → isNull s = true → t.h[p]? = some 0 := by
  obtain ⟨t, h1, h2, -⟩ := calls_inv hX (inv_empty hK hn) (by simp) (by simp [emptyTable])
  rw [List.nil_append] at h2
  refine ⟨t, h1, h2.hlen, fun k _ hk => find1_spec h2 hk, fun p q s hp hq hs => ?_, fun p s hp hs => h2.null p s hp hs⟩
  have e1 := (h2.full p s hp (by simp [hs])).1
  have e2 := (h2.full q s hq (by simp [hs])).1
  rw [e1] at e2
  exact Option.some.inj e2

/-- The search function applied to a table made by the insertion function passes its checks and gives the results of the searches
one by one. -/
theorem ihashfind_calls (hK : 0 < K) {n : Nat} (hn : K ≤ n) {Xs : List (List Key)}
    (hX : ∀ X ∈ Xs, ∀ x ∈ X, isNull x = false ∧ x.length = ndims) (Y : List Key) :
    ∃ t sel, calls (emptyTable ndims n) ndims K Xs = some t ∧ ihashfind t K Y = some sel ∧
      List.Forall₂ (fun y p => p = 0 ∧ (isNull y = true ∨ y ∉ Xs.flatten) ∨
        isNull y = false ∧ y ∈ Xs.flatten ∧ 0 < p ∧ t.id[p - 1]? = some y) Y sel := by
  obtain ⟨t, h1, h2, h3⟩ := calls_inv hX (inv_empty hK hn) (by simp) (by simp [emptyTable])
  rw [List.nil_append] at h2
  have hc : K ≤ t.id.length ∧ ∀ n ∈ t.next, n ≤ t.id.length := by
    refine ⟨h2.count.trans h2.last, fun m hm => ?_⟩
    obtain ⟨p, hp, e⟩ := List.getElem_of_mem hm
    have := h2.links p m (by rw [List.getElem?_eq_getElem hp, e])
    omega
  refine ⟨t, ?_⟩
  have : ∃ sel, Y.mapM (find1 t K) = some sel ∧
      List.Forall₂ (fun y p => p = 0 ∧ (isNull y = true ∨ y ∉ Xs.flatten) ∨
        isNull y = false ∧ y ∈ Xs.flatten ∧ 0 < p ∧ t.id[p - 1]? = some y) Y sel := by

    induction Y with
    | nil => exact ⟨[], rfl, .nil⟩
    | cons y Y ih =>
      obtain ⟨sel, s1, s2⟩ := ih
      by_cases hy : isNull y = true
      · refine ⟨0 :: sel, ?_, .cons (Or.inl ⟨rfl, Or.inl hy⟩) s2⟩
        rw [List.mapM_cons, s1]
        simp [find1, hy]
      · have hy' : isNull y = false := by simpa using hy
        obtain ⟨f1, f2⟩ := find1_spec h2 hy'
        by_cases hm : y ∈ Xs.flatten
        · obtain ⟨p, p1, p2, -⟩ := f1 hm
          refine ⟨(p + 1) :: sel, ?_, .cons (Or.inr ⟨hy', hm, by omega, by simpa using p2⟩) s2⟩
          rw [List.mapM_cons, s1, p1]
          rfl
        · refine ⟨0 :: sel, ?_, .cons (Or.inl ⟨rfl, Or.inr hm⟩) s2⟩
          rw [List.mapM_cons, s1, f2 hm]
          rfl
  obtain ⟨sel, s1, s2⟩ := this
  exact ⟨sel, h1, by unfold ihashfind; rw [if_pos hc]; exact s1, s2⟩

example : (calls (emptyTable 2 1) 2 1 [[[1, 2], [3, 4], [1, 2]], [[5, 6], [1, 2], [3, 4]]]).map
    (fun t => (t.h, t.id, t.next)) = some ([3, 2, 1], [[1, 2], [3, 4], [5, 6]], [2, 3, 0]) := by decide +kernel
example := calls_correct (ndims := 2) (K := 1) (by decide) (n := 1) (by decide)
  (Xs := [[[1, 2], [3, 4], [1, 2]], [[5, 6], [1, 2], [3, 4]]]) (by decide)

end Verif.Toolbox
