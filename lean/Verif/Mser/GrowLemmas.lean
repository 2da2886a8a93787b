import Verif.Mser.ClimbLemmas
import Verif.Mser.SortProps
import Verif.Mser.Spec

/-!
# The construction of the forest of regions
-/

namespace Verif.Mser

open Verif.Erfill (Touch coords offsetOf stridesFrom)

variable {im dims : List Nat} {nel : Nat} {done : Finset Nat} {s : St} {f : Nat → Reg}

/-- The parents stored in the regions. -/
def par (f : Nat → Reg) : Nat → Nat := fun p => (f p).parent

/-- The shortcuts stored in the regions. -/
def sct (f : Nat → Reg) : Nat → Nat := fun p => (f p).shortcut

/-- The root of a pixel. -/
abbrev rt (s : St) (f : Nat → Reg) (q : Nat) : Nat := rootOf (par f) s.joins q

/-- What holds once the pixels `done` are in the forest. -/
structure Inv (im : List Nat) (nel : Nat) (done : Finset Nat) (s : St) (f : Nat → Reg) : Prop where
  arr : Arr s.r nel f
  isVoid : ∀ p < nel, p ∉ done → (f p).parent = void
  lt : ∀ p ∈ done, p < nel
  forest : Forest (par f) (sct f) s.joins done
  area : ∀ p ∈ done, p ∉ s.joins → (f p).area = (done.filter (fun q => rt s f q = p)).card
  mono : ∀ j ∈ s.joins, pix im j ≤ pix im (par f j)
  ner : s.ner = (s.joins.filter (fun j => pix im j ≠ pix im (par f j))).length

/-- What later steps on pixels of intensity `v` at least do not change. -/
def Later (im : List Nat) (v : Nat) (s : St) (f : Nat → Reg) (s' : St) (f' : Nat → Reg) : Prop :=
  ∃ new, s'.joins = s.joins ++ new ∧ (∀ j ∈ s.joins, par f' j = par f j) ∧ (∀ j ∈ new, v ≤ pix im (par f' j)) ∧ ∀ p, pix im p < v → (f' p).area = (f p).area

theorem Later.refl {v : Nat} : Later im v s f s f := ⟨[], by simp, fun _ _ => rfl, by simp, fun _ _ => rfl⟩

theorem Later.trans {v : Nat} {s' s'' : St} {f' f'' : Nat → Reg} (h1 : Later im v s f s' f') (h2 : Later im v s' f' s'' f'') : Later im v s f s'' f'' := by
  obtain ⟨n1, a1, b1, c1, d1⟩ := h1
  obtain ⟨n2, a2, b2, c2, d2⟩ := h2
  refine ⟨n1 ++ n2, by rw [a2, a1, List.append_assoc], ?_, ?_, ?_⟩
  · intro j hj
    rw [b2 j (by rw [a1]; simp [hj]), b1 j hj]
  · intro j hj
    rcases List.mem_append.mp hj with h | h
    · rw [b2 j (by rw [a1]; simp [h])]; exact c1 j h
    · exact c2 j h
  · intro p hp; rw [d2 p hp, d1 p hp]

theorem Later.weaken {v w : Nat} {s' : St} {f' : Nat → Reg} (h : Later im v s f s' f') (hw : w ≤ v) : Later im w s f s' f' := by
  obtain ⟨n, a, b, c, d⟩ := h
  exact ⟨n, a, b, fun j hj => le_trans hw (c j hj), fun p hp => d p (by omega)⟩

/-- A search of the root keeps everything. -/
theorem Inv.climb (hI : Inv im nel done s f) {p : Nat} (hp : p ∈ done) :
    ∃ r' f', Mser.climb s.r p = some (r', rt s f p) ∧ Inv im nel done { s with r := r' } f' ∧ par f' = par f ∧ ∀ q, (f' q).area = (f q).area := by
  obtain ⟨r', f', e, h1, h2, h3⟩ := climb_spec (par := par f) (joins := s.joins) (done := done) (f := f) hI.forest hI.arr hI.lt hp
  have hpar : par f' = par f := by funext q; exact (h3 q).1
  refine ⟨r', f', e, ⟨h1, ?_, hI.lt, ?_, ?_, ?_, ?_⟩, hpar, fun q => (h3 q).2.1⟩
  · intro q hq hd; rw [(h3 q).1]; exact hI.isVoid q hq hd
  · rw [hpar]; exact h2
  · intro q hq hj
    rw [(h3 q).2.1]
    simp only [rt, hpar]
    exact hI.area q hq hj
  · rw [hpar]; exact hI.mono
  · rw [hpar]; exact hI.ner

/-- A join keeps the invariant. -/
theorem Inv.join (hI : Inv im nel done s f) {a b : Nat} (ha : a ∈ done) (hb : b ∈ done) (haj : a ∉ s.joins) (hbj : b ∉ s.joins) (hab : a ≠ b) {s' : St} {f' : Nat → Reg}
    (hr : Arr s'.r nel f') (hj : s'.joins = s.joins ++ [a])
    (hpa : (f' a).parent = b) (hsa : (f' a).shortcut = b) (hpo : ∀ q, q ≠ a → (f' q).parent = (f q).parent) (hso : ∀ q, q ≠ a → (f' q).shortcut = (f q).shortcut)
    (harb : (f' b).area = (f b).area + (f a).area) (haro : ∀ q, q ≠ b → (f' q).area = (f q).area) (hm : pix im a ≤ pix im b)
    (hner : s'.ner = if pix im a ≠ pix im b then s.ner + 1 else s.ner) : Inv im nel done s' f' := by
  have hroot : ∀ q, rt s' f' q = if rt s f q = a then b else rt s f q := by
    intro q; simp only [rt, hj]
    exact Forest.rootOf_join haj hpa hpo q
  have hne : ∀ j ∈ s.joins, j ≠ a := fun j hj e => haj (e ▸ hj)
  refine ⟨hr, ?_, hI.lt, ?_, ?_, ?_, ?_⟩
  · intro p hp hd
    rw [hpo p (fun e => hd (e ▸ ha))]; exact hI.isVoid p hp hd
  · rw [hj]
    exact hI.forest.join ha hb haj hbj hab hpa hpo hsa hso
  · intro p hp hpj
    rw [hj] at hpj
    simp only [List.mem_append, List.mem_singleton, not_or] at hpj
    by_cases e : p = b
    · subst e
      rw [harb, hI.area p hb hbj, hI.area a ha haj, ← Finset.card_union_of_disjoint]
      · congr 1
        ext q
        simp only [Finset.mem_union, Finset.mem_filter, hroot]
        constructor
        · rintro (⟨h1, h2⟩ | ⟨h1, h2⟩)
          · exact ⟨h1, by rw [h2, if_neg (fun e => hab e.symm)]⟩
          · exact ⟨h1, by rw [if_pos h2]⟩
        · rintro ⟨h1, h2⟩
          split_ifs at h2 with h3
          · exact Or.inr ⟨h1, h3⟩
          · exact Or.inl ⟨h1, h2⟩
      · rw [Finset.disjoint_filter]
        intro q _ h1 h2
        exact hab (h2.symm.trans h1)
    · rw [haro p e, hI.area p hp hpj.1]
      congr 1
      ext q
      simp only [Finset.mem_filter, hroot]
      constructor
      · rintro ⟨h1, h2⟩
        exact ⟨h1, by rw [h2, if_neg hpj.2]⟩
      · rintro ⟨h1, h2⟩
        split_ifs at h2 with h3
        · exact absurd h2.symm e
        · exact ⟨h1, h2⟩
  · intro j hjj
    rw [hj] at hjj
    rcases List.mem_append.mp hjj with h | h
    · simp only [par]; rw [hpo j (hne j h)]; exact hI.mono j h
    · simp at h; subst h; simp only [par]; rw [hpa]; exact hm
  · rw [hj, List.filter_append, List.length_append, hner]
    have : s.joins.filter (fun j => pix im j ≠ pix im (par f' j)) = s.joins.filter (fun j => pix im j ≠ pix im (par f j)) := by
      apply List.filter_congr
      intro j hj
      have e : par f' j = par f j := hpo j (hne j hj)
      rw [e]
    rw [this, ← hI.ner, List.filter_singleton]
    simp only [par, hpa]
    split_ifs with h1 <;> simp_all

/-- The classes of the forest are those of the edges `E`. -/
def Classes (s : St) (f : Nat → Reg) (E : Nat → Nat → Prop) : Prop := ∀ p q, rt s f p = rt s f q ↔ Relation.EqvGen E p q

/-- The visit of a neighbour that is in the forest. -/
theorem visit_spec (hl : im.length = nel) (hI : Inv im nel done s f) (hv : nel ≤ void) {strides subs : List Nat} {off : List Int} {idx q : Nat} (hidx : idx ∈ done)
    (hmax : ∀ p ∈ done, pix im p ≤ pix im idx) (hroot : pix im (rt s f idx) = pix im idx) (hsr : s.root < nel)
    (hn : Erfill.neighbour off subs dims strides 0 = some (q : Int)) (hq : q ∈ done) (hqi : q ≠ idx) :
    ∃ s' f', visit im dims strides nel idx (pix im idx) subs off s = some s' ∧ Inv im nel done s' f' ∧ pix im (rt s' f' idx) = pix im idx ∧ s'.root < nel ∧
      Later im (pix im idx) s f s' f' ∧ ∀ E, Classes s f E → Classes s' f' (fun a b => E a b ∨ (a = idx ∧ b = q) ∨ (a = q ∧ b = idx)) := by
  have hql := hI.lt q hq
  have hpl : (f q).parent ≠ void := by
    have := hI.lt _ (hI.forest.parD q hq)
    simp only [par] at this
    omega
  unfold visit
  rw [hn]
  simp only
  rw [if_neg (by exact_mod_cast hqi), rdI_nat, hI.arr.rd hql]
  simp only [Option.bind_eq_bind, Option.bind_some]
  rw [if_neg hpl, hI.arr.rd hsr]
  simp only [Option.bind_some]
  rw [hI.arr.rd (show 0 < nel by omega)]
  simp only [Option.bind_some, Int.toNat_natCast]
  obtain ⟨r1, f1, e1, hI1, hp1, ha1⟩ := hI.climb hidx
  obtain ⟨r2, f2, e2, hI2, hp2, ha2⟩ := hI1.climb hq
  simp only at e2
  rw [e1]; simp only [Option.bind_some]
  rw [e2]; simp only [Option.bind_some]
  have hrt : ∀ p, rt { s with r := r1 } f1 p = rt s f p := fun p => by simp only [rt, hp1]
  simp only [rt, hp1] at e2 hp2 hroot
  have hlater : Later im (pix im idx) s f { s with r := r2, root := rootOf (par f) s.joins idx } f2 :=
    ⟨[], by simp, fun j _ => by rw [hp2], by simp, fun p _ => by rw [ha2, ha1]⟩
  have hri := hI.forest.rootOf_done hidx
  have hni := hI.forest.rootOf_done hq
  have hrij := hI.forest.rootOf_root idx
  have hnij := hI.forest.rootOf_root q
  have hroots : ∀ E, Classes s f E → ∀ {s' : St} {f' : Nat → Reg}, (∀ p, rt s' f' p = if rt s f p = rt s f idx then rt s f q else rt s f p) ∨
      (∀ p, rt s' f' p = if rt s f p = rt s f q then rt s f idx else rt s f p) →
      Classes s' f' (fun a b => E a b ∨ (a = idx ∧ b = q) ∨ (a = q ∧ b = idx)) := by
    intro E hE s' f' h
    rcases h with h | h
    · intro a b
      exact union_edge (u := idx) (w := q) hE (fun a b => Iff.rfl) h a b
    · intro a b
      exact union_edge (u := q) (w := idx) hE (fun a b => by rw [or_comm (a := a = q ∧ b = idx)]) h a b
  obtain ⟨ri, hrie⟩ : ∃ ri, rootOf (par f) s.joins idx = ri := ⟨_, rfl⟩
  obtain ⟨ni, hnie⟩ : ∃ ni, rootOf (par f) s.joins q = ni := ⟨_, rfl⟩
  have hrie' := hrie
  have hnie' := hnie
  simp only [rt] at hroots hroot e1 e2
  rw [hrie] at hroot hri hrij e1 hlater
  rw [hnie] at hni hnij e2
  simp only [hrie, hnie] at hroots
  clear hrt
  simp only at hI2
  simp only [rt, hp1, hrie, hnie]
  by_cases hsame : ri = ni
  · rw [if_pos hsame]
    refine ⟨_, f2, rfl, ⟨hI2.arr, hI2.isVoid, hI2.lt, hI2.forest, hI2.area, hI2.mono, hI2.ner⟩, ?_, hI.lt _ hri, hlater, fun E hE => hroots E hE (Or.inl (fun p => ?_))⟩
    · simp only [hp2, hrie]; exact hroot
    · simp only [hp2]
      split_ifs with h
      · rw [h]; exact hsame
      · rfl
  · rw [if_neg hsame, rd_pix (by rw [hl]; exact hI.lt _ hni), hI2.arr.rd (hI.lt _ hri), hI2.arr.rd (hI.lt _ hni)]
    simp only [Option.bind_some]
    have hlen : s.joins.length < nel := by
      have h1 : (ri :: s.joins).Nodup := List.nodup_cons.mpr ⟨hrij, hI.forest.nodup⟩
      have := Erfill.length_le_card h1 (n := nel) (by
        intro x hx
        rcases List.mem_cons.mp hx with e | e
        · rw [e]; exact hI.lt _ hri
        · exact hI.lt _ (hI.forest.sub x e))
      simpa using this
    have hpush : ∀ a, push nel s.joins a = some (s.joins ++ [a]) := fun a => by simp [push, hlen]
    by_cases hc : pix im ni = pix im idx ∧ (f s.root).height < (f 0).height
    · rw [if_pos hc]
      obtain ⟨r3, e3, h3⟩ := hI2.arr.wr (hI.lt _ hri) { f2 ri with parent := ni, shortcut := ni }
      obtain ⟨r4, e4, h4⟩ := h3.wr (hI.lt _ hni) { f2 ni with area := (f2 ni).area + (f2 ri).area, height := max (f 0).height ((f s.root).height + 1) }
      simp only at e3
      simp only [e3, Option.bind_some, e4, hpush]
      have hfb : ∀ x, x ≠ ni → upd1 (upd1 f2 ri { f2 ri with parent := ni, shortcut := ni }) ni
        { f2 ni with area := (f2 ni).area + (f2 ri).area, height := max (f 0).height ((f s.root).height + 1) } x = upd1 f2 ri { f2 ri with parent := ni, shortcut := ni } x := by
        intro x hx; simp [upd1, hx]
      have hinv := hI2.join (a := ri) (b := ni) (s' := ⟨r4, s.joins ++ [ri], s.ner, ri⟩) hri hni hrij hnij hsame h4 rfl (by simp [upd1, hsame]) (by simp [upd1, hsame])
        (by intro x hx; simp only [upd1]; by_cases g : x = ni <;> simp [g, hx]) (by intro x hx; simp only [upd1]; by_cases g : x = ni <;> simp [g, hx]) (by simp [upd1])
        (by intro x hx; simp only [upd1]; rw [if_neg hx]; by_cases g : x = ri <;> simp [g]) (by omega) (by rw [if_neg (by omega)])
      refine ⟨_, _, rfl, hinv, ?_, hI.lt _ hri, ?_, fun E hE => hroots E hE (Or.inl (fun p => ?_))⟩
      · rw [Forest.rootOf_join (par := par f) (b := ni) hrij (by simp [par, upd1, hsame]) (by intro x hx; rw [← hp2]; simp only [par, upd1]; by_cases g : x = ni <;> simp [g, hx]) idx, hrie, if_pos rfl]
        omega
      · refine ⟨[ri], rfl, fun j hj => ?_, fun j hj => ?_, fun p hp => ?_⟩
        · have : j ≠ ri := fun e => hrij (e ▸ hj)
          rw [← hp2]; simp only [par, upd1]; by_cases g : j = ni <;> simp [g, this]
        · simp at hj; subst hj
          simp only [par, upd1, if_neg hsame, if_true]
          omega
        · have : p ≠ ni := fun e => by subst e; omega
          simp only [upd1, if_neg this]
          by_cases g : p = ri
          · simp [g, ha1, ha2]
          · simp [g, ha1, ha2]
      · rw [Forest.rootOf_join (par := par f) (b := ni) hrij (by simp [par, upd1, hsame]) (by intro x hx; rw [← hp2]; simp only [par, upd1]; by_cases g : x = ni <;> simp [g, hx]) p]
    · rw [if_neg hc]
      obtain ⟨r3, e3, h3⟩ := hI2.arr.wr (hI.lt _ hni) { f2 ni with parent := ri, shortcut := ri }
      obtain ⟨r4, e4, h4⟩ := h3.wr (hI.lt _ hri) { f2 ri with area := (f2 ri).area + (f2 ni).area, height := max (f s.root).height ((f 0).height + 1) }
      simp only at e3
      simp only [e3, Option.bind_some, e4, hpush]
      have hsame' : ¬ ni = ri := fun e => hsame e.symm
      have hmn := hmax ni hni
      have hinv := hI2.join (a := ni) (b := ri) (s' := ⟨r4, s.joins ++ [ni], if pix im ni ≠ pix im idx then s.ner + 1 else s.ner, ri⟩) hni hri hnij hrij hsame' h4 rfl
        (by simp [upd1, hsame']) (by simp [upd1, hsame'])
        (by intro x hx; simp only [upd1]; by_cases g : x = ri <;> simp [g, hx]) (by intro x hx; simp only [upd1]; by_cases g : x = ri <;> simp [g, hx]) (by simp [upd1])
        (by intro x hx; simp only [upd1]; rw [if_neg hx]; by_cases g : x = ni <;> simp [g]) (by omega) (by rw [hroot])
      refine ⟨_, _, rfl, hinv, ?_, hI.lt _ hri, ?_, fun E hE => hroots E hE (Or.inr (fun p => ?_))⟩
      · rw [Forest.rootOf_join (par := par f) (b := ri) hnij (by simp [par, upd1, hsame']) (by intro x hx; rw [← hp2]; simp only [par, upd1]; by_cases g : x = ri <;> simp [g, hx]) idx, hrie, if_neg hsame]
        exact hroot
      · refine ⟨[ni], rfl, fun j hj => ?_, fun j hj => ?_, fun p hp => ?_⟩
        · have : j ≠ ni := fun e => hnij (e ▸ hj)
          rw [← hp2]; simp only [par, upd1]; by_cases g : j = ri <;> simp [g, this]
        · simp at hj; subst hj
          simp only [par, upd1, if_neg hsame', if_true]
          omega
        · have : p ≠ ri := fun e => by subst e; omega
          simp only [upd1, if_neg this]
          by_cases g : p = ni
          · simp [g, ha1, ha2]
          · simp [g, ha1, ha2]
      · rw [Forest.rootOf_join (par := par f) (b := ri) hnij (by simp [par, upd1, hsame']) (by intro x hx; rw [← hp2]; simp only [par, upd1]; by_cases g : x = ri <;> simp [g, hx]) p]

/-- Two pixels of a set that touch. -/
def TouchOn (dims : List Nat) (S : Finset Nat) (a b : Nat) : Prop := Touch dims a b ∧ a ∈ S ∧ b ∈ S

/-- The offset `off` leads from `idx` to `q`. -/
def Leads (dims : List Nat) (off : List Int) (idx q : Nat) : Prop :=
  (coords dims q).map (fun (x : Nat) => (x : Int)) = List.zipWith (fun (o : Int) (c : Nat) => o + c) off (coords dims idx)

/-- What the loop over the neighbours of `idx` maintains. -/
structure Step (im dims : List Nat) (nel : Nat) (done : Finset Nat) (idx : Nat) (s0 : St) (f0 : Nat → Reg) (s : St) (f : Nat → Reg) (E : Nat → Nat → Prop) : Prop where
  inv : Inv im nel done s f
  root : pix im (rt s f idx) = pix im idx
  rlt : s.root < nel
  later : Later im (pix im idx) s0 f0 s f
  classes : Classes s f E
  sub : ∀ a b, E a b → TouchOn dims done a b
  old : ∀ a b, TouchOn dims (done.erase idx) a b → E a b

theorem visit_any (hd : nel = dims.prod) (hl : im.length = nel) (hv : nel ≤ void) {idx : Nat} (hidx : idx ∈ done) (hmax : ∀ p ∈ done, pix im p ≤ pix im idx)
    {s0 : St} {f0 : Nat → Reg} {E : Nat → Nat → Prop} (h : Step im dims nel done idx s0 f0 s f E) {off : List Int} (hol : off.length = dims.length) (ho : ∀ o ∈ off, -1 ≤ o ∧ o ≤ 1) :
    ∃ s' f' E', visit im dims (stridesFrom 1 dims) nel idx (pix im idx) (coords dims idx) off s = some s' ∧ Step im dims nel done idx s0 f0 s' f' E' ∧
      (∀ a b, E a b → E' a b) ∧ ∀ q ∈ done, q ≠ idx → Leads dims off idx q → E' idx q := by
  have hil := h.inv.lt idx hidx
  have hlen : (coords dims idx).length = dims.length := Erfill.coords_length _ _
  cases hn : Erfill.neighbour off (coords dims idx) dims (stridesFrom 1 dims) 0 with
  | none =>
    refine ⟨s, f, E, by simp [visit, hn], h, fun _ _ h => h, fun q hq _ hL => ?_⟩
    have := Erfill.neighbour_of dims off (coords dims idx) 1 0 q hol hlen (by rw [← hd]; exact h.inv.lt q hq) hL
    rw [hn] at this; cases this
  | some m =>
    obtain ⟨q, hm, hq, hL⟩ := Erfill.neighbour_some dims off (coords dims idx) 1 0 m hol hlen hn
    have hmq : m = (q : Int) := by rw [hm]; simp
    subst hmq
    have huniq : ∀ q' ∈ done, Leads dims off idx q' → q' = q := by
      intro q' hq' hL'
      have := Erfill.neighbour_of dims off (coords dims idx) 1 0 q' hol hlen (by rw [← hd]; exact h.inv.lt q' hq') hL'
      rw [hn] at this
      simp only [Nat.cast_one, one_mul, zero_add, Option.some.injEq, Nat.cast_inj] at this
      exact this.symm
    by_cases hqi : q = idx
    · refine ⟨s, f, E, by simp [visit, hn, hqi], h, fun _ _ h => h, fun q' hq' hne hL' => ?_⟩
      exact absurd ((huniq q' hq' hL').trans hqi) hne
    by_cases hqd : q ∈ done
    · obtain ⟨s', f', e, h1, h2, h3, h4, h5⟩ := visit_spec hl h.inv hv (strides := stridesFrom 1 dims) (subs := coords dims idx) (off := off) hidx hmax h.root h.rlt hn hqd hqi
      have ht : Touch dims idx q := ⟨by rw [← hd]; exact hil, hq, fun e => hqi e.symm, Erfill.near_of _ _ off (by rw [hlen, hol]) ho hL⟩
      refine ⟨s', f', _, e, ⟨h1, h2, h3, h.later.trans h4, h5 E h.classes, ?_, fun a b hab => Or.inl (h.old a b hab)⟩, fun a b hab => Or.inl hab, ?_⟩
      · rintro a b (hab | ⟨rfl, rfl⟩ | ⟨rfl, rfl⟩)
        · exact h.sub a b hab
        · exact ⟨ht, hidx, hqd⟩
        · exact ⟨Erfill.touch_symm ht, hqd, hidx⟩
      · intro q' hq' hne hL'
        have := huniq q' hq' hL'
        subst this
        exact Or.inr (Or.inl ⟨rfl, rfl⟩)
    · refine ⟨s, f, E, ?_, h, fun _ _ h => h, fun q' hq' hne hL' => ?_⟩
      · have hqn : q < nel := by rw [hd]; exact hq
        have hi : ¬ ((q : Int) = idx) := by exact_mod_cast hqi
        have hvo := h.inv.isVoid q hqn hqd
        simp [visit, hn, hi, h.inv.arr.rd hqn, hvo]
      · exact absurd (huniq q' hq' hL' ▸ hq') hqd

theorem neighbours_spec (hd : nel = dims.prod) (hl : im.length = nel) (hv : nel ≤ void) {idx : Nat} (hidx : idx ∈ done) (hmax : ∀ p ∈ done, pix im p ≤ pix im idx)
    {s0 : St} {f0 : Nat → Reg} : ∀ (fuel c : Nat) (s : St) (f : Nat → Reg) (E : Nat → Nat → Prop), fuel + c = 3 ^ dims.length → c < 3 ^ dims.length → Step im dims nel done idx s0 f0 s f E →
    (∀ c' < c, ∀ q ∈ done, q ≠ idx → Leads dims (offsetOf dims.length c') idx q → E idx q) →
    ∃ s' f' E', neighbours (visit im dims (stridesFrom 1 dims) nel idx (pix im idx) (coords dims idx)) fuel (offsetOf dims.length c) s = some s' ∧ Step im dims nel done idx s0 f0 s' f' E' ∧
      ∀ c' < 3 ^ dims.length, ∀ q ∈ done, q ≠ idx → Leads dims (offsetOf dims.length c') idx q → E' idx q := by
  intro fuel
  induction fuel with
  | zero => intro c s f E h1 h2; omega
  | succ fuel ih =>
    intro c s f E h1 h2 h hE
    obtain ⟨s1, f1, E1, e1, hs1, hm, hq⟩ := visit_any hd hl hv hidx hmax h (Erfill.offsetOf_length dims.length c) (Erfill.offsetOf_mem dims.length c)
    have hE1 : ∀ c' < c + 1, ∀ q ∈ done, q ≠ idx → Leads dims (offsetOf dims.length c') idx q → E1 idx q := by
      intro c' hc' q hqd hne hL
      rcases Nat.lt_or_ge c' c with g | g
      · exact hm _ _ (hE c' g q hqd hne hL)
      · have : c' = c := by omega
        subst this; exact hq q hqd hne hL
    simp only [neighbours, Option.bind_eq_bind, e1, Option.bind_some]
    rw [Erfill.nextOffset_spec _ _ h2]
    by_cases g : c + 1 < 3 ^ dims.length
    · rw [if_pos g]
      exact ih (c + 1) s1 f1 E1 (by omega) g hs1 hE1
    · rw [if_neg g]
      exact ⟨s1, f1, E1, rfl, hs1, fun c' hc' => hE1 c' (by omega)⟩

theorem eqvGen_of {E T : Nat → Nat → Prop} (h1 : ∀ a b, E a b → T a b) (h2 : ∀ a b, T a b → E a b ∨ E b a) (p q : Nat) : Relation.EqvGen E p q ↔ Relation.EqvGen T p q := by
  constructor
  · intro h
    induction h with
    | rel a b h => exact .rel _ _ (h1 a b h)
    | refl a => exact .refl _
    | symm a b _ ih => exact .symm _ _ ih
    | trans a b c _ _ ih1 ih2 => exact .trans _ _ _ ih1 ih2
  · intro h
    induction h with
    | rel a b h =>
      rcases h2 a b h with h | h
      · exact .rel _ _ h
      · exact .symm _ _ (.rel _ _ h)
    | refl a => exact .refl _
    | symm a b _ ih => exact .symm _ _ ih
    | trans a b c _ _ ih1 ih2 => exact .trans _ _ _ ih1 ih2

/-- One pixel is added to the forest. -/
theorem addPixel_spec (hd : nel = dims.prod) (hl : im.length = nel) (hv : nel ≤ void) {perm : List Nat} {i idx : Nat} (hp : perm[i]? = some idx) (hil : idx < nel) (hidx : idx ∉ done)
    (hmax : ∀ p ∈ done, pix im p ≤ pix im idx) (hI : Inv im nel done s f) (hC : Classes s f (TouchOn dims done)) :
    ∃ s' f', addPixel im dims (stridesFrom 1 dims) nel perm i s = some s' ∧ Inv im nel (insert idx done) s' f' ∧ Classes s' f' (TouchOn dims (insert idx done)) ∧ Later im (pix im idx) s f s' f' := by
  obtain ⟨r1, e1, hr1⟩ := hI.arr.wr hil { parent := idx, shortcut := idx, area := 1, height := 1 }
  have hjn : idx ∉ s.joins := fun h => hidx (hI.forest.sub idx h)
  have hjne : ∀ j ∈ s.joins, j ≠ idx := fun j hj e => hjn (e ▸ hj)
  obtain ⟨f1, hf1⟩ : ∃ f1, f1 = upd1 f idx { parent := idx, shortcut := idx, area := 1, height := 1 } := ⟨_, rfl⟩
  have hf1o : ∀ q, q ≠ idx → f1 q = f q := fun q hq => by rw [hf1]; simp [upd1, hq]
  have hf1i : f1 idx = { parent := idx, shortcut := idx, area := 1, height := 1 } := by rw [hf1]; simp [upd1]
  rw [← hf1] at hr1
  have hpj : ∀ j ∈ s.joins, par f1 j = par f j := fun j hj => by simp only [par]; rw [hf1o j (hjne j hj)]
  have hrt : ∀ q, rootOf (par f1) s.joins q = rootOf (par f) s.joins q := fun q => rootOf_congr hpj
  have hI1 : Inv im nel (insert idx done) { s with r := r1, root := idx } f1 := by
    refine ⟨hr1, ?_, ?_, ?_, ?_, ?_, ?_⟩
    · intro p hp hpd
      rw [Finset.mem_insert, not_or] at hpd
      rw [hf1o p hpd.1]; exact hI.isVoid p hp hpd.2
    · intro p hp
      rcases Finset.mem_insert.mp hp with e | e
      · rw [e]; exact hil
      · exact hI.lt p e
    · exact hI.forest.add hidx (by simp [par, hf1i]) (fun q hq => by simp only [par]; rw [hf1o q hq]) (by simp [sct, hf1i]) (fun q hq => by simp only [sct]; rw [hf1o q hq])
    · intro p hp hpj'
      simp only [rt, hrt]
      rw [Finset.filter_insert, Forest.rootOf_self hjn]
      by_cases e : p = idx
      · subst e
        rw [if_pos rfl, hf1i]
        simp only
        rw [Finset.card_insert_of_notMem (by simp [hidx])]
        have : done.filter (fun q => rootOf (par f) s.joins q = p) = ∅ := by
          rw [Finset.filter_eq_empty_iff]
          intro q hq e
          exact hidx (e ▸ hI.forest.rootOf_done hq)
        rw [this]; rfl
      · rw [if_neg (fun h => e h.symm), hf1o p e]
        exact hI.area p (Finset.mem_of_mem_insert_of_ne hp e) hpj'
    · intro j hj
      rw [hpj j hj]; exact hI.mono j hj
    · simp only
      rw [hI.ner]
      congr 1
      apply List.filter_congr
      intro j hj
      rw [hpj j hj]
  have hstep : Step im dims nel (insert idx done) idx s f { s with r := r1, root := idx } f1 (TouchOn dims done) := by
    refine ⟨hI1, ?_, hil, ?_, ?_, ?_, ?_⟩
    · simp only [rt]; rw [Forest.rootOf_self hjn]
    · refine ⟨[], by simp, hpj, by simp, fun p hp => ?_⟩
      rw [hf1o p (fun e => by subst e; omega)]
    · intro p q
      simp only [rt, hrt]
      exact hC p q
    · rintro a b ⟨h1, h2, h3⟩
      exact ⟨h1, Finset.mem_insert_of_mem h2, Finset.mem_insert_of_mem h3⟩
    · rw [Finset.erase_insert hidx]; exact fun a b h => h
  have hmax' : ∀ p ∈ insert idx done, pix im p ≤ pix im idx := by
    intro p hp
    rcases Finset.mem_insert.mp hp with e | e
    · rw [e]
    · exact hmax p e
  have hpos : 0 < 3 ^ dims.length := Nat.pow_pos (by omega)
  obtain ⟨s', f', E', e', hs', hE'⟩ := neighbours_spec hd hl hv (Finset.mem_insert_self idx done) hmax' (3 ^ dims.length) 0 _ _ _ (by omega) hpos hstep (by intro c' h; omega)
  refine ⟨s', f', ?_, hs'.inv, ?_, hs'.later⟩
  · unfold addPixel
    rw [rd_getElem?, hp]
    simp only [Option.bind_eq_bind, Option.bind_some]
    rw [rd_pix (by omega)]
    simp only [Option.bind_some, e1]
    rw [Erfill.subscripts_spec dims 1 idx (by rw [one_mul, ← hd]; exact hil), Nat.div_one, ← Erfill.offsetOf_zero]
    exact e'
  · intro p q
    rw [hs'.classes p q]
    apply eqvGen_of hs'.sub
    rintro a b ⟨ht, ha, hb⟩
    have key : ∀ b ∈ insert idx done, Touch dims idx b → E' idx b := by
      intro b hb ht
      obtain ⟨os, o1, o2, o3⟩ := Erfill.of_near _ _ ht.2.2.2
      rw [Erfill.coords_length] at o1
      obtain ⟨c, hc, ec⟩ := Erfill.offsetOf_surj os o2
      rw [o1] at hc ec
      exact hE' c hc b hb (fun e => ht.2.2.1 e.symm) (by unfold Leads; rw [ec]; exact o3)
    by_cases ea : a = idx
    · subst ea; left; exact key b hb ht
    · by_cases eb : b = idx
      · subst eb; right; exact key a ha (Erfill.touch_symm ht)
      · left
        exact hs'.old a b ⟨ht, by rw [Finset.mem_erase]; exact ⟨ea, ha⟩, by rw [Finset.mem_erase]; exact ⟨eb, hb⟩⟩

/-- The first `t` pixels of the order. -/
def firstPixels (perm : List Nat) (t : Nat) : Finset Nat := (perm.take t).toFinset

theorem mem_firstPixels {perm : List Nat} {t p : Nat} : p ∈ firstPixels perm t ↔ p ∈ perm.take t := by simp [firstPixels]

theorem firstPixels_succ {perm : List Nat} {t idx : Nat} (h : perm[t]? = some idx) : firstPixels perm (t + 1) = insert idx (firstPixels perm t) := by
  ext p
  rw [Finset.mem_insert, mem_firstPixels, mem_firstPixels, List.take_add_one, h]
  simp [or_comm]

theorem initForest_spec {r : List Reg} (hr : r.length = nel) : ∃ r' f, initForest nel r = some r' ∧ Arr r' nel f ∧ ∀ p < nel, (f p).parent = void := by
  unfold initForest
  have := iter_inv (n := nel) (s := r) (f := fun i r => do
    let x ← rd r i
    wr r i { x with parent := void }) (P := fun (i : Nat) (r : List Reg) => ∃ f, Arr r nel f ∧ ∀ p < i, (f p).parent = void) ?_ ?_
  · obtain ⟨r', e, f, h⟩ := this
    exact ⟨r', f, e, h⟩
  · exact ⟨_, Arr.of_len' hr ⟨0, 0, 0, 0⟩, by intro p hp; omega⟩
  · rintro i hi r ⟨f, hf, hv⟩
    rw [hf.rd hi]
    simp only [Option.bind_eq_bind, Option.bind_some]
    obtain ⟨r', e, hr'⟩ := hf.wr hi { f i with parent := void }
    refine ⟨r', e, _, hr', fun p hp => ?_⟩
    simp only [upd1]
    by_cases g : p = i
    · simp [g]
    · rw [if_neg g]; exact hv p (by omega)

/-- The state after the first `t` pixels, and what the remaining ones change. -/
theorem grow_spec (hd : nel = dims.prod) (hl : im.length = nel) (hv : nel ≤ void) {perm : List Nat} (hpl : perm.length = nel) (hlt : ∀ p ∈ perm, p < nel) (hsort : perm.Pairwise (Before im))
    {r : List Reg} {f : Nat → Reg} (hr : Arr r nel f) (hvoid : ∀ p < nel, (f p).parent = void) : ∀ t ≤ nel,
    ∃ st : Nat → St, ∃ ft : Nat → Nat → Reg, ∀ u ≤ t, grow im dims (stridesFrom 1 dims) nel perm r u = some (st u) ∧ Inv im nel (firstPixels perm u) (st u) (ft u) ∧
      Classes (st u) (ft u) (TouchOn dims (firstPixels perm u)) ∧ ∀ w ≤ u, ∀ v, (∀ k, w ≤ k → k < u → ∀ p, perm[k]? = some p → v ≤ pix im p) → Later im v (st w) (ft w) (st u) (ft u) := by
  intro t
  induction t with
  | zero =>
    intro _
    refine ⟨fun _ => { r := r, joins := [], ner := 0, root := 0 }, fun _ => f, fun u hu => ?_⟩
    have : u = 0 := by omega
    subst this
    refine ⟨rfl, ⟨hr, fun p hp _ => hvoid p hp, by simp [firstPixels], ⟨by simp, by simp, by simp [firstPixels], by simp [firstPixels], by simp [firstPixels], by simp, by simp, by simp [firstPixels]⟩,
      by simp [firstPixels], by simp, by simp⟩, ?_, fun w hw v _ => Later.refl⟩
    intro p q
    simp only [rt, rootOf, List.foldl_nil]
    constructor
    · intro e; subst e; exact .refl _
    · intro h
      induction h with
      | rel a b h => exact absurd h.2.1 (by simp [firstPixels])
      | refl a => rfl
      | symm a b _ ih => exact ih.symm
      | trans a b c _ _ ih1 ih2 => exact ih1.trans ih2
  | succ t ih =>
    intro ht
    obtain ⟨st, ft, H⟩ := ih (by omega)
    obtain ⟨e1, hI, hC, hLt⟩ := H t (le_refl t)
    have htl : t < perm.length := by omega
    obtain ⟨idx, hidx⟩ : ∃ idx, perm[t]? = some idx := ⟨perm[t], List.getElem?_eq_getElem htl⟩
    have hmem : idx ∈ perm := List.mem_of_getElem? hidx
    have hbefore : ∀ p ∈ firstPixels perm t, Before im p idx := by
      intro p hp
      rw [mem_firstPixels, List.mem_take_iff_getElem] at hp
      obtain ⟨k, hk, e⟩ := hp
      rw [List.pairwise_iff_getElem] at hsort
      have := hsort k t (by omega) htl (by omega)
      rw [List.getElem?_eq_getElem htl] at hidx
      rw [e] at this
      simpa using (Option.some.inj hidx) ▸ this
    obtain ⟨s', f', e2, hI', hC', hL'⟩ := addPixel_spec hd hl hv hidx (hlt idx hmem) (fun h => before_irrefl _ (hbefore idx h)) (fun p hp => by
      have := hbefore p hp; unfold Before at this; omega) hI hC
    refine ⟨fun u => if u ≤ t then st u else s', fun u => if u ≤ t then ft u else f', fun u hu => ?_⟩
    by_cases g : u ≤ t
    · simp only [if_pos g]
      obtain ⟨a, b, c, d⟩ := H u g
      refine ⟨a, b, c, fun w hw v hk => ?_⟩
      simp only [if_pos (show w ≤ t by omega)]
      exact d w hw v hk
    · have hu' : u = t + 1 := by omega
      subst hu'
      simp only [if_neg g]
      rw [firstPixels_succ hidx]
      refine ⟨?_, hI', hC', fun w hw v hk => ?_⟩
      · have e1' : iter t (addPixel im dims (stridesFrom 1 dims) nel perm) { r := r, joins := [], ner := 0, root := 0 } = some (st t) := e1
        simp only [grow, iter, e1', Option.bind_some]; exact e2
      · by_cases gw : w ≤ t
        · simp only [if_pos gw]
          exact (hLt w gw v (fun k h1 h2 => hk k h1 (by omega))).trans (hL'.weaken (hk t gw (by omega) idx hidx))
        · simp only [if_neg gw]
          exact Later.refl

end Verif.Mser
