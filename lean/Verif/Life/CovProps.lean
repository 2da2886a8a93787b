import Verif.Life.CovModel
import Verif.Life.FailProps

/-! # C226: covariant detectors give back their memory -/

namespace Verif.Life

/-! ## Lemmas -/

def SSOwn (s : Option (Geom × SS)) (l : List Block) : Prop :=
  match s with
  | none => l = []
  | some (g, t) => ∃ os w, t.sizes = g.sizes ∧ t.octs = os.map (fun b => some b.1) ∧
      os.map (fun b => b.2.length) = t.sizes ∧ l = os ++ [(t.list, w), (t.self, [])]

def BufOwn (p : Option Nat) (cap : Nat) (l : List Block) : Prop :=
  match p with
  | none => l = []
  | some q => ∃ v, v.length = cap ∧ l = [(q, v)]

theorem ssDelete_own {s : Geom × SS} {l B : List Block} {h : Heap} (hs : SSOwn (some s) l) (o : Own h (l ++ B)) :
    ∃ h', ssDelete h s.2 = some h' ∧ Own h' B := by
  obtain ⟨os, w, -, e, -, rfl⟩ := hs
  obtain ⟨h2, e2, o2⟩ := ssFree_own os 0 (B := (s.2.list, w) :: (s.2.self, []) :: B) (o.of_perm (by perm))
  obtain ⟨h3, e3, o3⟩ := free_own o2
  obtain ⟨h4, e4, o4⟩ := free_own o3
  simp only [List.replicate_zero, List.append_nil] at e2
  exact ⟨h4, by simp [ssDelete, e, e2, e3, e4], o4⟩

theorem ssDeleteIf_own {s : Option (Geom × SS)} {l B : List Block} {h : Heap} (hs : SSOwn s l) (o : Own h (l ++ B)) :
    ∃ h', ssDeleteIf h s = some h' ∧ Own h' B := by
  cases s with
  | none => cases hs; exact ⟨h, rfl, o⟩
  | some s => exact ssDelete_own hs o

theorem ssNew_own (E : Env) (g : Geom) {h : Heap} {B : List Block} (o : Own h B) :
    (∃ t h' l, ssNew E h g.sizes = some (some t, h') ∧ SSOwn (some (g, t)) l ∧ Own h' (l ++ B)) ∨
    (∃ h' L, ssNew E h g.sizes = some (none, h') ∧ (L.length ≤ 1 ∧ Own h' (L ++ B)) ∧ ¬ ∀ m, E.ok m = true) := by
  rcases ss_core E g.sizes o with ⟨s, h1, l, w, e1, -, hs, hoct, hl, o1⟩ | ⟨h1, e1, hf, o1⟩ | ⟨h1, p, w, e1, ⟨i, -, hf⟩, -, -, o1⟩
  · exact Or.inl ⟨s, h1, _, e1, ⟨l, w, hs, hoct, by rw [hl, hs], rfl⟩, o1.of_perm (by perm)⟩
  · exact Or.inr ⟨h1, [], e1, ⟨by simp, o1⟩, fun ok => by rcases hf with hf | hf <;> rw [ok] at hf <;> cases hf⟩
  · exact Or.inr ⟨h1, [(p, w)], e1, ⟨by simp, o1⟩, fun ok => by rw [ok] at hf; cases hf⟩

theorem ssFit_own (E : Env) {s : Option (Geom × SS)} {l B : List Block} {h : Heap} (g : Geom) (hs : SSOwn s l) (o : Own h (l ++ B)) :
    (∃ t h' l', ssFit E h s g = some (some (g, t), h') ∧ SSOwn (some (g, t)) l' ∧ Own h' (l' ++ B)) ∨
    (∃ h' L, ssFit E h s g = some (none, h') ∧ (L.length ≤ 1 ∧ Own h' (L ++ B)) ∧ ¬ ∀ m, E.ok m = true) := by
  cases s with
  | none =>
    cases hs
    rcases ssNew_own E g o with ⟨t, h', l, e, h1, h2⟩ | ⟨h', L, e, h1, h2⟩
    · exact Or.inl ⟨t, h', l, by simp [ssFit, e], h1, h2⟩
    · exact Or.inr ⟨h', L, by simp [ssFit, e], h1, h2⟩
  | some s =>
    obtain ⟨g', t⟩ := s
    by_cases hg : g' = g
    · subst hg
      exact Or.inl ⟨t, h, l, by simp [ssFit], hs, o⟩
    · obtain ⟨h1, e1, o1⟩ := ssDelete_own hs o
      rcases ssNew_own E g o1 with ⟨t', h', l, e, h1, h2⟩ | ⟨h', L, e, h1, h2⟩
      · exact Or.inl ⟨t', h', l, by simp only [ssFit, if_neg hg]; simp [e1, e], h1, h2⟩
      · exact Or.inr ⟨h', L, by simp only [ssFit, if_neg hg]; simp [e1, e], h1, h2⟩

theorem ssWrite_own (v : Nat → ℚ) (os : List Block) : ∀ {h : Heap} {B : List Block}, Own h (os ++ B) →
    ∃ h' os', ssWrite v (os.map fun b => b.2.length) (os.map fun b => some b.1) h = some h' ∧
      os'.map (fun b => some b.1) = os.map (fun b => some b.1) ∧
      os'.map (fun b => b.2.length) = os.map (fun b => b.2.length) ∧ Own h' (os' ++ B) := by
  induction os with
  | nil => exact fun {h B} o => ⟨h, [], rfl, rfl, rfl, o⟩
  | cons b os ih =>
    intro h B o
    obtain ⟨h1, e1, o1⟩ := store_full (B := os ++ B) o ((List.range b.2.length).map v) (by simp)
    obtain ⟨h2, os', e2, p1, p2, o2⟩ := ih (B := (b.1, (List.range b.2.length).map v) :: B) (o1.of_perm (by perm))
    refine ⟨h2, (b.1, (List.range b.2.length).map v) :: os', ?_, by simp [p1], by simp [p2], o2.of_perm (by perm)⟩
    simp only [List.map_cons, ssWrite, e1, Option.bind_eq_bind, Option.bind_some, e2]

theorem ssRead_own (os : List Block) {h : Heap} {B : List Block} : ∀ (A : List Block), Own h (A ++ (os ++ B)) →
    ssRead (os.map fun b => b.2.length) (os.map fun b => some b.1) h = some () := by
  induction os with
  | nil => intros; rfl
  | cons b os ih =>
    intro A o
    have e1 : load h b.1 = some b.2 := load_own (B := A ++ (os ++ B)) (o.of_perm (by perm))
    have e2 := ih (A ++ [b]) (o.of_perm (by perm))
    simp only [List.map_cons, ssRead, e1, Option.bind_eq_bind, Option.bind_some, le_refl, if_true, e2]

theorem resize_own (E : Env) {p : Option Nat} {size target : Nat} {l B : List Block} {h : Heap} (hp : BufOwn p size l)
    (o : Own h (l ++ B)) :
    ∃ p' n f h' l', resize E h p size target = some (p', n, f, h') ∧ BufOwn p' n l' ∧ Own h' (l' ++ B) ∧
      (f = false → p'.isSome ∧ n = target) ∧ (f = true → (¬ ∀ m, E.ok m = true) ∧ (p' = none → n = 0)) := by
  cases p with
  | none =>
    cases hp
    rcases malloc_cases E o target with ⟨h1, v, e1, k1, -, l1, o1⟩ | ⟨h1, e1, k1, -, o1⟩
    · exact ⟨some h.next, target, false, h1, [(h.next, v)], by simp [resize, e1], ⟨v, l1, rfl⟩, o1, by simp, by simp⟩
    · exact ⟨none, 0, true, h1, [], by simp [resize, e1], rfl, o1, by simp, fun _ => ⟨fun ok => (by rw [ok] at k1; cases k1), fun _ => rfl⟩⟩
  | some q =>
    obtain ⟨w, hw, rfl⟩ := hp
    have e0 : load h q = some w := load_own o
    rcases malloc_cases E o target with ⟨h1, v, e1, k1, -, l1, o1⟩ | ⟨h1, e1, k1, -, o1⟩
    · obtain ⟨h2, e2, o2⟩ := store_own o1 (w.take target) (by simp; omega)
      obtain ⟨h3, e3, o3⟩ := free_own (o2.of_perm (B' := (q, w) :: ((h.next, w.take target ++ v.drop (w.take target).length) :: B)) (by perm))
      refine ⟨some h.next, target, false, h3, _, ?_, ⟨_, ?_, rfl⟩, o3, by simp, by simp⟩
      · simp [resize, e0, e1, e2, e3]
      · simp; omega
    · exact ⟨some q, size, true, h1, [(q, w)], by simp [resize, e0, e1], ⟨w, hw, rfl⟩, o1, by simp,
        fun _ => ⟨fun ok => (by rw [ok] at k1; cases k1), fun h => by cases h⟩⟩

theorem putAt_own {q i : Nat} {v : List ℚ} {B : List Block} {h : Heap} (hi : i < v.length) (x : ℚ) (o : Own h ((q, v) :: B)) :
    ∃ h' v', putAt h (some q) i x = some h' ∧ v'.length = v.length ∧ Own h' ((q, v') :: B) := by
  obtain ⟨h1, e1, o1⟩ := store_full o (v.set i x) (by simp)
  exact ⟨h1, _, by simp [putAt, load_own o, wr, hi, e1], by simp, o1⟩

/-- The blocks of the detector are live. -/
structure CInv (c : Cv) (h : Heap) (B : List Block) : Prop where
  blocks : ∃ lg lc lf lp, SSOwn c.gss lg ∧ SSOwn c.css lc ∧ BufOwn c.feats c.cap lf ∧ BufOwn c.patch c.patchCap lp ∧
    Own h (lg ++ (lc ++ (lf ++ (lp ++ (c.self, []) :: B))))
  patch0 : c.patch = none → c.patchCap = 0

/-- The features are where the counts say. -/
def Sound (c : Cv) : Prop := (c.feats = none → c.cap = 0) ∧ c.num ≤ c.cap

theorem append_own (E : Env) {c : Cv} {h : Heap} {B : List Block} (i : CInv c h B) (x : ℚ) :
    (cvAppend E h c x = none ∧ ¬ Sound c) ∨
    ∃ c' h', cvAppend E h c x = some (c', h') ∧ CInv c' h' B ∧ (Sound c → Sound c') ∧ c'.gss = c.gss ∧ c'.self = c.self := by
  obtain ⟨⟨lg, lc, lf, lp, i1, i2, i3, i4, o⟩, i5⟩ := i
  unfold cvAppend
  by_cases hc : c.num + 1 > c.cap
  · rw [if_pos hc]
    obtain ⟨p', n, f, h', l', e, b, o', f1, f2⟩ := resize_own E i3 (target := c.num + 1 + 1000)
      (o.of_perm (B' := lf ++ (lg ++ (lc ++ (lp ++ (c.self, []) :: B)))) (by perm))
    rw [e]
    simp only [Option.bind_eq_bind, Option.bind_some]
    refine Or.inr ?_
    cases f with
    | true =>
      obtain ⟨-, f3⟩ := f2 rfl
      refine ⟨_, _, rfl, ⟨⟨lg, lc, l', lp, i1, i2, b, i4, o'.of_perm (by perm)⟩, i5⟩, fun s => ⟨f3, ?_⟩, rfl, rfl⟩
      cases hf : c.feats with
      | none => have := s.1 hf; have := s.2; simp only; omega
      | some q =>
        rw [hf] at e
        simp only [resize] at e
        obtain ⟨v, hv, rfl⟩ := by rw [hf] at i3; exact i3
        rw [load_own (B := lg ++ (lc ++ (lp ++ (c.self, []) :: B))) (o.of_perm (by perm))] at e
        simp only [Option.bind_eq_bind, Option.bind_some] at e
        split at e
        · simp only [Option.bind_eq_some_iff] at e
          obtain ⟨_, _, _, _, e⟩ := e
          simp at e
        · simp only [Option.some.injEq, Prod.mk.injEq] at e
          simp only [← e.2.1]; exact s.2
    | false =>
      obtain ⟨f3, rfl⟩ := f1 rfl
      obtain ⟨q, rfl⟩ := Option.isSome_iff_exists.mp f3
      obtain ⟨v, hv, rfl⟩ := b
      obtain ⟨h2, v', e2, hv', o2⟩ := putAt_own (i := c.num) (B := lg ++ (lc ++ (lp ++ (c.self, []) :: B))) (by omega) x o'
      simp only [Bool.false_eq_true, if_false, e2, Option.bind_some]
      exact ⟨_, _, rfl, ⟨⟨lg, lc, [(q, v')], lp, i1, i2, ⟨v', hv'.trans hv, rfl⟩, i4, o2.of_perm (by perm)⟩, i5⟩,
        fun _ => ⟨by simp, by simp only; omega⟩, rfl, rfl⟩
  · rw [if_neg hc]
    cases hf : c.feats with
    | none => exact Or.inl ⟨rfl, fun s => by have := s.1 hf; omega⟩
    | some q =>
      rw [hf] at i3
      obtain ⟨v, hv, rfl⟩ := i3
      obtain ⟨h2, v', e2, hv', o2⟩ := putAt_own (q := q) (v := v) (i := c.num) (B := lg ++ (lc ++ (lp ++ (c.self, []) :: B))) (by omega) x (o.of_perm (by perm))
      simp only [Option.bind_eq_bind, e2, Option.bind_some]
      refine Or.inr ⟨_, _, rfl, ⟨⟨lg, lc, [(q, v')], lp, i1, i2, ?_, i4, o2.of_perm (by perm)⟩, i5⟩, fun s => ⟨fun h => ?_, ?_⟩, rfl, rfl⟩
      · exact ⟨v', hv'.trans hv, rfl⟩
      · cases h
      · simp only; omega

theorem appends_own (E : Env) : ∀ (xs : List ℚ) {c : Cv} {h : Heap} {B : List Block}, CInv c h B →
    (cvAppends E xs c h = none ∧ ¬ Sound c) ∨
    ∃ c' h', cvAppends E xs c h = some (c', h') ∧ CInv c' h' B ∧ (Sound c → Sound c') ∧ c'.gss = c.gss ∧ c'.self = c.self ∧
      (xs = [] → c' = c)
  | [], c, h, B, i => Or.inr ⟨c, h, rfl, i, id, rfl, rfl, fun _ => rfl⟩
  | x :: xs, c, h, B, i => by
    rcases append_own E i x with ⟨e, s⟩ | ⟨c1, h1, e, i1, s1, g1, f1⟩
    · exact Or.inl ⟨by simp [cvAppends, e], s⟩
    · rcases appends_own E xs i1 with ⟨e2, s⟩ | ⟨c2, h2, e2, i2, s2, g2, f2, -⟩
      · exact Or.inl ⟨by simp [cvAppends, e, e2], fun h => s (s1 h)⟩
      · exact Or.inr ⟨c2, h2, by simp [cvAppends, e, e2], i2, fun h => s2 (s1 h), g2.trans g1, f2.trans f1, by simp⟩

theorem self_own {c : Cv} {h : Heap} {B l : List Block} (o : Own h (l ++ (c.self, []) :: B)) : load h c.self = some [] :=
  load_own (B := l ++ B) (o.of_perm (by perm))

theorem put_own (E : Env) {c : Cv} {h : Heap} {B : List Block} (i : CInv c h B) (g : Geom) (v : Nat → ℚ) :
    ∃ err c' h' L, cvPut E h c g v = some (err, c', h') ∧ CInv c' h' (L ++ B) ∧ (Sound c → Sound c') ∧ c'.self = c.self ∧ c'.feats = c.feats ∧
      (err = false → c'.gss.isSome ∧ L = []) ∧ (err = true → ¬ ∀ m, E.ok m = true) ∧ L.length ≤ 1 := by
  obtain ⟨⟨lg, lc, lf, lp, i1, i2, i3, i4, o⟩, i5⟩ := i
  have hl : load h c.self = some [] := self_own (l := lg ++ (lc ++ (lf ++ lp))) (B := B) (o.of_perm (by perm))
  rcases ssFit_own E g i1 o with ⟨t, h1, l1, e1, b1, o1⟩ | ⟨h1, L, e1, ⟨l1, o1⟩, k⟩
  · obtain ⟨os, w, q1, q2, q3, rfl⟩ := b1
    obtain ⟨h2, os', e2, r1, r2, o2⟩ := ssWrite_own v os (o1.of_perm (B' := os ++ ((t.list, w) :: (t.self, []) :: (lc ++ (lf ++ (lp ++ (c.self, []) :: B))))) (by perm))
    rw [q3, ← q2] at e2
    refine ⟨false, { c with gss := some (g, t) }, h2, [], by simp [cvPut, hl, e1, e2], ⟨⟨os' ++ [(t.list, w), (t.self, [])], lc, lf, lp, ?_, i2, i3, i4, o2.of_perm (by perm)⟩, i5⟩, id, rfl, rfl, by simp, by simp, by simp⟩
    exact ⟨os', w, q1, by rw [q2, r1], by rw [r2, q3], rfl⟩
  · exact ⟨true, { c with gss := none }, h1, L, by simp [cvPut, hl, e1], ⟨⟨[], lc, lf, lp, rfl, i2, i3, i4, o1.of_perm (by perm)⟩, i5⟩, id, rfl, rfl, by simp, fun _ => k, l1⟩

theorem detect_own (E : Env) {c : Cv} {h : Heap} {B : List Block} (i : CInv c h B) (v : Nat → ℚ) (xs : List ℚ) :
    (cvDetect E h c v xs = none ∧ ¬ ((∀ m, E.ok m = true) ∧ Sound c ∧ c.gss.isSome)) ∨
    ∃ c' h', cvDetect E h c v xs = some (c', h') ∧ CInv c' h' B ∧ (Sound c → Sound c') ∧ c'.gss = c.gss ∧ c'.self = c.self ∧
      (xs = [] → c'.feats = c.feats) := by
  obtain ⟨⟨lg, lc, lf, lp, i1, i2, i3, i4, o⟩, i5⟩ := i
  have hl : load h c.self = some [] := self_own (l := lg ++ (lc ++ (lf ++ lp))) (B := B) (o.of_perm (by perm))
  cases hg : c.gss with
  | none => exact Or.inl ⟨by simp [cvDetect, hl, hg], fun h => by simp at h⟩
  | some gt =>
    obtain ⟨g, t⟩ := gt
    rw [hg] at i1
    obtain ⟨os, w, q1, q2, q3, rfl⟩ := i1
    rcases ssFit_own E (c.cgeom g) i2 (o.of_perm (B' := lc ++ (os ++ ((t.list, w) :: (t.self, []) :: (lf ++ (lp ++ (c.self, []) :: B))))) (by perm)) with
      ⟨t', h1, l1, e1, b1, o1⟩ | ⟨h1, L, e1, ⟨l1, o1⟩, k⟩
    · have er := ssRead_own os l1 o1
      rw [q3, ← q2] at er
      obtain ⟨os', w', q1', q2', q3', rfl⟩ := b1
      obtain ⟨h2, os2, e2, r1, r2, o2⟩ := ssWrite_own v os' (o1.of_perm (B' := os' ++ ((t'.list, w') :: (t'.self, []) ::
        (os ++ ((t.list, w) :: (t.self, []) :: (lf ++ (lp ++ (c.self, []) :: B)))))) (by perm))
      rw [q3', ← q2'] at e2
      have i' : CInv { c with num := 0, css := some (c.cgeom g, t') } h2 B := by
        refine ⟨⟨os ++ [(t.list, w), (t.self, [])], os2 ++ [(t'.list, w'), (t'.self, [])], lf, lp, ?_, ?_, i3, i4, o2.of_perm (by perm)⟩, i5⟩
        · simp only [hg]; exact ⟨os, w, q1, q2, q3, rfl⟩
        · exact ⟨os2, w', q1', by rw [q2', r1], by rw [r2, q3'], rfl⟩
      have e : cvDetect E h c v xs = cvAppends E xs { c with num := 0, css := some (c.cgeom g, t') } h2 := by
        simp only [cvDetect, hl, hg, e1, er, e2, Option.bind_eq_bind, Option.bind_some]
      rw [e]
      have hs : Sound c → Sound { c with num := 0, css := some (c.cgeom g, t') } := fun s => ⟨s.1, Nat.zero_le _⟩
      rcases appends_own E xs i' with ⟨e3, s⟩ | ⟨c3, h3, e3, i3', s3, g3, f3, n3⟩
      · exact Or.inl ⟨e3, fun h => s (hs h.2.1)⟩
      · exact Or.inr ⟨c3, h3, e3, i3', fun h => s3 (hs h), by rw [g3]; exact hg, f3, fun hx => by rw [n3 hx]⟩
    · refine Or.inl ⟨?_, fun h => k h.1⟩
      simp only [cvDetect, hl, hg, e1, Option.bind_eq_bind, Option.bind_some, Option.bind_none]

theorem keep_own {c : Cv} {h : Heap} {B : List Block} (i : CInv c h B) (k : Nat) (v : Nat → ℚ) :
    (cvKeep h c k v = none ∧ ¬ Sound c) ∨
    ∃ c' h', cvKeep h c k v = some (c', h') ∧ CInv c' h' B ∧ (Sound c → Sound c') ∧ c'.gss = c.gss ∧ c'.self = c.self ∧ c'.feats = c.feats := by
  have i' := i
  obtain ⟨⟨lg, lc, lf, lp, i1, i2, i3, i4, o⟩, i5⟩ := i
  have hl : load h c.self = some [] := self_own (l := lg ++ (lc ++ (lf ++ lp))) (B := B) (o.of_perm (by perm))
  by_cases hn : c.num = 0
  · exact Or.inr ⟨c, h, by simp [cvKeep, hl, hn], i', id, rfl, rfl, rfl⟩
  cases hf : c.feats with
  | none => exact Or.inl ⟨by simp [cvKeep, hl, hn, hf], fun s => by have := s.1 hf; have := s.2; omega⟩
  | some q =>
    rw [hf] at i3
    obtain ⟨w, hw, rfl⟩ := i3
    have o' : Own h ((q, w) :: (lg ++ (lc ++ (lp ++ (c.self, []) :: B)))) := o.of_perm (by perm)
    by_cases hle : c.num ≤ c.cap
    · obtain ⟨h1, e1, o1⟩ := store_own o' ((List.range c.num).map v) (by simp; omega)
      refine Or.inr ⟨{ c with num := min k c.num }, h1, by simp [cvKeep, hl, hn, hf, e1], ⟨⟨lg, lc, [(q, (List.range c.num).map v ++ w.drop ((List.range c.num).map v).length)], lp, i1, i2, ?_, i4, o1.of_perm ?_⟩, i5⟩, fun s => ⟨s.1, ?_⟩, rfl, rfl, hf⟩
      · simp only [hf]; exact ⟨_, by simp; omega, rfl⟩
      · perm
      · simp only; omega
    · refine Or.inl ⟨?_, fun s => hle s.2⟩
      have : store h q ((List.range c.num).map v) = none := by
        rw [store, load_own o']; exact if_neg (by simp; omega)
      simp [cvKeep, hl, hn, hf, this]

theorem patch_own (E : Env) {c : Cv} {h : Heap} {B : List Block} (i : CInv c h B) (n : Nat) (v : Nat → ℚ) :
    (cvPatch E h c n v = none ∧ c.gss = none) ∨
    ∃ err c' h', cvPatch E h c n v = some (err, c', h') ∧ CInv c' h' B ∧ (Sound c → Sound c') ∧ c'.gss = c.gss ∧ c'.self = c.self ∧ c'.feats = c.feats ∧
      (err = true → ¬ ∀ m, E.ok m = true) := by
  have i' := i
  obtain ⟨⟨lg, lc, lf, lp, i1, i2, i3, i4, o⟩, i5⟩ := i
  have hl : load h c.self = some [] := self_own (l := lg ++ (lc ++ (lf ++ lp))) (B := B) (o.of_perm (by perm))
  cases hg : c.gss with
  | none => exact Or.inl ⟨by simp [cvPatch, hl, hg], rfl⟩
  | some gt =>
    refine Or.inr ?_
    obtain ⟨g, t⟩ := gt
    have er : ssRead t.sizes t.octs h = some () := by
      rw [hg] at i1
      obtain ⟨os, w, q1, q2, q3, rfl⟩ := i1
      rw [q2, ← q3]
      exact ssRead_own os (B := (t.list, w) :: (t.self, []) :: (lc ++ (lf ++ (lp ++ (c.self, []) :: B)))) [] (o.of_perm (by perm))
    have i1' : SSOwn (some (g, t)) lg := hg ▸ i1
    simp only [cvPatch, hl, hg, er, Option.bind_eq_bind, Option.bind_some]
    by_cases hn : n > c.patchCap
    · rw [if_pos hn]
      obtain ⟨p', m, f, h1, l', e, b, o1, f1, f2⟩ := resize_own E i4 (target := n)
        (o.of_perm (B' := lp ++ (lg ++ (lc ++ (lf ++ (c.self, []) :: B)))) (by perm))
      simp only [e, Option.bind_some]
      cases f with
      | true => exact ⟨_, _, _, rfl, ⟨⟨lg, lc, lf, l', i1', i2, i3, b, o1.of_perm (by perm)⟩, (f2 rfl).2⟩, id, rfl, rfl, rfl, fun _ => (f2 rfl).1⟩
      | false =>
        obtain ⟨f3, rfl⟩ := f1 rfl
        obtain ⟨q, rfl⟩ := Option.isSome_iff_exists.mp f3
        obtain ⟨w, hw, rfl⟩ := b
        obtain ⟨h2, e2, o2⟩ := store_full (B := lg ++ (lc ++ (lf ++ (c.self, []) :: B))) o1 ((List.range m).map v) (by simp [hw])
        simp only [Bool.false_eq_true, if_false, e2, Option.bind_some]
        exact ⟨_, _, _, rfl, ⟨⟨lg, lc, lf, [(q, (List.range m).map v)], i1', i2, i3, ⟨_, by simp, rfl⟩, o2.of_perm (by perm)⟩, by simp⟩, id, rfl, rfl, rfl, by simp⟩
    · rw [if_neg hn]
      by_cases h0 : n = 0
      · rw [if_pos h0]; exact ⟨_, _, _, rfl, i', id, hg, rfl, rfl, by simp⟩
      rw [if_neg h0]
      cases hp : c.patch with
      | none => have := i5 hp; omega
      | some q =>
        rw [hp] at i4
        obtain ⟨w, hw, rfl⟩ := i4
        obtain ⟨h2, e2, o2⟩ := store_own (w := w) (B := lg ++ (lc ++ (lf ++ (c.self, []) :: B))) (o.of_perm (by perm)) ((List.range n).map v) (by simp; omega)
        simp only [e2, Option.bind_some]
        refine ⟨_, _, _, rfl, ⟨⟨lg, lc, lf, [(q, (List.range n).map v ++ w.drop ((List.range n).map v).length)], i1, i2, i3, ?_, o2.of_perm (by perm)⟩, i5⟩, id, hg, rfl, rfl, by simp⟩
        rw [hp]; exact ⟨_, by simp; omega, rfl⟩

theorem reset_own {c : Cv} {h : Heap} {B : List Block} (i : CInv c h B) :
    ∃ h', cvReset h c = some ({ c with feats := none, css := none, gss := none }, h') ∧
      CInv { c with feats := none, css := none, gss := none } h' B := by
  obtain ⟨⟨lg, lc, lf, lp, i1, i2, i3, i4, o⟩, i5⟩ := i
  have hl : load h c.self = some [] := self_own (l := lg ++ (lc ++ (lf ++ lp))) (B := B) (o.of_perm (by perm))
  have : ∃ h1, freeIf h c.feats = some h1 ∧ Own h1 (lc ++ (lg ++ (lp ++ (c.self, []) :: B))) := by
    cases hf : c.feats with
    | none => rw [hf] at i3; cases i3; exact ⟨h, rfl, o.of_perm (by perm)⟩
    | some q =>
      rw [hf] at i3
      obtain ⟨w, hw, rfl⟩ := i3
      exact free_own (v := w) (o.of_perm (by perm))
  obtain ⟨h1, e1, o1⟩ := this
  obtain ⟨h2, e2, o2⟩ := ssDeleteIf_own i2 o1
  obtain ⟨h3, e3, o3⟩ := ssDeleteIf_own i1 o2
  exact ⟨h3, by simp [cvReset, hl, e1, e2, e3], ⟨[], [], [], lp, rfl, rfl, rfl, i4, o3⟩, i5⟩

theorem delete_own {c : Cv} {h : Heap} {B : List Block} (i : CInv c h B) : ∃ h', cvDelete h c = some h' ∧ h'.live.Perm B := by
  obtain ⟨h1, e1, ⟨lg, lc, lf, lp, j1, j2, j3, i4, o⟩, i5⟩ := reset_own i
  cases j1; cases j2; cases j3
  have : ∃ h2, freeIf h1 c.patch = some h2 ∧ Own h2 ((c.self, []) :: B) := by
    cases hf : c.patch with
    | none =>
      have i4' : BufOwn c.patch c.patchCap lp := i4
      rw [hf] at i4'; cases i4'; exact ⟨h1, rfl, o⟩
    | some q =>
      have i4' : BufOwn c.patch c.patchCap lp := i4
      rw [hf] at i4'
      obtain ⟨w, hw, rfl⟩ := i4'
      exact free_own (v := w) o
  obtain ⟨h2, e2, o2⟩ := this
  obtain ⟨h3, e3, o3⟩ := free_own o2
  exact ⟨h3, by simp [cvDelete, e1, e2, e3], o3.perm⟩

/-! ## Specification -/

/-- Images are put before they are searched, and patches taken from them, also after a reset. -/
def ImageFirst : Bool → List CvOp → Prop
  | _, [] => True
  | _, .put _ _ :: ops => ImageFirst true ops
  | i, .detect _ _ :: ops => i = true ∧ ImageFirst i ops
  | i, .append _ :: ops => ImageFirst i ops
  | i, .keep _ _ :: ops => ImageFirst i ops
  | i, .patch _ _ :: ops => i = true ∧ ImageFirst i ops
  | _, .reset :: ops => ImageFirst false ops

/-- No reset comes after a feature has been stored. -/
def ResetFirst : Bool → List CvOp → Prop
  | _, [] => True
  | f, .put _ _ :: ops => ResetFirst f ops
  | f, .detect _ xs :: ops => ResetFirst (f || decide (xs ≠ [])) ops
  | _, .append _ :: ops => ResetFirst true ops
  | f, .keep _ _ :: ops => ResetFirst f ops
  | f, .patch _ _ :: ops => ResetFirst f ops
  | f, .reset :: ops => f = false ∧ ResetFirst f ops

/-- The number of images put. -/
def numPuts : List CvOp → Nat
  | [] => 0
  | .put _ _ :: ops => numPuts ops + 1
  | _ :: ops => numPuts ops

/-! ## Theorems -/

theorem run_own (E : Env) : ∀ (ops : List CvOp) {c c' : Cv} {h h' : Heap} {B : List Block}, CInv c h B →
    cvRun E ops (c, h) = some (c', h') → ∃ L, CInv c' h' (L ++ B) ∧ ((∀ m, E.ok m = true) → L = []) ∧ L.length ≤ numPuts ops
  | [], c, c', h, h', B, i, e => by
    simp only [cvRun, Option.some.injEq, Prod.mk.injEq] at e
    obtain ⟨rfl, rfl⟩ := e
    exact ⟨[], i, fun _ => rfl, le_refl _⟩
  | op :: ops, c, c', h, h', B, i, e => by
    have key : ∀ c1 h1, cvStep E (c, h) op = some (c1, h1) → ∃ L, CInv c1 h1 (L ++ B) ∧ ((∀ m, E.ok m = true) → L = []) ∧
        L.length + numPuts ops ≤ numPuts (op :: ops) := by
      intro c1 h1 e1
      cases op with
      | put g v =>
        obtain ⟨err, c2, h2, L, e2, i2, -, -, -, k1, k2, k3⟩ := put_own E i g v
        simp only [cvStep, e2, Option.map_some, Option.some.injEq, Prod.mk.injEq] at e1
        obtain ⟨rfl, rfl⟩ := e1
        refine ⟨L, i2, fun ok => ?_, by simp only [numPuts]; omega⟩
        cases err with
        | false => exact (k1 rfl).2
        | true => exact absurd ok (k2 rfl)
      | detect v xs =>
        rcases detect_own E i v xs with ⟨e2, -⟩ | ⟨c2, h2, e2, i2, -⟩ <;> rw [cvStep, e2] at e1
        · cases e1
        · cases e1; exact ⟨[], i2, fun _ => rfl, by simp [numPuts]⟩
      | append x =>
        rcases append_own E i x with ⟨e2, -⟩ | ⟨c2, h2, e2, i2, -⟩ <;> rw [cvStep, e2] at e1
        · cases e1
        · cases e1; exact ⟨[], i2, fun _ => rfl, by simp [numPuts]⟩
      | keep k v =>
        rcases keep_own i k v with ⟨e2, -⟩ | ⟨c2, h2, e2, i2, -⟩ <;> rw [cvStep, e2] at e1
        · cases e1
        · cases e1; exact ⟨[], i2, fun _ => rfl, by simp [numPuts]⟩
      | patch n v =>
        rcases patch_own E i n v with ⟨e2, -⟩ | ⟨err, c2, h2, e2, i2, -⟩ <;> rw [cvStep, e2] at e1
        · cases e1
        · cases e1; exact ⟨[], i2, fun _ => rfl, by simp [numPuts]⟩
      | reset =>
        obtain ⟨h2, e2, i2⟩ := reset_own i
        rw [cvStep, e2] at e1
        cases e1; exact ⟨[], i2, fun _ => rfl, by simp [numPuts]⟩
    rw [cvRun] at e
    cases h1 : cvStep E (c, h) op with
    | none => rw [h1] at e; cases e
    | some s =>
      rw [h1] at e
      obtain ⟨L, i1, k1, m1⟩ := key s.1 s.2 h1
      obtain ⟨L', i2, k2, m2⟩ := run_own E ops i1 e
      exact ⟨L' ++ L, by rw [List.append_assoc]; exact i2, fun ok => by rw [k1 ok, k2 ok]; rfl, by simp; omega⟩

theorem new_own {E : Env} {h0 h : Heap} (g : h0.Good) {cg : Geom → Geom} {c : Cv} (e : cvNew E h0 cg = some (c, h)) :
    CInv c h h0.live ∧ Sound c ∧ c.feats = none := by
  rcases malloc_cases E g.own 0 with ⟨h1, v, e1, k1, -, l1, o1⟩ | ⟨h1, e1, k1, -, o1⟩
  · obtain rfl := List.length_eq_zero_iff.mp l1
    simp [cvNew, need, e1] at e
    obtain ⟨rfl, rfl⟩ := e
    exact ⟨⟨⟨[], [], [], [], rfl, rfl, rfl, rfl, o1⟩, fun _ => rfl⟩, ⟨fun _ => rfl, le_refl _⟩, rfl⟩
  · simp [cvNew, need, e1] at e

/-- C226: whatever the calls and whatever requests of memory fail, if the calls are defined then deleting the detector is, and gives
back all its memory; what can be left is one block, the list of a scale space that
could not be made (C215), for each image put, and nothing if no request fails. -/
theorem covdet_memory (E : Env) (h0 : Heap) (g : h0.Good) (cg : Geom → Geom) (ops : List CvOp) (c c' : Cv) (h h' : Heap)
    (en : cvNew E h0 cg = some (c, h)) (er : cvRun E ops (c, h) = some (c', h')) :
    ∃ hd L, cvDelete h' c' = some hd ∧ hd.live.Perm (L ++ h0.live) ∧ ((∀ m, E.ok m = true) → L = []) ∧
      L.length ≤ numPuts ops := by
  obtain ⟨i, -, -⟩ := new_own g en
  obtain ⟨L, i1, k⟩ := run_own E ops i er
  obtain ⟨hd, e, p⟩ := delete_own i1
  exact ⟨hd, L, e, p, k⟩

theorem run_defined {E : Env} (ok : ∀ m, E.ok m = true) : ∀ (ops : List CvOp) (im f : Bool) {c : Cv} {h : Heap} {B : List Block},
    CInv c h B → Sound c → (im = true → c.gss.isSome) → (f = false → c.feats = none) → ImageFirst im ops → ResetFirst f ops →
    ∃ s, cvRun E ops (c, h) = some s
  | [], _, _, c, h, _, _, _, _, _, _, _ => ⟨_, rfl⟩
  | op :: ops, im, f, c, h, B, i, s, hi, hf, p, q => by
    cases op with
    | put g v =>
      obtain ⟨err, c2, h2, L, e2, i2, s2, -, n2, k1, k2, -⟩ := put_own E i g v
      have : err = false := by cases err with | false => rfl | true => exact absurd ok (k2 rfl)
      obtain ⟨r, er⟩ := run_defined ok ops true f i2 (s2 s) (fun _ => (k1 this).1) (fun h => by rw [n2]; exact hf h) p q
      exact ⟨r, by simp [cvRun, cvStep, e2, er]⟩
    | detect v xs =>
      obtain ⟨p1, p2⟩ := p
      rcases detect_own E i v xs with ⟨-, n⟩ | ⟨c2, h2, e2, i2, s2, g2, -, n2⟩
      · exact absurd ⟨ok, s, hi p1⟩ n
      · obtain ⟨r, er⟩ := run_defined ok ops im _ i2 (s2 s) (by rw [g2]; exact hi) (fun h => by
          simp only [Bool.or_eq_false_iff, decide_eq_false_iff_not, not_not] at h
          rw [n2 h.2]; exact hf h.1) p2 q
        exact ⟨r, by simp [cvRun, cvStep, e2, er]⟩
    | append x =>
      rcases append_own E i x with ⟨-, n⟩ | ⟨c2, h2, e2, i2, s2, g2, -⟩
      · exact absurd s n
      · obtain ⟨r, er⟩ := run_defined ok ops im true i2 (s2 s) (by rw [g2]; exact hi) (by simp) p q
        exact ⟨r, by simp [cvRun, cvStep, e2, er]⟩
    | keep k v =>
      rcases keep_own i k v with ⟨-, n⟩ | ⟨c2, h2, e2, i2, s2, g2, -, n2⟩
      · exact absurd s n
      · obtain ⟨r, er⟩ := run_defined ok ops im f i2 (s2 s) (by rw [g2]; exact hi) (by rw [n2]; exact hf) p q
        exact ⟨r, by simp [cvRun, cvStep, e2, er]⟩
    | patch n v =>
      obtain ⟨p1, p2⟩ := p
      rcases patch_own E i n v with ⟨-, n⟩ | ⟨err, c2, h2, e2, i2, s2, g2, -, n2, -⟩
      · have := hi p1; rw [n] at this; cases this
      · obtain ⟨r, er⟩ := run_defined ok ops im f i2 (s2 s) (by rw [g2]; exact hi) (by rw [n2]; exact hf) p2 q
        exact ⟨r, by simp [cvRun, cvStep, e2, er]⟩
    | reset =>
      obtain ⟨q1, q2⟩ := q
      obtain ⟨h2, e2, i2⟩ := reset_own i
      obtain ⟨r, er⟩ := run_defined ok ops false f i2 ⟨fun _ => s.1 (hf q1), s.2⟩ (by simp) (fun _ => rfl) p q2
      exact ⟨r, by simp [cvRun, cvStep, e2, er]⟩

/-- C226: calls in which images come first, and in which the detector is configured and reset before features are found, are defined.
Missing: a reset after features have been found. -/
theorem covdet_defined_partial (E : Env) (ok : ∀ m, E.ok m = true) (h0 : Heap) (g : h0.Good) (cg : Geom → Geom) (ops : List CvOp)
    (hi : ImageFirst false ops) (hr : ResetFirst false ops) :
    ∃ c h s, cvNew E h0 cg = some (c, h) ∧ cvRun E ops (c, h) = some s := by
  obtain ⟨h1, e1, -, o1⟩ := malloc_own (E := E) g.own 0 (ok _)
  have e : cvNew E h0 cg = some (⟨h0.next, cg, none, none, none, 0, 0, none, 0⟩, h1) := by simp [cvNew, need, e1]
  obtain ⟨i, s, n⟩ := new_own g e
  obtain ⟨r, er⟩ := run_defined ok ops false false i s (by simp) (fun _ => n) hi hr
  exact ⟨_, _, r, e, er⟩

/-- The settings may be changed, which resets the detector, between images. -/
def CovdetClaim : Prop :=
  ∀ (E : Env), (∀ m, E.ok m = true) → ∀ (h0 : Heap), h0.Good → ∀ (cg : Geom → Geom) (ops : List CvOp), ImageFirst false ops →
    ∃ c h s, cvNew E h0 cg = some (c, h) ∧ cvRun E ops (c, h) = some s

/-- One image with one feature, a setting, and another image with one feature: the feature is written through NULL. -/
theorem covdet_claim_false : ¬ CovdetClaim := by
  intro hc
  obtain ⟨c, h, s, e1, e2⟩ := hc ⟨fun _ => true, fun _ _ => 0⟩ (fun _ => rfl) ⟨[], 0⟩ ⟨List.nodup_nil, by simp⟩ id
    [.put ⟨[1], 0⟩ (fun _ => 0), .detect (fun _ => 0) [1], .reset, .put ⟨[1], 0⟩ (fun _ => 0), .detect (fun _ => 0) [1]] (by simp [ImageFirst])
  have : (cvNew ⟨fun _ => true, fun _ _ => 0⟩ ⟨[], 0⟩ id).bind (fun r => (cvRun ⟨fun _ => true, fun _ _ => 0⟩
      [.put ⟨[1], 0⟩ (fun _ => 0), .detect (fun _ => 0) [1], .reset, .put ⟨[1], 0⟩ (fun _ => 0), .detect (fun _ => 0) [1]] r).map fun _ => ()) = none := by
    decide +kernel
  rw [e1, Option.bind_some, e2] at this
  cases this

/-- A history with two images of different sizes, and a request that fails for the second one. -/
example : ∃ c h s hd, cvNew ⟨fun i => i != 9, fun _ _ => 0⟩ ⟨[(0, [5])], 1⟩ id = some (c, h) ∧
    cvRun ⟨fun i => i != 9, fun _ _ => 0⟩ [.put ⟨[2], 0⟩ (fun _ => 0), .detect (fun _ => 0) [], .patch 3 (fun _ => 1), .put ⟨[3], 0⟩ (fun _ => 0)] (c, h) = some s ∧
    cvDelete s.2 s.1 = some hd ∧ s.1.gss.isNone ∧ hd.live = [(0, [5])] := by
  refine ⟨_, _, _, _, rfl, rfl, rfl, ?_, ?_⟩ <;> rfl

example : ImageFirst false [.reset, .put ⟨[2], 0⟩ (fun _ => 0), .detect (fun _ => 0) [1], .keep 1 (fun _ => 0), .patch 3 (fun _ => 1)] ∧
    ResetFirst false [.reset, .put ⟨[2], 0⟩ (fun _ => 0), .detect (fun _ => 0) [1], .keep 1 (fun _ => 0), .patch 3 (fun _ => 1)] := by
  simp [ImageFirst, ResetFirst]

end Verif.Life
