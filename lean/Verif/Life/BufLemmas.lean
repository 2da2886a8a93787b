import Verif.Life.KmLemmas
import Verif.Life.FailProps
import Verif.Life.BufModel

/-! Lemmas about the buffers of filters. -/

namespace Verif.Life

theorem storeIf_own {h : Heap} {R : List Block} {p : Option Nat} {w : List ℚ}
    (o : Own h (blk p w ++ R)) (v : List ℚ) (hv : v.length ≤ if p.isSome then w.length else 0) :
    ∃ h', storeIf h p v = some h' ∧ Own h' (blk p (v ++ w.drop v.length) ++ R) := by
  cases p with
  | none =>
    obtain rfl : v = [] := List.length_eq_zero_iff.mp (by simpa using hv)
    exact ⟨h, rfl, o⟩
  | some p => exact store_own o v (by simpa using hv)

theorem readIf_own {h : Heap} {R : List Block} {p : Option Nat} {v w : List ℚ}
    (o : Own h (blk p (v ++ w) ++ R)) (hp : p = none → v = []) :
    readIf h p v.length = some v := by
  cases p with
  | none => rw [hp rfl]; rfl
  | some p =>
    simp only [readIf, load_own o, Option.bind_eq_bind, Option.bind_some]
    rw [if_pos (by simp), List.take_left]

theorem freeFirst_own (G : List Block) : ∀ {h : Heap} {B : List Block}, Own h (G ++ B) →
    ∃ h', freeFirst G.length (G.map Prod.fst) h = some h' ∧ Own h' B := by
  induction G with
  | nil => exact fun {h B} o => ⟨h, rfl, o⟩
  | cons b G ih =>
    intro h B o
    obtain ⟨h1, e1, o1⟩ := free_own o
    obtain ⟨h2, e2, o2⟩ := ih o1
    exact ⟨h2, by simp [freeFirst, e1, e2], o2⟩

theorem needs_own {E : Env} (ok : ∀ m, E.ok m = true) (size n : Nat) :
    ∀ {h : Heap} {B : List Block}, Own h B →
    ∃ h' G, needs E size n h = some (G.map Prod.fst, h') ∧ G.length = n ∧
      (∀ b ∈ G, b.2.length = size) ∧ Own h' (G ++ B) := by
  induction n with
  | zero => exact fun {h B} o => ⟨h, [], rfl, rfl, by simp, o⟩
  | succ n ih =>
    intro h B o
    obtain ⟨h1, p, v, e1, hv, o1⟩ := need_own (E := E) o size ok
    obtain ⟨h2, G, e2, hG, hs, o2⟩ := ih o1
    refine ⟨h2, (p, v) :: G, by simp [needs, e1, e2], by simp [hG], ?_, o2.of_perm (by perm)⟩
    intro b hb
    rcases List.mem_cons.mp hb with rfl | hb
    · exact hv
    · exact hs b hb

theorem gradWrite_own (area : Nat) (f : Nat → Nat → ℚ) (G : List Block) :
    ∀ (t : Nat) {h : Heap} {B : List Block}, (∀ b ∈ G, b.2.length = area) → Own h (G ++ B) →
    ∃ h' G', gradWrite area f G.length t (G.map Prod.fst) h = some h' ∧
      G'.map Prod.fst = G.map Prod.fst ∧ (∀ b ∈ G', b.2.length = area) ∧ Own h' (G' ++ B) := by
  induction G with
  | nil => exact fun t {h B} _ o => ⟨h, [], rfl, rfl, by simp, o⟩
  | cons b G ih =>
    intro t h B hs o
    obtain ⟨h1, e1, o1⟩ := store_full (v := (List.range area).map (f t)) (w := b.2) (p := b.1)
      (B := G ++ B) o (by rw [hs b (by simp)]; simp)
    obtain ⟨h2, G', e2, hm, hs', o2⟩ := ih (t + 1) (h := h1)
      (B := (b.1, (List.range area).map (f t)) :: B) (fun c hc => hs c (by simp [hc]))
      (o1.of_perm (by perm))
    refine ⟨h2, (b.1, (List.range area).map (f t)) :: G', by simp [gradWrite, e1, e2],
      by simp [hm], ?_, o2.of_perm (by perm)⟩
    intro c hc
    rcases List.mem_cons.mp hc with rfl | hc
    · simp
    · exact hs' c hc

theorem grow_own {E : Env} (ok : ∀ m, E.ok m = true) {h : Heap} {R : List Block} {p : Option Nat}
    {v : List ℚ} {d reserved : Nat} (n : Nat) (o : Own h (blk p v ++ R))
    (hr : reserved * d ≤ if p.isSome then v.length else 0) :
    ∃ q r w h', grow E h p reserved n (n * d) = some ((q, r), h') ∧ Own h' (blk q w ++ R) ∧
      (r * d ≤ if q.isSome then w.length else 0) ∧ n ≤ r := by
  unfold grow
  by_cases c : reserved < n
  · rw [if_pos c]
    obtain ⟨h1, e1, o1⟩ := freeIf_own o
    obtain ⟨h2, q, w, e2, hw, o2⟩ := need_own (E := E) o1 (n * d) ok
    exact ⟨some q, n, w, h2, by simp [e1, e2], o2, by simp [hw], le_refl _⟩
  · rw [if_neg c]
    exact ⟨p, reserved, v, h, rfl, o, hr, by omega⟩

/-! ## Dense SIFT -/

/-- The blocks that a filter always has. -/
def dBase (s : Ds) (t1 t2 : List ℚ) : List Block := [(s.self, []), (s.tmp1, t1), (s.tmp2, t2)]

/-- The blocks of a filter: the buffers are either all missing or all there, with
the sizes that the filter records. -/
inductive DInv (h : Heap) (s : Ds) (F : List Block) : Prop
  | empty (t1 t2 : List ℚ) (own : Own h (dBase s t1 t2 ++ F)) (l1 : t1.length = s.area)
      (l2 : t2.length = s.area) (hf : s.frames = none) (hd : s.descrs = none)
      (hg : s.grads = none) (af : s.frameAlloc = 0) (ab : s.binAlloc = 0) (ag : s.gradAlloc = 0)
  | full (t1 t2 vf vd vg : List ℚ) (f d g : Nat) (G : List Block)
      (own : Own h (dBase s t1 t2 ++ ((f, vf) :: (d, vd) :: (g, vg) :: (G ++ F))))
      (l1 : t1.length = s.area) (l2 : t2.length = s.area) (hf : s.frames = some f)
      (hd : s.descrs = some d) (hg : s.grads = some (g, G.map Prod.fst))
      (lf : vf.length = s.frameAlloc) (ld : vd.length = s.binAlloc * s.frameAlloc)
      (lG : G.length = s.gradAlloc) (sG : ∀ b ∈ G, b.2.length = s.area)

/-- A filter without buffers. -/
def Ds.cleared (s : Ds) : Ds :=
  { s with frames := none, descrs := none, grads := none, frameAlloc := 0, binAlloc := 0, gradAlloc := 0 }

theorem dFree_own {h : Heap} {s : Ds} {F : List Block} (v : DInv h s F) :
    ∃ h' t1 t2, dFree h s = some (s.cleared, h') ∧ Own h' (dBase s t1 t2 ++ F) ∧
      t1.length = s.area ∧ t2.length = s.area := by
  cases v with
  | empty t1 t2 own l1 l2 hf hd hg af ab ag =>
    refine ⟨h, t1, t2, ?_, own, l1, l2⟩
    simp [dFree, hf, hd, hg, freeIf, Ds.cleared]
  | full t1 t2 vf vd vg f d g G own l1 l2 hf hd hg lf ld lG sG =>
    have o : Own h ((f, vf) :: (d, vd) :: (g, vg) :: (G ++ (dBase s t1 t2 ++ F))) :=
      own.of_perm (by perm)
    obtain ⟨h1, e1, o1⟩ := free_own o
    obtain ⟨h2, e2, o2⟩ := free_own o1
    obtain ⟨h3, e3, o3⟩ := freeFirst_own G (h := h2) (B := (g, vg) :: (dBase s t1 t2 ++ F))
      (o2.of_perm (by perm))
    obtain ⟨h4, e4, o4⟩ := free_own o3
    refine ⟨h4, t1, t2, ?_, o4, l1, l2⟩
    rw [lG] at e3
    simp [dFree, hf, hd, hg, freeIf, Ds.cleared, e1, e2, load_own o2, e3, e4]

theorem dNew_own {E : Env} (ok : ∀ m, E.ok m = true) {h : Heap} {F : List Block} (o : Own h F)
    (a n b t : Nat) : ∃ s h', dNew E h a n b t = some (s, h') ∧ DInv h' s F := by
  obtain ⟨h1, p, v, e1, hv, o1⟩ := need_own (E := E) o 0 ok
  obtain ⟨h2, q, w, e2, hw, o2⟩ := need_own (E := E) o1 a ok
  obtain ⟨h3, r, x, e3, hx, o3⟩ := need_own (E := E) o2 a ok
  obtain rfl := List.length_eq_zero_iff.mp hv
  refine ⟨⟨p, q, r, a, none, none, none, 0, 0, 0, n, b, t⟩, h3, by simp [dNew, e1, e2, e3],
    .empty w x (o3.of_perm ?_) hw hx rfl rfl rfl rfl rfl rfl⟩
  simp only [dBase]
  perm

theorem dDelete_own {h : Heap} {s : Ds} {F : List Block} (v : DInv h s F) :
    ∃ h', dDelete h s = some h' ∧ Own h' F := by
  obtain ⟨h1, t1, t2, e1, o1, -, -⟩ := dFree_own v
  obtain ⟨h2, e2, o2⟩ := free_own (o1.of_perm (B' := (s.tmp2, t2) :: (s.tmp1, t1) :: (s.self, []) :: F)
    (by simp only [dBase]; perm))
  obtain ⟨h3, e3, o3⟩ := free_own o2
  obtain ⟨h4, e4, o4⟩ := free_own o3
  exact ⟨h4, by simp [dDelete, e1, Ds.cleared, e2, e3, e4], o4⟩

/-- The buffers fit after they have been allocated. -/
theorem dAlloc_own {E : Env} (ok : ∀ m, E.ok m = true) {h : Heap} {s : Ds} {F : List Block}
    (v : DInv h s F) : ∃ s' h', dAlloc E h s = some (s', h') ∧ DInv h' s' F ∧
      s'.numFrames = s.numFrames ∧ s'.descrSize = s.descrSize ∧ s'.numBinT = s.numBinT ∧
      s'.area = s.area ∧ s'.frameAlloc = s.numFrames ∧ s'.binAlloc = s.descrSize ∧
      s'.gradAlloc = s.numBinT := by
  by_cases c : s.descrSize ≠ s.binAlloc ∨ s.numBinT ≠ s.gradAlloc ∨ s.numFrames ≠ s.frameAlloc
  · obtain ⟨h1, t1, t2, e1, o1, l1, l2⟩ := dFree_own v
    obtain ⟨h2, f, vf, e2, lf, o2⟩ := need_own (E := E) o1 s.numFrames ok
    obtain ⟨h3, d, vd, e3, ld, o3⟩ := need_own (E := E) o2 (s.descrSize * s.numFrames) ok
    obtain ⟨h4, g, vg, e4, -, o4⟩ := need_own (E := E) o3 s.numBinT ok
    obtain ⟨h5, G, e5, lG, sG, o5⟩ := needs_own ok s.area s.numBinT o4
    refine ⟨{ s with frames := some f, descrs := some d, grads := some (g, G.map Prod.fst), binAlloc := s.descrSize, gradAlloc := s.numBinT, frameAlloc := s.numFrames },
      h5, ?_, .full t1 t2 vf vd vg f d g G (o5.of_perm (by simp only [dBase]; perm)) l1 l2 rfl rfl rfl lf ld lG sG, rfl, rfl, rfl, rfl,
      rfl, rfl, rfl⟩
    unfold dAlloc
    rw [if_pos c]
    simp [e1, Ds.cleared, e2, e3, e4, e5]
  · refine ⟨s, h, if_neg c, v, rfl, rfl, rfl, rfl, ?_, ?_, ?_⟩ <;> · push Not at c; omega

theorem dProcess_own {E : Env} (ok : ∀ m, E.ok m = true) {h : Heap} {s : Ds} {F : List Block}
    (v : DInv h s F) (w : DOut) : ∃ s' h', dProcess E h s w = some (s', h') ∧ DInv h' s' F ∧
      s'.numFrames = s.numFrames ∧ s'.descrSize = s.descrSize ∧ s'.numBinT = s.numBinT ∧
      dFrames h' s' = some ((List.range s.numFrames).map w.frame) ∧
      dDescrs h' s' = some ((List.range (s.descrSize * s.numFrames)).map w.descr) := by
  have hself : load h s.self = some [] := by
    cases v with
    | empty t1 t2 own => exact load_own own
    | full t1 t2 vf vd vg f d g G own => exact load_own own
  obtain ⟨s', h', e, v', n1, n2, n3, n4, a1, a2, a3⟩ := dAlloc_own ok v
  cases v' with
  | empty t1 t2 own l1 l2 hf hd hg af ab ag =>
    obtain ⟨h1, e1, o1⟩ := store_full (p := s'.tmp1) (w := t1) (v := (List.range s'.area).map (w.grad 0))
      (B := (s'.self, []) :: (s'.tmp2, t2) :: F) (own.of_perm (by simp only [dBase]; perm)) (by simp [l1])
    obtain ⟨h2, e2, o2⟩ := store_full (p := s'.tmp2) (w := t2) (v := (List.range s'.area).map (w.grad 0))
      (B := (s'.self, []) :: (s'.tmp1, (List.range s'.area).map (w.grad 0)) :: F) (o1.of_perm (by perm)) (by simp [l2])
    have z1 : s.numFrames = 0 := by omega
    have z3 : s'.numBinT = 0 := by omega
    refine ⟨s', h2, ?_, .empty _ _ (o2.of_perm (by simp only [dBase]; perm)) (by simp) (by simp) hf hd hg af ab ag, n1, n2, n3, ?_, ?_⟩
    · simp [dProcess, hself, e, hg, z3, gradWrite, e1, e2, hf, hd, n1, n2, z1, storeIf]
    · simp [dFrames, readIf, hf, n1, z1]
    · simp [dDescrs, readIf, hd, n1, z1]
  | full t1 t2 vf vd vg f d g G own l1 l2 hf hd hg lf ld lG sG =>
    obtain ⟨h1, G', e1, hm, sG', o1⟩ := gradWrite_own s'.area w.grad G 0 (h := h')
      (B := (s'.self, []) :: (s'.tmp1, t1) :: (s'.tmp2, t2) :: (f, vf) :: (d, vd) :: (g, vg) :: F) sG
      (own.of_perm (by simp only [dBase]; perm))
    obtain ⟨h2, e2, o2⟩ := store_full (p := s'.tmp1) (w := t1) (v := (List.range s'.area).map (w.grad 0))
      (B := (s'.self, []) :: (s'.tmp2, t2) :: (f, vf) :: (d, vd) :: (g, vg) :: (G' ++ F)) (o1.of_perm (by perm)) (by simp [l1])
    obtain ⟨h3, e3, o3⟩ := store_full (p := s'.tmp2) (w := t2) (v := (List.range s'.area).map (w.grad 0))
      (B := (s'.self, []) :: (s'.tmp1, (List.range s'.area).map (w.grad 0)) :: (f, vf) :: (d, vd) :: (g, vg) :: (G' ++ F)) (o2.of_perm (by perm)) (by simp [l2])
    obtain ⟨h4, e4, o4⟩ := store_full (p := f) (w := vf) (v := (List.range s'.numFrames).map w.frame)
      (B := (s'.self, []) :: (s'.tmp1, (List.range s'.area).map (w.grad 0)) :: (s'.tmp2, (List.range s'.area).map (w.grad 0)) :: (d, vd) :: (g, vg) :: (G' ++ F)) (o3.of_perm (by perm))
      (by simp [lf, a1, n1])
    obtain ⟨h5, e5, o5⟩ := store_full (p := d) (w := vd) (v := (List.range (s'.descrSize * s'.numFrames)).map w.descr)
      (B := (f, (List.range s'.numFrames).map w.frame) :: (s'.self, []) :: (s'.tmp1, (List.range s'.area).map (w.grad 0)) :: (s'.tmp2, (List.range s'.area).map (w.grad 0)) :: (g, vg) :: (G' ++ F)) (o4.of_perm (by perm))
      (by simp [ld, a1, a2, n1, n2])
    have lG' : G.length = s'.numBinT := by omega
    rw [lG'] at e1
    refine ⟨s', h5, ?_, .full _ _ _ _ vg f d g G' (o5.of_perm (by simp only [dBase]; perm)) (by simp) (by simp) hf hd (by rw [hg, hm])
      (by simp [a1, n1]) (by simp [a1, a2, n1, n2])
      (by rw [← lG, ← List.length_map (f := Prod.fst), hm, List.length_map]) sG', n1, n2, n3, ?_, ?_⟩
    · simp [dProcess, hself, e, hg, e1, e2, e3, hf, hd, storeIf, e4, e5]
    · have := load_own (p := f) (o5.of_perm (B' := (f, (List.range s'.numFrames).map w.frame) :: (d, (List.range (s'.descrSize * s'.numFrames)).map w.descr) :: (s'.self, []) :: (s'.tmp1, (List.range s'.area).map (w.grad 0)) :: (s'.tmp2, (List.range s'.area).map (w.grad 0)) :: (g, vg) :: (G' ++ F)) (by perm))
      simp [dFrames, readIf, hf, this, n1]
    · simp [dDescrs, readIf, hd, load_own o5, n1, n2]

/-! ## MSER -/

/-- The blocks that an MSER filter always has. -/
def mBase (s : Ms) (a b c d e f g : List ℚ) : List Block :=
  [(s.self, []), (s.dims, a), (s.subs, b), (s.dsubs, c), (s.strides, d), (s.perm, e), (s.joins, f), (s.r, g)]

/-- The blocks of an MSER filter: the regions of the last image are `mer` and the
ellipsoids `ell`. -/
structure MInv (h : Heap) (s : Ms) (F : List Block) (a b c d e f g : List ℚ) (er mer ell acc : List ℚ) :
    Prop where
  own : Own h (blk s.er er ++ (blk s.mer mer ++ (blk s.ell ell ++ (blk s.acc acc ++
    (mBase s a b c d e f g ++ F)))))
  le : e.length = s.nel
  lf : f.length = s.nel
  lg : g.length = s.nel
  ler : s.rer * 1 ≤ if s.er.isSome then er.length else 0
  lmer : s.rmer * 1 ≤ if s.mer.isSome then mer.length else 0
  lell : s.rell * s.dof ≤ if s.ell.isSome then ell.length else 0
  lacc : s.acc.isSome → acc.length = s.nel
  nmer : s.nmer ≤ s.rmer
  nell : s.nell ≤ s.rell

theorem mNew_own {E : Env} (ok : ∀ m, E.ok m = true) {h : Heap} {F : List Block} (o : Own h F)
    (ndims nel : Nat) : ∃ s h' a b c d e f g, mNew E h ndims nel = some (s, h') ∧
      MInv h' s F a b c d e f g [] [] [] [] ∧ s.nmer = 0 ∧ s.nell = 0 ∧
      s.dof = ndims * (ndims + 1) / 2 + ndims := by
  obtain ⟨h1, p, v, e1, hv, o1⟩ := need_own (E := E) o 0 ok
  obtain ⟨h2, pa, a, e2, ha, o2⟩ := need_own (E := E) o1 ndims ok
  obtain ⟨h3, pb, b, e3, hb, o3⟩ := need_own (E := E) o2 ndims ok
  obtain ⟨h4, pc, c, e4, hc, o4⟩ := need_own (E := E) o3 ndims ok
  obtain ⟨h5, pd, d, e5, hd, o5⟩ := need_own (E := E) o4 ndims ok
  obtain ⟨h6, pe, e, e6, he, o6⟩ := need_own (E := E) o5 nel ok
  obtain ⟨h7, pf, f, e7, hf, o7⟩ := need_own (E := E) o6 nel ok
  obtain ⟨h8, pg, g, e8, hg, o8⟩ := need_own (E := E) o7 nel ok
  obtain rfl := List.length_eq_zero_iff.mp hv
  refine ⟨⟨p, pa, pb, pc, pd, pe, pf, pg, nel, ndims * (ndims + 1) / 2 + ndims, none, 0, none, 0, 0, none, 0, 0, none⟩,
    h8, a, b, c, d, e, f, g, by simp [mNew, e1, e2, e3, e4, e5, e6, e7, e8],
    ⟨o8.of_perm ?_, he, hf, hg, by simp, by simp, by simp, by simp, by simp, by simp⟩, rfl, rfl, rfl⟩
  simp only [mBase, blk]
  perm

theorem mDelete_own {h : Heap} {s : Ms} {F : List Block} {a b c d e f g er mer ell acc : List ℚ}
    (v : MInv h s F a b c d e f g er mer ell acc) : ∃ h', mDelete h s = some h' ∧ Own h' F := by
  have hself : load h s.self = some [] := load_own (v.own.of_perm (B' := (s.self, []) :: (blk s.er er ++ (blk s.mer mer ++ (blk s.ell ell ++ (blk s.acc acc ++
    ((mBase s a b c d e f g).tail ++ F)))))) (by simp only [mBase, List.tail_cons]; perm))
  have o : Own h (blk s.acc acc ++ (blk s.ell ell ++ (blk s.er er ++ ((s.r, g) :: (s.joins, f) :: (s.perm, e) ::
      (s.strides, d) :: (s.dsubs, c) :: (s.subs, b) :: (s.dims, a) :: (blk s.mer mer ++ (s.self, []) :: F))))) :=
    v.own.of_perm (by simp only [mBase]; perm)
  obtain ⟨h1, e1, o⟩ := freeIf_own o
  obtain ⟨h2, e2, o⟩ := freeIf_own o
  obtain ⟨h3, e3, o⟩ := freeIf_own o
  obtain ⟨h4, e4, o⟩ := free_own o
  obtain ⟨h5, e5, o⟩ := free_own o
  obtain ⟨h6, e6, o⟩ := free_own o
  obtain ⟨h7, e7, o⟩ := free_own o
  obtain ⟨h8, e8, o⟩ := free_own o
  obtain ⟨h9, e9, o⟩ := free_own o
  obtain ⟨h10, e10, o⟩ := free_own o
  obtain ⟨h11, e11, o⟩ := freeIf_own o
  obtain ⟨h12, e12, o⟩ := free_own o
  exact ⟨h12, by simp [mDelete, hself, e1, e2, e3, e4, e5, e6, e7, e8, e9, e10, e11, e12], o⟩

theorem mself_load {h : Heap} {s : Ms} {F : List Block} {a b c d e f g er mer ell acc : List ℚ}
    (v : MInv h s F a b c d e f g er mer ell acc) : load h s.self = some [] :=
  load_own (v.own.of_perm (B' := (s.self, []) :: (blk s.er er ++ (blk s.mer mer ++ (blk s.ell ell ++ (blk s.acc acc ++
    ((mBase s a b c d e f g).tail ++ F)))))) (by simp only [mBase, List.tail_cons]; perm))

theorem mProcess_own {E : Env} (ok : ∀ m, E.ok m = true) {h : Heap} {s : Ms} {F : List Block}
    {a b c d e f g er mer ell acc : List ℚ} (v : MInv h s F a b c d e f g er mer ell acc) (w : MOut) :
    ∃ s' h' e' f' g' er' x, mProcess E h s w = some (s', h') ∧
      MInv h' s' F a b c d e' f' g' er' (w.mer ++ x) ell acc ∧ s'.nmer = w.mer.length ∧
      s'.nell = 0 ∧ s'.dof = s.dof := by
  have o : Own h ((s.perm, e) :: (s.joins, f) :: (s.r, g) :: (blk s.er er ++ (blk s.mer mer ++ (blk s.ell ell ++ (blk s.acc acc ++
      ((s.self, []) :: (s.dims, a) :: (s.subs, b) :: (s.dsubs, c) :: (s.strides, d) :: F)))))) :=
    v.own.of_perm (by simp only [mBase]; perm)
  obtain ⟨h1, e1, o1⟩ := store_full o ((List.range s.nel).map w.perm) (by simp [v.le])
  obtain ⟨h2, e2, o2⟩ := store_full (o1.of_perm (B' := (s.joins, f) :: (s.perm, (List.range s.nel).map w.perm) :: (s.r, g) :: (blk s.er er ++ (blk s.mer mer ++ (blk s.ell ell ++ (blk s.acc acc ++
      ((s.self, []) :: (s.dims, a) :: (s.subs, b) :: (s.dsubs, c) :: (s.strides, d) :: F)))))) (by perm))
    ((List.range s.nel).map w.joins) (by simp [v.lf])
  obtain ⟨h3, e3, o3⟩ := store_full (o2.of_perm (B' := (s.r, g) :: (s.perm, (List.range s.nel).map w.perm) :: (s.joins, (List.range s.nel).map w.joins) :: (blk s.er er ++ (blk s.mer mer ++ (blk s.ell ell ++ (blk s.acc acc ++
      ((s.self, []) :: (s.dims, a) :: (s.subs, b) :: (s.dsubs, c) :: (s.strides, d) :: F)))))) (by perm))
    ((List.range s.nel).map w.r) (by simp [v.lg])
  obtain ⟨q, rer, er1, h4, e4, o4, l4, n4⟩ := grow_own ok w.er.length (o3.of_perm (B' := blk s.er er ++ (blk s.mer mer ++ (blk s.ell ell ++ (blk s.acc acc ++
      (mBase s a b c d ((List.range s.nel).map w.perm) ((List.range s.nel).map w.joins) ((List.range s.nel).map w.r) ++ F)))))
      (by simp only [mBase]; perm)) v.ler
  obtain ⟨h5, e5, o5⟩ := storeIf_own o4 w.er (by omega)
  obtain ⟨p, rmer, mer1, h6, e6, o6, l6, n6⟩ := grow_own ok w.mer.length (o5.of_perm (B' := blk s.mer mer ++ (blk q (w.er ++ er1.drop w.er.length) ++ (blk s.ell ell ++ (blk s.acc acc ++
      (mBase s a b c d ((List.range s.nel).map w.perm) ((List.range s.nel).map w.joins) ((List.range s.nel).map w.r) ++ F)))))
      (by perm)) v.lmer
  obtain ⟨h7, e7, o7⟩ := storeIf_own o6 w.mer (by omega)
  refine ⟨{ s with nell := 0, er := q, rer := rer, mer := p, rmer := rmer, nmer := w.mer.length }, h7, (List.range s.nel).map w.perm,
    (List.range s.nel).map w.joins, (List.range s.nel).map w.r, w.er ++ er1.drop w.er.length, mer1.drop w.mer.length, ?_,
    ⟨o7.of_perm (by simp only [mBase]; perm), by simp, by simp, by simp, ?_, ?_, v.lell, v.lacc, n6, Nat.zero_le _⟩, rfl, rfl, rfl⟩
  · rw [Nat.mul_one] at e4 e6
    simp [mProcess, mself_load v, e1, e2, e3, e4, e5, e6, e7]
  · refine l4.trans ?_
    cases q with
    | none => simp
    | some q => simp; omega
  · refine l6.trans ?_
    cases p with
    | none => simp
    | some p => simp; omega

theorem mFit_own {E : Env} (ok : ∀ m, E.ok m = true) {h : Heap} {s : Ms} {F : List Block}
    {a b c d e f g er mer ell acc : List ℚ} (v : MInv h s F a b c d e f g er mer ell acc)
    (w : Nat → ℚ) (hn : s.nell ≠ s.nmer) :
    ∃ s' h' x acc', mFit E h s w = some (s', h') ∧
      MInv h' s' F a b c d e f g er mer ((List.range (s.nmer * s.dof)).map w ++ x) acc' ∧
      s'.nmer = s.nmer ∧ s'.nell = s.nmer ∧ s'.dof = s.dof ∧ s'.mer = s.mer := by
  obtain ⟨q, rell, ell1, h1, e1, o1, l1, n1⟩ := grow_own ok s.nmer (v.own.of_perm (B' := blk s.ell ell ++ (blk s.er er ++ (blk s.mer mer ++ (blk s.acc acc ++
      (mBase s a b c d e f g ++ F))))) (by perm)) v.lell
  obtain ⟨p, acc1, h2, e2, lp, o2⟩ : ∃ p acc1 h2, (match s.acc with
      | some a => some (a, h1)
      | none => need E h1 s.nel) = some (p, h2) ∧ acc1.length = s.nel ∧
      Own h2 ((p, acc1) :: (blk q ell1 ++ (blk s.er er ++ (blk s.mer mer ++ (mBase s a b c d e f g ++ F))))) := by
    have hacc := v.lacc
    cases hs : s.acc with
    | none =>
      rw [hs] at o1
      obtain ⟨h2, p, x, e2, hx, o2⟩ := need_own (E := E) o1 s.nel ok
      exact ⟨p, x, h2, e2, hx, o2.of_perm (by simp only [blk]; perm)⟩
    | some p =>
      rw [hs] at o1 hacc
      exact ⟨p, acc, h1, rfl, hacc rfl, o1.of_perm (by simp only [blk]; perm)⟩
  obtain ⟨h3, e3, o3⟩ := store_full o2 ((List.range s.nel).map w) (by simp [lp])
  obtain ⟨h4, e4, o4⟩ := storeIf_own (o3.of_perm (B' := blk q ell1 ++ ((p, (List.range s.nel).map w) :: (blk s.er er ++ (blk s.mer mer ++ (mBase s a b c d e f g ++ F))))) (by perm))
    ((List.range (s.nmer * s.dof)).map w) (by
      refine le_trans ?_ l1
      simp only [List.length_map, List.length_range]
      exact Nat.mul_le_mul_right _ n1)
  refine ⟨{ s with ell := q, rell := rell, acc := some p, nell := s.nmer }, h4,
    ell1.drop ((List.range (s.nmer * s.dof)).map w).length, (List.range s.nel).map w, ?_,
    ⟨o4.of_perm (by simp only [mBase, blk]; perm), v.le, v.lf, v.lg, v.ler, v.lmer, ?_, by simp, v.nmer, n1⟩, rfl, rfl, rfl, rfl⟩
  · simp only [mFit, mself_load v, Option.bind_eq_bind, Option.bind_some, if_neg hn, e1]
    cases hs : s.acc with
    | none => rw [hs] at e2; simp only at e2 ⊢; simp [e2, e3, e4]
    | some x => rw [hs] at e2; cases e2; simp [e3, e4]
  · refine l1.trans ?_
    cases q with
    | none => simp
    | some q => simp; omega

/-! ## Hierarchical k-means -/

/-- The blocks of a quantizer. -/
def ikb (f : Ik) (cv iv : List ℚ) : List Block := (f.self, []) :: (blk f.centers cv ++ blk f.inter iv)

/-- The blocks of a tree are those of `B`. -/
def Rep : (n : Nat) → HN n → List Block → Prop
  | 0, (node, f), B => ∃ cv iv, B = (node, []) :: ikb f cv iv
  | n + 1, ((node, f), (arr, cs)), B => ∃ cv iv av Bs, cs.length = f.K ∧
      List.Forall₂ (Rep n) cs Bs ∧ B = (node, []) :: (ikb f cv iv ++ (arr, av) :: Bs.flatten)

theorem ikDelete_own {h : Heap} {R : List Block} {f : Ik} {cv iv : List ℚ}
    (o : Own h (ikb f cv iv ++ R)) : ∃ h', ikDelete h f = some h' ∧ Own h' R := by
  have hs : load h f.self = some [] := load_own o
  obtain ⟨h1, e1, o1⟩ := freeIf_own (o.of_perm (B' := blk f.centers cv ++ (blk f.inter iv ++ (f.self, []) :: R))
    (by simp only [ikb]; perm))
  obtain ⟨h2, e2, o2⟩ := freeIf_own o1
  obtain ⟨h3, e3, o3⟩ := free_own o2
  exact ⟨h3, by simp [ikDelete, hs, e1, e2, e3], o3⟩

theorem ikMake_own {E : Env} (ok : ∀ m, E.ok m = true) (elkan : Bool) (M K : Nat) {h : Heap}
    {R : List Block} {p : Nat} (o : Own h ((p, []) :: R)) :
    ∃ f h' cv iv, ikInit E elkan h ⟨p, 0, none, none⟩ M K = some (f, h') ∧ f.K = K ∧
      Own h' (ikb f cv iv ++ R) := by
  obtain ⟨h1, c, cv, e1, -, o1⟩ := need_own (E := E) o (M * K) ok
  cases elkan with
  | false =>
    exact ⟨⟨p, K, some c, none⟩, h1, cv, [], by simp [ikInit, freeIf, e1], rfl,
      o1.of_perm (by simp only [ikb, blk]; perm)⟩
  | true =>
    obtain ⟨h2, q, iv, e2, -, o2⟩ := need_own (E := E) o1 (K * K) ok
    exact ⟨⟨p, K, some c, some q⟩, h2, cv, iv, by simp [ikInit, freeIf, e1, e2], rfl,
      o2.of_perm (by simp only [ikb, blk]; perm)⟩

theorem kids_own {α : Type} {E : Env} (ok : ∀ m, E.ok m = true) (M : Nat) (size : Nat → Nat)
    (make : Nat → Heap → Option (α × Heap)) (P : α → List Block → Prop)
    (hm : ∀ k h R, Own h R → ∃ c h' B, make k h = some (c, h') ∧ P c B ∧ Own h' (B ++ R)) (m : Nat) :
    ∀ (k : Nat) {h : Heap} {R : List Block}, Own h R →
    ∃ cs h' Bs, kids E M size make m k h = some (cs, h') ∧ cs.length = m ∧ List.Forall₂ P cs Bs ∧
      Own h' (Bs.flatten ++ R) := by
  induction m with
  | zero => exact fun k {h R} o => ⟨[], h, [], rfl, rfl, .nil, o⟩
  | succ m ih =>
    intro k h R o
    obtain ⟨h1, p, v, e1, -, o1⟩ := need_own (E := E) o (M * size k) ok
    obtain ⟨c, h2, B, e2, hB, o2⟩ := hm k h1 _ o1
    obtain ⟨h3, e3, o3⟩ := free_own (o2.of_perm (B' := (p, v) :: (B ++ R)) (by perm))
    obtain ⟨cs, h4, Bs, e4, l4, f4, o4⟩ := ih (k + 1) o3
    exact ⟨c :: cs, h4, B :: Bs, by simp [kids, e1, e2, e3, e4], by simp [l4], .cons hB f4,
      o4.of_perm (by simp only [List.flatten_cons]; perm)⟩

theorem xmeans_own {E : Env} (ok : ∀ m, E.ok m = true) (elkan : Bool) (M : Nat)
    (count : List Nat → Nat) (n : Nat) : ∀ (path : List Nat) (K : Nat) (h : Heap) (R : List Block),
    Own h R → ∃ t h' B, xmeans E elkan M count n path K h = some (t, h') ∧ Rep n t B ∧
      Own h' (B ++ R) := by
  induction n with
  | zero =>
    intro path K h R o
    obtain ⟨h1, p, v, e1, hv, o1⟩ := need_own (E := E) o 0 ok
    obtain rfl := List.length_eq_zero_iff.mp hv
    obtain ⟨h2, i, iv, e2, -, o2⟩ := need_own (E := E) o1 (count path) ok
    obtain ⟨h3, q, w, e3, hw, o3⟩ := need_own (E := E) o2 0 ok
    obtain rfl := List.length_eq_zero_iff.mp hw
    obtain ⟨f, h4, cv, dv, e4, -, o4⟩ := ikMake_own ok elkan M K o3
    obtain ⟨h5, e5, o5⟩ := free_own (o4.of_perm (B' := (i, iv) :: (((p, []) :: ikb f cv dv) ++ R)) (by perm))
    exact ⟨(p, f), h5, (p, []) :: ikb f cv dv, by simp [xmeans, ikNew, e1, e2, e3, e4, e5], ⟨cv, dv, rfl⟩, o5⟩
  | succ n ih =>
    intro path K h R o
    obtain ⟨h1, p, v, e1, hv, o1⟩ := need_own (E := E) o 0 ok
    obtain rfl := List.length_eq_zero_iff.mp hv
    obtain ⟨h2, i, iv, e2, -, o2⟩ := need_own (E := E) o1 (count path) ok
    obtain ⟨h3, q, w, e3, hw, o3⟩ := need_own (E := E) o2 0 ok
    obtain rfl := List.length_eq_zero_iff.mp hw
    obtain ⟨h4, r, av, e4, -, o4⟩ := need_own (E := E) o3 K ok
    obtain ⟨f, h5, cv, dv, e5, hK, o5⟩ := ikMake_own ok elkan M K (o4.of_perm (B' := (q, []) :: (r, av) :: (i, iv) :: (p, []) :: R) (by perm))
    obtain ⟨cs, h6, Bs, e6, l6, f6, o6⟩ := kids_own ok M (fun k => count (path ++ [k]))
      (fun k h => xmeans E elkan M count n (path ++ [k]) (min K (count (path ++ [k]))) h) (Rep n)
      (fun k h R o => ih _ _ h R o) K 0 o5
    obtain ⟨h7, e7, o7⟩ := free_own (o6.of_perm (B' := (i, iv) :: (((p, []) :: (ikb f cv dv ++ (r, av) :: Bs.flatten)) ++ R)) (by perm))
    exact ⟨((p, f), (r, cs)), h7, (p, []) :: (ikb f cv dv ++ (r, av) :: Bs.flatten),
      by simp [xmeans, ikNew, e1, e2, e3, e4, e5, e6, e7], ⟨cv, dv, av, Bs, by rw [l6, hK], f6, rfl⟩, o7⟩

theorem delKids_own {α : Type} (del : α → Heap → Option Heap) (P : α → List Block → Prop)
    (hd : ∀ c B h R, P c B → Own h (B ++ R) → ∃ h', del c h = some h' ∧ Own h' R)
    (cs : List α) : ∀ {Bs : List (List Block)} {h : Heap} {R : List Block}, List.Forall₂ P cs Bs →
    Own h (Bs.flatten ++ R) → ∃ h', delKids del cs.length cs h = some h' ∧ Own h' R := by
  induction cs with
  | nil => intro Bs h R f o; cases f; exact ⟨h, rfl, o⟩
  | cons c cs ih =>
    intro Bs h R f o
    cases f with
    | @cons _ B _ Bs hB f =>
      rw [List.flatten_cons, List.append_assoc] at o
      obtain ⟨h1, e1, o1⟩ := hd c B h _ hB o
      obtain ⟨h2, e2, o2⟩ := ih f o1
      exact ⟨h2, by simp [delKids, e1, e2], o2⟩

theorem xdelete_own (n : Nat) : ∀ (t : HN n) (B : List Block) (h : Heap) (R : List Block),
    Rep n t B → Own h (B ++ R) → ∃ h', xdelete n t h = some h' ∧ Own h' R := by
  induction n with
  | zero =>
    rintro ⟨node, f⟩ B h R ⟨cv, iv, rfl⟩ o
    have hs : load h node = some [] := load_own o
    obtain ⟨h1, e1, o1⟩ := ikDelete_own (o.of_perm (B' := ikb f cv iv ++ (node, []) :: R) (by perm))
    obtain ⟨h2, e2, o2⟩ := free_own o1
    exact ⟨h2, by simp [xdelete, hs, e1, e2], o2⟩
  | succ n ih =>
    rintro ⟨⟨node, f⟩, ⟨arr, cs⟩⟩ B h R ⟨cv, iv, av, Bs, hK, hf, rfl⟩ o
    have hs : load h node = some [] := load_own o
    obtain ⟨h1, e1, o1⟩ := delKids_own (xdelete n) (Rep n) ih cs hf
      (o.of_perm (B' := Bs.flatten ++ ((arr, av) :: (ikb f cv iv ++ (node, []) :: R))) (by perm))
    obtain ⟨h2, e2, o2⟩ := free_own o1
    obtain ⟨h3, e3, o3⟩ := ikDelete_own o2
    obtain ⟨h4, e4, o4⟩ := free_own o3
    rw [hK] at e1
    exact ⟨h4, by simp [xdelete, hs, e1, e2, e3, e4], o4⟩

end Verif.Life
