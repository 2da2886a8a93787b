import Verif.Life.KmProps
import Verif.Life.BufLemmas

/-!
# Theorems about the buffers of dense SIFT, MSER and hierarchical k-means objects
-/

namespace Verif.Life

/-! ## Specification -/

/-- A dense SIFT filter after a history. -/
def DReached (E : Env) (h0 : Heap) (area n b t : Nat) (ops : List DOp) (r : Ds × Heap) : Prop :=
  ∃ s0, dNew E h0 area n b t = some s0 ∧ dRun E ops s0 = some r

/-- An MSER filter after a history. -/
def MReached (E : Env) (h0 : Heap) (ndims nel : Nat) (ops : List MOp) (r : Ms × Heap) : Prop :=
  ∃ s0, mNew E h0 ndims nel = some s0 ∧ mRun E ops s0 = some r

/-- A tree after a history. -/
def HReached (E : Env) (elkan : Bool) (h0 : Heap) (ops : List HOp) (r : HT × Heap) : Prop :=
  ∃ s0, htNew E h0 = some s0 ∧ htRun E elkan ops s0 = some r

/-- A tree is initialised before it is trained; `ready` tells whether it is. -/
def HLegal : Bool → List HOp → Prop
  | _, [] => True
  | _, .init M K d :: ops => 0 < M ∧ 0 < K ∧ 0 < d ∧ HLegal true ops
  | ready, .train _ :: ops => ready = true ∧ HLegal ready ops

/-- A tree is initialised before each training. -/
def HOnce : Bool → List HOp → Prop
  | _, [] => True
  | _, .init M K d :: ops => 0 < M ∧ 0 < K ∧ 0 < d ∧ HOnce true ops
  | ready, .train _ :: ops => ready = true ∧ HOnce false ops

/-! ## Proofs -/

theorem drun_inv {E : Env} (ok : ∀ m, E.ok m = true) {F : List Block} (ops : List DOp) :
    ∀ {s : Ds} {h : Heap}, DInv h s F → ∃ s' h', dRun E ops (s, h) = some (s', h') ∧ DInv h' s' F := by
  induction ops with
  | nil => exact fun {s h} v => ⟨s, h, rfl, v⟩
  | cons op ops ih =>
    intro s h v
    cases op with
    | set n b t =>
      have v1 : DInv h { s with numFrames := n, descrSize := b, numBinT := t } F := by
        cases v with
        | empty t1 t2 own l1 l2 hf hd hg af ab ag => exact .empty t1 t2 own l1 l2 hf hd hg af ab ag
        | full t1 t2 vf vd vg f d g G own l1 l2 hf hd hg lf ld lG sG =>
          exact .full t1 t2 vf vd vg f d g G own l1 l2 hf hd hg lf ld lG sG
      obtain ⟨s', h', e, v'⟩ := ih v1
      exact ⟨s', h', by simp [dRun, dStep, e], v'⟩
    | process w =>
      obtain ⟨s1, h1, e1, v1, -⟩ := dProcess_own ok v w
      obtain ⟨s', h', e, v'⟩ := ih v1
      exact ⟨s', h', by simp [dRun, dStep, e1, e], v'⟩

theorem DInv.mem {h : Heap} {s : Ds} {F : List Block} (v : DInv h s F) : ∀ b ∈ F, b ∈ h.live := by
  intro b hb
  cases v with
  | empty t1 t2 own => exact own.perm.mem_iff.mpr (by simp [hb])
  | full t1 t2 vf vd vg f d g G own => exact own.perm.mem_iff.mpr (by simp [hb])

/-- The invariant of an MSER filter with its values hidden. -/
def MOk (h : Heap) (s : Ms) (F : List Block) : Prop :=
  ∃ a b c d e f g er mer ell acc, MInv h s F a b c d e f g er mer ell acc

theorem mFit_same {E : Env} {h : Heap} {s : Ms} {F : List Block} (v : MOk h s F) (w : Nat → ℚ)
    (hn : s.nell = s.nmer) : mFit E h s w = some (s, h) := by
  obtain ⟨a, b, c, d, e, f, g, er, mer, ell, acc, v⟩ := v
  simp [mFit, mself_load v, hn]

theorem mrun_inv {E : Env} (ok : ∀ m, E.ok m = true) {F : List Block} (ops : List MOp) :
    ∀ {s : Ms} {h : Heap}, MOk h s F → ∃ s' h', mRun E ops (s, h) = some (s', h') ∧ MOk h' s' F ∧
      s'.dof = s.dof := by
  induction ops with
  | nil => exact fun {s h} v => ⟨s, h, rfl, v, rfl⟩
  | cons op ops ih =>
    intro s h v
    obtain ⟨s1, h1, e1, v1, d1⟩ : ∃ s1 h1, mStep E (s, h) op = some (s1, h1) ∧ MOk h1 s1 F ∧ s1.dof = s.dof := by
      have v0 := v
      obtain ⟨a, b, c, d, e, f, g, er, mer, ell, acc, v⟩ := v
      cases op with
      | process w =>
        obtain ⟨s1, h1, e', f', g', er', x, e1, v1, -, -, hd⟩ := mProcess_own ok v w
        exact ⟨s1, h1, e1, ⟨_, _, _, _, _, _, _, _, _, _, _, v1⟩, hd⟩
      | fit w =>
        by_cases hn : s.nell = s.nmer
        · exact ⟨s, h, mFit_same v0 w hn, v0, rfl⟩
        · obtain ⟨s1, h1, x, acc', e1, v1, -, -, hd, -⟩ := mFit_own ok v w hn
          exact ⟨s1, h1, e1, ⟨_, _, _, _, _, _, _, _, _, _, _, v1⟩, hd⟩
    obtain ⟨s', h', e, v', d'⟩ := ih v1
    exact ⟨s', h', by simp [mRun, e1, e], v', d'.trans d1⟩

theorem MInv.regions {h : Heap} {s : Ms} {F : List Block} {a b c d e f g er mer x ell acc : List ℚ}
    (v : MInv h s F a b c d e f g er (mer ++ x) ell acc) (hn : s.nmer = mer.length) :
    mRegions h s = some mer := by
  unfold mRegions
  rw [hn]
  refine readIf_own (v.own.of_perm (B' := blk s.mer (mer ++ x) ++ (blk s.er er ++ (blk s.ell ell ++ (blk s.acc acc ++
    (mBase s a b c d e f g ++ F))))) (by perm)) fun hm => ?_
  have := v.lmer
  rw [hm] at this
  have h2 := v.nmer
  simp at this
  exact List.length_eq_zero_iff.mp (by omega)

theorem MInv.ellipsoids {h : Heap} {s : Ms} {F : List Block} {a b c d e f g er mer x ell acc : List ℚ}
    (v : MInv h s F a b c d e f g er mer (ell ++ x) acc) (hn : s.nell * s.dof = ell.length) :
    mEll h s = some ell := by
  unfold mEll
  rw [hn]
  refine readIf_own (v.own.of_perm (B' := blk s.ell (ell ++ x) ++ (blk s.er er ++ (blk s.mer mer ++ (blk s.acc acc ++
    (mBase s a b c d e f g ++ F))))) (by perm)) fun hm => ?_
  have := v.lell
  rw [hm] at this
  have h2 := Nat.mul_le_mul_right s.dof v.nell
  simp only [Option.isSome_none, Bool.false_eq_true, if_false] at this
  exact List.length_eq_zero_iff.mp (by omega)

/-- The blocks of a tree object; `L` are the blocks of forgotten trees. -/
structure HInv (h : Heap) (t : HT) (L F : List Block) (B : List Block) : Prop where
  own : Own h (B ++ ((t.self, []) :: (L ++ F)))
  none : t.root = none → B = []
  some : ∀ n r, t.root = some ⟨n, r⟩ → Rep n r B

theorem dropRoot_own {h : Heap} {t : HT} {L F B : List Block} (v : HInv h t L F B) :
    ∃ h', dropRoot h t = some h' ∧ Own h' ((t.self, []) :: (L ++ F)) := by
  unfold dropRoot
  cases hr : t.root with
  | none =>
    have o := v.own
    rw [v.none hr] at o
    exact ⟨h, rfl, o⟩
  | some r => exact xdelete_own r.1 r.2 B h _ (v.some r.1 r.2 hr) v.own

theorem htTrain_own {E : Env} (ok : ∀ m, E.ok m = true) (elkan : Bool) {h : Heap} {t : HT}
    {L F B : List Block} (v : HInv h t L F B) (hd : 0 < t.depth) (count : List Nat → Nat) :
    ∃ t' h' B', htTrain E elkan h t count = some (t', h') ∧ HInv h' t' (B ++ L) F B' ∧
      t'.depth = t.depth := by
  have hs : load h t.self = some [] := load_own (v.own.of_perm (B' := (t.self, []) :: (B ++ (L ++ F))) (by perm))
  obtain ⟨n, hn⟩ : ∃ n, t.depth = n + 1 := ⟨t.depth - 1, by omega⟩
  obtain ⟨r, h', B', e, hB, o⟩ := xmeans_own ok elkan t.M count n [] (min t.K (count [])) h _ v.own
  refine ⟨{ t with root := some ⟨n, r⟩ }, h', B', by simp [htTrain, hs, hn, e], ⟨o.of_perm (by perm), by simp, ?_⟩, rfl⟩
  intro m q hq
  cases hq
  exact hB

theorem htInit_own {h : Heap} {t : HT} {L F B : List Block} (v : HInv h t L F B) {M K d : Nat}
    (hM : 0 < M) (hK : 0 < K) (hd : 0 < d) :
    ∃ t' h', htInit h t M K d = some (t', h') ∧ HInv h' t' L F [] ∧ t'.depth = d ∧ t'.root = none := by
  obtain ⟨h', e, o⟩ := dropRoot_own v
  exact ⟨{ t with root := none, M := M, K := K, depth := d }, h', by simp [htInit, assert', hM, hK, hd, e],
    ⟨o, fun _ => rfl, fun _ _ hq => by cases hq⟩, rfl, rfl⟩

theorem htrun_inv {E : Env} (ok : ∀ m, E.ok m = true) (elkan : Bool) {F : List Block} (ops : List HOp) :
    ∀ (ready : Bool) {t : HT} {h : Heap} {L B : List Block}, HLegal ready ops →
    (ready = true → 0 < t.depth) → HInv h t L F B →
    ∃ t' h' L' B', htRun E elkan ops (t, h) = some (t', h') ∧ HInv h' t' L' F B' := by
  induction ops with
  | nil => exact fun ready {t h L B} _ _ v => ⟨t, h, L, B, rfl, v⟩
  | cons op ops ih =>
    intro ready t h L B hl hr v
    cases op with
    | init M K d =>
      obtain ⟨hM, hK, hd, hl⟩ := hl
      obtain ⟨t1, h1, e1, v1, hd1, -⟩ := htInit_own v hM hK hd
      obtain ⟨t', h', L', B', e, v'⟩ := ih true hl (fun _ => by rw [hd1]; exact hd) v1
      exact ⟨t', h', L', B', by simp [htRun, htStep, e1, e], v'⟩
    | train c =>
      obtain ⟨hrd, hl⟩ := hl
      obtain ⟨t1, h1, B1, e1, v1, hd1⟩ := htTrain_own ok elkan v (hr hrd) c
      obtain ⟨t', h', L', B', e, v'⟩ := ih ready hl (fun hx => by rw [hd1]; exact hr hx) v1
      exact ⟨t', h', L', B', by simp [htRun, htStep, e1, e], v'⟩

theorem htrun_once {E : Env} (ok : ∀ m, E.ok m = true) (elkan : Bool) {F : List Block} (ops : List HOp) :
    ∀ (ready : Bool) {t : HT} {h : Heap} {B : List Block}, HOnce ready ops →
    (ready = true → 0 < t.depth ∧ B = []) → HInv h t [] F B →
    ∃ t' h' B', htRun E elkan ops (t, h) = some (t', h') ∧ HInv h' t' [] F B' := by
  induction ops with
  | nil => exact fun ready {t h B} _ _ v => ⟨t, h, B, rfl, v⟩
  | cons op ops ih =>
    intro ready t h B hl hr v
    cases op with
    | init M K d =>
      obtain ⟨hM, hK, hd, hl⟩ := hl
      obtain ⟨t1, h1, e1, v1, hd1, -⟩ := htInit_own v hM hK hd
      obtain ⟨t', h', B', e, v'⟩ := ih true hl (fun _ => ⟨by rw [hd1]; exact hd, rfl⟩) v1
      exact ⟨t', h', B', by simp [htRun, htStep, e1, e], v'⟩
    | train c =>
      obtain ⟨hrd, hl⟩ := hl
      obtain ⟨hd, rfl⟩ := hr hrd
      obtain ⟨t1, h1, B1, e1, v1, hd1⟩ := htTrain_own ok elkan v hd c
      obtain ⟨t', h', B', e, v'⟩ := ih false hl (fun hx => by cases hx) v1
      exact ⟨t', h', B', by simp [htRun, htStep, e1, e], v'⟩

theorem htNew_own {E : Env} (ok : ∀ m, E.ok m = true) {h : Heap} {F : List Block} (o : Own h F) :
    ∃ t h', htNew E h = some (t, h') ∧ HInv h' t [] F [] := by
  obtain ⟨h1, p, v, e1, hv, o1⟩ := need_own (E := E) o 0 ok
  obtain rfl := List.length_eq_zero_iff.mp hv
  exact ⟨⟨p, 0, 0, 0, none⟩, h1, by simp [htNew, e1], ⟨o1, fun _ => rfl, fun _ _ hq => by cases hq⟩⟩

theorem htDelete_own {h : Heap} {t : HT} {L F B : List Block} (v : HInv h t L F B) :
    ∃ h', htDelete h t = some h' ∧ Own h' (L ++ F) := by
  have hs : load h t.self = some [] := load_own (v.own.of_perm (B' := (t.self, []) :: (B ++ (L ++ F))) (by perm))
  obtain ⟨h1, e1, o1⟩ := dropRoot_own v
  obtain ⟨h2, e2, o2⟩ := free_own o1
  exact ⟨h2, by simp [htDelete, hs, e1, e2], o2⟩

/-! ## Theorems -/

/-- A dense SIFT filter may be configured anew and given images in any order: no
step is undefined, and every image leaves exactly the announced number of
keypoints and descriptors, whatever was processed before.  The blocks of others
are untouched, and deleting the filter gives back all of its own. -/
theorem dsift_history (E : Env) (ok : ∀ m, E.ok m = true) (h0 : Heap) (g : h0.Good)
    (area n b t : Nat) (ops : List DOp) :
    (∃ r, DReached E h0 area n b t ops r) ∧ ∀ s h, DReached E h0 area n b t ops (s, h) →
      (∀ b ∈ h0.live, b ∈ h.live) ∧
      (∀ v, ∃ s' h', dProcess E h s v = some (s', h') ∧
        s'.numFrames = s.numFrames ∧ s'.descrSize = s.descrSize ∧
        dFrames h' s' = some ((List.range s.numFrames).map v.frame) ∧
        dDescrs h' s' = some ((List.range (s.descrSize * s.numFrames)).map v.descr)) ∧
      ∃ h', dDelete h s = some h' ∧ h'.live.Perm h0.live := by
  obtain ⟨s0, h0', e0, v0⟩ := dNew_own ok g.own area n b t
  obtain ⟨s1, h1, e1, v1⟩ := drun_inv ok ops v0
  refine ⟨⟨_, _, e0, e1⟩, ?_⟩
  rintro s h ⟨s0', e0', e⟩
  rw [e0] at e0'
  cases e0'
  rw [e1] at e
  cases e
  refine ⟨v1.mem, fun v => ?_, ?_⟩
  · obtain ⟨s', h', e, -, n1, n2, -, r1, r2⟩ := dProcess_own ok v1 v
    exact ⟨s', h', e, n1, n2, r1, r2⟩
  · obtain ⟨h', e, o⟩ := dDelete_own v1
    exact ⟨h', e, o.perm⟩

/-- The keypoints and descriptors of the last image ought to be available in the
announced number after every call. -/
def DsiftReadyClaim : Prop :=
  ∀ (E : Env), (∀ m, E.ok m = true) → ∀ (h0 : Heap), h0.Good → ∀ (area n b t : Nat) (v : DOut)
    (ops : List DOp) (s : Ds) (h : Heap), DReached E h0 area n b t (.process v :: ops) (s, h) →
    (dDescrs h s).isSome

/-- Changing the geometry changes the announced number at once, while the buffers
are only replaced by the next image. -/
theorem dsift_ready_claim_false : ¬ DsiftReadyClaim := by
  intro hc
  obtain ⟨⟨⟨s, h⟩, r⟩, -⟩ := dsift_history allOk (fun _ => rfl) ⟨[], 0⟩ ⟨List.nodup_nil, by simp⟩ 1 1 1 1
    [.process ⟨fun _ _ => 0, fun _ => 0, fun _ => 0⟩, .set 2 1 1]
  have := hc allOk (fun _ => rfl) ⟨[], 0⟩ ⟨List.nodup_nil, by simp⟩ 1 1 1 1 _ _ s h r
  obtain ⟨s0, e0, e1⟩ := r
  have k : ((dNew allOk ⟨[], 0⟩ 1 1 1 1).bind (dRun allOk
      [.process ⟨fun _ _ => 0, fun _ => 0, fun _ => 0⟩, .set 2 1 1])).map
      (fun r => (dDescrs r.2 r.1).isSome) = some false := by decide +kernel
  rw [e0, Option.bind_some, e1] at k
  simp only [Option.map_some, Option.some.injEq] at k
  rw [k] at this
  cases this

/-- An MSER filter may be given images and asked for ellipsoids in any order: no
step is undefined.  After an image the regions are those of this image; the
ellipsoids that are then asked for are fitted to them, once, and all of them
are there.  The blocks of others are untouched, and deleting the filter gives back all of its
own. -/
theorem mser_history (E : Env) (ok : ∀ m, E.ok m = true) (h0 : Heap) (g : h0.Good)
    (ndims nel : Nat) (ops : List MOp) :
    (∃ r, MReached E h0 ndims nel ops r) ∧ ∀ s h, MReached E h0 ndims nel ops (s, h) →
      (∀ b ∈ h0.live, b ∈ h.live) ∧
      (∀ v w w', ∃ s1 h1 s2 h2, mProcess E h s v = some (s1, h1) ∧ mRegions h1 s1 = some v.mer ∧
        mEll h1 s1 = some [] ∧ mFit E h1 s1 w = some (s2, h2) ∧ mRegions h2 s2 = some v.mer ∧
        mEll h2 s2 = some ((List.range (v.mer.length * (ndims * (ndims + 1) / 2 + ndims))).map w) ∧
        mFit E h2 s2 w' = some (s2, h2)) ∧
      ∃ h', mDelete h s = some h' ∧ h'.live.Perm h0.live := by
  obtain ⟨s0, h0', a, b, c, d, e, f, gg, e0, v0, -, -, hdof⟩ := mNew_own ok g.own ndims nel
  obtain ⟨s1, h1, e1, v1, d1⟩ := mrun_inv ok ops ⟨_, _, _, _, _, _, _, _, _, _, _, v0⟩
  refine ⟨⟨_, _, e0, e1⟩, ?_⟩
  rintro s h ⟨s0', e0', e'⟩
  rw [e0] at e0'
  cases e0'
  rw [e1] at e'
  cases e'
  obtain ⟨a, b, c, d, e, f, gg, er, mer, ell, acc, v1⟩ := v1
  refine ⟨fun x hx => v1.own.perm.mem_iff.mpr (by simp [hx]), fun v w w' => ?_, ?_⟩
  · obtain ⟨s2, h2, e', f', g', er', x, e2, v2, n2, z2, hd2⟩ := mProcess_own ok v1 v
    have r2 := v2.regions n2
    have k2 : mEll h2 s2 = some [] := MInv.ellipsoids (ell := []) (x := ell) (by simpa using v2) (by simp [z2])
    by_cases hn : s2.nell = s2.nmer
    · have hz : v.mer.length = 0 := by omega
      refine ⟨s2, h2, s2, h2, e2, r2, k2, mFit_same ⟨_, _, _, _, _, _, _, _, _, _, _, v2⟩ w hn, r2, ?_,
        mFit_same ⟨_, _, _, _, _, _, _, _, _, _, _, v2⟩ w' hn⟩
      rw [k2, hz, Nat.zero_mul]
      rfl
    · obtain ⟨s3, h3, y, acc', e3, v3, n3, z3, hd3, hm3⟩ := mFit_own ok v2 w hn
      refine ⟨s2, h2, s3, h3, e2, r2, k2, e3, v3.regions (n3.trans n2), ?_,
        mFit_same ⟨_, _, _, _, _, _, _, _, _, _, _, v3⟩ w' (z3.trans n3.symm)⟩
      rw [v3.ellipsoids (by rw [z3, hd3]; simp), n2, hd2, d1, hdof]
  · obtain ⟨h', e', o⟩ := mDelete_own v1
    exact ⟨h', e', o.perm⟩

/-- A hierarchical k-means tree may be initialised and trained again and again, with
any data: no step is undefined, and neither is deleting it in the end.  The
blocks of others are untouched. -/
theorem hikm_history (E : Env) (ok : ∀ m, E.ok m = true) (elkan : Bool) (h0 : Heap) (g : h0.Good)
    (ops : List HOp) (hl : HLegal false ops) :
    (∃ r, HReached E elkan h0 ops r) ∧ ∀ t h, HReached E elkan h0 ops (t, h) →
      (∀ b ∈ h0.live, b ∈ h.live) ∧
      ∃ h', htDelete h t = some h' ∧ ∀ b ∈ h0.live, b ∈ h'.live := by
  obtain ⟨t0, h0', e0, v0⟩ := htNew_own ok g.own
  obtain ⟨t1, h1, L, B, e1, v1⟩ := htrun_inv ok elkan ops false hl (by simp) v0
  refine ⟨⟨_, _, e0, e1⟩, ?_⟩
  rintro t h ⟨s0, e0', e⟩
  rw [e0] at e0'
  cases e0'
  rw [e1] at e
  cases e
  obtain ⟨h2, e2, o2⟩ := htDelete_own v1
  exact ⟨fun b hb => v1.own.perm.mem_iff.mpr (by simp [hb]), h2, e2,
    fun b hb => o2.perm.mem_iff.mpr (by simp [hb])⟩

/-- Deleting a tree that is initialised before each training gives back all its blocks: the nodes
at every depth with their centers, distances and arrays of children.  Missing from
the full claim: trees trained twice in a row. -/
theorem hikm_no_leak_partial (E : Env) (ok : ∀ m, E.ok m = true) (elkan : Bool) (h0 : Heap)
    (g : h0.Good) (ops : List HOp) (hl : HOnce false ops) :
    (∃ r, HReached E elkan h0 ops r) ∧ ∀ t h, HReached E elkan h0 ops (t, h) →
      ∃ h', htDelete h t = some h' ∧ h'.live.Perm h0.live := by
  obtain ⟨t0, h0', e0, v0⟩ := htNew_own ok g.own
  obtain ⟨t1, h1, B, e1, v1⟩ := htrun_once ok elkan ops false hl (by simp) v0
  refine ⟨⟨_, _, e0, e1⟩, ?_⟩
  rintro t h ⟨s0, e0', e⟩
  rw [e0] at e0'
  cases e0'
  rw [e1] at e
  cases e
  obtain ⟨h2, e2, o2⟩ := htDelete_own v1
  exact ⟨h2, e2, o2.perm⟩

/-- Deleting a tree ought to give back all its blocks. -/
def HikmNoLeakClaim : Prop :=
  ∀ (E : Env), (∀ m, E.ok m = true) → ∀ (elkan : Bool) (h0 : Heap), h0.Good → ∀ (ops : List HOp),
    HLegal false ops → ∀ t h h', HReached E elkan h0 ops (t, h) → htDelete h t = some h' →
      h'.live.Perm h0.live

/-- Training a tree that has been trained forgets the nodes it had. -/
theorem hikm_no_leak_claim_false : ¬ HikmNoLeakClaim := by
  intro hc
  have hl : HLegal false [.init 1 1 2, .train fun _ => 1, .train fun _ => 1] := by
    simp [HLegal]
  obtain ⟨⟨⟨t, h⟩, r⟩, hd⟩ := hikm_history allOk (fun _ => rfl) false ⟨[], 0⟩ ⟨List.nodup_nil, by simp⟩ _ hl
  obtain ⟨-, h', e', -⟩ := hd t h r
  have p := hc allOk (fun _ => rfl) false ⟨[], 0⟩ ⟨List.nodup_nil, by simp⟩ _ hl t h h' r e'
  have k : (((htNew allOk ⟨[], 0⟩).bind (htRun allOk false
      [.init 1 1 2, .train fun _ => 1, .train fun _ => 1])).bind fun r => htDelete r.2 r.1).map
      (fun h => h.live.length) = some 7 := by decide +kernel
  obtain ⟨s0, e0, e1⟩ := r
  rw [e0, Option.bind_some, e1, Option.bind_some, e', Option.map_some, Option.some.injEq] at k
  rw [p.length_eq] at k
  cases k

/-! ## Cases that meet the hypotheses -/

example : ((dNew allOk ⟨[(0, [5])], 1⟩ 4 2 3 1).bind (dRun allOk
    [.process ⟨fun _ _ => 1, fun i => i, fun i => 2 * i⟩, .set 1 2 2,
      .process ⟨fun _ _ => 1, fun i => i + 7, fun i => i + 3⟩])).map
    (fun r => (dFrames r.2 r.1, dDescrs r.2 r.1, r.2.live.length)) =
    some (some [7], some [3, 4], 9) := by decide +kernel

example : ((mNew allOk ⟨[(0, [5])], 1⟩ 1 2).bind (mRun allOk
    [.process ⟨fun _ => 0, fun _ => 0, fun _ => 0, [1, 2, 3], [4, 5]⟩, .fit fun i => i,
      .process ⟨fun _ => 0, fun _ => 0, fun _ => 0, [1, 2], [6]⟩, .fit fun i => i + 1])).map
    (fun r => (mRegions r.2 r.1, mEll r.2 r.1)) =
    some (some [6], some [1, 2]) := by decide +kernel

example : HOnce false [.init 2 2 2, .train fun _ => 3, .init 2 2 1, .train fun _ => 3] := by
  simp [HOnce]

end Verif.Life
