import Verif.Life.BufProps
import Verif.Life.HogModel

/-! # C232: HOG objects serve any sequence of images and give back their memory -/

namespace Verif.Life

/-! ## Specification -/

/-- The number of cells along a side of an image: the last cell is at least half in the image. -/
def hgCells (len cell : Nat) : Nat := (len + cell / 2) / cell

/-- The documented requirements on images. -/
def HgLegal : HgOp → Prop
  | .put w t c _ => 0 < c ∧ 3 < w ∧ 3 < t ∧ 0 < hgCells w c ∧ 0 < hgCells t c
  | .extract => True

/-- The squared norm of the histogram of a cell after folding opposite orientations: bin `o` of cell `i` is at `i + o * c` if there are `c` cells. -/
def cellNorm (a : Nat → ℚ) (c N i : Nat) : ℚ := ((List.range N).map fun k => (a (i + k * c) + a (i + (k + N) * c)) ^ 2).sum

/-- The object after some calls. -/
def HgReached (E : Env) (h0 : Heap) (u : Bool) (N : Nat) (ops : List HgOp) (r : Hg × Heap) : Prop :=
  ∃ s0, hgNew E h0 u N = some s0 ∧ hgRun E ops s0 = some r

/-! ## Proofs -/

/-- The blocks that an object always has. -/
def hgBase (s : Hg) (x y q g : List ℚ) : List Block :=
  [(s.self, []), (s.orientX, x), (s.orientY, y), (s.permutation, q), (s.glyphs, g)]

structure HgInv (h : Heap) (s : Hg) (F : List Block) (x y q g v n : List ℚ) : Prop where
  own : Own h (hgBase s x y q g ++ (blk s.hog v ++ (blk s.norm n ++ F)))
  bufs : (s.hog = none ∧ s.norm = none ∧ s.width = 0) ∨
    (s.hog ≠ none ∧ s.norm ≠ none ∧ v.length = s.width * s.height * s.N * 2 ∧ n.length = s.width * s.height)

theorem cneed_own {E : Env} (ok : ∀ m, E.ok m = true) {h : Heap} {B : List Block} (o : Own h B) (n : Nat) :
    ∃ h' p, cneed E h n = some (p, h') ∧ Own h' ((p, List.replicate n 0) :: B) := by
  obtain ⟨h1, p, v, e1, hv, o1⟩ := need_own (E := E) o n ok
  obtain ⟨h2, e2, o2⟩ := store_full o1 (List.replicate n 0) (by simp [hv])
  exact ⟨h2, p, by simp only [cneed, e1, e2, Option.bind_eq_bind, Option.bind_some], o2⟩

theorem hgNew_inv {E : Env} (ok : ∀ m, E.ok m = true) {h : Heap} {F : List Block} (o : Own h F) (u : Bool) {N : Nat} (hN : 1 ≤ N) :
    ∃ s h' x y q g, hgNew E h u N = some (s, h') ∧ HgInv h' s F x y q g [] [] ∧ s.N = N := by
  obtain ⟨h1, p, v, e1, hv, o1⟩ := need_own (E := E) o 0 ok
  obtain rfl : v = [] := List.length_eq_zero_iff.mp hv
  obtain ⟨h2, p2, v2, e2, hv2, o2⟩ := need_own (E := E) o1 N ok
  obtain ⟨h3, p3, v3, e3, hv3, o3⟩ := need_own (E := E) o2 N ok
  obtain ⟨h4, p4, v4, e4, hv4, o4⟩ := need_own (E := E) o3 (if u then 3 * N + 4 else 4 * N) ok
  obtain ⟨h5, p5, e5, o5⟩ := cneed_own ok o4 (21 * 21 * N)
  refine ⟨⟨p, p2, p3, p4, p5, N, none, none, 0, 0⟩, h5, v2, v3, v4, List.replicate (21 * 21 * N) 0,
    by rw [hgNew, if_neg (by omega)]; simp only [e1, e2, e3, e4, e5, Option.bind_eq_bind, Option.bind_some], ?_, rfl⟩
  exact ⟨o5.of_perm (by simp only [hgBase, blk]; perm), .inl ⟨rfl, rfl, rfl⟩⟩

theorem HgInv.self {h : Heap} {s : Hg} {F : List Block} {x y q g v n : List ℚ} (i : HgInv h s F x y q g v n) :
    load h s.self = some [] := load_own i.own

theorem hgDelete_own {h : Heap} {s : Hg} {F : List Block} {x y q g v n : List ℚ} (i : HgInv h s F x y q g v n) :
    ∃ h', hgDelete h s = some h' ∧ Own h' F := by
  obtain ⟨h1, e1, o1⟩ := free_own (h := h) (p := s.orientX) (v := x)
    (B := (s.self, []) :: (s.orientY, y) :: (s.permutation, q) :: (s.glyphs, g) :: (blk s.hog v ++ (blk s.norm n ++ F)))
    (i.own.of_perm (by simp only [hgBase]; perm))
  obtain ⟨h2, e2, o2⟩ := free_own (h := h1) (p := s.orientY) (v := y)
    (B := (s.self, []) :: (s.permutation, q) :: (s.glyphs, g) :: (blk s.hog v ++ (blk s.norm n ++ F))) (o1.of_perm (by perm))
  obtain ⟨h3, e3, o3⟩ := free_own (h := h2) (p := s.glyphs) (v := g)
    (B := (s.self, []) :: (s.permutation, q) :: (blk s.hog v ++ (blk s.norm n ++ F))) (o2.of_perm (by perm))
  obtain ⟨h4, e4, o4⟩ := free_own (h := h3) (p := s.permutation) (v := q)
    (B := (s.self, []) :: (blk s.hog v ++ (blk s.norm n ++ F))) (o3.of_perm (by perm))
  obtain ⟨h5, e5, o5⟩ := freeIf_own (h := h4) (p := s.hog) (v := v) (R := (s.self, []) :: (blk s.norm n ++ F)) (o4.of_perm (by perm))
  obtain ⟨h6, e6, o6⟩ := freeIf_own (h := h5) (p := s.norm) (v := n) (R := (s.self, []) :: F) (o5.of_perm (by perm))
  obtain ⟨h7, e7, o7⟩ := free_own o6
  exact ⟨h7, by simp [hgDelete, i.self, e1, e2, e3, e4, e5, e6, e7], o7⟩

theorem hgPrepare_inv {E : Env} (ok : ∀ m, E.ok m = true) {h : Heap} {s : Hg} {F : List Block} {x y q g v n : List ℚ} (i : HgInv h s F x y q g v n)
    {w t c : Nat} (hl : 0 < c ∧ 3 < w ∧ 3 < t ∧ 0 < hgCells w c ∧ 0 < hgCells t c) :
    ∃ p r h', hgPrepare E h s w t c = some ({ s with hog := some p, norm := some r, width := hgCells w c, height := hgCells t c }, h') ∧
      HgInv h' { s with hog := some p, norm := some r, width := hgCells w c, height := hgCells t c } F x y q g
        (List.replicate (hgCells w c * hgCells t c * s.N * 2) 0) (List.replicate (hgCells w c * hgCells t c) 0) := by
  obtain ⟨hc, h3w, h3t, hw, ht⟩ := hl
  unfold hgPrepare
  rw [if_neg (by omega)]
  simp only [show (w + c / 2) / c = hgCells w c from rfl, show (t + c / 2) / c = hgCells t c from rfl]
  rw [if_neg (not_not.mpr ⟨h3w, h3t, hw, ht⟩)]
  by_cases d : s.hog ≠ none ∧ s.width = hgCells w c ∧ s.height = hgCells t c
  · rw [if_pos d]
    rcases i.bufs with ⟨h0, -⟩ | ⟨-, hn, lv, ln⟩
    · exact absurd h0 d.1
    · obtain ⟨p, hp⟩ := Option.ne_none_iff_exists'.mp d.1
      obtain ⟨r, hr⟩ := Option.ne_none_iff_exists'.mp hn
      rw [d.2.1, d.2.2] at lv ln
      have o := i.own
      rw [hp, hr] at o
      obtain ⟨h1, e1, o1⟩ := store_full (h := h) (p := p) (w := v) (B := hgBase s x y q g ++ ((r, n) :: F)) (o.of_perm (by simp only [blk]; perm))
        (List.replicate (hgCells w c * hgCells t c * s.N * 2) 0) (by simp [lv])
      obtain ⟨h2, e2, o2⟩ := store_full (h := h1) (p := r) (w := n)
        (B := hgBase s x y q g ++ ((p, List.replicate (hgCells w c * hgCells t c * s.N * 2) 0) :: F)) (o1.of_perm (by perm))
        (List.replicate (hgCells w c * hgCells t c) 0) (by simp [ln])
      have e : ({ s with hog := some p, norm := some r, width := hgCells w c, height := hgCells t c } : Hg) = s := by
        rw [← hp, ← hr, ← d.2.1, ← d.2.2]
      refine ⟨p, r, h2, ?_, ?_⟩
      · rw [hp, hr]
        simp only [storeIf, e1, e2, Option.bind_eq_bind, Option.bind_some]
        rw [e]
      · exact ⟨o2.of_perm (by simp only [hgBase, blk]; perm), .inr ⟨by simp, by simp, by simp, by simp⟩⟩
  · rw [if_neg d]
    obtain ⟨h1, e1, o1⟩ := freeIf_own (h := h) (p := s.hog) (v := v) (R := hgBase s x y q g ++ (blk s.norm n ++ F)) (i.own.of_perm (by perm))
    obtain ⟨h2, e2, o2⟩ := freeIf_own (h := h1) (p := s.norm) (v := n) (R := hgBase s x y q g ++ F) (o1.of_perm (by perm))
    obtain ⟨h3, p, e3, o3⟩ := cneed_own ok o2 (hgCells w c * hgCells t c * s.N * 2)
    obtain ⟨h4, r, e4, o4⟩ := cneed_own ok o3 (hgCells w c * hgCells t c)
    refine ⟨p, r, h4, by simp only [e1, e2, e3, e4, Option.bind_eq_bind, Option.bind_some], ?_⟩
    exact ⟨o4.of_perm (by simp only [hgBase, blk]; perm), .inr ⟨by simp, by simp, by simp, by simp⟩⟩

theorem hgPut_inv {E : Env} (ok : ∀ m, E.ok m = true) {h : Heap} {s : Hg} {F : List Block} {x y q g v n : List ℚ} (i : HgInv h s F x y q g v n)
    {w t c : Nat} (hl : 0 < c ∧ 3 < w ∧ 3 < t ∧ 0 < hgCells w c ∧ 0 < hgCells t c) (a : Nat → ℚ) :
    ∃ s' h', hgPut E h s w t c a = some (s', h') ∧ s'.N = s.N ∧ s'.width = hgCells w c ∧ s'.height = hgCells t c ∧
      HgInv h' s' F x y q g ((List.range (hgCells w c * hgCells t c * s.N * 2)).map a) (List.replicate (hgCells w c * hgCells t c) 0) := by
  obtain ⟨p, r, h1, e1, i1⟩ := hgPrepare_inv ok i hl
  have o1 : Own h1 ((p, List.replicate (hgCells w c * hgCells t c * s.N * 2) 0) ::
      (hgBase s x y q g ++ ((r, List.replicate (hgCells w c * hgCells t c) 0) :: F))) := i1.own.of_perm (by simp only [hgBase, blk]; perm)
  have hm : (List.replicate (hgCells w c * hgCells t c * s.N * 2) (0 : ℚ)).mapIdx (fun j z => z + a j) =
      (List.range (hgCells w c * hgCells t c * s.N * 2)).map a := by
    apply List.ext_getElem <;> simp
  obtain ⟨h2, e2, o2⟩ := store_full o1 ((List.range (hgCells w c * hgCells t c * s.N * 2)).map a) (by simp)
  refine ⟨{ s with hog := some p, norm := some r, width := hgCells w c, height := hgCells t c }, h2, ?_, rfl, rfl, rfl, o2.of_perm (by simp only [hgBase, blk]; perm), .inr ⟨by simp, by simp, by simp, by simp⟩⟩
  simp only [hgPut, i.self, e1, Option.bind_eq_bind, Option.bind_some, readIf, load_own o1, List.length_replicate, Nat.le_refl, if_true,
    List.take_replicate, Nat.min_self, storeIf, hm, e2]

theorem hgExtract_inv {h : Heap} {s : Hg} {F : List Block} {x y q g v n : List ℚ} (i : HgInv h s F x y q g v n) :
    ∃ h' n' r, hgExtract h s = some (r, h') ∧ HgInv h' s F x y q g v n' ∧ (s.hog ≠ none → r = (v, n.mapIdx fun i z => z +
      ((List.range s.N).map fun k => (v[i + k * (s.width * s.height)]?.getD 0 + v[i + (k + s.N) * (s.width * s.height)]?.getD 0) ^ 2).sum)) := by
  rcases i.bufs with ⟨h0, h1, hz⟩ | ⟨hp, hr, lv, ln⟩
  · refine ⟨h, n, ([], []), ?_, i, fun c => absurd h0 c⟩
    simp [hgExtract, i.self, h0, h1, hz, readIf, storeIf]
  · obtain ⟨p, hp⟩ := Option.ne_none_iff_exists'.mp hp
    obtain ⟨r, hr⟩ := Option.ne_none_iff_exists'.mp hr
    have o := i.own
    rw [hp, hr] at o
    have ov : Own h ((p, v) :: (hgBase s x y q g ++ ((r, n) :: F))) := o.of_perm (by simp only [blk]; perm)
    have on : Own h ((r, n) :: (hgBase s x y q g ++ ((p, v) :: F))) := o.of_perm (by simp only [blk]; perm)
    obtain ⟨h1, e1, o1⟩ := store_full on (n.mapIdx fun i z => z +
      ((List.range s.N).map fun k => (v[i + k * (s.width * s.height)]?.getD 0 + v[i + (k + s.N) * (s.width * s.height)]?.getD 0) ^ 2).sum) (by simp)
    refine ⟨h1, _, _, ?_, ⟨(o1.of_perm (by rw [hp, hr]; simp only [blk]; perm) : Own h1 (hgBase s x y q g ++ (blk s.hog v ++ (blk s.norm _ ++ F)))),
      .inr ⟨by simp [hp], by simp [hr], lv, by simp [ln]⟩⟩, fun _ => rfl⟩
    simp only [hgExtract, i.self, hp, hr, readIf, load_own ov, load_own on, Option.bind_eq_bind, Option.bind_some, lv, ln, Nat.le_refl, if_true,
      storeIf]
    rw [List.take_of_length_le (by omega), List.take_of_length_le (by omega), e1]
    rfl

theorem hgRun_inv {E : Env} (ok : ∀ m, E.ok m = true) {F : List Block} {N : Nat} (ops : List HgOp) :
    ∀ {h : Heap} {s : Hg} {x y q g v n : List ℚ}, HgInv h s F x y q g v n → s.N = N → (∀ op ∈ ops, HgLegal op) →
    ∃ s' h' v' n', hgRun E ops (s, h) = some (s', h') ∧ HgInv h' s' F x y q g v' n' ∧ s'.N = N := by
  induction ops with
  | nil => exact fun {h s x y q g v n} i hN _ => ⟨s, h, v, n, rfl, i, hN⟩
  | cons op ops ih =>
    intro h s x y q g v n i hN hl
    have hl' : ∀ op ∈ ops, HgLegal op := fun z hz => hl z (by simp [hz])
    have h0 := hl op (by simp)
    cases op with
    | put w t c a =>
      obtain ⟨s1, h1, e1, n1, -, -, i1⟩ := hgPut_inv ok i h0 a
      obtain ⟨s2, h2, v2, m2, e2, i2, n2⟩ := ih i1 (n1.trans hN) hl'
      exact ⟨s2, h2, v2, m2, by simp [hgRun, hgStep, e1, e2], i2, n2⟩
    | extract =>
      obtain ⟨h1, m1, r1, e1, i1, -⟩ := hgExtract_inv i
      obtain ⟨s2, h2, v2, m2, e2, i2, n2⟩ := ih i1 hN hl'
      exact ⟨s2, h2, v2, m2, by simp [hgRun, hgStep, e1, e2], i2, n2⟩

theorem cell_lt {i k c N M : Nat} (hi : i < c) (hk : k + 1 ≤ M) (hM : M = 2 * N) : i + k * c < c * N * 2 := by
  have h1 : (k + 1) * c ≤ M * c := Nat.mul_le_mul_right c hk
  have h2 : M * c = c * N * 2 := by rw [hM, Nat.mul_comm c N, Nat.mul_assoc, Nat.mul_comm 2]
  have h3 : (k + 1) * c = k * c + c := Nat.succ_mul k c
  omega

/-! ## Theorem -/

/-- C232: images and extractions may follow each other in any order, whatever the sizes of the images and of the cells: no call is undefined, the
blocks of others are untouched, the features of the next image are computed from the histograms and norms of this image alone, and deleting the
object gives back all its blocks. -/
theorem hog_history (E : Env) (ok : ∀ m, E.ok m = true) (h0 : Heap) (g : h0.Good) (u : Bool) (N : Nat) (hN : 1 ≤ N) (ops : List HgOp)
    (hl : ∀ op ∈ ops, HgLegal op) :
    (∃ r, HgReached E h0 u N ops r) ∧ ∀ s h, HgReached E h0 u N ops (s, h) →
      (∀ b ∈ h0.live, b ∈ h.live) ∧
      (∀ w t c a, HgLegal (.put w t c a) → ∃ s1 h1 h2, hgPut E h s w t c a = some (s1, h1) ∧
        s1.width = hgCells w c ∧ s1.height = hgCells t c ∧
        hgExtract h1 s1 = some (((List.range (hgCells w c * hgCells t c * N * 2)).map a,
          (List.range (hgCells w c * hgCells t c)).map (cellNorm a (hgCells w c * hgCells t c) N)), h2)) ∧
      ∃ h', hgDelete h s = some h' ∧ h'.live.Perm h0.live := by
  obtain ⟨s0, h0', x, y, q, gl, e0, i0, n0⟩ := hgNew_inv ok g.own u hN
  obtain ⟨s1, h1, v1, m1, e1, i1, n1⟩ := hgRun_inv ok ops i0 n0 hl
  refine ⟨⟨_, _, e0, e1⟩, ?_⟩
  rintro s h ⟨s0', e0', e⟩
  rw [e0] at e0'
  cases e0'
  rw [e1] at e
  cases e
  refine ⟨fun b hb => ?_, fun w t c a hs => ?_, ?_⟩
  · rw [i1.own.perm.mem_iff]
    simp [hb]
  · obtain ⟨s2, h2, e2, n2, hw, ht, i2⟩ := hgPut_inv ok i1 hs a
    obtain ⟨h3, m3, r, e3, i3, hr⟩ := hgExtract_inv i2
    have hne : s2.hog ≠ none := by
      rcases i2.bufs with ⟨-, -, hz⟩ | ⟨hh, -⟩
      · rw [hw] at hz
        exact absurd hz (Nat.pos_iff_ne_zero.mp hs.2.2.2.1)
      · exact hh
    refine ⟨s2, h2, h3, e2, hw, ht, ?_⟩
    rw [e3, hr hne]
    rw [n2, n1, hw, ht]
    congr 3
    apply List.ext_getElem
    · simp
    · intro j hj1 hj2
      have hj : j < hgCells w c * hgCells t c := by simpa using hj2
      simp only [List.getElem_mapIdx, List.getElem_replicate, zero_add, List.getElem_map, List.getElem_range, cellNorm]
      congr 1
      apply List.map_congr_left
      intro k hk
      have hk' : k < N := List.mem_range.mp hk
      have a1 : j + k * (hgCells w c * hgCells t c) < hgCells w c * hgCells t c * N * 2 := cell_lt (M := 2 * N) hj (by omega) rfl
      have a2 : j + (k + N) * (hgCells w c * hgCells t c) < hgCells w c * hgCells t c * N * 2 := cell_lt (M := 2 * N) hj (by omega) rfl
      rw [List.getElem?_map, List.getElem?_map, List.getElem?_range a1, List.getElem?_range a2]
      rfl
  · obtain ⟨h', e, o⟩ := hgDelete_own i1
    exact ⟨h', e, o.perm⟩

/-- Two images of one size and one of another. -/
example : (((hgNew allOk ⟨[], 0⟩ true 1).bind fun s => hgRun allOk [.put 4 4 4 (fun _ => 7), .extract, .put 8 4 4 (fun j => j), .extract,
    .put 9 5 4 (fun j => j)] s).bind fun r => (hgExtract r.2 r.1).map Prod.fst) = some ([0, 1, 2, 3], [4, 16]) := by decide +kernel

example : ∀ op ∈ [HgOp.put 4 4 4 (fun _ => 7), .extract, .put 8 4 4 (fun j => j)], HgLegal op := by
  simp [HgLegal, hgCells]

end Verif.Life
