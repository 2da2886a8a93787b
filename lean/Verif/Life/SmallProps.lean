import Verif.Life.TempProps
import Verif.Life.SmallModel

/-! # C237, C238: LIOP and quick shift objects serve any history and give back their memory -/

namespace Verif.Life

/-! ## Specification -/

/-- The pixels of a patch that LIOP uses: those in the disc around the centre, but for the corner. -/
def InDisc (side : Nat) (t2 : ℤ) (i : Nat) : Prop :=
  ∃ x y, x < side ∧ y < side ∧ i = x + y * side ∧ ¬ (x = 0 ∧ y = 0) ∧
    ((x : ℤ) - ((side - 1) / 2 : Nat)) ^ 2 + ((y : ℤ) - ((side - 1) / 2 : Nat)) ^ 2 ≤ t2

/-- The LIOP object after some patches. -/
def LpReached (E : Env) (h0 : Heap) (k side : Nat) (t2 : ℤ) (sx sy : Nat → ℚ) (ops : List LpOp) (r : Lp × Heap) : Prop :=
  ∃ s0, lpNew E h0 k side t2 sx sy = some s0 ∧ lpRun ops s0 = some r

/-- The quick shift object after some runs. -/
def QsReached (E : Env) (h0 : Heap) (n c : Nat) (ops : List QsOp) (r : Qs × Heap) : Prop :=
  ∃ s0, qsNew E h0 n c = some s0 ∧ qsRun E ops s0 = some r

/-! ## Proofs: LIOP -/

theorem mem_lpDisc {side : Nat} {t2 : ℤ} {i : Nat} : i ∈ lpDisc side t2 ↔ InDisc side t2 i := by
  simp only [lpDisc, List.mem_filter, List.mem_range, Bool.and_eq_true, decide_eq_true_eq, InDisc]
  constructor
  · rintro ⟨h, h0, hd⟩
    have hs : 0 < side := by
      rcases Nat.eq_zero_or_pos side with rfl | hs
      · simp at h
      · exact hs
    refine ⟨i % side, i / side, Nat.mod_lt _ hs, Nat.div_lt_of_lt_mul h, (Nat.mod_add_div' i side).symm, ?_, ?_⟩
    · rintro ⟨a, b⟩
      have := Nat.mod_add_div' i side
      rw [a, b] at this
      omega
    · rw [pow_two, pow_two]
      exact hd
  · rintro ⟨x, y, hx, hy, rfl, h0, hd⟩
    have hs : 0 < side := by omega
    refine ⟨?_, ?_, ?_⟩
    · have : (y + 1) * side ≤ side * side := Nat.mul_le_mul_right side hy
      rw [Nat.succ_mul] at this
      omega
    · intro e
      have hy0 : y * side = 0 := by omega
      rcases Nat.mul_eq_zero.mp hy0 with hy0 | hs0
      · exact h0 ⟨by omega, hy0⟩
      · omega
    · rw [Nat.add_mul_mod_self_right, Nat.mod_eq_of_lt hx, Nat.add_mul_div_right _ _ hs, Nat.div_eq_of_lt hx, Nat.zero_add]
      rw [pow_two, pow_two] at hd
      exact hd

theorem lpDisc_le (side : Nat) (t2 : ℤ) : (lpDisc side t2).length ≤ side * side := by
  have := List.length_filter_le (fun i : Nat =>
    let c : ℤ := ((side - 1) / 2 : Nat)
    let dx : ℤ := (i % side : Nat) - c
    let dy : ℤ := (i / side : Nat) - c
    i ≠ 0 && decide (dx * dx + dy * dy ≤ t2)) (List.range (side * side))
  rw [List.length_range] at this
  exact this

theorem lpDisc_sorted (side : Nat) (t2 : ℤ) : (lpDisc side t2).Pairwise (· < ·) := List.pairwise_lt_range.filter _

theorem pick_some (patch : List ℚ) (l : List Nat) (hl : ∀ i ∈ l, i < patch.length) :
    pick patch (l.map fun (i : Nat) => (i : ℚ)) = some (l.map fun i => patch.getD i 0) := by
  induction l with
  | nil => rfl
  | cons i l ih =>
    have hi := hl i (by simp)
    simp [pick, ih (fun j hj => hl j (by simp [hj])), hi]

/-- The blocks of an object. -/
def lpBlocks (s : Lp) (p a b c d x y : List ℚ) : List Block :=
  [(s.self, []), (s.pixels, p), (s.intensities, a), (s.permutation, b), (s.neighPerm, c), (s.neighInt, d), (s.samplesX, x), (s.samplesY, y)]

structure LpInv (h : Heap) (s : Lp) (F : List Block) (px : List Nat) (p a b c d x y : List ℚ) : Prop where
  own : Own h (lpBlocks s p a b c d x y ++ F)
  pix : p.take s.size = px.map fun (i : Nat) => (i : ℚ)
  lp : s.size ≤ p.length
  size : px.length = s.size
  la : a.length = s.size
  lb : b.length = s.size
  lc : c.length = s.k
  ld : d.length = s.k
  lx : x.length = s.k * s.size
  ly : y.length = s.k * s.size

theorem lpNew_inv {E : Env} (ok : ∀ m, E.ok m = true) {h : Heap} {F : List Block} (o : Own h F) (k side : Nat) (t2 : ℤ) (sx sy : Nat → ℚ) :
    ∃ s h' p a b c d x y, lpNew E h k side t2 sx sy = some (s, h') ∧ LpInv h' s F (lpDisc side t2) p a b c d x y ∧ s.k = k := by
  obtain ⟨h1, s, v1, e1, l1, o1⟩ := need_own (E := E) o 0 ok
  obtain rfl : v1 = [] := List.length_eq_zero_iff.mp l1
  obtain ⟨h2, p, v2, e2, l2, o2⟩ := need_own (E := E) o1 (side * side) ok
  obtain ⟨h3, e3, o3⟩ := store_own o2 ((lpDisc side t2).map fun (i : Nat) => (i : ℚ)) (by rw [List.length_map, l2]; exact lpDisc_le side t2)
  obtain ⟨h4, a, v4, e4, l4, o4⟩ := need_own (E := E) o3 (lpDisc side t2).length ok
  obtain ⟨h5, b, v5, e5, l5, o5⟩ := need_own (E := E) o4 (lpDisc side t2).length ok
  obtain ⟨h6, c, v6, e6, l6, o6⟩ := need_own (E := E) o5 k ok
  obtain ⟨h7, d, v7, e7, l7, o7⟩ := need_own (E := E) o6 k ok
  obtain ⟨h8, x, v8, e8, l8, o8⟩ := need_own (E := E) o7 (k * (lpDisc side t2).length) ok
  obtain ⟨h9, y, v9, e9, l9, o9⟩ := need_own (E := E) o8 (k * (lpDisc side t2).length) ok
  obtain ⟨h10, e10, o10⟩ := store_full (h := h9) (p := x) (w := v8) (B := (y, v9) :: (d, v7) :: (c, v6) :: (b, v5) :: (a, v4) ::
    (p, (lpDisc side t2).map (fun (i : Nat) => (i : ℚ)) ++ v2.drop ((lpDisc side t2).map (fun (i : Nat) => (i : ℚ))).length) :: (s, []) :: F)
    (o9.of_perm (by perm)) (vals sx (k * (lpDisc side t2).length)) (by rw [vals_length, l8])
  obtain ⟨h11, e11, o11⟩ := store_full (h := h10) (p := y) (w := v9) (B := (x, vals sx (k * (lpDisc side t2).length)) :: (d, v7) :: (c, v6) :: (b, v5) :: (a, v4) ::
    (p, (lpDisc side t2).map (fun (i : Nat) => (i : ℚ)) ++ v2.drop ((lpDisc side t2).map (fun (i : Nat) => (i : ℚ))).length) :: (s, []) :: F)
    (o10.of_perm (by perm)) (vals sy (k * (lpDisc side t2).length)) (by rw [vals_length, l9])
  refine ⟨⟨s, p, a, b, c, d, x, y, (lpDisc side t2).length, k, side⟩, h11,
    (lpDisc side t2).map (fun (i : Nat) => (i : ℚ)) ++ v2.drop ((lpDisc side t2).map (fun (i : Nat) => (i : ℚ))).length, v4, v5, v6, v7,
    vals sx (k * (lpDisc side t2).length), vals sy (k * (lpDisc side t2).length), ?_, ⟨?_, ?_, ?_, rfl, l4, l5, l6, l7, vals_length _ _, vals_length _ _⟩, rfl⟩
  · simp only [lpNew, e1, e2, e3, e4, e5, e6, e7, e8, e9, e10, e11, Option.bind_eq_bind, Option.bind_some]
  · exact o11.of_perm (by simp only [lpBlocks]; perm)
  · exact List.take_left' (by simp)
  · simp

theorem LpInv.self {h : Heap} {s : Lp} {F : List Block} {px : List Nat} {p a b c d x y : List ℚ} (i : LpInv h s F px p a b c d x y) :
    load h s.self = some [] := load_own i.own

theorem lpDelete_own {h : Heap} {s : Lp} {F : List Block} {px : List Nat} {p a b c d x y : List ℚ} (i : LpInv h s F px p a b c d x y) :
    ∃ h', lpDelete h s = some h' ∧ Own h' F := by
  obtain ⟨h1, e1, o1⟩ := free_own (h := h) (p := s.pixels) (v := p) (B := (s.intensities, a) :: (s.permutation, b) :: (s.neighPerm, c) ::
    (s.neighInt, d) :: (s.samplesX, x) :: (s.samplesY, y) :: (s.self, []) :: F) (i.own.of_perm (by simp only [lpBlocks]; perm))
  obtain ⟨h2, e2, o2⟩ := free_own o1
  obtain ⟨h3, e3, o3⟩ := free_own o2
  obtain ⟨h4, e4, o4⟩ := free_own o3
  obtain ⟨h5, e5, o5⟩ := free_own o4
  obtain ⟨h6, e6, o6⟩ := free_own o5
  obtain ⟨h7, e7, o7⟩ := free_own o6
  obtain ⟨h8, e8, o8⟩ := free_own o7
  exact ⟨h8, by simp [lpDelete, i.self, e1, e2, e3, e4, e5, e6, e7, e8], o8⟩

theorem lpPixels_own {h : Heap} {s : Lp} {R : List Block} {c d : List ℚ} (o : Own h ((s.neighPerm, c) :: (s.neighInt, d) :: R))
    (lc : c.length = s.k) (ld : d.length = s.k) (q v : Nat → Nat → ℚ) (n : Nat) :
    ∃ h' c' d', lpPixels h s q v n = some ((List.range n).map (fun i => (vals (q i) s.k, vals (v i) s.k)), h') ∧ c'.length = s.k ∧ d'.length = s.k ∧
      Own h' ((s.neighPerm, c') :: (s.neighInt, d') :: R) := by
  induction n with
  | zero => exact ⟨h, c, d, rfl, lc, ld, o⟩
  | succ n ih =>
    obtain ⟨h1, c1, d1, e1, l1, m1, o1⟩ := ih
    obtain ⟨h2, e2, o2⟩ := store_full o1 (vals (q n) s.k) (by rw [vals_length, l1])
    obtain ⟨h3, e3, o3⟩ := store_full (h := h2) (p := s.neighInt) (w := d1) (B := (s.neighPerm, vals (q n) s.k) :: R) (o2.of_perm (by perm))
      (vals (v n) s.k) (by rw [vals_length, m1])
    have o4 : Own h3 ((s.neighPerm, vals (q n) s.k) :: (s.neighInt, vals (v n) s.k) :: R) := o3.of_perm (by perm)
    have r1 := readN_own o4 (n := s.k) (by rw [vals_length])
    have r2 := readN_own o3 (n := s.k) (by rw [vals_length])
    rw [List.take_of_length_le (by rw [vals_length])] at r1 r2
    refine ⟨h3, _, _, ?_, vals_length _ _, vals_length _ _, o4⟩
    simp only [lpPixels, e1, e2, e3, r1, r2, Option.bind_eq_bind, Option.bind_some, List.range_succ, List.map_append, List.map_cons, List.map_nil]

theorem lpProcess_inv {h : Heap} {s : Lp} {F : List Block} {px : List Nat} {p a b c d x y : List ℚ} (i : LpInv h s F px p a b c d x y)
    (op : LpOp) (hp : ∀ j ∈ px, j < op.patch.length) :
    ∃ h' a' b' c' d', lpProcess h s op.patch op.o op.q op.v = some ((px.map (fun j => op.patch.getD j 0), vals (op.o (px.map fun j => op.patch.getD j 0)) px.length,
      (List.range px.length).map (fun j => (vals (op.q j) s.k, vals (op.v j) s.k))), h') ∧ LpInv h' s F px p a' b' c' d' x y := by
  have r1 : readN h s.pixels s.size = some (p.take s.size) := readN_own (v := p) (B := (s.self, []) :: (s.intensities, a) :: (s.permutation, b) ::
    (s.neighPerm, c) :: (s.neighInt, d) :: (s.samplesX, x) :: (s.samplesY, y) :: F) (i.own.of_perm (by simp only [lpBlocks]; perm)) i.lp
  rw [i.pix] at r1
  have k1 := pick_some op.patch px hp
  generalize hz : (px.map fun j => op.patch.getD j 0) = z at k1
  have lz : z.length = s.size := by rw [← hz, List.length_map, i.size]
  obtain ⟨h1, e1, o1⟩ := store_full (h := h) (p := s.intensities) (w := a) (B := (s.self, []) :: (s.pixels, p) :: (s.permutation, b) ::
    (s.neighPerm, c) :: (s.neighInt, d) :: (s.samplesX, x) :: (s.samplesY, y) :: F) (i.own.of_perm (by simp only [lpBlocks]; perm)) z (by rw [lz, i.la])
  have r2 := readN_own o1 (n := s.size) (by rw [lz])
  rw [List.take_of_length_le (by rw [lz])] at r2
  obtain ⟨h2, e2, o2⟩ := store_full (h := h1) (p := s.permutation) (w := b) (B := (s.self, []) :: (s.pixels, p) :: (s.intensities, z) ::
    (s.neighPerm, c) :: (s.neighInt, d) :: (s.samplesX, x) :: (s.samplesY, y) :: F) (o1.of_perm (by perm)) (vals (op.o z) s.size) (by rw [vals_length, i.lb])
  have r3 := readN_own o2 (n := s.size) (by rw [vals_length])
  rw [List.take_of_length_le (by rw [vals_length])] at r3
  have r4 : readN h2 s.samplesX (s.k * s.size) = some _ := readN_own (v := x) (B := (s.self, []) :: (s.pixels, p) :: (s.intensities, z) ::
    (s.permutation, vals (op.o z) s.size) :: (s.neighPerm, c) :: (s.neighInt, d) :: (s.samplesY, y) :: F) (o2.of_perm (by perm)) (by rw [i.lx])
  have r5 : readN h2 s.samplesY (s.k * s.size) = some _ := readN_own (v := y) (B := (s.self, []) :: (s.pixels, p) :: (s.intensities, z) ::
    (s.permutation, vals (op.o z) s.size) :: (s.neighPerm, c) :: (s.neighInt, d) :: (s.samplesX, x) :: F) (o2.of_perm (by perm)) (by rw [i.ly])
  obtain ⟨h3, c3, d3, e3, l3, m3, o3⟩ := lpPixels_own (h := h2) (s := s) (c := c) (d := d) (R := (s.self, []) :: (s.pixels, p) :: (s.intensities, z) ::
    (s.permutation, vals (op.o z) s.size) :: (s.samplesX, x) :: (s.samplesY, y) :: F) (o2.of_perm (by perm)) i.lc i.ld op.q op.v s.size
  refine ⟨h3, z, vals (op.o z) s.size, c3, d3, ?_, ⟨o3.of_perm (by simp only [lpBlocks]; perm), i.pix, i.lp, i.size, lz, vals_length _ _, l3, m3, i.lx, i.ly⟩⟩
  rw [i.size]
  simp only [lpProcess, i.self, r1, k1, e1, r2, e2, r3, r4, r5, e3, Option.bind_eq_bind, Option.bind_some]

theorem lpRun_inv {F : List Block} {px : List Nat} (ops : List LpOp) : ∀ {h : Heap} {s : Lp} {p a b c d x y : List ℚ}, LpInv h s F px p a b c d x y →
    (∀ op ∈ ops, ∀ j ∈ px, j < op.patch.length) → ∃ h' a' b' c' d', lpRun ops (s, h) = some (s, h') ∧ LpInv h' s F px p a' b' c' d' x y := by
  induction ops with
  | nil => exact fun {h s p a b c d x y} i _ => ⟨h, a, b, c, d, rfl, i⟩
  | cons op ops ih =>
    intro h s p a b c d x y i hl
    obtain ⟨h1, a1, b1, c1, d1, e1, i1⟩ := lpProcess_inv i op (hl op (by simp))
    obtain ⟨h2, a2, b2, c2, d2, e2, i2⟩ := ih i1 (fun z hz => hl z (by simp [hz]))
    exact ⟨h2, a2, b2, c2, d2, by simp [lpRun, e1, e2], i2⟩

/-! ## Proofs: quick shift -/

/-- The blocks of an object. -/
def qsBlocks (s : Qs) (d p e : List ℚ) : List Block := [(s.self, []), (s.dists, d), (s.parents, p), (s.density, e)]

structure QsInv (h : Heap) (s : Qs) (F : List Block) (d p e : List ℚ) : Prop where
  own : Own h (qsBlocks s d p e ++ F)
  ld : d.length = s.n
  lp : p.length = s.n
  le : e.length = s.n

theorem qsNew_inv {E : Env} (ok : ∀ m, E.ok m = true) {h : Heap} {F : List Block} (o : Own h F) (n c : Nat) :
    ∃ s h', qsNew E h n c = some (s, h') ∧ QsInv h' s F (List.replicate n 0) (List.replicate n 0) (List.replicate n 0) ∧ s.n = n := by
  obtain ⟨h1, s, v1, e1, l1, o1⟩ := need_own (E := E) o 0 ok
  obtain rfl : v1 = [] := List.length_eq_zero_iff.mp l1
  obtain ⟨h2, d, e2, o2⟩ := cneed_own ok o1 n
  obtain ⟨h3, p, e3, o3⟩ := cneed_own ok o2 n
  obtain ⟨h4, e, e4, o4⟩ := cneed_own ok o3 n
  exact ⟨⟨s, d, p, e, n, c⟩, h4, by simp only [qsNew, e1, e2, e3, e4, Option.bind_eq_bind, Option.bind_some],
    ⟨o4.of_perm (by simp only [qsBlocks]; perm), by simp, by simp, by simp⟩, rfl⟩

theorem QsInv.self {h : Heap} {s : Qs} {F : List Block} {d p e : List ℚ} (i : QsInv h s F d p e) : load h s.self = some [] := load_own i.own

theorem qsDelete_own {h : Heap} {s : Qs} {F : List Block} {d p e : List ℚ} (i : QsInv h s F d p e) : ∃ h', qsDelete h s = some h' ∧ Own h' F := by
  obtain ⟨h1, e1, o1⟩ := free_own (h := h) (p := s.parents) (v := p) (B := (s.dists, d) :: (s.density, e) :: (s.self, []) :: F)
    (i.own.of_perm (by simp only [qsBlocks]; perm))
  obtain ⟨h2, e2, o2⟩ := free_own o1
  obtain ⟨h3, e3, o3⟩ := free_own o2
  obtain ⟨h4, e4, o4⟩ := free_own o3
  exact ⟨h4, by simp [qsDelete, i.self, e1, e2, e3, e4], o4⟩

/-- The blocks for the medoids. -/
def medBlocks (s : Qs) : Option (Nat × Nat) → List Block
  | none => []
  | some (m, k) => [(m, List.replicate (s.n * (2 + s.channels)) 0), (k, List.replicate s.n 0)]

theorem qsMed_own {E : Env} (ok : ∀ m, E.ok m = true) {h : Heap} {B : List Block} (o : Own h B) (s : Qs) (md : Bool) :
    ∃ h' b, qsMed E h s md = some (b, h') ∧ Own h' (medBlocks s b ++ B) := by
  cases md with
  | false => exact ⟨h, none, rfl, o⟩
  | true =>
    obtain ⟨h1, m, e1, o1⟩ := cneed_own ok o (s.n * (2 + s.channels))
    obtain ⟨h2, k, e2, o2⟩ := cneed_own ok o1 s.n
    exact ⟨h2, some (m, k), by simp [qsMed, e1, e2], o2.of_perm (by simp only [medBlocks]; perm)⟩

theorem qsFree_own {h : Heap} {B : List Block} {s : Qs} {b : Option (Nat × Nat)} (o : Own h (medBlocks s b ++ B)) : ∃ h', qsFree h b = some h' ∧ Own h' B := by
  cases b with
  | none => exact ⟨h, rfl, o⟩
  | some b =>
    obtain ⟨m, k⟩ := b
    obtain ⟨h1, e1, o1⟩ := free_own (h := h) (p := m) (B := (k, List.replicate s.n 0) :: B) o
    obtain ⟨h2, e2, o2⟩ := free_own o1
    exact ⟨h2, by simp [qsFree, e1, e2], o2⟩

theorem qsProcess_inv {E : Env} (ok : ∀ m, E.ok m = true) {h : Heap} {s : Qs} {F : List Block} {d p e : List ℚ} (i : QsInv h s F d p e) (op : QsOp) :
    ∃ h', qsProcess E h s op.medoid op.a op.p op.d = some h' ∧ QsInv h' s F (vals (op.d (e.mapIdx fun j x => x + op.a j)) s.n)
      (vals (op.p (e.mapIdx fun j x => x + op.a j)) s.n) (e.mapIdx fun j x => x + op.a j) := by
  obtain ⟨h1, b, e1, o1⟩ := qsMed_own ok i.own s op.medoid
  have r1 : readN h1 s.density s.n = some (e.take s.n) := readN_own (v := e) (B := medBlocks s b ++ ((s.self, []) :: (s.dists, d) :: (s.parents, p) :: F))
    (o1.of_perm (by simp only [qsBlocks]; perm)) (by rw [i.le])
  rw [List.take_of_length_le (by rw [i.le])] at r1
  have lw : (e.mapIdx fun j x => x + op.a j).length = s.n := by rw [List.length_mapIdx, i.le]
  generalize hw : (e.mapIdx fun j x => x + op.a j) = w at lw
  obtain ⟨h2, e2, o2⟩ := store_full (h := h1) (p := s.density) (w := e) (B := medBlocks s b ++ ((s.self, []) :: (s.dists, d) :: (s.parents, p) :: F))
    (o1.of_perm (by simp only [qsBlocks]; perm)) w (by rw [lw, i.le])
  have r2 := readN_own o2 (n := s.n) (by rw [lw])
  rw [List.take_of_length_le (by rw [lw])] at r2
  obtain ⟨h3, e3, o3⟩ := store_full (h := h2) (p := s.parents) (w := p) (B := medBlocks s b ++ ((s.self, []) :: (s.dists, d) :: (s.density, w) :: F))
    (o2.of_perm (by perm)) (vals (op.p w) s.n) (by rw [vals_length, i.lp])
  obtain ⟨h4, e4, o4⟩ := store_full (h := h3) (p := s.dists) (w := d)
    (B := medBlocks s b ++ ((s.self, []) :: (s.parents, vals (op.p w) s.n) :: (s.density, w) :: F))
    (o3.of_perm (by perm)) (vals (op.d w) s.n) (by rw [vals_length, i.ld])
  obtain ⟨h5, e5, o5⟩ := qsFree_own (h := h4) (s := s) (b := b)
    (B := (s.self, []) :: (s.dists, vals (op.d w) s.n) :: (s.parents, vals (op.p w) s.n) :: (s.density, w) :: F) (o4.of_perm (by perm))
  refine ⟨h5, ?_, ⟨o5, vals_length _ _, vals_length _ _, lw⟩⟩
  simp only [qsProcess, i.self, e1, r1, hw, e2, r2, e3, e4, e5, Option.bind_eq_bind, Option.bind_some]

theorem qsRun_inv {E : Env} (ok : ∀ m, E.ok m = true) {F : List Block} (ops : List QsOp) : ∀ {h : Heap} {s : Qs} {d p : List ℚ} {f : Nat → ℚ},
    QsInv h s F d p ((List.range s.n).map f) → ∃ h' d' p', qsRun E ops (s, h) = some (s, h') ∧
      QsInv h' s F d' p' ((List.range s.n).map fun j => f j + (ops.map fun op => op.a j).sum) := by
  induction ops with
  | nil => exact fun {h s d p f} i => ⟨h, d, p, rfl, by simpa using i⟩
  | cons op ops ih =>
    intro h s d p f i
    obtain ⟨h1, e1, i1⟩ := qsProcess_inv ok i op
    have hm : (((List.range s.n).map f).mapIdx fun j x => x + op.a j) = (List.range s.n).map fun j => f j + op.a j := by
      apply List.ext_getElem <;> simp
    rw [hm] at i1
    obtain ⟨h2, d2, p2, e2, i2⟩ := ih i1
    refine ⟨h2, d2, p2, by simp [qsRun, e1, e2], ?_⟩
    simpa [add_assoc] using i2

/-! ## Theorems -/

/-- C237: any number of patches may be described one after the other: no call is undefined, the blocks of others are untouched, what a descriptor is
computed from depends on its patch alone, which is read at the pixels of the disc in their order, and deleting the object gives back all its blocks. -/
theorem liop_history (E : Env) (ok : ∀ m, E.ok m = true) (h0 : Heap) (g : h0.Good) (k side : Nat) (t2 : ℤ) (sx sy : Nat → ℚ) (ops : List LpOp)
    (hl : ∀ op ∈ ops, side * side ≤ op.patch.length) :
    (∃ r, LpReached E h0 k side t2 sx sy ops r) ∧ ∀ s h, LpReached E h0 k side t2 sx sy ops (s, h) →
      (∀ b ∈ h0.live, b ∈ h.live) ∧
      (∃ px : List Nat, px.Pairwise (· < ·) ∧ (∀ i, i ∈ px ↔ InDisc side t2 i) ∧ ∀ op : LpOp, side * side ≤ op.patch.length →
        ∃ h1, lpProcess h s op.patch op.o op.q op.v = some ((px.map fun i => op.patch.getD i 0,
          (List.range px.length).map (op.o (px.map fun i => op.patch.getD i 0)),
          (List.range px.length).map fun j => ((List.range k).map (op.q j), (List.range k).map (op.v j))), h1)) ∧
      ∃ h', lpDelete h s = some h' ∧ h'.live.Perm h0.live := by
  obtain ⟨s0, h0', p, a, b, c, d, x, y, e0, i0, k0⟩ := lpNew_inv ok g.own k side t2 sx sy
  have hd : ∀ op : LpOp, side * side ≤ op.patch.length → ∀ j ∈ lpDisc side t2, j < op.patch.length := fun op ho j hj =>
    lt_of_lt_of_le (List.mem_range.mp (List.mem_filter.mp hj).1) ho
  obtain ⟨h1, a1, b1, c1, d1, e1, i1⟩ := lpRun_inv ops i0 (fun op ho => hd op (hl op ho))
  refine ⟨⟨_, _, e0, e1⟩, ?_⟩
  rintro s h ⟨s0', e0', e⟩
  rw [e0] at e0'
  cases e0'
  rw [e1] at e
  cases e
  refine ⟨fun b hb => ?_, ⟨lpDisc side t2, lpDisc_sorted side t2, fun i => mem_lpDisc, fun op ho => ?_⟩, ?_⟩
  · rw [i1.own.perm.mem_iff]
    simp [hb]
  · obtain ⟨h2, a2, b2, c2, d2, e2, -⟩ := lpProcess_inv i1 op (hd op ho)
    rw [k0] at e2
    exact ⟨h2, e2⟩
  · obtain ⟨h', e, o⟩ := lpDelete_own i1
    exact ⟨h', e, o.perm⟩

/-- C238: quick shift may be run any number of times, with or without medoids: no call is undefined, the blocks for the medoids are given back
by each run, the densities are the sums over all the runs, the parents and distances are those of the last run for these densities, and deleting the
object gives back all its blocks. -/
theorem quickshift_history (E : Env) (ok : ∀ m, E.ok m = true) (h0 : Heap) (g : h0.Good) (n c : Nat) (ops : List QsOp) :
    (∃ r, QsReached E h0 n c ops r) ∧ ∀ s h, QsReached E h0 n c ops (s, h) →
      (∀ b ∈ h0.live, b ∈ h.live) ∧ h.live.length = h0.live.length + 4 ∧
      (∀ op : QsOp, ∃ h1 D, qsProcess E h s op.medoid op.a op.p op.d = some h1 ∧
        D = ((List.range n).map fun j => ((ops ++ [op]).map fun r => r.a j).sum) ∧
        load h1 s.density = some D ∧ load h1 s.parents = some ((List.range n).map (op.p D)) ∧ load h1 s.dists = some ((List.range n).map (op.d D))) ∧
      ∃ h', qsDelete h s = some h' ∧ h'.live.Perm h0.live := by
  obtain ⟨s0, h0', e0, i0, n0⟩ := qsNew_inv ok g.own n c
  have hz : List.replicate n (0 : ℚ) = (List.range s0.n).map fun _ => 0 := by rw [n0]; simp [List.map_const']
  have i0' := i0
  rw [hz] at i0'
  obtain ⟨h1, d1, p1, e1, i1⟩ := qsRun_inv ok ops i0'
  refine ⟨⟨_, _, e0, e1⟩, ?_⟩
  rintro s h ⟨s0', e0', e⟩
  rw [e0] at e0'
  cases e0'
  rw [e1] at e
  cases e
  refine ⟨fun b hb => ?_, ?_, fun op => ?_, ?_⟩
  · rw [i1.own.perm.mem_iff]
    simp [hb]
  · rw [i1.own.perm.length_eq]
    simp [qsBlocks]
  · obtain ⟨h2, e2, i2⟩ := qsProcess_inv ok i1 op
    have hm : (((List.range s0.n).map fun j => (0 : ℚ) + (ops.map fun op => op.a j).sum).mapIdx fun j x => x + op.a j) =
        (List.range n).map fun j => ((ops ++ [op]).map fun r => r.a j).sum := by
      rw [← n0]
      apply List.ext_getElem <;> simp
    rw [hm] at i2
    rw [n0] at i2
    refine ⟨h2, _, e2, rfl, ?_, ?_, ?_⟩
    · exact load_own (i2.own.of_perm (B' := (s0.density, _) :: (s0.self, []) :: (s0.dists, _) :: (s0.parents, _) :: h0.live) (by simp only [qsBlocks, vals]; perm))
    · exact load_own (i2.own.of_perm (B' := (s0.parents, _) :: (s0.self, []) :: (s0.dists, _) :: (s0.density, _) :: h0.live) (by simp only [qsBlocks, vals]; perm))
    · exact load_own (i2.own.of_perm (B' := (s0.dists, _) :: (s0.self, []) :: (s0.parents, _) :: (s0.density, _) :: h0.live) (by simp only [qsBlocks, vals]; perm))
  · obtain ⟨h', e, o⟩ := qsDelete_own i1
    exact ⟨h', e, o.perm⟩

/-- A patch of three by three pixels and a disc of radius one. -/
example : ((lpNew allOk ⟨[], 0⟩ 2 3 1 (fun _ => 0) (fun _ => 0)).bind fun r =>
    (lpProcess r.2 r.1 [0, 1, 2, 3, 4, 5, 6, 7, 8] (fun _ j => j) (fun _ t => t) (fun i _ => i)).map fun x => x.1.1) = some [1, 3, 4, 5, 7] := by
  decide +kernel

/-- Two runs. -/
example : ((qsNew allOk ⟨[], 0⟩ 2 1).bind fun r =>
    (qsRun allOk [⟨true, fun _ => 1, fun _ _ => 0, fun _ _ => 0⟩, ⟨false, fun j => j, fun e j => e.getD j 0, fun _ _ => 0⟩] r).bind fun r =>
      load r.2 r.1.parents) = some [1, 2] := by decide +kernel

end Verif.Life
