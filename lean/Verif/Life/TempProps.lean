import Verif.Life.HogProps
import Verif.Life.TempModel

/-! # C236: functions without objects give back their memory -/

namespace Verif.Life

/-! ## Specification -/

/-- The documented requirements. -/
def TempLegal : TempOp → Prop
  | .tri _ _ n _ => 1 ≤ n
  | .smooth _ _ sx sy _ _ _ => 0 ≤ sx ∧ 0 ≤ sy
  | .dist _ _ _ _ _ => True
  | .slic w t k n _ _ _ _ _ => 1 ≤ w ∧ 1 ≤ t ∧ 1 ≤ k ∧ 1 ≤ n

/-- Images without rows, given to the triangular filter. -/
def TempEmpty : TempOp → Prop
  | .tri _ t _ _ => t = 0
  | _ => False

/-- C236: after any sequence of calls the blocks are those that there were before. -/
def TempClaim : Prop :=
  ∀ (E : Env), (∀ m, E.ok m = true) → ∀ (h : Heap), h.Good → ∀ (ops : List TempOp), (∀ op ∈ ops, TempLegal op) →
    ∃ h', tempRun E ops h = some h' ∧ h'.live.Perm h.live

/-! ## Proofs -/

theorem vals_length (a : Nat → ℚ) (n : Nat) : (vals a n).length = n := by simp [vals]

theorem readN_own {h : Heap} {B : List Block} {p n : Nat} {v : List ℚ} (o : Own h ((p, v) :: B)) (hn : n ≤ v.length) :
    readN h p n = some (v.take n) := by
  simp [readN, load_own o, hn]

theorem triCols_own {h : Heap} {B : List Block} {p n : Nat} {v : List ℚ} (o : Own h ((p, v) :: B)) (hv : v.length = n) (a : Nat → Nat → ℚ) (w : Nat) :
    ∃ h' v', triCols h p n a w = some h' ∧ v'.length = n ∧ Own h' ((p, v') :: B) := by
  induction w with
  | zero => exact ⟨h, v, rfl, hv, o⟩
  | succ w ih =>
    obtain ⟨h1, v1, e1, l1, o1⟩ := ih
    obtain ⟨h2, e2, o2⟩ := store_full o1 (vals (a w) n) (by rw [vals_length, l1])
    exact ⟨h2, _, by simp [triCols, e1, e2, readN_own o2 (n := n) (by rw [vals_length])], vals_length _ _, o2⟩

theorem triTemp_own {E : Env} (ok : ∀ m, E.ok m = true) {h : Heap} {B : List Block} (o : Own h B) (w t n : Nat) (ht : t ≠ 0) (a : Nat → Nat → ℚ) :
    ∃ h', triTemp E h w t n a = some h' ∧ Own h' B := by
  obtain ⟨h1, p, v, e1, hv, o1⟩ := need_own (E := E) o (t + n) ok
  obtain ⟨h2, v2, e2, -, o2⟩ := triCols_own o1 hv a w
  obtain ⟨h3, e3, o3⟩ := free_own o2
  exact ⟨h3, by simp [triTemp, e1, e2, e3, ht], o3⟩

theorem gaussTemp_own {E : Env} (ok : ∀ m, E.ok m = true) {h : Heap} {B : List Block} (o : Own h B) (s : ℚ) (hs : 0 ≤ s) (g : Nat → ℚ) :
    ∃ h' f v, gaussTemp E h s g = some (f, h') ∧ v.length = f.2 ∧ Own h' ((f.1, v) :: B) := by
  obtain ⟨h1, p, v, e1, hv, o1⟩ := need_own (E := E) o (2 * (s * 3).ceil.toNat + 1) ok
  obtain ⟨h2, e2, o2⟩ := store_full o1 (vals g (2 * (s * 3).ceil.toNat + 1)) (by rw [vals_length, hv])
  exact ⟨h2, (p, _), _, by rw [gaussTemp, if_neg (not_lt.mpr hs)]; simp only [e1, e2, Option.bind_eq_bind, Option.bind_some], vals_length _ _, o2⟩

theorem smoothTemp_own {E : Env} (ok : ∀ m, E.ok m = true) {h : Heap} {B : List Block} (o : Own h B) (w t : Nat) (sx sy : ℚ) (hx : 0 ≤ sx) (hy : 0 ≤ sy)
    (gx gy b : Nat → ℚ) : ∃ h', smoothTemp E h w t sx sy gx gy b = some h' ∧ Own h' B := by
  obtain ⟨h1, fx, vx, e1, l1, o1⟩ := gaussTemp_own ok o sx hx gx
  by_cases d : sx = sy
  · subst d
    obtain ⟨h2, p, v, e2, hv, o2⟩ := need_own (E := E) o1 (w * t) ok
    have r1 : readN h2 fx.1 fx.2 = some _ := readN_own (h := h2) (v := vx) (B := (p, v) :: B) (o2.of_perm (by perm)) (by omega)
    obtain ⟨h3, e3, o3⟩ := store_full o2 (vals b (w * t)) (by rw [vals_length, hv])
    have r2 : readN h3 fx.1 fx.2 = some _ := readN_own (h := h3) (v := vx) (B := (p, vals b (w * t)) :: B) (o3.of_perm (by perm)) (by omega)
    have r3 := readN_own o3 (n := w * t) (by rw [vals_length])
    obtain ⟨h4, e4, o4⟩ := free_own o3
    obtain ⟨h5, e5, o5⟩ := free_own o4
    exact ⟨h5, by simp [smoothTemp, gaussY, e1, e2, e3, e4, e5, r1, r2, r3], o5⟩
  · obtain ⟨h2, fy, vy, e2, l2, o2⟩ := gaussTemp_own ok o1 sy hy gy
    obtain ⟨h3, p, v, e3, hv, o3⟩ := need_own (E := E) o2 (w * t) ok
    have r1 : readN h3 fy.1 fy.2 = some _ := readN_own (h := h3) (v := vy) (B := (p, v) :: (fx.1, vx) :: B) (o3.of_perm (by perm)) (by omega)
    obtain ⟨h4, e4, o4⟩ := store_full o3 (vals b (w * t)) (by rw [vals_length, hv])
    have r2 : readN h4 fx.1 fx.2 = some _ :=
      readN_own (h := h4) (v := vx) (B := (p, vals b (w * t)) :: (fy.1, vy) :: B) (o4.of_perm (by perm)) (by omega)
    have r3 := readN_own o4 (n := w * t) (by rw [vals_length])
    obtain ⟨h5, e5, o5⟩ := free_own o4
    obtain ⟨h6, e6, o6⟩ := free_own (h := h5) (p := fx.1) (v := vx) (B := (fy.1, vy) :: B) (o5.of_perm (by perm))
    obtain ⟨h7, e7, o7⟩ := free_own o6
    exact ⟨h7, by simp [smoothTemp, gaussY, e1, e2, e3, e4, e5, e6, e7, r1, r2, r3, d], o7⟩

theorem distTemp_own {E : Env} (ok : ∀ m, E.ok m = true) {h : Heap} {B : List Block} (o : Own h B) (n : Nat) (a b c d : Nat → ℚ) :
    ∃ h', distTemp E h n a b c d = some h' ∧ Own h' B := by
  obtain ⟨h1, f, vf, e1, l1, o1⟩ := need_own (E := E) o (n + 1) ok
  obtain ⟨h2, p, vp, e2, l2, o2⟩ := need_own (E := E) o1 n ok
  obtain ⟨h3, q, vq, e3, l3, o3⟩ := need_own (E := E) o2 n ok
  obtain ⟨h4, w, vw, e4, l4, o4⟩ := need_own (E := E) o3 n ok
  obtain ⟨h5, e5, o5⟩ := store_full o4 (vals a n) (by rw [vals_length, l4])
  obtain ⟨h6, e6, o6⟩ := store_full (h := h5) (p := f) (w := vf) (B := (w, vals a n) :: (q, vq) :: (p, vp) :: B) (o5.of_perm (by perm))
    (vals b (n + 1)) (by rw [vals_length, l1])
  obtain ⟨h7, e7, o7⟩ := store_full (h := h6) (p := p) (w := vp) (B := (f, vals b (n + 1)) :: (w, vals a n) :: (q, vq) :: B) (o6.of_perm (by perm))
    (vals c n) (by rw [vals_length, l2])
  obtain ⟨h8, e8, o8⟩ := store_full (h := h7) (p := q) (w := vq) (B := (f, vals b (n + 1)) :: (w, vals a n) :: (p, vals c n) :: B) (o7.of_perm (by perm))
    (vals d n) (by rw [vals_length, l3])
  obtain ⟨h9, e9, o9⟩ := free_own (h := h8) (p := f) (v := vals b (n + 1)) (B := (w, vals a n) :: (p, vals c n) :: (q, vals d n) :: B) (o8.of_perm (by perm))
  obtain ⟨h10, e10, o10⟩ := free_own o9
  obtain ⟨h11, e11, o11⟩ := free_own o10
  obtain ⟨h12, e12, o12⟩ := free_own o11
  exact ⟨h12, by simp only [distTemp, e1, e2, e3, e4, e5, e6, e7, e8, e9, e10, e11, e12, Option.bind_eq_bind, Option.bind_some], o12⟩

theorem cells_le {w n : Nat} (hn : 1 ≤ n) : (w + n - 1) / n ≤ w := by
  rcases Nat.eq_zero_or_pos w with rfl | hw
  · exact Nat.le_of_eq (Nat.div_eq_of_lt (by omega))
  · refine Nat.div_le_of_le_mul ?_
    obtain ⟨k, rfl⟩ : ∃ k, n = k + 1 := ⟨n - 1, by omega⟩
    obtain ⟨j, rfl⟩ : ∃ j, w = j + 1 := ⟨w - 1, by omega⟩
    have e : (k + 1) * (j + 1) = k * j + k + j + 1 := by rw [Nat.succ_mul, Nat.mul_succ]; omega
    omega

theorem slicTemp_own {E : Env} (ok : ∀ m, E.ok m = true) {h : Heap} {B : List Block} (o : Own h B) {w t k n : Nat}
    (hl : 1 ≤ w ∧ 1 ≤ t ∧ 1 ≤ k ∧ 1 ≤ n) (a b c d e : Nat → ℚ) :
    ∃ h', slicTemp E h w t k n a b c d e = some h' ∧ Own h' B := by
  have hr : ((w + n - 1) / n) * ((t + n - 1) / n) ≤ w * t := Nat.mul_le_mul (cells_le hl.2.2.2) (cells_le hl.2.2.2)
  rw [slicTemp, if_neg (by omega)]
  generalize ((w + n - 1) / n) * ((t + n - 1) / n) = r at hr
  generalize w * t = x at hr
  obtain ⟨h1, g, vg, e1, l1, o1⟩ := need_own (E := E) o x ok
  obtain ⟨h2, m, vm, e2, l2, o2⟩ := need_own (E := E) o1 x ok
  obtain ⟨h3, z, vz, e3, l3, o3⟩ := need_own (E := E) o2 ((2 + k) * r) ok
  obtain ⟨h4, e4, o4⟩ := store_full (h := h3) (p := g) (w := vg) (B := (z, vz) :: (m, vm) :: B) (o3.of_perm (by perm)) (vals a x) (by rw [vals_length, l1])
  obtain ⟨h5, e5, o5⟩ := store_full (h := h4) (p := z) (w := vz) (B := (g, vals a x) :: (m, vm) :: B) (o4.of_perm (by perm))
    (vals b ((2 + k) * r)) (by rw [vals_length, l3])
  obtain ⟨h6, e6, o6⟩ := store_full (h := h5) (p := m) (w := vm) (B := (z, vals b ((2 + k) * r)) :: (g, vals a x) :: B) (o5.of_perm (by perm))
    (List.replicate x 0) (by simp [l2])
  obtain ⟨h7, e7, o7⟩ := store_own o6 (v := vals c r) (by simpa [vals_length] using hr)
  obtain ⟨h8, e8, o8⟩ := free_own o7
  obtain ⟨h9, e9, o9⟩ := free_own o8
  obtain ⟨h10, e10, o10⟩ := free_own o9
  obtain ⟨h11, q, vq, e11, l11, o11⟩ := need_own (E := E) o10 x ok
  obtain ⟨h12, s, vs, e12, l12, o12⟩ := need_own (E := E) o11 x ok
  obtain ⟨h13, e13, o13⟩ := store_full o12 (vals d x) (by rw [vals_length, l12])
  obtain ⟨h14, e14, o14⟩ := store_full (h := h13) (p := q) (w := vq) (B := (s, vals d x) :: B) (o13.of_perm (by perm)) (vals e x) (by rw [vals_length, l11])
  obtain ⟨h15, e15, o15⟩ := free_own o14
  obtain ⟨h16, e16, o16⟩ := free_own o15
  exact ⟨h16, by simp only [e1, e2, e3, e4, e5, e6, e7, e8, e9, e10, e11, e12, e13, e14, e15, e16, Option.bind_eq_bind, Option.bind_some], o16⟩

theorem tempStep_own {E : Env} (ok : ∀ m, E.ok m = true) {h : Heap} {B : List Block} (o : Own h B) (op : TempOp) (hl : TempLegal op) (he : ¬ TempEmpty op) :
    ∃ h', tempStep E h op = some h' ∧ Own h' B := by
  cases op with
  | tri w t n a => exact triTemp_own ok o w t n he a
  | smooth w t sx sy gx gy b => exact smoothTemp_own ok o w t sx sy hl.1 hl.2 gx gy b
  | dist n a b c d => exact distTemp_own ok o n a b c d
  | slic w t k n a b c d e => exact slicTemp_own ok o hl a b c d e

theorem tempRun_own {E : Env} (ok : ∀ m, E.ok m = true) {B : List Block} (ops : List TempOp) : ∀ {h : Heap}, Own h B →
    (∀ op ∈ ops, TempLegal op ∧ ¬ TempEmpty op) → ∃ h', tempRun E ops h = some h' ∧ Own h' B := by
  induction ops with
  | nil => exact fun {h} o _ => ⟨h, rfl, o⟩
  | cons op ops ih =>
    intro h o hl
    obtain ⟨h1, e1, o1⟩ := tempStep_own ok o op (hl op (by simp)).1 (hl op (by simp)).2
    obtain ⟨h2, e2, o2⟩ := ih o1 (fun z hz => hl z (by simp [hz]))
    exact ⟨h2, by simp [tempRun, e1, e2], o2⟩

/-! ## Theorems -/

/-- C236, without the triangular filter of images without rows: whatever the sequence of calls, the sizes and the sigmas, no call leaves its blocks,
frees a block twice or reaches past its end, and the live blocks after the sequence are those before it. -/
theorem temp_history_partial (E : Env) (ok : ∀ m, E.ok m = true) (h : Heap) (g : h.Good) (ops : List TempOp)
    (hl : ∀ op ∈ ops, TempLegal op ∧ ¬ TempEmpty op) : ∃ h', tempRun E ops h = some h' ∧ h'.live.Perm h.live := by
  obtain ⟨h', e, o⟩ := tempRun_own ok ops g.own hl
  exact ⟨h', e, o.perm⟩

/-- C236: the triangular filter of an image without rows never frees its buffer. -/
theorem tri_leak (E : Env) (ok : ∀ m, E.ok m = true) (h : Heap) (w n : Nat) (a : Nat → Nat → ℚ) :
    ∃ h' b, triTemp E h w 0 n a = some h' ∧ b.2.length = n ∧ h'.live = b :: h.live := by
  refine ⟨⟨(h.next, fresh E h.next n) :: h.live, h.next + 1⟩, (h.next, fresh E h.next n), ?_, fresh_length _ _ _, rfl⟩
  simp [triTemp, need, malloc, ok]

theorem temp_claim_false : ¬ TempClaim := by
  intro c
  obtain ⟨h', e, p⟩ := c allOk (fun _ => rfl) ⟨[], 0⟩ ⟨by simp, by simp⟩ [.tri 1 0 2 fun _ _ => 0] (by simp [TempLegal])
  obtain ⟨h2, b, e2, -, l⟩ := tri_leak allOk (fun _ => rfl) ⟨[], 0⟩ 1 2 fun _ _ => 0
  simp only [tempRun, tempStep, e2, Option.bind_eq_bind, Option.bind_some, Option.some.injEq] at e
  subst e
  have := p.length_eq
  simp [l] at this

/-- Filters with one or two sigmas, a distance transform and a segmentation. -/
example : (tempRun allOk [.smooth 2 3 1 1 (fun _ => 1) (fun _ => 1) (fun _ => 1), .smooth 2 3 1 (1 / 2) (fun _ => 1) (fun _ => 1) (fun _ => 1),
    .dist 3 (fun _ => 1) (fun _ => 1) (fun _ => 1) (fun _ => 1), .slic 3 2 1 2 (fun _ => 1) (fun _ => 1) (fun _ => 1) (fun _ => 1) (fun _ => 1),
    .tri 2 2 3 fun _ _ => 1] ⟨[(7, [1])], 8⟩).map Heap.live = some [(7, [1])] := by decide +kernel

end Verif.Life
