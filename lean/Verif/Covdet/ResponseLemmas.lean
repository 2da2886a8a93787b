import Verif.Covdet.ResponseModel
import Verif.Covdet.ResponseSpec
import Verif.Put
import Verif.Rows
import Mathlib.Tactic.Ring

set_option linter.unusedSectionVars false

/-!
# Lemmas for the responses
-/

namespace Verif.Covdet

variable {K : Type} [Field K] [LinearOrder K]

/-- The rows of an image without gaps -/
def rows (img : List K) (w y x : Nat) : K := img.getD (y * w + x) 0

def raddr (w i j : Nat) : Nat := i * w + j

theorem raddr_inj {w i j i' j' : Nat} (hj : j < w) (hj' : j' < w) (h : raddr w i j = raddr w i' j') : i = i' ∧ j = j' := by
  unfold raddr at h
  have hi : i = i' := by
    rcases Nat.lt_trichotomy i i' with hlt | he | hgt
    · have : i * w + w ≤ i' * w := by rw [← Nat.succ_mul]; exact Nat.mul_le_mul_right _ hlt
      omega
    · exact he
    · have : i' * w + w ≤ i * w := by rw [← Nat.succ_mul]; exact Nat.mul_le_mul_right _ hgt
      omega
  subst hi
  exact ⟨rfl, by omega⟩

theorem raddr_lt {w h i j : Nat} (hi : i < h) (hj : j < w) : raddr w i j < h * w := by
  have : i * w + w ≤ h * w := by rw [← Nat.succ_mul]; exact Nat.mul_le_mul_right _ hi
  unfold raddr
  omega

variable {l0 l : List K} {w h : Nat} {v : Nat → Nat → K} {S S' : Nat → Nat → Prop}

theorem copy1_spec (hp : Put l0 l (raddr w) v S) {i j i0 j0 : Nat} (hsrc : S i0 j0) (hv : v i0 j0 = v i j) (hb : raddr w i j < l0.length) (hj : j < w) (hw : ∀ i j, S i j → j < w)
    (hS : ∀ i' j', S' i' j' ↔ S i' j' ∨ (i' = i ∧ j' = j)) {dst src : Int} (hd : dst = (raddr w i j : Nat)) (hs : src = (raddr w i0 j0 : Nat)) :
    ∃ l', copy1 l dst src = some l' ∧ Put l0 l' (raddr w) v S' := by
  obtain ⟨l', e, h'⟩ := hp.wr hb hS (fun i' j' hs' e => raddr_inj (hw _ _ hs') hj e)
  refine ⟨l', ?_, h'⟩
  unfold copy1
  rw [hs, rdI_nat, rd_getElem?, hp.get _ _ hsrc, hv, Option.bind_eq_bind, Option.bind_some, hd, wrI_nat, e]

theorem copyN_spec {n : Nat} {T : Nat → Nat → Nat → Prop} {i j i0 j0 : Nat} (hp : Put l0 l (raddr w) v (T 0)) (hsrc : ∀ k < n, T k i0 (j0 + k)) (hv : ∀ k < n, v i0 (j0 + k) = v i (j + k)) (hb : ∀ k < n, raddr w i (j + k) < l0.length) (hj : ∀ k < n, j + k < w)
    (hw : ∀ k, ∀ i j, T k i j → j < w) (hS : ∀ k < n, ∀ i' j', T (k + 1) i' j' ↔ T k i' j' ∨ (i' = i ∧ j' = j + k)) {dst src : Int} (hd : dst = (raddr w i j : Nat)) (hs : src = (raddr w i0 j0 : Nat)) :
    ∃ l', copyN l dst src n = some l' ∧ Put l0 l' (raddr w) v (T n) := by
  unfold copyN
  exact iter_inv (P := fun k l => Put l0 l (raddr w) v (T k)) hp (fun k hk l hP =>
    copy1_spec hP (hsrc k hk) (hv k hk) (hb k hk) (hj k hk) (hw k) (hS k hk) (by rw [hd]; unfold raddr; push_cast; ring) (by rw [hs]; unfold raddr; push_cast; ring))

/-- Interior pixels before `(r, c)` -/
def inside (w r c i j : Nat) : Prop := 1 ≤ i ∧ 1 ≤ j ∧ j + 1 < w ∧ (i < r ∨ (i = r ∧ j < c))

theorem plane_nat (img : List K) {w h y x : Nat} (hl : img.length = h * w) (hy : y < h) (hx : x < w) : rd img (raddr w y x) = some (plane (rows img w) 0 y x) := by
  have := raddr_lt hy hx
  unfold plane rows
  rw [rd_getElem?, List.getElem?_eq_getElem (by omega), Int.toNat_natCast, Int.toNat_natCast, List.getD_eq_getElem?_getD, show y * w + x = raddr w y x from rfl, List.getElem?_eq_getElem (by omega), Option.getD_some]

/-- One row of the interior -/
theorem hessRow_spec (factor : K) {img : List K} (hl : img.length = h * w) (hw : 3 ≤ w) {r : Nat} (hr1 : 1 ≤ r) (hr2 : r + 1 < h) (hl0 : l0.length = h * w)
    (hp : Put l0 l (raddr w) (detVal factor (rows img w) w h) (inside w r 1)) :
    ∃ l', hessRow factor img w (l, ((raddr w r 0 : Nat) : Int), ((raddr w r 1 : Nat) : Int)) = some (l', ((raddr w (r + 1) 0 : Nat) : Int), ((raddr w (r + 1) 1 : Nat) : Int)) ∧ Put l0 l' (raddr w) (detVal factor (rows img w) w h) (inside w (r + 1) 1) := by
  obtain ⟨D, hD⟩ : ∃ D, D = plane (rows img w) := ⟨_, rfl⟩
  have rP : ∀ y < h, ∀ x < w, rdI img (raddr w y x : Nat) = some (D 0 y x) := fun y hy x hx => by rw [rdI_nat, plane_nat img hl hy hx, hD]
  have rP' : ∀ y < h, ∀ x < w, ∀ q : Int, q = (raddr w y x : Nat) → rdI img q = some (D 0 y x) := fun y hy x hx q e => by rw [e, rP y hy x hx]
  have up : ∀ x : Nat, (raddr w (r - 1) x : Nat) = ((raddr w r x : Nat) : Int) - w := by
    intro x
    have : r * w = (r - 1) * w + w := by rw [← Nat.succ_mul]; congr 1; omega
    unfold raddr; rw [this]; push_cast; ring
  have down : ∀ x : Nat, (raddr w (r + 1) x : Nat) = ((raddr w r x : Nat) : Int) + w := by intro x; unfold raddr; push_cast; ring
  have right : ∀ y x k : Nat, (raddr w y (x + k) : Nat) = ((raddr w y x : Nat) : Int) + k := by intro y x k; unfold raddr; push_cast; ring
  obtain ⟨s, e, h1, h2, h3⟩ : ∃ s, iter (w - 2) (fun _ s => hessPixel factor img w s) ⟨l, ((raddr w r 0 : Nat) : Int) + 2, ((raddr w r 1 : Nat) : Int), D 0 ((r - 1 : Nat) : Int) (0 : Nat), D 0 ((r - 1 : Nat) : Int) (1 : Nat), D 0 r (0 : Nat), D 0 r (1 : Nat), D 0 ((r + 1 : Nat) : Int) (0 : Nat), D 0 ((r + 1 : Nat) : Int) (1 : Nat)⟩ = some s ∧
      Put l0 s.mem (raddr w) (detVal factor (rows img w) w h) (inside w r (w - 2 + 1)) ∧ s.inp = (raddr w r (w - 2 + 2) : Nat) ∧ s.out = (raddr w r (w - 2 + 1) : Nat) := by
    obtain ⟨s, e, h1, h2, h3, -⟩ := iter_inv (n := w - 2) (f := fun _ s => hessPixel factor img w s) (s := ⟨l, ((raddr w r 0 : Nat) : Int) + 2, ((raddr w r 1 : Nat) : Int), D 0 ((r - 1 : Nat) : Int) (0 : Nat), D 0 ((r - 1 : Nat) : Int) (1 : Nat), D 0 r (0 : Nat), D 0 r (1 : Nat), D 0 ((r + 1 : Nat) : Int) (0 : Nat), D 0 ((r + 1 : Nat) : Int) (1 : Nat)⟩)
      (P := fun k (s : HessSt K) => Put l0 s.mem (raddr w) (detVal factor (rows img w) w h) (inside w r (k + 1)) ∧ s.inp = (raddr w r (k + 2) : Nat) ∧ s.out = (raddr w r (k + 1) : Nat) ∧
        s.p11 = D 0 ((r - 1 : Nat) : Int) (k : Nat) ∧ s.p12 = D 0 ((r - 1 : Nat) : Int) (k + 1 : Nat) ∧ s.p21 = D 0 r (k : Nat) ∧ s.p22 = D 0 r (k + 1 : Nat) ∧ s.p31 = D 0 ((r + 1 : Nat) : Int) (k : Nat) ∧ s.p32 = D 0 ((r + 1 : Nat) : Int) (k + 1 : Nat))
      ⟨hp, by rw [right]; rfl, rfl, rfl, rfl, rfl, rfl, rfl, rfl⟩ (by
        rintro k hk s ⟨hP, hin, hout, q11, q12, q21, q22, q31, q32⟩
        have hset : ∀ i' j', inside w r (k + 1 + 1) i' j' ↔ inside w r (k + 1) i' j' ∨ (i' = r ∧ j' = k + 1) := by intro i' j'; unfold inside; omega
        obtain ⟨l', e, h'⟩ := hP.wr (i := r) (j := k + 1) (by rw [hl0]; exact raddr_lt (by omega) (by omega)) hset (fun i' j' hs' e => raddr_inj (by unfold inside at hs'; omega) (by omega) e)
        refine ⟨⟨l', s.inp + 1, s.out + 1, s.p12, D 0 ((r - 1 : Nat) : Int) (k + 2 : Nat), s.p22, D 0 r (k + 2 : Nat), s.p32, D 0 ((r + 1 : Nat) : Int) (k + 2 : Nat)⟩, ?_, h', ?_, ?_, q12, rfl, q22, rfl, q32, rfl⟩
        · show (rdI img (s.inp - w)).bind _ = _
          rw [hin, ← up, rP (r - 1) (by omega) (k + 2) (by omega), Option.bind_some]
          show (rdI img _).bind _ = _
          rw [rP r (by omega) (k + 2) (by omega), Option.bind_some]
          show (rdI img _).bind _ = _
          rw [← down, rP (r + 1) (by omega) (k + 2) (by omega), Option.bind_some]
          show (wrI s.mem s.out _).bind _ = _
          rw [hout, wrI_nat]
          have hval : (( - s.p21 + 2 * s.p22 - D 0 r (k + 2 : Nat)) * (- s.p12 + 2 * s.p22 - s.p32) - ((s.p11 - s.p31 - D 0 ((r - 1 : Nat) : Int) (k + 2 : Nat) + D 0 ((r + 1 : Nat) : Int) (k + 2 : Nat)) / 4) * ((s.p11 - s.p31 - D 0 ((r - 1 : Nat) : Int) (k + 2 : Nat) + D 0 ((r + 1 : Nat) : Int) (k + 2 : Nat)) / 4)) * factor = detVal factor (rows img w) w h r (k + 1) := by
            unfold detVal det2 hess
            rw [← hD, show inner h r = r by unfold inner; omega, show inner w (k + 1) = k + 1 by unfold inner; omega, q11, q12, q21, q22, q31, q32]
            rw [show ((r : Nat) : Int) + 1 = ((r + 1 : Nat) : Int) by push_cast; ring, show ((r : Nat) : Int) - 1 = ((r - 1 : Nat) : Int) by omega, show ((k + 1 : Nat) : Int) + 1 = ((k + 2 : Nat) : Int) by push_cast; ring, show ((k + 1 : Nat) : Int) - 1 = ((k : Nat) : Int) by push_cast; ring]
            simp only []
            ring
          rw [hval, e, Option.bind_some]
        · show s.inp + 1 = _
          rw [hin, show k + 1 + 2 = k + 2 + 1 by omega, right]; rfl
        · show s.out + 1 = _
          rw [hout, right]; rfl)
    exact ⟨s, e, h1, h2, h3⟩
  refine ⟨s.mem, ?_, h1.congr (by intro i j; unfold inside; omega)⟩
  show (rdI img _).bind _ = _
  rw [rP' (r - 1) (by omega) 0 (by omega) _ (by rw [up]), Option.bind_some]
  show (rdI img _).bind _ = _
  rw [rP' (r - 1) (by omega) 1 (by omega) _ (by rw [up, show (1 : Nat) = 0 + 1 from rfl, right]; rfl), Option.bind_some]
  show (rdI img _).bind _ = _
  rw [rP' r (by omega) 0 (by omega) _ rfl, Option.bind_some]
  show (rdI img _).bind _ = _
  rw [rP' r (by omega) 1 (by omega) _ (by rw [show (1 : Nat) = 0 + 1 from rfl, right]; rfl), Option.bind_some]
  show (rdI img _).bind _ = _
  rw [rP' (r + 1) (by omega) 0 (by omega) _ (by rw [down]), Option.bind_some]
  show (rdI img _).bind _ = _
  rw [rP' (r + 1) (by omega) 1 (by omega) _ (by rw [down, show (1 : Nat) = 0 + 1 from rfl, right]; rfl), Option.bind_some]
  show (iter (w - 2) _ _).bind _ = _
  rw [e, Option.bind_some, h2, h3, show w - 2 + 2 = w by omega]
  congr 3
  · unfold raddr; rw [Nat.succ_mul]; rfl
  · unfold raddr; rw [Nat.succ_mul]; push_cast; omega

/-- The determinant of the second differences at each pixel off the border; the border repeats the nearest of these values. -/
theorem detHessian_spec (factor : K) {mem img : List K} (hl : img.length = h * w) (hm : mem.length = h * w) (hw : 3 ≤ w) (hh : 3 ≤ h) :
    ∃ r, detHessian factor mem img w h = some r ∧ r.length = h * w ∧ ∀ y < h, ∀ x < w, r[y * w + x]? = some (detVal factor (rows img w) w h y x) := by
  have hin : ∀ i, ∀ {j : Nat}, i = 0 → detVal factor (rows img w) w h 1 j = detVal factor (rows img w) w h i j := by
    intro i j hi; unfold detVal; rw [show inner h 1 = inner h i by unfold inner; omega]
  have hright : ∀ y, detVal factor (rows img w) w h y (w - 2) = detVal factor (rows img w) w h y (w - 1) := by
    intro y; unfold detVal; rw [show inner w (w - 2) = inner w (w - 1) by unfold inner; omega]
  have hleft : ∀ y, detVal factor (rows img w) w h y 1 = detVal factor (rows img w) w h y 0 := by
    intro y; unfold detVal; rw [show inner w 1 = inner w 0 by unfold inner; omega]
  have hbot : ∀ x, detVal factor (rows img w) w h (h - 2) x = detVal factor (rows img w) w h (h - 1) x := by
    intro y; unfold detVal; rw [show inner h (h - 2) = inner h (h - 1) by unfold inner; omega]
  -- interior
  obtain ⟨s1, e1, p1, -, -⟩ : ∃ s : List K × Int × Int, iter (h - 2) (fun _ st => hessRow factor img w st) (mem, (w : Int), 1 + (w : Int)) = some s ∧ Put mem s.1 (raddr w) (detVal factor (rows img w) w h) (inside w (h - 2 + 1) 1) ∧ s.2.1 = (raddr w (h - 2 + 1) 0 : Nat) ∧ s.2.2 = (raddr w (h - 2 + 1) 1 : Nat) :=
    iter_inv (P := fun k (s : List K × Int × Int) => Put mem s.1 (raddr w) (detVal factor (rows img w) w h) (inside w (k + 1) 1) ∧ s.2.1 = (raddr w (k + 1) 0 : Nat) ∧ s.2.2 = (raddr w (k + 1) 1 : Nat))
      ⟨Put.start mem _ _ (by intro i j; unfold inside; omega), by unfold raddr; push_cast; ring, by unfold raddr; push_cast; ring⟩ (by
        rintro k hk ⟨l, a, b⟩ ⟨hP, ha, hb⟩
        simp only at ha hb hP
        obtain ⟨l', e, h'⟩ := hessRow_spec factor hl hw (r := k + 1) (by omega) (by omega) hm hP
        exact ⟨_, by rw [ha, hb]; exact e, h', rfl, rfl⟩)
  -- top row
  obtain ⟨l2, e2, p2⟩ := copyN_spec (n := w - 2) (T := fun k i j => (1 ≤ i ∧ i + 1 < h ∧ 1 ≤ j ∧ j + 1 < w) ∨ (i = 0 ∧ 1 ≤ j ∧ j < k + 1 ∧ j < w)) (i := 0) (j := 1) (i0 := 1) (j0 := 1) (dst := 1) (src := w + 1)
    (p1.congr (by intro i j; unfold inside; omega)) (by intro k hk; omega) (by intro k hk; exact hin 0 rfl) (by intro k hk; rw [hm]; exact raddr_lt (by omega) (by omega)) (by intro k hk; omega) (by intro k i j hT; omega) (by intro k hk i j; omega) (by unfold raddr; push_cast; ring) (by unfold raddr; push_cast; ring)
  -- columns
  obtain ⟨s3, e3, p3, q3, r3⟩ : ∃ s : List K × Int × Int, iter (h - 1) (fun _ (s : List K × Int × Int) => (copy1 s.1 s.2.2 s.2.1).bind fun mem => (copy1 mem (s.2.2 + w - 1) (s.2.1 + w - 3)).bind fun mem => some (mem, s.2.1 + w, s.2.2 + w)) (l2, ((w : Int) + 1 - w), (1 - 1 : Int)) = some s ∧
      Put mem s.1 (raddr w) (detVal factor (rows img w) w h) (fun i j => (i + 1 < h ∧ 1 ≤ j ∧ j + 1 < w) ∨ (i < h - 1 ∧ (j = 0 ∨ j = w - 1))) ∧ s.2.1 = (raddr w (h - 1) 1 : Nat) ∧ s.2.2 = (raddr w (h - 1) 0 : Nat) :=
    iter_inv (P := fun k (s : List K × Int × Int) => Put mem s.1 (raddr w) (detVal factor (rows img w) w h) (fun i j => (i + 1 < h ∧ 1 ≤ j ∧ j + 1 < w) ∨ (i < k ∧ (j = 0 ∨ j = w - 1))) ∧ s.2.1 = (raddr w k 1 : Nat) ∧ s.2.2 = (raddr w k 0 : Nat))
      ⟨p2.congr (by intro i j; omega), by unfold raddr; push_cast; ring, by unfold raddr; push_cast; ring⟩ (by
        rintro k hk ⟨l, a, b⟩ ⟨hP, ha, hb⟩
        simp only at ha hb hP
        obtain ⟨l', e, h'⟩ := copy1_spec (i := k) (j := 0) (i0 := k) (j0 := 1) (S' := fun i j => (i + 1 < h ∧ 1 ≤ j ∧ j + 1 < w) ∨ (i < k ∧ (j = 0 ∨ j = w - 1)) ∨ (i = k ∧ j = 0)) hP (by omega) (hleft k) (by rw [hm]; exact raddr_lt (by omega) (by omega)) (by omega) (by intro i j hT; omega) (by intro i j; omega) hb ha
        obtain ⟨l'', e', h''⟩ := copy1_spec (i := k) (j := w - 1) (i0 := k) (j0 := w - 2) (S' := fun i j => (i + 1 < h ∧ 1 ≤ j ∧ j + 1 < w) ∨ (i < k + 1 ∧ (j = 0 ∨ j = w - 1))) (dst := b + w - 1) (src := a + w - 3) h' (by omega) (hright k) (by rw [hm]; exact raddr_lt (by omega) (by omega)) (by omega) (by intro i j hT; omega) (by intro i j; omega)
          (by rw [hb]; unfold raddr; omega) (by rw [ha]; unfold raddr; omega)
        refine ⟨(l'', a + w, b + w), ?_, h'', ?_, ?_⟩
        · simp only []
          rw [e, Option.bind_some, e', Option.bind_some]
        · show a + w = _
          rw [ha]; unfold raddr; push_cast; ring
        · show b + w = _
          rw [hb]; unfold raddr; push_cast; ring)
  -- bottom corners
  have hup : (raddr w (h - 2) 1 : Nat) = ((raddr w (h - 1) 1 : Nat) : Int) - w := by
    have : (h - 1) * w = (h - 2) * w + w := by rw [← Nat.succ_mul]; congr 1; omega
    unfold raddr; rw [this]; push_cast; ring
  obtain ⟨l4, e4, p4⟩ := copy1_spec (i := h - 1) (j := 0) (i0 := h - 2) (j0 := 1) (S' := fun i j => ((i + 1 < h ∧ 1 ≤ j ∧ j + 1 < w) ∨ (i < h - 1 ∧ (j = 0 ∨ j = w - 1))) ∨ (i = h - 1 ∧ j = 0)) (dst := s3.2.2) (src := s3.2.1 - w) p3 (by omega) (by rw [hbot, hleft]) (by rw [hm]; exact raddr_lt (by omega) (by omega)) (by omega) (by intro i j hT; omega) (by intro i j; omega) r3 (by rw [q3, hup])
  obtain ⟨l5, e5, p5⟩ := copy1_spec (i := h - 1) (j := w - 1) (i0 := h - 2) (j0 := w - 2) (S' := fun i j => ((i + 1 < h ∧ 1 ≤ j ∧ j + 1 < w) ∨ (i < h ∧ (j = 0 ∨ j = w - 1)))) (dst := s3.2.2 + w - 1) (src := s3.2.1 - w + w - 3) p4 (by omega) (by rw [hbot, hright]) (by rw [hm]; exact raddr_lt (by omega) (by omega)) (by omega) (by intro i j hT; omega) (by intro i j; omega)
    (by rw [r3]; unfold raddr; omega) (by rw [q3, ← hup]; unfold raddr; omega)
  -- bottom row
  obtain ⟨l6, e6, p6⟩ := copyN_spec (n := w - 2) (T := fun k i j => ((i + 1 < h ∧ 1 ≤ j ∧ j + 1 < w) ∨ (i < h ∧ (j = 0 ∨ j = w - 1))) ∨ (i = h - 1 ∧ 1 ≤ j ∧ j < k + 1 ∧ j < w)) (i := h - 1) (j := 1) (i0 := h - 2) (j0 := 1) (dst := s3.2.2 + 1) (src := s3.2.1 - w)
    (p5.congr (by intro i j; omega)) (by intro k hk; omega) (by intro k hk; exact hbot _) (by intro k hk; rw [hm]; exact raddr_lt (by omega) (by omega)) (by intro k hk; omega) (by intro k i j hT; omega) (by intro k hk i j; omega) (by rw [r3]; unfold raddr; omega) (by rw [q3, hup])
  refine ⟨l6, ?_, by rw [p6.len, hm], ?_⟩
  · show (iter (h - 2) _ _).bind _ = _
    rw [e1, Option.bind_some]
    show (copyN _ _ _ _).bind _ = _
    rw [e2, Option.bind_some]
    show (iter (h - 1) _ _).bind _ = _
    rw [show iter (h - 1) (fun _ (s : List K × Int × Int) => do
      let mem ← copy1 s.1 s.2.2 s.2.1
      let mem ← copy1 mem (s.2.2 + w - 1) (s.2.1 + w - 3)
      some (mem, s.2.1 + w, s.2.2 + w)) (l2, ((w : Int) + 1 - w), (1 - 1 : Int)) = some s3 from e3, Option.bind_some]
    show (copy1 _ _ _).bind _ = _
    rw [e4, Option.bind_some]
    show (copy1 _ _ _).bind _ = _
    rw [e5, Option.bind_some, e6]
  · intro y hy x hx
    exact p6.get y x (by omega)

end Verif.Covdet
