import Verif.Covdet.PatchModel
import Mathlib.Tactic.Ring
import Mathlib.Tactic.Linarith
import Mathlib.Algebra.Order.Floor.Ring
import Mathlib.Algebra.Order.AbsoluteValue.Basic

/-!
# Lemmas for the extraction of patches
-/

namespace Verif.Covdet

set_option linter.unusedSectionVars false

section mem

variable {K : Type}

/-- `l'` is `l` with `n` values from the position `d`. -/
structure Over (l l' : List K) (d n : Nat) (v : Nat → K) : Prop where
  len : l'.length = l.length
  fits : d + n ≤ l.length
  get : ∀ j, l'[j]? = if d ≤ j ∧ j < d + n then some (v (j - d)) else l[j]?

theorem Over.refl {l : List K} {d : Nat} (h : d ≤ l.length) (v : Nat → K) : Over l l d 0 v :=
  ⟨rfl, h, fun j => by rw [if_neg (by omega)]⟩

theorem Over.step {l l' : List K} {d n : Nat} {v : Nat → K} (h : Over l l' d n v) (hf : d + n < l.length) :
    ∃ l'', wr l' (d + n) (v n) = some l'' ∧ Over l l'' d (n + 1) v := by
  refine ⟨_, wr_of_lt (by rw [h.len]; exact hf) _, by rw [List.length_set, h.len], by omega, fun j => ?_⟩
  rw [List.getElem?_set]
  by_cases hj : d + n = j
  · subst hj
    rw [if_pos rfl, if_pos (by rw [h.len]; exact hf), if_pos (by omega), Nat.add_sub_cancel_left]
  · rw [if_neg hj, h.get]
    by_cases hc : d ≤ j ∧ j < d + n
    · rw [if_pos hc, if_pos (by omega)]
    · rw [if_neg hc, if_neg (by omega)]

theorem Over.trans {l l' l'' : List K} {d n m : Nat} {v v' : Nat → K} (h : Over l l' d n v) (h' : Over l' l'' (d + n) m v') :
    Over l l'' d (n + m) (fun i => if i < n then v i else v' (i - n)) := by
  have := h'.fits
  rw [h.len] at this
  refine ⟨h'.len.trans h.len, by omega, fun j => ?_⟩
  rw [h'.get]
  by_cases hc : d + n ≤ j ∧ j < d + n + m
  · rw [if_pos hc, if_pos (by omega), if_neg (by omega), show j - (d + n) = j - d - n by omega]
  · rw [if_neg hc, h.get]
    by_cases hc' : d ≤ j ∧ j < d + n
    · rw [if_pos hc', if_pos (by omega), if_pos (by omega)]
    · rw [if_neg hc', if_neg (by omega)]

theorem Over.congr {l l' : List K} {d n : Nat} {v v' : Nat → K} (h : Over l l' d n v) (hv : ∀ i < n, v i = v' i) : Over l l' d n v' :=
  ⟨h.len, h.fits, fun j => by
    rw [h.get]
    by_cases hc : d ≤ j ∧ j < d + n
    · rw [if_pos hc, if_pos hc, hv _ (by omega)]
    · rw [if_neg hc, if_neg hc]⟩

theorem Over.at {l l' : List K} {d n : Nat} {v : Nat → K} (h : Over l l' d n v) {i : Nat} (hi : i < n) : l'[d + i]? = some (v i) := by
  rw [h.get, if_pos (by omega), Nat.add_sub_cancel_left]

theorem Over.out {l l' : List K} {d n : Nat} {v : Nat → K} (h : Over l l' d n v) {j : Nat} (hj : j < d ∨ d + n ≤ j) : l'[j]? = l[j]? := by
  rw [h.get, if_neg (by omega)]

end mem

section run

variable {K : Type} [Field K] [LinearOrder K] [FloorRing K]

theorem run_same {level : List K} {p : Nat} {a : K} (hp : level[p]? = some a) (n : Nat) {d : Nat} {buf : List K} (hb : d + n ≤ buf.length) :
    ∃ buf', iter n (putSame level) ⟨d, p, buf⟩ = some ⟨((d + n : Nat) : Int), p, buf'⟩ ∧ Over buf buf' d n (fun _ => a) := by
  obtain ⟨s, e, b', hs, ho⟩ := iter_inv (fun k (s : RowSt K) => ∃ b', s = ⟨((d + k : Nat) : Int), p, b'⟩ ∧ Over buf b' d k (fun _ => a)) (n := n) (f := putSame level) (s := ⟨d, p, buf⟩)
    ⟨buf, rfl, Over.refl (by omega) _⟩ (by
      rintro k hk s ⟨b', rfl, ho⟩
      obtain ⟨b'', e, ho'⟩ := ho.step (by omega)
      refine ⟨⟨((d + (k + 1) : Nat) : Int), p, b''⟩, ?_, b'', rfl, ho'⟩
      unfold putSame
      show Option.bind (rdI level (p : Int)) _ = _
      rw [rdI_nat, rd_getElem?, hp, Option.bind_some]
      show Option.bind (wrI b' ((d + k : Nat) : Int) a) _ = _
      rw [wrI_nat, e, Option.bind_some]
      push_cast
      rw [add_assoc])
  subst hs
  exact ⟨b', e, ho⟩

theorem run_next {level : List K} {p : Nat} {v : Nat → K} (n : Nat) (hp : ∀ i < n, level[p + i]? = some (v i)) {d : Nat} {buf : List K} (hb : d + n ≤ buf.length) :
    ∃ buf', iter n (putNext level) ⟨d, p, buf⟩ = some ⟨((d + n : Nat) : Int), ((p + n : Nat) : Int), buf'⟩ ∧ Over buf buf' d n v := by
  obtain ⟨s, e, b', hs, ho⟩ := iter_inv (fun k (s : RowSt K) => ∃ b', s = ⟨((d + k : Nat) : Int), ((p + k : Nat) : Int), b'⟩ ∧ Over buf b' d k v) (n := n) (f := putNext level) (s := ⟨d, p, buf⟩)
    ⟨buf, rfl, Over.refl (by omega) _⟩ (by
      rintro k hk s ⟨b', rfl, ho⟩
      obtain ⟨b'', e, ho'⟩ := ho.step (by omega)
      refine ⟨⟨((d + (k + 1) : Nat) : Int), ((p + (k + 1) : Nat) : Int), b''⟩, ?_, b'', rfl, ho'⟩
      unfold putNext
      show Option.bind (rdI level ((p + k : Nat) : Int)) _ = _
      rw [rdI_nat, rd_getElem?, hp k hk, Option.bind_some]
      show Option.bind (wrI b' ((d + k : Nat) : Int) _) _ = _
      rw [wrI_nat, e, Option.bind_some]
      push_cast
      rw [add_assoc, add_assoc])
  subst hs
  exact ⟨b', e, ho⟩

/-- One row: `P` equal values, then `n` that follow each other, then the last repeated. -/
theorem padRow_spec {level : List K} {w : Nat} {b : PatchBox} {P pw n : Nat} {padx1 yi : Int} {r q : Nat} {buf : List K}
    (hr : yi - b.y0 = r) (hq : yi * w + min (max 0 b.x0) ((w : Int) - 1) = q) (hn : n = ((pw : Int) - padx1 - 2 - P).toNat) (hP : P ≤ pw) (hx : 0 ≤ padx1) {v : Nat → K} (hv : ∀ i ≤ n, level[q + i]? = some (v i))
    (hb : (r + 1) * pw ≤ buf.length) :
    ∃ buf', padRow level w b P padx1 pw yi buf = some buf' ∧ Over buf buf' (r * pw) pw (fun c => v (min (c - P) n)) := by
  have hb' : r * pw + pw ≤ buf.length := by rw [Nat.add_mul, one_mul] at hb; exact hb
  obtain ⟨b1, e1, o1⟩ := run_same (hv 0 (by omega)) P (d := r * pw) (buf := buf) (by omega)
  have hPn : P + n ≤ pw := by omega
  obtain ⟨b2, e2, o2⟩ := run_next (level := level) (p := q) (v := v) n (fun i hi => hv i (by omega)) (d := r * pw + P) (buf := b1) (by rw [o1.len]; omega)
  obtain ⟨b3, e3, o3⟩ := run_same (hv n (le_refl _)) (pw - (P + n)) (d := r * pw + P + n) (buf := b2) (by rw [o2.len, o1.len]; omega)
  refine ⟨b3, ?_, ?_⟩
  · unfold padRow
    simp only
    rw [hr, hq, Int.toNat_natCast]
    show Option.bind (iter P (putSame level) ⟨(r : Int) * (pw : Int), (q : Int), buf⟩) _ = _
    rw [show ((r : Int) * (pw : Int)) = ((r * pw : Nat) : Int) by push_cast; rfl, show ((q : Int)) = ((q + 0 : Nat) : Int) by simp, e1, Option.bind_some]
    rw [max_eq_left (by omega : (0 : Int) ≤ (P : Int)), ← hn]
    simp only [Nat.add_zero]
    show Option.bind (iter n (putNext level) _) _ = _
    rw [e2, Option.bind_some]
    have : ((pw : Int) - max (P : Int) ((pw : Int) - padx1 - 2)).toNat = pw - (P + n) := by omega
    rw [this]
    show Option.bind (iter _ (putSame level) _) _ = _
    rw [e3]
    rfl
  · have o := o1.trans (o2.trans o3)
    rw [show P + (n + (pw - (P + n))) = pw by omega] at o
    refine o.congr (fun i hi => ?_)
    by_cases h1 : i < P
    · rw [if_pos h1, show i - P = 0 by omega, Nat.zero_min]
    · rw [if_neg h1]
      by_cases h2 : i - P < n
      · rw [if_pos h2, Nat.min_eq_left h2.le]
      · rw [if_neg h2, Nat.min_eq_right (by omega)]

theorem copyRow_spec {pw dst src : Nat} {buf : List K} {v : Nat → K} (hne : dst ≠ src) (hv : ∀ i < pw, buf[src * pw + i]? = some (v i)) (hd : (dst + 1) * pw ≤ buf.length) :
    ∃ buf', copyRow pw dst src buf = some buf' ∧ Over buf buf' (dst * pw) pw v := by
  have hd' : dst * pw + pw ≤ buf.length := by rw [Nat.add_mul, one_mul] at hd; exact hd
  have hdis : ∀ i < pw, src * pw + i < dst * pw ∨ dst * pw + pw ≤ src * pw + i := by
    intro i hi
    rcases Nat.lt_or_gt_of_ne hne with h | h
    · right
      have := Nat.mul_le_mul_right pw (show dst + 1 ≤ src by omega)
      rw [Nat.add_mul, one_mul] at this
      omega
    · left
      have := Nat.mul_le_mul_right pw (show src + 1 ≤ dst by omega)
      rw [Nat.add_mul, one_mul] at this
      omega
  obtain ⟨b', e, o⟩ := iter_inv (fun k (b' : List K) => Over buf b' (dst * pw) k v) (n := pw) (f := fun i buf => (rd buf (src * pw + i)).bind fun a => wr buf (dst * pw + i) a) (s := buf)
    (Over.refl (by omega) _) (by
      intro k hk b' o
      obtain ⟨b'', e, o'⟩ := o.step (by omega)
      refine ⟨b'', ?_, o'⟩
      show Option.bind (rd b' (src * pw + k)) _ = _
      have := hdis k hk
      rw [rd_getElem?, o.out (by omega), hv k hk, Option.bind_some, e])
  exact ⟨b', e, o⟩

/-- The rows in `S` are complete. -/
structure Rows (L pw : Nat) (f : Nat → Nat → K) (S : Nat → Prop) (buf : List K) : Prop where
  len : buf.length = L
  get : ∀ r, S r → ∀ c < pw, buf[r * pw + c]? = some (f r c)

theorem Rows.over {L pw : Nat} {f : Nat → Nat → K} {S S' : Nat → Prop} {buf buf' : List K} {r : Nat} {v : Nat → K} (h : Rows L pw f S buf) (o : Over buf buf' (r * pw) pw v)
    (hv : ∀ c < pw, v c = f r c) (hS : ∀ i, S' i → i = r ∨ S i) : Rows L pw f S' buf' := by
  refine ⟨o.len.trans h.len, fun i hi c hc => ?_⟩
  by_cases hir : i = r
  · subst hir
    rw [o.at hc, hv c hc]
  · rw [o.out]
    · rcases hS i hi with h' | h'
      · exact absurd h' hir
      · exact h.get i h' c hc
    · rcases Nat.lt_or_gt_of_ne hir with h1 | h1
      · left
        have := Nat.mul_le_mul_right pw (show i + 1 ≤ r by omega)
        rw [Nat.add_mul, one_mul] at this
        omega
      · right
        have := Nat.mul_le_mul_right pw (show r + 1 ≤ i by omega)
        rw [Nat.add_mul, one_mul] at this
        omega

/-- The nearest of the numbers `0, …, n - 1`. -/
def clampI (n : Nat) (x : Int) : Int := max 0 (min x ((n : Int) - 1))

/-- The buffer after padding. -/
theorem padCopy_spec (junk : Nat → K) {level : List K} {w h : Nat} (hw : 0 < w) (hh : 0 < h) {b : PatchBox} (hx : b.x0 ≤ b.x1) (hy : b.y0 ≤ b.y1) (hx1 : -1 ≤ b.x1) (hx0 : b.x0 ≤ (w : Int) - 1) (hy1 : 0 ≤ b.y1) (hy0 : b.y0 ≤ (h : Int) - 1) (buf : List K)
    {pw ph P n : Nat} (hpw : (pw : Int) = b.x1 - b.x0 + 1) (hph : (ph : Int) = b.y1 - b.y0 + 1) (hP : (P : Int) = max 0 (-b.x0)) (hn : n = ((pw : Int) - max 0 (b.x1 - ((w : Int) - 1)) - 2 - P).toNat)
    {f : Int → Int → K} (hf : ∀ y < h, ∀ x < w, level[y * w + x]? = some (f x y)) :
    ∃ buf', padCopy junk level w h b buf = some buf' ∧ ph * pw ≤ buf'.length ∧
      ∀ r < ph, ∀ c < pw, buf'[r * pw + c]? = some (f (max 0 b.x0 + min ((c - P : Nat) : Int) n) (clampI h (b.y0 + r))) := by
  obtain ⟨Q, hQ⟩ : ∃ Q : Nat, (Q : Int) = max 0 (-b.y0) := ⟨(max 0 (-b.y0)).toNat, by omega⟩
  obtain ⟨R, hR⟩ : ∃ R : Nat, (R : Int) = max 0 (b.y1 - ((h : Int) - 1)) := ⟨(max 0 (b.y1 - ((h : Int) - 1))).toNat, by omega⟩
  obtain ⟨buf0, hb0⟩ : ∃ buf0, buf0 = if (pw * ph) > buf.length then (List.range (pw * ph)).map junk else buf := ⟨_, rfl⟩
  have hL : ph * pw ≤ buf0.length := by
    rw [hb0, Nat.mul_comm]
    split
    · simp
    · omega
  obtain ⟨g, hg⟩ : ∃ g : Nat → Nat → K, g = fun (r c : Nat) => f (max 0 b.x0 + min ((c - P : Nat) : Int) n) (clampI h (b.y0 + r)) := ⟨_, rfl⟩
  have hrow : ∀ r < ph, (r + 1) * pw ≤ buf0.length := fun r hr => (Nat.mul_le_mul_right pw hr).trans hL
  -- the central band
  have hm : ((ph : Int) - R - Q).toNat = ph - R - Q := by omega
  obtain ⟨S0, hS0⟩ : ∃ S0 : Nat, (S0 : Int) = min (max 0 b.x0) ((w : Int) - 1) := ⟨(min (max 0 b.x0) ((w : Int) - 1)).toNat, by omega⟩
  obtain ⟨b1, e1, r1⟩ := iter_inv (fun k (b' : List K) => Rows buf0.length pw g (fun r => Q ≤ r ∧ r < Q + k) b') (n := ph - R - Q)
    (f := fun i buf => padRow level w b P (max 0 (b.x1 - ((w : Int) - 1))) pw (b.y0 + Q + i) buf) (s := buf0) ⟨rfl, fun r hr => by omega⟩ (by
      intro k hk b' hr
      obtain ⟨y, hyk⟩ : ∃ y : Nat, (y : Int) = b.y0 + Q + k := ⟨(b.y0 + Q + k).toNat, by omega⟩
      have hyh : y < h := by omega
      obtain ⟨b'', e, o⟩ := padRow_spec (level := level) (w := w) (b := b) (P := P) (pw := pw) (n := n) (padx1 := max 0 (b.x1 - ((w : Int) - 1))) (yi := b.y0 + Q + k) (r := Q + k) (q := y * w + S0) (buf := b')
        (by push_cast; ring) (by rw [← hyk]; push_cast; rw [hS0]) hn (by omega) (le_max_left _ _) (v := fun i => f ((S0 + i : Nat) : Int) y)
        (fun i hi => by rw [Nat.add_assoc]; exact hf y hyh (S0 + i) (by omega)) (by rw [hr.len]; exact hrow _ (by omega))
      refine ⟨b'', e, hr.over o (fun c hc => ?_) (fun i hi => by omega)⟩
      rw [hg]
      show f _ _ = f _ _
      congr 1
      · push_cast
        rw [hS0]
        omega
      · unfold clampI
        push_cast
        omega)
  -- upwards
  obtain ⟨b2, e2, r2⟩ := iter_inv (fun k (b' : List K) => Rows buf0.length pw g (fun r => r < k ∨ (Q ≤ r ∧ r < ph - R)) b') (n := Q)
    (f := fun i buf => copyRow pw i Q buf) (s := b1) ⟨r1.len, fun r hr => r1.get r (by omega)⟩ (by
      intro k hk b' hr
      obtain ⟨b'', e, o⟩ := copyRow_spec (pw := pw) (dst := k) (src := Q) (buf := b') (v := g Q) (by omega) (hr.get Q (by omega)) (by rw [hr.len]; exact hrow _ (by omega))
      refine ⟨b'', e, hr.over o (fun c hc => ?_) (fun i hi => by omega)⟩
      rw [hg]
      show f _ _ = f _ _
      congr 1
      unfold clampI
      omega)
  -- downwards
  obtain ⟨b3, e3, r3⟩ := iter_inv (fun k (b' : List K) => Rows buf0.length pw g (fun r => r < ph - R + k) b') (n := R)
    (f := fun i buf => copyRow pw (ph - R + i) (ph - R - 1) buf) (s := b2) ⟨r2.len, fun r hr => r2.get r (by omega)⟩ (by
      intro k hk b' hr
      obtain ⟨b'', e, o⟩ := copyRow_spec (pw := pw) (dst := ph - R + k) (src := ph - R - 1) (buf := b') (v := g (ph - R - 1)) (by omega) (hr.get _ (by omega)) (by rw [hr.len]; exact hrow _ (by omega))
      refine ⟨b'', e, hr.over o (fun c hc => ?_) (fun i hi => by omega)⟩
      rw [hg]
      show f _ _ = f _ _
      congr 1
      unfold clampI
      omega)
  refine ⟨b3, ?_, by rw [r3.len]; exact hL, fun r hr c hc => by rw [r3.get r (by omega) c hc, hg]⟩
  unfold padCopy
  simp only
  rw [← hpw, ← hph, ← hP, ← hQ, ← hR, show ((pw : Int) * (ph : Int)).toNat = pw * ph by rw [← Nat.cast_mul, Int.toNat_natCast], ← hb0, if_pos (by omega), hm]
  show Option.bind (iter (ph - R - Q) _ _) _ = _
  rw [e1, Option.bind_some]
  show Option.bind (iter (Q : Int).toNat _ _) _ = _
  rw [Int.toNat_natCast, Int.toNat_natCast, e2, Option.bind_some, Int.toNat_natCast, show ((ph : Int) - (R : Int)).toNat = ph - R by omega, show ((ph : Int) - (R : Int) - 1).toNat = ph - R - 1 by omega]
  exact e3

/-! ### The bounding box -/

end run

section box

variable {K : Type} [Field K] [LinearOrder K] [IsStrictOrderedRing K]

theorem foldl_min_le (l : List K) (x : K) : l.foldl min x ≤ x ∧ ∀ y ∈ l, l.foldl min x ≤ y := by
  induction l generalizing x with
  | nil => simp
  | cons a l ih =>
    obtain ⟨h1, h2⟩ := ih (min x a)
    refine ⟨h1.trans (min_le_left _ _), fun y hy => ?_⟩
    rcases List.mem_cons.mp hy with rfl | hy
    · exact h1.trans (min_le_right _ _)
    · exact h2 y hy

theorem le_foldl_max (l : List K) (x : K) : x ≤ l.foldl max x ∧ ∀ y ∈ l, y ≤ l.foldl max x := by
  induction l generalizing x with
  | nil => simp
  | cons a l ih =>
    obtain ⟨h1, h2⟩ := ih (max x a)
    refine ⟨(le_max_left _ _).trans h1, fun y hy => ?_⟩
    rcases List.mem_cons.mp hy with rfl | hy
    · exact (le_max_right _ _).trans h1
    · exact h2 y hy

theorem foldl_min_ge {l : List K} {x c : K} (h : c ≤ x) (hl : ∀ y ∈ l, c ≤ y) : c ≤ l.foldl min x := by
  induction l generalizing x with
  | nil => exact h
  | cons a l ih => exact ih (le_min h (hl a (List.mem_cons_self ..))) (fun y hy => hl y (List.mem_cons_of_mem _ hy))

theorem foldl_max_le {l : List K} {x c : K} (h : x ≤ c) (hl : ∀ y ∈ l, y ≤ c) : l.foldl max x ≤ c := by
  induction l generalizing x with
  | nil => exact h
  | cons a l ih => exact ih (max_le h (hl a (List.mem_cons_self ..))) (fun y hy => hl y (List.mem_cons_of_mem _ hy))

/-- The values of an affine function at the corners. -/
def cornerVals (a c t e : K) : List K := [a * e + c * -e + t, a * e + c * e + t, a * -e + c * e + t, a * -e + c * -e + t]

theorem affine_bounds (a c t : K) {u v e : K} (hu : |u| ≤ e) (hv : |v| ≤ e) : t - (|a| + |c|) * e ≤ a * u + c * v + t ∧ a * u + c * v + t ≤ t + (|a| + |c|) * e := by
  have h1 : |a * u| ≤ |a| * e := by rw [abs_mul]; exact mul_le_mul_of_nonneg_left hu (abs_nonneg _)
  have h2 : |c * v| ≤ |c| * e := by rw [abs_mul]; exact mul_le_mul_of_nonneg_left hv (abs_nonneg _)
  have := abs_le.mp h1
  have := abs_le.mp h2
  constructor <;> nlinarith

theorem highest_corners (a c t : K) {e : K} (he : 0 ≤ e) : highest (cornerVals a c t e) = t + (|a| + |c|) * e := by
  have hp : |e| ≤ e := (abs_of_nonneg he).le
  have hm : |-e| ≤ e := by rw [abs_neg]; exact hp
  apply le_antisymm
  · refine foldl_max_le (affine_bounds a c t hp hm).2 (fun y hy => ?_)
    simp only [List.mem_cons, List.not_mem_nil, or_false] at hy
    rcases hy with rfl | rfl | rfl
    · exact (affine_bounds a c t hp hp).2
    · exact (affine_bounds a c t hm hp).2
    · exact (affine_bounds a c t hm hm).2
  · have h := le_foldl_max [a * e + c * e + t, a * -e + c * e + t, a * -e + c * -e + t] (a * e + c * -e + t)
    show _ ≤ List.foldl max _ _
    rcases le_total 0 a with ha | ha <;> rcases le_total 0 c with hc | hc
    · rw [abs_of_nonneg ha, abs_of_nonneg hc]
      refine le_trans (le_of_eq (by ring)) (h.2 (a * e + c * e + t) (by simp))
    · rw [abs_of_nonneg ha, abs_of_nonpos hc]
      refine le_trans (le_of_eq (by ring)) h.1
    · rw [abs_of_nonpos ha, abs_of_nonneg hc]
      refine le_trans (le_of_eq (by ring)) (h.2 (a * -e + c * e + t) (by simp))
    · rw [abs_of_nonpos ha, abs_of_nonpos hc]
      refine le_trans (le_of_eq (by ring)) (h.2 (a * -e + c * -e + t) (by simp))

theorem lowest_corners (a c t : K) {e : K} (he : 0 ≤ e) : lowest (cornerVals a c t e) = t - (|a| + |c|) * e := by
  have hp : |e| ≤ e := (abs_of_nonneg he).le
  have hm : |-e| ≤ e := by rw [abs_neg]; exact hp
  apply le_antisymm
  · have h := foldl_min_le [a * e + c * e + t, a * -e + c * e + t, a * -e + c * -e + t] (a * e + c * -e + t)
    show List.foldl min _ _ ≤ _
    rcases le_total 0 a with ha | ha <;> rcases le_total 0 c with hc | hc
    · rw [abs_of_nonneg ha, abs_of_nonneg hc]
      refine le_trans (h.2 (a * -e + c * -e + t) (by simp)) (le_of_eq (by ring))
    · rw [abs_of_nonneg ha, abs_of_nonpos hc]
      refine le_trans (h.2 (a * -e + c * e + t) (by simp)) (le_of_eq (by ring))
    · rw [abs_of_nonpos ha, abs_of_nonneg hc]
      refine le_trans h.1 (le_of_eq (by ring))
    · rw [abs_of_nonpos ha, abs_of_nonpos hc]
      refine le_trans (h.2 (a * e + c * e + t) (by simp)) (le_of_eq (by ring))
  · refine foldl_min_ge (affine_bounds a c t hp hm).1 (fun y hy => ?_)
    simp only [List.mem_cons, List.not_mem_nil, or_false] at hy
    rcases hy with rfl | rfl | rfl
    · exact (affine_bounds a c t hp hp).1
    · exact (affine_bounds a c t hm hp).1
    · exact (affine_bounds a c t hm hm).1

end box

end Verif.Covdet
