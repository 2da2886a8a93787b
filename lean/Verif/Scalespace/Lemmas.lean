import Verif.Scalespace.Model
import Verif.Flat
import Mathlib.Tactic.Linarith
import Mathlib.Data.List.GetD

/-!
# Lemmas about the copies between levels of a scale space
-/

namespace Verif.Scalespace

theorem assert_true {b : Bool} (h : b = true) : assert' b = some () := by simp [assert', h]

/-- Rows visited when going down `d` octaves. -/
def rows (h d : Nat) : Nat := (h + (2 ^ d - 1)) / 2 ^ d

theorem rows_iff {h d j : Nat} : j < rows h d ↔ j * 2 ^ d < h := by
  have hp : 0 < 2 ^ d := Nat.pow_pos (by omega)
  unfold rows
  generalize 2 ^ d = p at *
  rw [Nat.lt_iff_add_one_le, Nat.le_div_iff_mul_le hp, Nat.add_mul]
  omega

theorem cols_iff {w d i : Nat} : i < w / 2 ^ d ↔ (i + 1) * 2 ^ d ≤ w := by
  have hp : 0 < 2 ^ d := Nat.pow_pos (by omega)
  rw [Nat.lt_iff_add_one_le, Nat.le_div_iff_mul_le hp]

theorem floor_le_rows (h d : Nat) : h / 2 ^ d ≤ rows h d := Nat.div_le_div_right (by omega)

theorem rows_le (h d : Nat) : rows h d ≤ h := by
  rcases Nat.eq_zero_or_pos (rows h d) with e | e
  · omega
  · have := (rows_iff (h := h) (d := d) (j := rows h d - 1)).1 (by omega)
    have hp : 0 < 2 ^ d := Nat.pow_pos (by omega)
    have := Nat.le_mul_of_pos_right (rows h d - 1) hp
    omega

/-- The pixels read when going down are inside the image. -/
theorem down_addr {w h d i j : Nat} (hj : j < rows h d) (hi : i < w / 2 ^ d) : j * 2 ^ d * w + i * 2 ^ d < w * h := by
  have h1 := rows_iff.1 hj
  have h2 := cols_iff.1 hi
  have hp : 0 < 2 ^ d := Nat.pow_pos (by omega)
  generalize 2 ^ d = p at *
  rw [Nat.add_mul] at h2
  have := Flat.addr_lt (n := h) (m := w) (i := j * p) (j := i * p) h1 (by omega)
  rw [Nat.mul_comm w]; exact this

theorem downsample_spec {fuel : Nat} {src dst : List ℚ} {so w h d off : Nat} (hs : so + w * h ≤ src.length)
    (hd : off + rows h d * (w / 2 ^ d) ≤ dst.length) (fw : w ≤ fuel) (fh : h ≤ fuel) :
    ∃ dst', copyAndDownsample fuel src so w h d dst off = some dst' ∧ dst'.length = dst.length ∧
      ∀ j < rows h d, ∀ i < w / 2 ^ d, dst'[off + (j * (w / 2 ^ d) + i)]? = src[so + (j * 2 ^ d * w + i * 2 ^ d)]? := by
  unfold copyAndDownsample
  simp only
  split
  · rename_i h0
    subst h0
    have er : rows h 0 = h := by simp [rows]
    rw [er] at hd ⊢
    simp only [Nat.pow_zero, Nat.div_one, Nat.mul_one] at hd ⊢
    obtain ⟨d', h1, h2, h3⟩ := iter_inv (n := w * h) (f := fun i dst => (do
        let v ← rd src (so + i)
        wr dst (off + i) v : Option (List ℚ))) (s := dst) (fun n (d' : List ℚ) => d'.length = dst.length ∧
          ∀ q < n, d'[off + q]? = src[so + q]?) ⟨rfl, by simp⟩ (by
      intro i hi d' ⟨q1, q2⟩
      have e : w * h = h * w := Nat.mul_comm w h
      rw [rd_of_lt (by omega)]
      simp only [Option.bind_eq_bind, Option.bind_some]
      rw [wr_of_lt (by omega)]
      refine ⟨_, rfl, by simpa using q1, fun q hq => ?_⟩
      by_cases e : q = i
      · subst e
        rw [List.getElem?_set_self (by omega), List.getElem?_eq_getElem]
      · rw [List.getElem?_set_ne (by omega)]
        exact q2 q (by omega))
    simp only [Option.bind_eq_bind] at h1
    refine ⟨d', ?_, h2, fun j hj i hi => h3 _ (by rw [Nat.mul_comm w h]; exact Flat.addr_lt hj hi)⟩
    simp only [Option.bind_eq_bind]
    exact h1
  · have hp : 0 < 2 ^ d := Nat.pow_pos (by omega)
    have hny := rows_le h d
    have hnx : w / 2 ^ d ≤ w := Nat.div_le_self _ _
    have hy1 : ∀ j < rows h d, (0 : Int) + j * ((2 ^ d : Nat) : Int) ≤ (h : Int) - 1 := fun j hj => by
      have := rows_iff.1 hj
      have e : (j : Int) * ((2 ^ d : Nat) : Int) = ((j * 2 ^ d : Nat) : Int) := by rw [Int.natCast_mul]
      rw [e]; omega
    have hy2 : ¬ (0 : Int) + (rows h d : Nat) * ((2 ^ d : Nat) : Int) ≤ (h : Int) - 1 := fun hc => by
      have e : ((rows h d : Nat) : Int) * ((2 ^ d : Nat) : Int) = ((rows h d * 2 ^ d : Nat) : Int) := by rw [Int.natCast_mul]
      rw [e] at hc
      exact absurd (rows_iff.2 (show rows h d * 2 ^ d < h by omega)) (by omega)
    have hx1 : ∀ i < w / 2 ^ d, (0 : Int) + i * ((2 ^ d : Nat) : Int) ≤ (w : Int) - (((2 ^ d : Nat) : Int) - 1) - 1 := fun i hi => by
      have := cols_iff.1 hi
      rw [Nat.add_mul] at this
      have e : (i : Int) * ((2 ^ d : Nat) : Int) = ((i * 2 ^ d : Nat) : Int) := by rw [Int.natCast_mul]
      rw [e]; omega
    have hx2 : ¬ (0 : Int) + (w / 2 ^ d : Nat) * ((2 ^ d : Nat) : Int) ≤ (w : Int) - (((2 ^ d : Nat) : Int) - 1) - 1 := fun hc => by
      have e : ((w / 2 ^ d : Nat) : Int) * ((2 ^ d : Nat) : Int) = ((w / 2 ^ d * 2 ^ d : Nat) : Int) := by rw [Int.natCast_mul]
      rw [e] at hc
      have := cols_iff.2 (show (w / 2 ^ d + 1) * 2 ^ d ≤ w by rw [Nat.add_mul]; omega)
      omega
    rw [forStep_eq _ _ _ (show rows h d ≤ fuel by omega) _ hy1 hy2]
    have hin : iter (rows h d) (fun j => fun o => forStep ((w : Int) - (((2 ^ d : Nat) : Int) - 1) - 1) ((2 ^ d : Nat) : Int) (fun x (o : Out) => (do
          let v ← rdI src (so + (0 + (j : Int) * ((2 ^ d : Nat) : Int)) * w + x)
          let buf ← wr o.buf o.at_ v
          some { buf := buf, at_ := o.at_ + 1 } : Option Out)) fuel 0 o) { buf := dst, at_ := off } =
        iter (rows h d) (fun j o => iter (w / 2 ^ d) (fun i (o : Out) => (do
          let v ← rdI src (so + (0 + (j : Int) * ((2 ^ d : Nat) : Int)) * w + (0 + (i : Int) * ((2 ^ d : Nat) : Int)))
          let buf ← wr o.buf o.at_ v
          some { buf := buf, at_ := o.at_ + 1 } : Option Out)) o) { buf := dst, at_ := off } :=
      iter_congr fun j _ s => forStep_eq _ _ _ (by omega) _ hx1 hx2 s
    rw [hin]
    obtain ⟨o, h1, h2, h3, h4⟩ := iter2_inv (n := rows h d) (m := w / 2 ^ d) (f := fun j i (o : Out) => (do
          let v ← rdI src (so + (0 + (j : Int) * ((2 ^ d : Nat) : Int)) * w + (0 + (i : Int) * ((2 ^ d : Nat) : Int)))
          let buf ← wr o.buf o.at_ v
          some { buf := buf, at_ := o.at_ + 1 } : Option Out)) (s := { buf := dst, at_ := off })
      (fun k (o : Out) => o.at_ = off + k ∧ o.buf.length = dst.length ∧ ∀ j < rows h d, ∀ i < w / 2 ^ d, j * (w / 2 ^ d) + i < k →
        o.buf[off + (j * (w / 2 ^ d) + i)]? = src[so + (j * 2 ^ d * w + i * 2 ^ d)]?) ⟨rfl, rfl, fun _ _ _ _ h => by omega⟩ (by
      intro j hj i hi o ⟨q1, q2, q3⟩
      have ha := down_addr hj hi
      have hb := Flat.addr_lt (n := rows h d) (m := w / 2 ^ d) hj hi
      rw [rdI_eq _ _ (so + (j * 2 ^ d * w + i * 2 ^ d)) (by push_cast; ring), rd_of_lt (by omega)]
      simp only [Option.bind_eq_bind, Option.bind_some]
      rw [q1, wr_of_lt (by omega), Option.bind_some]
      refine ⟨_, rfl, by simp only; omega, by simpa using q2, fun j' hj' i' hi' hlt => ?_⟩
      simp only
      by_cases e : j' * (w / 2 ^ d) + i' = j * (w / 2 ^ d) + i
      · obtain ⟨rfl, rfl⟩ := Flat.addr_inj hi' hi e
        rw [List.getElem?_set_self (by omega), List.getElem?_eq_getElem]
      · rw [List.getElem?_set_ne (by omega)]
        exact q3 j' hj' i' hi' (by omega))
    simp only [Option.bind_eq_bind] at h1
    simp only [Option.bind_eq_bind]
    refine ⟨o.buf, ?_, h3, fun j hj i hi => h4 j hj i hi (Flat.addr_lt hj hi)⟩
    rw [h1]; rfl

/-- The four pixels written for one pixel of the source. -/
def Quad (v00 v01 v10 v11 : ℚ) (b : List ℚ) (q W : Nat) : Prop :=
  b[q]? = some v00 ∧ b[q + 1]? = some ((v00 + v10) / 2) ∧ b[q + W]? = some ((v00 + v01) / 2) ∧
    b[q + W + 1]? = some ((v00 + v01 + v10 + v11) / 4)

theorem up_addr {w h x y : Nat} (hx : x < w) (hy : y < h) : y * (4 * w) + 2 * x + 2 * w + 1 < 2 * w * (2 * h) := by
  have := Nat.mul_le_mul_right (4 * w) (show y + 1 ≤ h by omega)
  rw [Nat.add_mul] at this
  have e : 2 * w * (2 * h) = h * (4 * w) := by ring
  omega

theorem upsample_spec {src dst : List ℚ} {so w h off : Nat} (hs : so + w * h ≤ src.length) (hd : off + 2 * w * (2 * h) ≤ dst.length) :
    ∃ dst', copyAndUpsample src so w h dst off = some dst' ∧ dst'.length = dst.length ∧ ∀ y < h, ∀ x < w,
      Quad (src.getD (so + (y * w + x)) 0) (src.getD (so + (min (y + 1) (h - 1) * w + x)) 0)
        (src.getD (so + (y * w + min (x + 1) (w - 1))) 0) (src.getD (so + (min (y + 1) (h - 1) * w + min (x + 1) (w - 1))) 0)
        dst' (off + (2 * y * (2 * w) + 2 * x)) (2 * w) := by
  unfold copyAndUpsample
  have step : ∀ y < h, ∀ x < w, ∀ d : List ℚ, d.length = dst.length → ∃ d', (do
      let oy := if y + 1 < h then w else 0
      let ox := if x + 1 < w then 1 else 0
      let v00 ← rd src (so + (y * w + x))
      let v01 ← rd src (so + (y * w + x) + oy)
      let v10 ← rd src (so + (y * w + x) + ox)
      let v11 ← rd src (so + (y * w + x) + (ox + oy))
      let dd := off + (y * (4 * w) + 2 * x)
      let dst ← wr d dd v00
      let dst ← wr dst (dd + 1) (1 / 2 * (v00 + v10))
      let dst ← wr dst (dd + 2 * w) (1 / 2 * (v00 + v01))
      wr dst (dd + 2 * w + 1) (1 / 4 * (v00 + v01 + v10 + v11)) : Option (List ℚ)) = some d' ∧ d'.length = dst.length ∧
      Quad (src.getD (so + (y * w + x)) 0) (src.getD (so + (min (y + 1) (h - 1) * w + x)) 0)
        (src.getD (so + (y * w + min (x + 1) (w - 1))) 0) (src.getD (so + (min (y + 1) (h - 1) * w + min (x + 1) (w - 1))) 0)
        d' (off + (2 * y * (2 * w) + 2 * x)) (2 * w) ∧
      ∀ q, q ≠ off + (2 * y * (2 * w) + 2 * x) → q ≠ off + (2 * y * (2 * w) + 2 * x) + 1 →
        q ≠ off + (2 * y * (2 * w) + 2 * x) + 2 * w → q ≠ off + (2 * y * (2 * w) + 2 * x) + 2 * w + 1 → d'[q]? = d[q]? := by
    intro y hy x hx d hdl
    have hb := up_addr hx hy
    have hg : ∀ y' < h, ∀ x' < w, rd src (so + (y' * w + x')) = some (src.getD (so + (y' * w + x')) 0) := by
      intro y' hy' x' hx'
      have := Flat.addr_lt (n := h) (m := w) hy' hx'
      rw [Nat.mul_comm h w] at this
      rw [rd_of_lt (by omega), List.getD_eq_getElem]
    have ey : so + (y * w + x) + (if y + 1 < h then w else 0) = so + (min (y + 1) (h - 1) * w + x) := by
      split
      · rw [Nat.min_eq_left (by omega), Nat.add_mul]; omega
      · rw [Nat.min_eq_right (by omega), show h - 1 = y by omega]; omega
    have ex : so + (y * w + x) + (if x + 1 < w then 1 else 0) = so + (y * w + min (x + 1) (w - 1)) := by
      split <;> omega
    have exy : so + (y * w + x) + ((if x + 1 < w then 1 else 0) + (if y + 1 < h then w else 0)) =
        so + (min (y + 1) (h - 1) * w + min (x + 1) (w - 1)) := by omega
    have e4 : y * (4 * w) = 2 * y * (2 * w) := by ring
    simp only [Option.bind_eq_bind]
    rw [hg y hy x hx, Option.bind_some, ey, hg _ (by omega) x hx, Option.bind_some, ex, hg y hy _ (by omega), Option.bind_some, exy,
      hg _ (by omega) _ (by omega), Option.bind_some, e4]
    rw [e4] at hb
    generalize src.getD (so + (y * w + x)) 0 = v00
    generalize src.getD (so + (min (y + 1) (h - 1) * w + x)) 0 = v01
    generalize src.getD (so + (y * w + min (x + 1) (w - 1))) 0 = v10
    generalize src.getD (so + (min (y + 1) (h - 1) * w + min (x + 1) (w - 1))) 0 = v11
    have hq : off + (2 * y * (2 * w) + 2 * x) + 2 * w + 1 < d.length := by omega
    generalize off + (2 * y * (2 * w) + 2 * x) = q0 at hq ⊢
    rw [wr_of_lt (by omega), Option.bind_some, wr_of_lt (by simp; omega), Option.bind_some, wr_of_lt (by simp; omega), Option.bind_some,
      wr_of_lt (by simp; omega)]
    refine ⟨_, rfl, by simpa using hdl, ⟨?_, ?_, ?_, ?_⟩, fun q h1 h2 h3 h4 => ?_⟩
    · rw [List.getElem?_set_ne (by omega), List.getElem?_set_ne (by omega), List.getElem?_set_ne (by omega),
        List.getElem?_set_self (by omega)]
    · rw [List.getElem?_set_ne (by omega), List.getElem?_set_ne (by omega), List.getElem?_set_self (by simp; omega)]
      congr 1; ring
    · rw [List.getElem?_set_ne (by omega), List.getElem?_set_self (by simp; omega)]
      congr 1; ring
    · rw [List.getElem?_set_self (by simp; omega)]
      congr 1; ring
    · rw [List.getElem?_set_ne (by omega), List.getElem?_set_ne (by omega), List.getElem?_set_ne (by omega),
        List.getElem?_set_ne (by omega)]
  have sep : ∀ {y x y' x' : Nat}, x < w → x' < w → ¬ (y' = y ∧ x' = x) → ∀ k < 2, ∀ l < 2, ∀ k' < 2, ∀ l' < 2,
      off + (2 * y' * (2 * w) + 2 * x') + k' * (2 * w) + l' ≠ off + (2 * y * (2 * w) + 2 * x) + k * (2 * w) + l := by
    intro y x y' x' hx hx' hne k hk l hl k' hk' l' hl' h
    have h' : (2 * y' + k') * (2 * w) + (2 * x' + l') = (2 * y + k) * (2 * w) + (2 * x + l) := by
      rw [Nat.add_mul, Nat.add_mul]; omega
    obtain ⟨a, b⟩ := Flat.addr_inj (by omega) (by omega) h'
    exact hne (by omega)
  obtain ⟨d', h1, h2, h3⟩ := iter2_inv (n := h) (m := w) (f := fun y x d => (do
      let oy := if y + 1 < h then w else 0
      let ox := if x + 1 < w then 1 else 0
      let v00 ← rd src (so + (y * w + x))
      let v01 ← rd src (so + (y * w + x) + oy)
      let v10 ← rd src (so + (y * w + x) + ox)
      let v11 ← rd src (so + (y * w + x) + (ox + oy))
      let dd := off + (y * (4 * w) + 2 * x)
      let dst ← wr d dd v00
      let dst ← wr dst (dd + 1) (1 / 2 * (v00 + v10))
      let dst ← wr dst (dd + 2 * w) (1 / 2 * (v00 + v01))
      wr dst (dd + 2 * w + 1) (1 / 4 * (v00 + v01 + v10 + v11)) : Option (List ℚ))) (s := dst)
    (fun k (d : List ℚ) => d.length = dst.length ∧ ∀ y < h, ∀ x < w, y * w + x < k →
      Quad (src.getD (so + (y * w + x)) 0) (src.getD (so + (min (y + 1) (h - 1) * w + x)) 0)
        (src.getD (so + (y * w + min (x + 1) (w - 1))) 0) (src.getD (so + (min (y + 1) (h - 1) * w + min (x + 1) (w - 1))) 0)
        d (off + (2 * y * (2 * w) + 2 * x)) (2 * w)) ⟨rfl, fun _ _ _ _ h => by omega⟩ (by
    intro y hy x hx d ⟨q1, q2⟩
    obtain ⟨d', r1, r2, r3, r4⟩ := step y hy x hx d q1
    refine ⟨d', r1, r2, fun y' hy' x' hx' hlt => ?_⟩
    by_cases e : y' = y ∧ x' = x
    · obtain ⟨rfl, rfl⟩ := e; exact r3
    · have hne : y' * w + x' ≠ y * w + x := fun h => e (Flat.addr_inj hx' hx h)
      obtain ⟨p1, p2, p3, p4⟩ := q2 y' hy' x' hx' (by omega)
      have key : ∀ k' < 2, ∀ l' < 2, d'[off + (2 * y' * (2 * w) + 2 * x') + k' * (2 * w) + l']? =
          d[off + (2 * y' * (2 * w) + 2 * x') + k' * (2 * w) + l']? := by
        intro k' hk' l' hl'
        have s00 := sep hx hx' e 0 (by omega) 0 (by omega) k' hk' l' hl'
        have s01 := sep hx hx' e 0 (by omega) 1 (by omega) k' hk' l' hl'
        have s10 := sep hx hx' e 1 (by omega) 0 (by omega) k' hk' l' hl'
        have s11 := sep hx hx' e 1 (by omega) 1 (by omega) k' hk' l' hl'
        simp only [Nat.zero_mul, Nat.add_zero, Nat.one_mul] at s00 s01 s10 s11
        exact r4 _ s00 s01 s10 s11
      have k00 := key 0 (by omega) 0 (by omega)
      have k01 := key 0 (by omega) 1 (by omega)
      have k10 := key 1 (by omega) 0 (by omega)
      have k11 := key 1 (by omega) 1 (by omega)
      simp only [Nat.zero_mul, Nat.add_zero, Nat.one_mul] at k00 k01 k10 k11
      exact ⟨k00.trans p1, k01.trans p2, k10.trans p3, k11.trans p4⟩)
  exact ⟨d', h1, h2, fun y hy x hx => h3 y hy x hx (Flat.addr_lt hy hx)⟩

end Verif.Scalespace
