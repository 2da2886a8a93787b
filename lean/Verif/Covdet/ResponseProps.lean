import Verif.Covdet.ResponseLemmas
import Verif.Covdet.ExtremaProps
import Mathlib.Tactic.LinearCombination

set_option linter.unusedSectionVars false

/-!
# The responses
-/

namespace Verif.Covdet

open Finset

section resp

variable {K : Type} [Field K] [LinearOrder K]

variable {w h : Nat}

/-- The rows of a block -/
theorem flat_rows {img : List K} (hl : img.length = h * w) : Flat img h w (rows img w) := by
  refine ⟨hl, fun i hi j hj => ?_⟩
  have := raddr_lt hi hj
  unfold raddr at this
  unfold rows
  rw [List.getD_eq_getElem?_getD, List.getElem?_eq_getElem (by omega), Option.getD_some]

/-- A loop over all elements that stores a value that does not depend on what is there. -/
theorem iter_store {mem : List K} (hm : mem.length = h * w) {V : Nat → Nat → K} {body : Nat → List K → Option (List K)} (hbody : ∀ k < w * h, ∀ l, body k l = wr l k (V (k / w) (k % w))) :
    ∃ r, iter (w * h) body mem = some r ∧ Flat r h w V := by
  have h0 := (flat_rows hm).arr
  rw [Nat.mul_comm] at h0
  obtain ⟨r, e, h1⟩ := iter_arr h0 (fun k _ => V (k / w) (k % w)) (fun k hk l _ _ => hbody k hk l)
  rw [Nat.mul_comm] at h1
  exact ⟨r, e, h1.flat⟩

/-- The difference of two levels -/
theorem dog_spec {mem l1 l2 : List K} (hm : mem.length = h * w) (h1 : l1.length = h * w) (h2 : l2.length = h * w) :
    ∃ r, dogResponse mem l1 l2 w h = some r ∧ Flat r h w (fun y x => rows l2 w y x - rows l1 w y x) := by
  have a1 := (flat_rows h1).arr
  have a2 := (flat_rows h2).arr
  rw [Nat.mul_comm] at a1 a2
  unfold dogResponse
  refine iter_store hm fun k hk l => ?_
  rw [a2.rd hk, a1.rd hk]
  rfl

theorem smooth_spec {img buf : List K} (hw : 0 < w) (hh : 0 < h) (hi : img.length = h * w) (hb : buf.length = h * w) {filt : List K} {n : Nat} (hf : filt.length = 2 * n + 1) {F : Nat → Nat → K} (hF : Flat img h w F) :
    ∃ m, Imop.imsmooth img w img w h w filt n filt n buf = some m ∧ Flat m h w (smooth filt n w h F) := by
  have hfits : Imop.Fits img.length w w h := fun x hx y hy => by
    have := raddr_lt hy hx
    unfold raddr at this
    omega
  obtain ⟨m, e, hl, hv, -⟩ := Imop.imsmooth_correct img img filt filt buf w w h w n n hw hh hfits (by rw [hb, Nat.mul_comm]) hfits (le_refl _) hf hf
  refine ⟨m, e, by rw [hl, hi], fun y hy x hx => ?_⟩
  rw [hv x hx y hy]
  congr 1
  unfold smooth
  refine sum_congr rfl fun i _ => ?_
  congr 1
  refine sum_congr rfl fun k _ => ?_
  congr 1
  have c1 : ∀ n (p : Int), 0 < n → Imop.clampTo n p < n := by
    intro n p hn
    unfold Imop.clampTo
    split
    · exact hn
    · split <;> omega
  have := hF.get _ (c1 h ((y : Int) - ((k : Int) - n)) hh) _ (c1 w ((x : Int) - ((i : Int) - n)) hw)
  unfold Imop.pix
  rw [List.getD_eq_getElem?_getD, this, Option.getD_some]

/-- The response of Harris -/
theorem harris_spec (factor alpha : K) {filt : List K} {n : Nat} (hf : filt.length = 2 * n + 1) {jx jy jxy jb mem img : List K} (hw : 2 ≤ w) (hh : 2 ≤ h) (hx : jx.length = h * w) (hy : jy.length = h * w) (hxy : jxy.length = h * w) (hb : jb.length = h * w) (hm : mem.length = h * w) (hi : img.length = h * w) :
    ∃ r, harris factor alpha filt n jx jy jxy jb mem img w h = some r ∧ Flat r h w (harrisVal factor alpha filt n (rows img w) w h) := by
  have hlast : (h - 1) * w + w = h * w := by rw [← Nat.succ_mul]; congr 1; omega
  obtain ⟨a, b, e1, la, lb, hv, -⟩ := Imop.imgradient_correct (fun gx _ => gx) (fun _ gy => gy) jx jy 1 w img w h w hw hh (by omega) (by omega) (by omega) (by omega) (by omega)
  have hI : (fun y x => img.getD (y * w + x) 0) = rows img w := rfl
  rw [hI] at hv
  obtain ⟨GX, hGX⟩ : ∃ G : Nat → Nat → K, G = Imop.gradX w (rows img w) := ⟨_, rfl⟩
  obtain ⟨GY, hGY⟩ : ∃ G : Nat → Nat → K, G = Imop.gradY h (rows img w) := ⟨_, rfl⟩
  rw [← hGX, ← hGY] at hv
  have fa : Flat a h w GX := ⟨by rw [la, hx], fun y hy x hx => by have := (hv y hy x hx).1; rw [Nat.mul_one] at this; exact this⟩
  have fb : Flat b h w GY := ⟨by rw [lb, hy], fun y hy x hx => by have := (hv y hy x hx).2; rw [Nat.mul_one] at this; exact this⟩
  have aa := fa.arr
  have ab := fb.arr
  have ac := (flat_rows hxy).arr
  rw [Nat.mul_comm] at aa ab ac
  obtain ⟨p, e2, q1, q2, q3⟩ : ∃ p : List K × List K × List K, iter (w * h) (fun k (s : List K × List K × List K) => (rd s.1 k).bind fun dx => (rd s.2.1 k).bind fun dy => (wr s.1 k (dx * dx)).bind fun xx => (wr s.2.1 k (dy * dy)).bind fun yy => (wr s.2.2 k (dx * dy)).bind fun xy => some (xx, yy, xy)) (a, b, jxy) = some p ∧
      Arr p.1 (w * h) (fun i => if i < w * h then GX (i / w) (i % w) ^ 2 else GX (i / w) (i % w)) ∧ Arr p.2.1 (w * h) (fun i => if i < w * h then GY (i / w) (i % w) ^ 2 else GY (i / w) (i % w)) ∧
      Arr p.2.2 (w * h) (fun i => if i < w * h then GX (i / w) (i % w) * GY (i / w) (i % w) else rows jxy w (i / w) (i % w)) :=
    iter_inv (P := fun k (p : List K × List K × List K) => Arr p.1 (w * h) (fun i => if i < k then GX (i / w) (i % w) ^ 2 else GX (i / w) (i % w)) ∧ Arr p.2.1 (w * h) (fun i => if i < k then GY (i / w) (i % w) ^ 2 else GY (i / w) (i % w)) ∧
      Arr p.2.2 (w * h) (fun i => if i < k then GX (i / w) (i % w) * GY (i / w) (i % w) else rows jxy w (i / w) (i % w)))
      ⟨aa.congr (by intro i _; simp), ab.congr (by intro i _; simp), ac.congr (by intro i _; simp)⟩ (by
        rintro k hk ⟨s1, s2, s3⟩ ⟨h1, h2, h3⟩
        simp only at h1 h2 h3
        obtain ⟨t1, w1, g1⟩ := h1.wr hk (GX (k / w) (k % w) * GX (k / w) (k % w))
        obtain ⟨t2, w2, g2⟩ := h2.wr hk (GY (k / w) (k % w) * GY (k / w) (k % w))
        obtain ⟨t3, w3, g3⟩ := h3.wr hk (GX (k / w) (k % w) * GY (k / w) (k % w))
        refine ⟨(t1, t2, t3), ?_, g1.congr ?_, g2.congr ?_, g3.congr ?_⟩
        · have r1 := h1.rd hk
          have r2 := h2.rd hk
          rw [if_neg (by omega)] at r1 r2
          simp only [r1, r2, Option.bind_some, w1, w2, w3]
        all_goals
          intro i _
          unfold upd1
          beta_reduce
          rcases Nat.lt_trichotomy i k with hlt | he | hgt
          · rw [if_neg (by omega), if_pos hlt, if_pos (by omega)]
          · subst he
            rw [if_pos rfl, if_pos (by omega)]
            try rw [sq]
          · rw [if_neg (by omega), if_neg (by omega), if_neg (by omega)])
  have f1 : Flat p.1 h w (fun y x => GX y x ^ 2) := by
    apply Arr.flat
    rw [Nat.mul_comm]
    exact q1.congr (fun i hi => by rw [if_pos hi])
  have f2 : Flat p.2.1 h w (fun y x => GY y x ^ 2) := by
    apply Arr.flat
    rw [Nat.mul_comm]
    exact q2.congr (fun i hi => by rw [if_pos hi])
  have f3 : Flat p.2.2 h w (fun y x => GX y x * GY y x) := by
    apply Arr.flat
    rw [Nat.mul_comm]
    exact q3.congr (fun i hi => by rw [if_pos hi])
  obtain ⟨xx, e3, g1⟩ := smooth_spec (buf := jb) (by omega) (by omega) f1.len hb hf f1
  obtain ⟨yy, e4, g2⟩ := smooth_spec (buf := jb) (by omega) (by omega) f2.len hb hf f2
  obtain ⟨xy, e5, g3⟩ := smooth_spec (buf := jb) (by omega) (by omega) f3.len hb hf f3
  have a1 := g1.arr
  have a2 := g2.arr
  have a3 := g3.arr
  rw [Nat.mul_comm] at a1 a2 a3
  obtain ⟨r, e6, hr⟩ := iter_store hm (V := harrisVal factor alpha filt n (rows img w) w h) (body := fun k mem => (rd xx k).bind fun a => (rd yy k).bind fun b => (rd xy k).bind fun c => wr mem k (factor * ((a * b - c * c) - alpha * ((a + b) * (a + b))))) (by
    intro k hk l
    simp only [a1.rd hk, a2.rd hk, a3.rd hk, Option.bind_some]
    congr 1
    unfold harrisVal
    rw [← hGX, ← hGY]
    ring)
  refine ⟨r, ?_, hr⟩
  show (Imop.imgradient _ _ jx jy 1 w img w h w).bind _ = _
  rw [e1, Option.bind_some]
  show (iter (w * h) _ (a, b, jxy)).bind _ = _
  rw [show iter (w * h) (fun k (s : List K × List K × List K) => do
    let dx ← rd s.1 k
    let dy ← rd s.2.1 k
    let xx ← wr s.1 k (dx * dx)
    let yy ← wr s.2.1 k (dy * dy)
    let xy ← wr s.2.2 k (dx * dy)
    some (xx, yy, xy)) (a, b, jxy) = some p from e2, Option.bind_some]
  show (Imop.imsmooth _ _ _ _ _ _ _ _ _ _ _).bind _ = _
  rw [e3, Option.bind_some]
  show (Imop.imsmooth _ _ _ _ _ _ _ _ _ _ _).bind _ = _
  rw [e4, Option.bind_some]
  show (Imop.imsmooth _ _ _ _ _ _ _ _ _ _ _).bind _ = _
  rw [e5, Option.bind_some]
  exact e6

/-- The response that a method gives at level `s`, row `y` and column `x` for the Gaussian scale space `G`: the difference with the next level, the score of Harris or the determinant of the second differences. -/
def response (m : Method) (par : Nat → LevelPar K) (G : Nat → Nat → Nat → K) (w h s y x : Nat) : K :=
  match m with
  | .dog => G s y x - G (s + 1) y x
  | .harrisLaplace | .multiscaleHarris => harrisVal (par s).factor (5 / 100) (par s).filt (par s).width (G s) w h y x
  | .hessian | .hessianLaplace | .multiscaleHessian => detVal (par s).factor (G s) w h y x

theorem levelOf_len {data : List K} {n d s : Nat} (hd : data.length = d * n) (hs : s < d) : (levelOf data n s).length = n := by
  unfold levelOf
  have : s * n + n ≤ d * n := by rw [← Nat.succ_mul]; exact Nat.mul_le_mul_right _ hs
  rw [List.length_take, List.length_drop]
  omega

theorem rows_levelOf (data : List K) {w h s y x : Nat} (hy : y < h) (hx : x < w) : rows (levelOf data (w * h) s) w y x = imageAt data w h s y x := by
  have := raddr_lt hy hx
  unfold raddr at this
  unfold rows levelOf imageAt
  rw [List.getD_eq_getElem?_getD, List.getD_eq_getElem?_getD, List.getElem?_take, if_pos (by rw [Nat.mul_comm w h]; exact this), List.getElem?_drop]

theorem detVal_congr {I J : Nat → Nat → K} {w h : Nat} (hw : 3 ≤ w) (hh : 3 ≤ h) (e : ∀ y < h, ∀ x < w, I y x = J y x) (factor : K) (y x : Nat) : detVal factor I w h y x = detVal factor J w h y x := by
  have hp : ∀ a b : Int, -1 ≤ a → a ≤ 1 → -1 ≤ b → b ≤ 1 → plane I 0 ((inner h y : Nat) + a) ((inner w x : Nat) + b) = plane J 0 ((inner h y : Nat) + a) ((inner w x : Nat) + b) := by
    intro a b h1 h2 h3 h4
    unfold plane inner
    exact e _ (by omega) _ (by omega)
  have h00 := hp 0 0 (by omega) (by omega) (by omega) (by omega)
  have h01 := hp 0 1 (by omega) (by omega) (by omega) (by omega)
  have h0m := hp 0 (-1) (by omega) (by omega) (by omega) (by omega)
  have h10 := hp 1 0 (by omega) (by omega) (by omega) (by omega)
  have hm0 := hp (-1) 0 (by omega) (by omega) (by omega) (by omega)
  have h11 := hp 1 1 (by omega) (by omega) (by omega) (by omega)
  have h1m := hp 1 (-1) (by omega) (by omega) (by omega) (by omega)
  have hm1 := hp (-1) 1 (by omega) (by omega) (by omega) (by omega)
  have hmm := hp (-1) (-1) (by omega) (by omega) (by omega) (by omega)
  simp only [add_zero, ← sub_eq_add_neg] at h00 h01 h0m h10 hm0 h11 h1m hm1 hmm
  unfold detVal det2 hess
  simp only [h00, h01, h0m, h10, hm0, h11, h1m, hm1, hmm]

theorem gradX_congr {I J : Nat → Nat → K} {w h : Nat} (hw : 2 ≤ w) (e : ∀ y < h, ∀ x < w, I y x = J y x) {y x : Nat} (hy : y < h) (hx : x < w) : Imop.gradX w I y x = Imop.gradX w J y x := by
  unfold Imop.gradX Imop.diff
  beta_reduce
  split
  · rw [e y hy 1 (by omega), e y hy 0 (by omega)]
  · split
    · rw [e y hy x (by omega), e y hy (x - 1) (by omega)]
    · rw [e y hy (x + 1) (by omega), e y hy (x - 1) (by omega)]

theorem gradY_congr {I J : Nat → Nat → K} {w h : Nat} (hh : 2 ≤ h) (e : ∀ y < h, ∀ x < w, I y x = J y x) {y x : Nat} (hy : y < h) (hx : x < w) : Imop.gradY h I y x = Imop.gradY h J y x := by
  unfold Imop.gradY Imop.diff
  beta_reduce
  split
  · rw [e 1 (by omega) x hx, e 0 (by omega) x hx]
  · split
    · rw [e y hy x hx, e (y - 1) (by omega) x hx]
    · rw [e (y + 1) (by omega) x hx, e (y - 1) (by omega) x hx]

theorem smooth_congr {F G : Nat → Nat → K} {w h : Nat} (hw : 0 < w) (hh : 0 < h) (e : ∀ y < h, ∀ x < w, F y x = G y x) (filt : List K) (n y x : Nat) : smooth filt n w h F y x = smooth filt n w h G y x := by
  have c1 : ∀ n (p : Int), 0 < n → Imop.clampTo n p < n := by
    intro n p hn
    unfold Imop.clampTo
    split
    · exact hn
    · split <;> omega
  unfold smooth
  refine sum_congr rfl fun i _ => ?_
  congr 1
  refine sum_congr rfl fun k _ => ?_
  rw [e _ (c1 _ _ hh) _ (c1 _ _ hw)]

theorem harrisVal_congr {I J : Nat → Nat → K} {w h : Nat} (hw : 2 ≤ w) (hh : 2 ≤ h) (e : ∀ y < h, ∀ x < w, I y x = J y x) (factor alpha : K) (filt : List K) (n y x : Nat) : harrisVal factor alpha filt n I w h y x = harrisVal factor alpha filt n J w h y x := by
  unfold harrisVal
  rw [smooth_congr (by omega) (by omega) (F := fun y x => Imop.gradX w I y x ^ 2) (G := fun y x => Imop.gradX w J y x ^ 2) (fun y hy x hx => by rw [gradX_congr hw e hy hx]),
    smooth_congr (by omega) (by omega) (F := fun y x => Imop.gradY h I y x ^ 2) (G := fun y x => Imop.gradY h J y x ^ 2) (fun y hy x hx => by rw [gradY_congr hh e hy hx]),
    smooth_congr (by omega) (by omega) (F := fun y x => Imop.gradX w I y x * Imop.gradY h I y x) (G := fun y x => Imop.gradX w J y x * Imop.gradY h J y x) (fun y hy x hx => by rw [gradX_congr hw e hy hx, gradY_congr hh e hy hx])]

/-- The new blocks have the size of a level. -/
structure JunkOk (junk : HarrisJunk K) (n : Nat) : Prop where
  jx : junk.jx.length = n
  jy : junk.jy.length = n
  jxy : junk.jxy.length = n
  jb : junk.jb.length = n

/-- One level -/
theorem respLevel_spec (m : Method) {junk : HarrisJunk K} (par : Nat → LevelPar K) {gss : List K} {w h gd s : Nat} (hw : 3 ≤ w) (hh : 3 ≤ h) (hj : JunkOk junk (h * w)) (hf : (par s).filt.length = 2 * (par s).width + 1) (hg : gss.length = gd * (w * h)) (hs : s < gd) (hs' : m = .dog → s + 1 < gd) {clevel : List K} (hc : clevel.length = h * w) :
    ∃ r, respLevel m junk (par s) gss w h s clevel = some r ∧ Flat r h w (response m par (imageAt gss w h) w h s) := by
  have hl : (levelOf gss (w * h) s).length = h * w := by rw [levelOf_len hg hs, Nat.mul_comm]
  have hcon : ∀ y < h, ∀ x < w, rows (levelOf gss (w * h) s) w y x = imageAt gss w h s y x := fun y hy x hx => rows_levelOf gss hy hx
  have hhar : ∃ r, harris (par s).factor (5 / 100) (par s).filt (par s).width junk.jx junk.jy junk.jxy junk.jb clevel (levelOf gss (w * h) s) w h = some r ∧ Flat r h w (harrisVal (par s).factor (5 / 100) (par s).filt (par s).width (imageAt gss w h s) w h) := by
    obtain ⟨r, e, hr⟩ := harris_spec (par s).factor (5 / 100) hf (w := w) (h := h) (by omega) (by omega) hj.jx hj.jy hj.jxy hj.jb hc hl
    exact ⟨r, e, hr.congr fun y _ x _ => harrisVal_congr (by omega) (by omega) hcon _ _ _ _ y x⟩
  have hhes : ∃ r, detHessian (par s).factor clevel (levelOf gss (w * h) s) w h = some r ∧ Flat r h w (detVal (par s).factor (imageAt gss w h s) w h) := by
    obtain ⟨r, e, hr, hv⟩ := detHessian_spec (par s).factor hl hc hw hh
    exact ⟨r, e, ⟨hr, fun y hy x hx => by rw [hv y hy x hx, detVal_congr hw hh hcon]⟩⟩
  cases m with
  | dog =>
    obtain ⟨r, e, hr⟩ := dog_spec hc (l1 := levelOf gss (w * h) (s + 1)) (l2 := levelOf gss (w * h) s) (by rw [levelOf_len hg (hs' rfl), Nat.mul_comm]) hl
    exact ⟨r, e, hr.congr fun y hy x hx => by rw [rows_levelOf gss hy hx, rows_levelOf gss hy hx]; rfl⟩
  | hessian => exact hhes
  | hessianLaplace => exact hhes
  | multiscaleHessian => exact hhes
  | harrisLaplace => exact hhar
  | multiscaleHarris => exact hhar

/-- For every method, every octave of at least three by three pixels and any number of levels: no access is out of a block, and each level of the response holds at each pixel the value that the definition of the response gives for the Gaussian scale space, border included. -/
theorem responses_exact (m : Method) {junk : HarrisJunk K} (par : Nat → LevelPar K) {gss css : List K} {w h gd depth : Nat} (hw : 3 ≤ w) (hh : 3 ≤ h) (hj : JunkOk junk (h * w)) (hf : ∀ s < depth, (par s).filt.length = 2 * (par s).width + 1)
    (hg : gss.length = gd * (w * h)) (hd : depth ≤ gd) (hd' : m = .dog → depth + 1 ≤ gd) (hc : css.length = depth * (w * h)) :
    ∃ r, respOctave m junk par gss w h depth css = some r ∧ r.length = depth * (w * h) ∧ ∀ s < depth, ∀ y < h, ∀ x < w, r[s * (w * h) + (y * w + x)]? = some (response m par (imageAt gss w h) w h s y x) := by
  unfold respOctave
  have hP : ∀ s, s < depth → s * (w * h) + w * h ≤ depth * (w * h) := fun s hs => by rw [← Nat.succ_mul]; exact Nat.mul_le_mul_right _ hs
  obtain ⟨r, e, h1, h2⟩ : ∃ r, iter depth (fun s css => (respLevel m junk (par s) gss w h s (levelOf css (w * h) s)).bind fun l => some (css.take (s * (w * h)) ++ l ++ css.drop ((s + 1) * (w * h)))) css = some r ∧
      r.length = depth * (w * h) ∧ ∀ s < depth, ∀ y < h, ∀ x < w, r[s * (w * h) + (y * w + x)]? = some (response m par (imageAt gss w h) w h s y x) :=
    iter_inv (P := fun k (r : List K) => r.length = depth * (w * h) ∧ ∀ s < k, ∀ y < h, ∀ x < w, r[s * (w * h) + (y * w + x)]? = some (response m par (imageAt gss w h) w h s y x))
      ⟨hc, fun s hs => by omega⟩ (by
        rintro k hk r ⟨hl, hv⟩
        obtain ⟨l, e, hr⟩ := respLevel_spec m par hw hh hj (hf k hk) hg (by omega) (by intro hm; have := hd' hm; omega) (clevel := levelOf r (w * h) k) (by rw [levelOf_len hl hk, Nat.mul_comm])
        have hkk := hP k hk
        have hll : l.length = w * h := by rw [hr.len, Nat.mul_comm]
        have ht : (r.take (k * (w * h))).length = k * (w * h) := by rw [List.length_take, hl]; omega
        refine ⟨_, by rw [e, Option.bind_some], ?_, ?_⟩
        · rw [List.length_append, List.length_append, ht, hll, List.length_drop, hl, Nat.succ_mul]
          omega
        · intro s hs y hy x hx
          have hyx : y * w + x < w * h := by have := raddr_lt hy hx; unfold raddr at this; rw [Nat.mul_comm w h]; exact this
          rcases Nat.lt_or_ge s k with hlt | hge
          · have : s * (w * h) + w * h ≤ k * (w * h) := by rw [← Nat.succ_mul]; exact Nat.mul_le_mul_right _ hlt
            rw [List.append_assoc, List.getElem?_append_left (by omega), List.getElem?_take, if_pos (by omega), hv s hlt y hy x hx]
          · have : s = k := by omega
            subst this
            rw [List.append_assoc, List.getElem?_append_right (by omega), ht, List.getElem?_append_left (by omega), show s * (w * h) + (y * w + x) - s * (w * h) = y * w + x by omega]
            exact hr.get y hy x hx)
  exact ⟨r, e, h1, h2⟩

/-- The detection as it follows the Gaussian scale space, vl/covdet.c:1970-2099: the responses of all octaves, then the search; an octave of the Gaussian scale space comes with the block of its response and what its levels need. -/
def detectAll (m : Method) (sz : Nat) (junkI : Nat → Int) (junk : Nat → Feature K) (tau : K) (sqrt : K → K) (depth : Nat) (peak edge : K) (gs : List (Octave K × List K × HarrisJunk K × (Nat → LevelPar K))) (feats : Feats (Feature K)) : Option (Feats (Feature K)) := do
  let os ← gs.mapM (fun g => do
    let data ← respOctave m g.2.2.1 g.2.2.2 g.1.data g.1.w g.1.h depth g.2.1
    some ({ g.1 with data := data } : Octave K))
  detectOctaves sz junkI junk tau sqrt m.joint depth peak edge os feats

/-- An octave is ready for the responses. -/
structure OctOk (m : Method) (depth : Nat) (g : Octave K × List K × HarrisJunk K × (Nat → LevelPar K)) : Prop where
  w : 3 ≤ g.1.w
  h : 3 ≤ g.1.h
  junk : JunkOk g.2.2.1 (g.1.h * g.1.w)
  filt : ∀ s < depth, (g.2.2.2 s).filt.length = 2 * (g.2.2.2 s).width + 1
  gss : ∃ gd, depth ≤ gd ∧ (m = .dog → depth + 1 ≤ gd) ∧ g.1.data.length = gd * (g.1.w * g.1.h)
  css : g.2.1.length = depth * (g.1.w * g.1.h)

/-- The octave `o` has the geometry of `g` and its map is the response. -/
structure IsResponse (m : Method) (depth : Nat) (g : Octave K × List K × HarrisJunk K × (Nat → LevelPar K)) (o : Octave K) : Prop where
  w : o.w = g.1.w
  h : o.h = g.1.h
  step : o.step = g.1.step
  sig : o.sig = g.1.sig
  at_eq : ∀ z < depth, ∀ y < g.1.h, ∀ x < g.1.w, o.at (z : Nat) (y : Nat) (x : Nat) = response m g.2.2.2 (imageAt g.1.data g.1.w g.1.h) g.1.w g.1.h z y x

end resp

section all

variable {K : Type} [Field K] [LinearOrder K] [IsStrictOrderedRing K]

/-- The methods documented to look for extrema in space and scale at once, vl/covdet.h:155-170. -/
def inScaleSpace (m : Method) : Bool := decide (m = .dog ∨ m = .hessian)

/-- For every method and all Gaussian scale spaces whose octaves have at least three by three pixels: no access is out of a block, and the features are, octave by octave, the outcomes of the refinement of the extrema of the map that the definition of the response gives. -/
theorem detectAll_exact (m : Method) {sz : Nat} (hsz : 0 < sz) (junkI : Nat → Int) (junk : Nat → Feature K) {tau : K} (htau : 0 < tau) {sqrt : K → K} (hs : ∀ x, 0 ≤ x → 0 ≤ sqrt x ∧ sqrt x * sqrt x = x) (depth : Nat) (peak edge : K)
    (gs : List (Octave K × List K × HarrisJunk K × (Nat → LevelPar K))) (hg : ∀ g ∈ gs, OctOk m depth g) {feats : Feats (Feature K)} {xs : List (Feature K)} (h : Rep sz feats xs) :
    ∃ s os fss, detectAll m sz junkI junk tau sqrt depth peak edge gs feats = some s ∧ read s = some (fss.flatten.filterMap id) ∧ List.Forall₂ (IsResponse m depth) gs os ∧ List.Forall₂ (OctaveOutcome tau (inScaleSpace m) depth peak edge) os fss := by
  have hm : m.joint = inScaleSpace m := by cases m <;> rfl
  obtain ⟨os, e, h1, h2⟩ : ∃ os, gs.mapM (fun g => (respOctave m g.2.2.1 g.2.2.2 g.1.data g.1.w g.1.h depth g.2.1).bind fun data => some ({ g.1 with data := data } : Octave K)) = some os ∧ List.Forall₂ (IsResponse m depth) gs os ∧ ∀ o ∈ os, o.data.length = o.w * o.h * depth := by
    clear h
    induction gs with
    | nil => exact ⟨[], rfl, .nil, by simp⟩
    | cons g gs ih =>
      obtain ⟨os, e, h1, h2⟩ := ih (fun g' hg' => hg g' (List.mem_cons_of_mem _ hg'))
      have hk := hg g (List.mem_cons_self ..)
      obtain ⟨gd, d1, d2, d3⟩ := hk.gss
      obtain ⟨r, er, lr, hr⟩ := responses_exact m g.2.2.2 hk.w hk.h hk.junk hk.filt d3 d1 d2 hk.css
      refine ⟨{ g.1 with data := r } :: os, ?_, .cons ⟨rfl, rfl, rfl, rfl, ?_⟩ h1, ?_⟩
      · rw [List.mapM_cons, e, er]; rfl
      · intro z hz y hy x hx
        have := hr z hz y hy x hx
        unfold Octave.at
        simp only
        rw [show ((x : Nat) : Int) + g.1.w * (y : Nat) + g.1.w * g.1.h * (z : Nat) = ((z * (g.1.w * g.1.h) + (y * g.1.w + x) : Nat) : Int) by push_cast; ring, Int.toNat_natCast, List.getD_eq_getElem?_getD, this, Option.getD_some]
      · intro o ho
        rcases List.mem_cons.1 ho with rfl | ho
        · show r.length = _
          rw [lr, Nat.mul_comm]
        · exact h2 o ho
  obtain ⟨s, fss, e2, -, h4, h5⟩ := detect_exact hsz junkI junk htau hs m.joint depth peak edge os h2 h
  refine ⟨s, os, fss, ?_, h4, h1, hm ▸ h5⟩
  show Option.bind (gs.mapM _) _ = _
  rw [show gs.mapM (fun g => do
    let data ← respOctave m g.2.2.1 g.2.2.2 g.1.data g.1.w g.1.h depth g.2.1
    some ({ g.1 with data := data } : Octave K)) = some os from e, Option.bind_some, e2]

end all

/-- The claim that the response of the difference of Gaussians is the level at the larger scale minus the level at the smaller, as the documentation defines it, vl/covdet.c:912-923 and 1903-1910 -/
def DogSignClaim : Prop := ∀ (par : Nat → LevelPar ℚ) (junk : HarrisJunk ℚ) (gss css : List ℚ) (w h : Nat), 3 ≤ w → 3 ≤ h → gss.length = 2 * (w * h) → css.length = w * h →
  ∃ r, respOctave .dog junk par gss w h 1 css = some r ∧ ∀ y < h, ∀ x < w, r[y * w + x]? = some (imageAt gss w h 1 y x - imageAt gss w h 0 y x)

/-- The claim is false: the caller passes the two levels in the other order, so that bright blobs give positive values. -/
theorem dogSign_claim_false : ¬ DogSignClaim := by
  intro hc
  obtain ⟨r, e, hr⟩ := hc (fun _ => ⟨0, [], 0⟩) ⟨[], [], [], []⟩ [1, 1, 1, 1, 1, 1, 1, 1, 1, 0, 0, 0, 0, 0, 0, 0, 0, 0] [0, 0, 0, 0, 0, 0, 0, 0, 0] 3 3 (by norm_num) (by norm_num) rfl rfl
  have h0 := hr 0 (by norm_num) 0 (by norm_num)
  have : respOctave (K := ℚ) .dog ⟨[], [], [], []⟩ (fun _ => ⟨0, [], 0⟩) [1, 1, 1, 1, 1, 1, 1, 1, 1, 0, 0, 0, 0, 0, 0, 0, 0, 0] 3 3 1 [0, 0, 0, 0, 0, 0, 0, 0, 0] = some [1, 1, 1, 1, 1, 1, 1, 1, 1] := by decide +kernel
  rw [this, Option.some.injEq] at e
  subst e
  revert h0
  unfold imageAt
  norm_num

/-- A small blob: the response of the determinant is largest at the middle, and the border repeats it. -/
example : respOctave (K := ℚ) .hessian ⟨[], [], [], []⟩ (fun _ => ⟨2, [], 0⟩) [0, 0, 0, 0, 0, 1, 0, 0, 0, 0, 0, 0] 4 3 1 [7, 7, 7, 7, 7, 7, 7, 7, 7, 7, 7, 7] = some [8, 8, 0, 0, 8, 8, 0, 0, 8, 8, 0, 0] := by decide +kernel

/-- The response of Harris with a trivial filter vanishes along a straight edge, up to the term of the trace. -/
example : respOctave (K := ℚ) .multiscaleHarris ⟨List.replicate 9 5, List.replicate 9 5, List.replicate 9 5, List.replicate 9 5⟩ (fun _ => ⟨1, [1], 0⟩) [0, 1, 2, 0, 1, 2, 0, 1, 2] 3 3 1 (List.replicate 9 5) = some (List.replicate 9 (-1 / 20)) := by decide +kernel

end Verif.Covdet
