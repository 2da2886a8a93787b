import Verif.Sift.MexModel
import Verif.Sift.OctaveProps
import Verif.Sift.DescrProps

/-!
# Properties of the MATLAB driver of SIFT

C173: `transposeDescr_correct`, `transposeDescr_involution`.  C174: `korder_order`, `userFrames_correct`, `userFrames_kept`, `lastColumn_claim_false`,
`framesKept_claim_false`.  C175: `detected_correct`.
-/

namespace Verif.Sift

/-! ## Transposition -/

theorem rd_map {α β : Type} (g : α → β) (l : List α) (i : Nat) : rd (l.map g) i = (rd l i).map g := by
  rw [rd_getElem?, rd_getElem?, List.getElem?_map]

theorem wr_map {α β : Type} (g : α → β) (l : List α) (i : Nat) (x : α) : wr (l.map g) i (g x) = (wr l i x).map (List.map g) := by
  by_cases h : i < l.length
  · rw [wr_of_lt h, wr_of_lt (by simpa using h), Option.map_some, List.map_set]
  · have n1 : ∀ {γ : Type} (m : List γ) (y : γ), ¬ i < m.length → wr m i y = none := by
      intro γ m y hm; simp [wr, hm]
    rw [n1 _ _ h, n1 _ _ (by simpa using h)]; rfl

theorem iter_map {σ τ : Type} (g : σ → τ) (n : Nat) (f : Nat → σ → Option σ) (f' : Nat → τ → Option τ) (h : ∀ i < n, ∀ s, f' i (g s) = (f i s).map g) (s : σ) :
    iter n f' (g s) = (iter n f s).map g := by
  induction n with
  | zero => rfl
  | succ n ih =>
    show (iter n f' (g s)).bind (f' n) = ((iter n f s).bind (f n)).map g
    rw [ih (fun i hi => h i (by omega))]
    cases iter n f s with
    | none => rfl
    | some t => exact h n (by omega) t

theorem transposeDescr_map {α β : Type} (g : α → β) (dst src : List α) : transposeDescr (dst.map g) (src.map g) = (transposeDescr dst src).map (List.map g) := by
  unfold transposeDescr
  apply iter_map (List.map g)
  intro j _ dst
  apply iter_map (List.map g)
  intro i _ dst
  rw [rd_map]
  cases rd src (8 * i + 32 * j) with
  | none => rfl
  | some v =>
    simp only [Option.map_some, Option.bind_eq_bind, Option.bind_some]
    rw [wr_map]
    cases wr dst (8 * i + 32 * (4 - 1 - j)) v with
    | none => rfl
    | some dst =>
      simp only [Option.map_some, Option.bind_some]
      apply iter_map (List.map g)
      intro t _ dst
      rw [rd_map]
      cases rd src (t + 1 + (8 * i + 32 * j)) with
      | none => rfl
      | some v => simp only [Option.map_some, Option.bind_some]; rw [wr_map]

/-- Specification: element `x` of the transposed descriptor is element `mirror x` of the descriptor: the rows of bins in reverse order, the orientations with the opposite sign. -/
def mirror (x : Nat) : Nat := 32 * (3 - x / 32) + 8 * (x / 8 % 4) + (8 - x % 8) % 8

/-- C173.  The transposition stays in its blocks, and gives the descriptor with the rows of bins reversed and the orientations negated, whatever the target held. -/
theorem transposeDescr_correct (dst src : List ℚ) (hd : dst.length = 128) (hs : src.length = 128) :
    transposeDescr dst src = some ((List.range 128).map fun x => src.getD (mirror x) 0) := by
  let g : Nat → ℚ := fun k => if k < 128 then src.getD k 0 else dst.getD (k - 128) 0
  have e1 : src = (List.range 128).map g := by
    apply List.ext_getElem?
    intro i
    by_cases h : i < 128
    · simp [h, g, hs]
    · rw [List.getElem?_eq_none (by omega), List.getElem?_eq_none (by simpa using h)]
  have e2 : dst = (List.range' 128 128).map g := by
    apply List.ext_getElem?
    intro i
    by_cases h : i < 128
    · simp [h, g, hd]
    · rw [List.getElem?_eq_none (by omega), List.getElem?_eq_none (by simpa using h)]
  have e3 : transposeDescr (List.range' 128 128) (List.range 128) = some ((List.range 128).map mirror) := by decide +kernel
  have e4 : transposeDescr dst src = some (((List.range 128).map mirror).map g) := by
    conv_lhs => rw [e1, e2]
    rw [transposeDescr_map, e3]; rfl
  rw [e4, List.map_map]
  congr 1

/-- C173.  Transposing twice gives the descriptor back. -/
theorem transposeDescr_involution (d d' src : List ℚ) (hd : d.length = 128) (hd' : d'.length = 128) (hs : src.length = 128) :
    ∃ t, transposeDescr d src = some t ∧ transposeDescr d' t = some src := by
  refine ⟨_, transposeDescr_correct d src hd hs, ?_⟩
  rw [transposeDescr_correct d' _ hd' (by simp)]
  congr 1
  apply List.ext_getElem?
  intro x
  by_cases h : x < 128
  · have h1 : ∀ x ∈ List.range 128, mirror x < 128 ∧ mirror (mirror x) = x := by decide +kernel
    obtain ⟨h2, h3⟩ := h1 x (List.mem_range.mpr h)
    simp [h, h2, h3, hs]
  · rw [List.getElem?_eq_none (by simpa using h), List.getElem?_eq_none (by omega)]

/-! ## The order of the frames -/

/-- C174.  The comparison is a total preorder: that of the scales. -/
theorem korder_order (a b : MFrame) : (korder a b ≤ 0 ↔ a.sigma ≤ b.sigma) ∧ (korder a b < 0 ↔ a.sigma < b.sigma) ∧ (korder a b = - korder b a) := by
  unfold korder
  dsimp only
  rcases lt_trichotomy a.sigma b.sigma with h | h | h
  · rw [if_pos (by linarith), if_neg (show ¬ b.sigma - a.sigma < 0 by linarith), if_pos (by linarith)]
    exact ⟨by simp [h.le], by simp [h], by norm_num⟩
  · rw [h]; simp
  · rw [if_neg (by linarith), if_pos (by linarith), if_pos (show b.sigma - a.sigma < 0 by linarith)]
    exact ⟨by simp [h], by simp [h.le], by norm_num⟩

/-- What the C library promises of `qsort` with this comparison: a permutation in order. -/
def IsQsort (qsort : List MFrame → List MFrame) : Prop := ∀ l, (qsort l).Perm l ∧ (qsort l).Pairwise fun a b => korder a b ≤ 0

theorem checkSorted_spec (l : List MFrame) (h : checkSorted l = true) : l.Pairwise fun a b => a.sigma ≤ b.sigma := by
  induction l with
  | nil => exact List.Pairwise.nil
  | cons a l ih =>
    cases l with
    | nil => exact List.pairwise_singleton _ _
    | cons b l =>
      unfold checkSorted at h
      by_cases c : korder a b > 0
      · rw [if_pos c] at h; exact absurd h (by simp)
      · rw [if_neg c] at h
        have hp := ih h
        have hab : a.sigma ≤ b.sigma := (korder_order a b).1.mp (by omega)
        refine List.Pairwise.cons ?_ hp
        intro x hx
        rcases List.mem_cons.mp hx with rfl | hx
        · exact hab
        · exact le_trans hab ((List.pairwise_cons.mp hp).1 x hx)

theorem sourceFrames_spec (qsort : List MFrame → List MFrame) (hq : IsQsort qsort) (l : List MFrame) :
    (sourceFrames qsort l).Perm l ∧ (sourceFrames qsort l).Pairwise fun a b => a.sigma ≤ b.sigma := by
  unfold sourceFrames
  by_cases c : checkSorted l = true
  · rw [if_pos c]; exact ⟨List.Perm.refl _, checkSorted_spec l c⟩
  · rw [if_neg c]; exact ⟨(hq l).1, (hq l).2.imp fun h => (korder_order _ _).1.mp h⟩

/-! ## The buffers -/

/-- Specification: a saved descriptor: the transposed descriptor times 512, and for bytes without the fractional part and at most 255. -/
def savedRow (float : Bool) (d : List ℚ) : List ℚ := (List.range 128).map fun x => if float then 512 * d.getD (mirror x) 0 else ((min 255 ⌊512 * d.getD (mirror x) 0⌋ : Int) : ℚ)

/-- The buffers contain these outputs. -/
structure Has (c : MexCfg) (st : MexOut) (F : List MFrame) (D : List (List ℚ)) : Prop where
  n : st.n = F.length
  frames : st.frames.take st.n = F
  room : st.n ≤ st.frames.length
  same : c.want = true → st.descr.length = st.frames.length
  descr : c.want = true → st.descr.take st.n = D
  none : c.want = false → st.descr = []
  lenD : D.length = F.length

/-- What is asked of the parameters: blocks of 128 numbers; descriptors that are not negative, C78. -/
structure MexOk (c : MexCfg) : Prop where
  rbuf : c.rbuf.length = 128
  len : ∀ o oct k a d, c.descr o oct k a = some d → d.length = 128
  nonneg : ∀ o oct k a d, c.descr o oct k a = some d → ∀ v ∈ d, 0 ≤ v

theorem saveElt_spec (float : Bool) (r : ℚ) (h : 0 ≤ r) : saveElt float r = some (if float then 512 * r else ((min 255 ⌊512 * r⌋ : Int) : ℚ)) := by
  unfold saveElt
  cases float with
  | true => rfl
  | false =>
    dsimp only
    simp only [Bool.false_eq_true, if_false]
    by_cases c : 512 * r < 255
    · rw [if_pos c, if_neg (by linarith)]
      have : ⌊512 * r⌋ < 255 := by rw [Int.floor_lt]; exact_mod_cast c
      rw [min_eq_right this.le]
      unfold trunc
      rw [if_pos (by linarith)]
    · rw [if_neg c, if_neg (by norm_num)]
      have : 255 ≤ ⌊512 * r⌋ := by rw [Int.le_floor]; push_cast; linarith
      rw [min_eq_left this]
      unfold trunc
      rw [if_pos (by norm_num)]
      norm_num

theorem mapM_some {α β : Type} (f : α → Option β) (g : α → β) (l : List α) (h : ∀ a ∈ l, f a = some (g a)) : l.mapM f = some (l.map g) := by
  induction l with
  | nil => rfl
  | cons a l ih =>
    rw [List.mapM_cons, h a (by simp), ih (fun b hb => h b (by simp [hb]))]; rfl

theorem saveRow_spec (float : Bool) (rbuf d : List ℚ) (hr : rbuf.length = 128) (hd : d.length = 128) (hn : ∀ v ∈ d, 0 ≤ v) :
    (transposeDescr rbuf d).bind (fun r => r.mapM (saveElt float)) = some (savedRow float d) := by
  rw [transposeDescr_correct _ _ hr hd]
  simp only [Option.bind_some]
  rw [mapM_some _ (fun r => if float then 512 * r else ((min 255 ⌊512 * r⌋ : Int) : ℚ))]
  · rw [List.map_map]; rfl
  · intro r hr
    apply saveElt_spec
    obtain ⟨x, _, rfl⟩ := List.mem_map.mp hr
    by_cases h : mirror x < d.length
    · apply hn
      rw [List.getD_eq_getElem _ _ h]
      exact List.getElem_mem h
    · rw [List.getD_eq_default _ _ (by omega)]

theorem take_set_append {α : Type} (l : List α) (n : Nat) (x : α) (h : n < l.length) : (l.set n x).take (n + 1) = l.take n ++ [x] := by
  rw [List.take_add_one, List.getElem?_set_self h, List.take_set_of_le (le_refl n)]; rfl

theorem emit_spec (c : MexCfg) (hc : MexOk c) (nkeys : Nat) (hn : 0 < nkeys) (o : Int) (oct : List (List ℚ)) (k : Keypoint) (a : ℚ) (st : MexOut) (F : List MFrame) (D : List (List ℚ))
    (hd : c.want = true → (c.descr o oct k a).isSome) (h : Has c st F D) : ∃ st', emit c nkeys o oct k a st = some st' ∧
      Has c st' (F ++ [⟨k.y + 1, k.x + 1, k.sigma, c.halfPi - a⟩]) (D ++ [savedRow c.float ((c.descr o oct k a).getD [])]) := by
  have hg : Has c (st.grow c nkeys) F D ∧ (st.grow c nkeys).n < (st.grow c nkeys).frames.length := by
    unfold MexOut.grow
    by_cases g : st.frames.length < st.n + 1
    · rw [if_pos g]
      refine ⟨⟨h.n, ?_, ?_, ?_, ?_, ?_, h.lenD⟩, ?_⟩
      · dsimp only; rw [List.take_append_of_le_length h.room]; exact h.frames
      · dsimp only; rw [List.length_append]; have := h.room; omega
      · intro hw
        dsimp only
        rw [if_pos hw, List.length_append, List.length_append, h.same hw]; simp
      · intro hw
        dsimp only
        rw [if_pos hw, List.take_append_of_le_length (by rw [h.same hw]; exact h.room)]
        exact h.descr hw
      · intro hw
        dsimp only
        rw [if_neg (by rw [hw]; exact Bool.false_ne_true)]
        exact h.none hw
      · dsimp only; rw [List.length_append, List.length_replicate]; have := h.room; omega
    · rw [if_neg g]
      exact ⟨h, by omega⟩
  unfold emit
  dsimp only
  obtain ⟨st1, hst1⟩ : ∃ x, x = st.grow c nkeys := ⟨_, rfl⟩
  rw [← hst1] at hg ⊢
  obtain ⟨hh, hlt⟩ := hg
  rw [wr_of_lt hlt]
  simp only [Option.bind_eq_bind, Option.bind_some]
  unfold saveDescr
  by_cases hw : c.want = true
  · rw [if_pos hw]
    obtain ⟨d, ed⟩ := Option.isSome_iff_exists.mp (hd hw)
    have := saveRow_spec c.float c.rbuf d hc.rbuf (hc.len _ _ _ _ _ ed) (hc.nonneg _ _ _ _ _ ed)
    have hlt' : st1.n < st1.descr.length := by rw [hh.same hw]; exact hlt
    obtain ⟨t, ht⟩ := Option.bind_eq_some_iff.mp this
    rw [ed]
    simp only [Option.bind_eq_bind, Option.bind_some, Option.getD_some]
    rw [ht.1]
    simp only [Option.bind_some]
    rw [ht.2]
    simp only [Option.bind_some]
    rw [wr_of_lt hlt']
    refine ⟨_, rfl, ?_, ?_, ?_, ?_, ?_, ?_, ?_⟩
    · simp [hh.n]
    · dsimp only; rw [take_set_append _ _ _ hlt, hh.frames]
    · dsimp only; rw [List.length_set]; omega
    · intro _; dsimp only; rw [List.length_set, List.length_set]; exact hh.same hw
    · intro _
      dsimp only
      rw [take_set_append _ _ _ hlt', hh.descr hw]
    · intro hw'; rw [hw] at hw'; exact absurd hw' (by simp)
    · simp [hh.lenD]
  · rw [if_neg hw]
    refine ⟨_, rfl, ?_, ?_, ?_, ?_, ?_, ?_, ?_⟩
    · simp [hh.n]
    · dsimp only; rw [take_set_append _ _ _ hlt, hh.frames]
    · dsimp only; rw [List.length_set]; omega
    · intro hw'; exact absurd hw' hw
    · intro hw'; exact absurd hw' hw
    · intro hw'; exact hh.none hw'
    · simp [hh.lenD]

theorem emits_spec (c : MexCfg) (hc : MexOk c) (nkeys : Nat) (hn : 0 < nkeys) (o : Int) (oct : List (List ℚ)) (k : Keypoint) (L : List ℚ)
    (hd : c.want = true → ∀ a ∈ L, (c.descr o oct k a).isSome) : ∀ (st : MexOut) (F : List MFrame)
    (D : List (List ℚ)), Has c st F D → ∃ st', L.foldlM (fun st a => emit c nkeys o oct k a st) st = some st' ∧
      Has c st' (F ++ L.map fun a => ⟨k.y + 1, k.x + 1, k.sigma, c.halfPi - a⟩) (D ++ L.map fun a => savedRow c.float ((c.descr o oct k a).getD [])) := by
  induction L with
  | nil => intro st F D h; exact ⟨st, rfl, by simpa using h⟩
  | cons a L ih =>
    intro st F D h
    obtain ⟨st1, e1, h1⟩ := emit_spec c hc nkeys hn o oct k a st F D (fun hw => hd hw a (by simp)) h
    obtain ⟨st2, e2, h2⟩ := ih (fun hw b hb => hd hw b (by simp [hb])) st1 _ _ h1
    refine ⟨st2, by rw [List.foldlM_cons, e1]; exact e2, ?_⟩
    simpa using h2

/-! ## The octaves -/

/-- Specification: the octave of a scale, where `phi` is its logarithm: the octaves of the filter from `oMin` on, `O` of them; half a level below the start of an octave belongs to it. -/
def octaveOf (oMin O S : Int) (phi : ℚ) : Int := max (min ⌊phi + 1 / (2 * S)⌋ (oMin + O - 1)) oMin

theorem octaveOf_mono (oMin O S : Int) {a b : ℚ} (h : a ≤ b) : octaveOf oMin O S a ≤ octaveOf oMin O S b := by
  have : ⌊a + 1 / (2 * (S : ℚ))⌋ ≤ ⌊b + 1 / (2 * (S : ℚ))⌋ := Int.floor_mono (by linarith)
  unfold octaveOf
  omega

/-- The keypoint of a frame: rows and columns are swapped and count from zero. -/
def frameKey (c : MexCfg) (f : Filt) (fr : MFrame) : Option Keypoint := keypointInit c.xper (-1) (f.S + 1) f.oMin f.O f.S (c.phi fr.sigma) (fr.y - 1) (fr.x - 1) fr.sigma

theorem frameKey_spec (c : MexCfg) (hx : ∀ o, c.xper o ≠ 0) (f : Filt) (hS : 1 ≤ f.S) (fr : MFrame) : ∃ k, frameKey c f fr = some k ∧
    k.o = octaveOf f.oMin f.O f.S (c.phi fr.sigma) ∧ k.x = fr.y - 1 ∧ k.y = fr.x - 1 ∧ k.sigma = fr.sigma := by
  have hS0 : (f.S : ℚ) ≠ 0 := by exact_mod_cast (show f.S ≠ 0 by omega)
  unfold frameKey keypointInit
  rw [if_neg (by omega)]
  dsimp only
  rw [if_neg (hx _)]
  refine ⟨_, rfl, ?_, rfl, rfl, rfl⟩
  dsimp only
  rw [vlFloor_eq]
  unfold octaveOf
  congr 3
  push_cast
  field_simp
  ring

/-- Specification: the orientations of a frame of the user at octave `o`. -/
def frameAngles (c : MexCfg) (o : Int) (oct : List (List ℚ)) (k : Keypoint) (fr : MFrame) : List ℚ := if c.force then c.orient o oct k else [c.halfPi - fr.theta]

/-- Specification: the outputs for a frame of the user with keypoint `k`: one for each orientation, at the place and the scale of the frame. -/
def frameOut (c : MexCfg) (lev : Int → List (List ℚ)) (K : MFrame → Keypoint) (fr : MFrame) : List MFrame :=
  (frameAngles c (K fr).o (lev (K fr).o) (K fr) fr).map fun a => ⟨fr.x, fr.y, fr.sigma, c.halfPi - a⟩

/-- Specification: their descriptors, computed in the octave of the keypoint. -/
def descrOut (c : MexCfg) (lev : Int → List (List ℚ)) (K : MFrame → Keypoint) (fr : MFrame) : List (List ℚ) :=
  (frameAngles c (K fr).o (lev (K fr).o) (K fr) fr).map fun a => savedRow c.float ((c.descr (K fr).o (lev (K fr).o) (K fr) a).getD [])

theorem userLoop_spec (c : MexCfg) (hc : MexOk c) (f : Filt) (L : List MFrame) (lev : Int → List (List ℚ)) (K : MFrame → Keypoint) (hl : lev f.oCur = f.octave)
    (hK : ∀ fr ∈ L, frameKey c f fr = some (K fr) ∧ (K fr).x = fr.y - 1 ∧ (K fr).y = fr.x - 1 ∧ (K fr).sigma = fr.sigma)
    (hd : c.want = true → ∀ fr ∈ L, ∀ oct a, (c.descr (K fr).o oct (K fr) a).isSome)
    (hp : L.Pairwise fun a b => (K a).o ≤ (K b).o) : ∀ (m i : Nat) (st : MexOut), i + m = L.length → (∀ fr ∈ L.drop i, f.oCur ≤ (K fr).o) →
    Has c st ((L.take i).flatMap (frameOut c lev K)) ((L.take i).flatMap (descrOut c lev K)) →
    ∃ i' st', userLoop c f L m i st = some (i', st') ∧ i' ≤ L.length ∧ (∀ fr ∈ L.drop i', f.oCur < (K fr).o) ∧
      Has c st' ((L.take i').flatMap (frameOut c lev K)) ((L.take i').flatMap (descrOut c lev K)) := by
  intro m
  induction m with
  | zero =>
    intro i st hi _ h
    refine ⟨i, st, rfl, by omega, ?_, h⟩
    intro fr hfr
    rw [List.drop_eq_nil_of_le (by omega)] at hfr
    exact absurd hfr (by simp)
  | succ m ih =>
    intro i st hi hge h
    have hlt : i < L.length := by omega
    have hmem : L[i] ∈ L := List.getElem_mem hlt
    obtain ⟨hk, k1, k2, k3⟩ := hK _ hmem
    have hdrop : L.drop i = L[i] :: L.drop (i + 1) := List.drop_eq_getElem_cons hlt
    unfold userLoop
    rw [rd_of_lt hlt]
    simp only [Option.bind_eq_bind, Option.bind_some]
    have hk' := hk
    unfold frameKey at hk'
    rw [hk']
    simp only [Option.bind_some]
    by_cases ho : (K L[i]).o = f.oCur
    · rw [if_neg (by simpa using ho)]
      have ha : userAngles c f (K L[i]) L[i] = frameAngles c (K L[i]).o (lev (K L[i]).o) (K L[i]) L[i] := by
        unfold userAngles frameAngles
        rw [ho, hl]
      obtain ⟨st1, e1, h1⟩ := emits_spec c hc L.length (by omega) f.oCur f.octave (K L[i]) (userAngles c f (K L[i]) L[i])
        (fun hw a _ => by rw [← ho]; exact hd hw _ hmem _ _) st _ _ h
      rw [e1]
      simp only [Option.bind_some]
      refine ih (i + 1) st1 (by omega) (fun fr hfr => hge fr (by rw [hdrop]; exact List.mem_cons_of_mem _ hfr)) ?_
      have htake : L.take (i + 1) = L.take i ++ [L[i]] := by rw [List.take_add_one, List.getElem?_eq_getElem hlt]; rfl
      rw [htake, List.flatMap_append, List.flatMap_append]
      have e2 : List.flatMap (frameOut c lev K) [L[i]] = (userAngles c f (K L[i]) L[i]).map fun a => ⟨(K L[i]).y + 1, (K L[i]).x + 1, (K L[i]).sigma, c.halfPi - a⟩ := by
        rw [List.flatMap_singleton, ha, k1, k2, k3]
        unfold frameOut
        congr 1
        funext a
        congr 1 <;> ring
      have e3 : List.flatMap (descrOut c lev K) [L[i]] = (userAngles c f (K L[i]) L[i]).map fun a => savedRow c.float ((c.descr f.oCur f.octave (K L[i]) a).getD []) := by
        rw [List.flatMap_singleton, ha]
        unfold descrOut
        rw [ho, hl]
      rw [e2, e3]
      exact h1
    · rw [if_pos (by simpa using ho)]
      refine ⟨i, st, rfl, by omega, ?_, h⟩
      have h0 := hge L[i] (hdrop ▸ List.mem_cons_self)
      have hp' := hp.sublist (List.drop_sublist i L)
      rw [hdrop] at hp'
      intro fr hfr
      rw [hdrop] at hfr
      rcases List.mem_cons.mp hfr with rfl | hfr
      · omega
      · have := (List.pairwise_cons.mp hp').1 fr hfr
        omega

/-- The filter at octave `oMin + k`. -/
theorem at_octave (ops : Ops) (f : Filt) (im : List ℚ) (hO : 1 ≤ f.O) : ∃ F : Nat → Filt, processFirst ops f im = (.ok, F 0) ∧
    (∀ k : Nat, (k : Int) < f.O → AtOctave ops f (F k) im k) ∧ (∀ k : Nat, (k : Int) + 1 < f.O → processNext ops (F k) = (.ok, F (k + 1))) ∧
    (∀ k : Nat, (k : Int) + 1 = f.O → (processNext ops (F k)).1 = .eof) := by
  obtain ⟨h0, h1⟩ := octaves_correct ops f im hO
  refine ⟨fun k => (nexts ops (processFirst ops f im).2 k).2, ?_, ?_, ?_, ?_⟩
  · exact Prod.ext h0 rfl
  · intro k hk; exact (h1 k k (by omega)).2
  · intro k hk
    obtain ⟨f', e, _⟩ := processNext_step ops f _ im k (h1 k k (by omega)).2 (by omega)
    simp only [nexts]
    rw [e]
  · intro k hk
    have h2 := (h1 k k (by omega)).2
    unfold processNext
    rw [if_pos (by rw [h2.cur, h2.same.2.2.1, h2.same.2.2.2.2]; omega)]

theorem userOctaves_spec (c : MexCfg) (hc : MexOk c) (f : Filt) (im : List ℚ) (F : Nat → Filt) (hF : ∀ k : Nat, (k : Int) < f.O → AtOctave c.ops f (F k) im k)
    (hF1 : ∀ k : Nat, (k : Int) + 1 < f.O → processNext c.ops (F k) = (.ok, F (k + 1))) (hF2 : ∀ k : Nat, (k : Int) + 1 = f.O → (processNext c.ops (F k)).1 = .eof)
    (L : List MFrame) (lev : Int → List (List ℚ)) (K : MFrame → Keypoint) (hl : ∀ k : Nat, (k : Int) < f.O → lev (f.oMin + k) = (F k).octave)
    (hK : ∀ fr ∈ L, frameKey c f fr = some (K fr) ∧ (K fr).x = fr.y - 1 ∧ (K fr).y = fr.x - 1 ∧ (K fr).sigma = fr.sigma)
    (hKo : ∀ fr ∈ L, (K fr).o ≤ f.oMin + f.O - 1)
    (hd : c.want = true → ∀ fr ∈ L, ∀ oct a, (c.descr (K fr).o oct (K fr) a).isSome)
    (hp : L.Pairwise fun a b => (K a).o ≤ (K b).o) : ∀ (m k i : Nat) (st : MexOut), (k : Int) < f.O → f.O ≤ k + m → i ≤ L.length → (∀ fr ∈ L.drop i, f.oMin + k ≤ (K fr).o) →
    Has c st ((L.take i).flatMap (frameOut c lev K)) ((L.take i).flatMap (descrOut c lev K)) →
    ∃ st', mexOctaves c (some L) m (F k) i st = some st' ∧ Has c st' (L.flatMap (frameOut c lev K)) (L.flatMap (descrOut c lev K)) := by
  intro m
  induction m with
  | zero => intro k i st h1 h2; omega
  | succ m ih =>
    intro k i st h1 h2 hi hge h
    have hA := hF k h1
    obtain ⟨i', st1, e1, hi', hgt, hh⟩ := userLoop_spec c hc (F k) L lev K (by rw [hA.cur]; exact hl k h1)
      (fun fr hfr => by
        have := hK fr hfr
        unfold frameKey at this ⊢
        rw [hA.same.2.2.1, hA.same.2.2.2.1, hA.same.2.2.2.2]
        exact this) hd hp (L.length - i) i st (by omega) (by rw [hA.cur]; exact hge) h
    unfold mexOctaves
    have e0 : mexOctave c (F k) (some L) i st = some (i', st1) := e1
    rw [e0]
    simp only [Option.bind_eq_bind, Option.bind_some]
    by_cases hlast : (k : Int) + 1 = f.O
    · have h3 := hF2 k hlast
      obtain ⟨r, hr⟩ : ∃ r, r = processNext c.ops (F k) := ⟨_, rfl⟩
      rw [← hr] at h3 ⊢
      obtain ⟨e, f'⟩ := r
      dsimp only at h3
      subst h3
      refine ⟨st1, rfl, ?_⟩
      have hnil : L.drop i' = [] := by
        rw [List.eq_nil_iff_forall_not_mem]
        intro fr hfr
        have h4 := hgt fr hfr
        have h5 := hKo fr (List.mem_of_mem_drop hfr)
        rw [hA.cur] at h4
        omega
      rw [List.drop_eq_nil_iff] at hnil
      rw [List.take_of_length_le hnil] at hh
      exact hh
    · rw [hF1 k (by omega)]
      dsimp only
      refine ih (k + 1) i' st1 (by push_cast; omega) (by push_cast; omega) hi' (fun fr hfr => ?_) hh
      have h4 := hgt fr hfr
      rw [hA.cur] at h4
      push_cast
      omega

/-- **C174.**  With the option `Frames`, at least one octave and one level: the frames are put in the order of their scales (as a permutation of those given), and each gives its orientations, at its
place and scale, in this order: its own orientation or, with the option `Orientations`, those of the keypoint.  Each has the transposed descriptor of its keypoint in the octave of its scale.
Every frame must be at a place where the descriptor exists, see `lastColumn_claim_false`. -/
theorem userFrames_correct (c : MexCfg) (hc : MexOk c) (hx : ∀ o, c.xper o ≠ 0) (f : Filt) (hO : 1 ≤ f.O) (hS : 1 ≤ f.S) (im : List ℚ) (qsort : List MFrame → List MFrame) (hq : IsQsort qsort)
    (l : List MFrame) (hphi : ∀ a ∈ l, ∀ b ∈ l, a.sigma ≤ b.sigma → c.phi a.sigma ≤ c.phi b.sigma)
    (hd : c.want = true → ∀ fr ∈ l, ∀ k, frameKey c f fr = some k → ∀ oct a, (c.descr k.o oct k a).isSome) (rounds : Nat) (hr : f.O ≤ rounds) :
    ∃ (L : List MFrame) (lev : Int → List (List ℚ)) (K : MFrame → Keypoint), L.Perm l ∧ L.Pairwise (fun a b => a.sigma ≤ b.sigma) ∧
      (∀ k : Nat, (k : Int) < f.O → OctaveOf c.ops f.oMin f.S im k (lev (f.oMin + k))) ∧
      (∀ fr ∈ l, frameKey c f fr = some (K fr) ∧ (K fr).o = octaveOf f.oMin f.O f.S (c.phi fr.sigma)) ∧
      mexSift c rounds f im (some (sourceFrames qsort l)) = some (L.flatMap (frameOut c lev K), if c.want then L.flatMap (descrOut c lev K) else []) := by
  obtain ⟨hperm, hsort⟩ := sourceFrames_spec qsort hq l
  obtain ⟨F, hF0, hF, hF1, hF2⟩ := at_octave c.ops f im hO
  choose K hK1 hK2 hK3 hK4 hK5 using fun fr => frameKey_spec c hx f hS fr
  have hlev : ∀ k : Nat, (k : Int) < f.O → (fun o : Int => (F (o - f.oMin).toNat).octave) (f.oMin + k) = (F k).octave := by
    intro k _
    dsimp only
    rw [show (f.oMin + (k : Int) - f.oMin).toNat = k by omega]
  refine ⟨sourceFrames qsort l, fun o => (F (o - f.oMin).toNat).octave, K, hperm, hsort, ?_, fun fr _ => ⟨hK1 fr, hK2 fr⟩, ?_⟩
  · intro k hk
    rw [hlev k hk]
    exact (hF k hk).data
  · have hrange : ∀ fr, f.oMin ≤ (K fr).o ∧ (K fr).o ≤ f.oMin + f.O - 1 := by
      intro fr
      rw [hK2 fr]
      unfold octaveOf
      omega
    obtain ⟨st, e, h⟩ := userOctaves_spec c hc f im F hF hF1 hF2 (sourceFrames qsort l) (fun o => (F (o - f.oMin).toNat).octave) K hlev (fun fr _ => ⟨hK1 fr, hK3 fr, hK4 fr, hK5 fr⟩) (fun fr _ => (hrange fr).2)
      (fun hw fr hfr => hd hw fr (hperm.mem_iff.mp hfr) _ (hK1 fr))
      (hsort.imp_of_mem fun {a b} ha hb hab => by
        rw [hK2, hK2]
        exact octaveOf_mono _ _ _ (hphi a (hperm.mem_iff.mp ha) b (hperm.mem_iff.mp hb) hab))
      rounds 0 0 ⟨[], [], 0⟩ (by push_cast; omega) (by push_cast; omega) (by omega) (fun fr _ => by have := (hrange fr).1; push_cast; omega)
      ⟨rfl, rfl, le_refl _, fun _ => rfl, fun _ => rfl, fun _ => rfl, rfl⟩
    unfold mexSift
    rw [hF0]
    dsimp only
    rw [e]
    simp only [Option.bind_eq_bind, Option.bind_some]
    rw [h.frames]
    by_cases hw : c.want = true
    · rw [if_pos hw, h.descr hw]
    · rw [if_neg hw, h.none (by simpa using hw)]; simp

/-- C174.  Without the option `Orientations` the driver returns the frames it was given, in the order of the scales, and one descriptor for each when descriptors are asked for. -/
theorem userFrames_kept (c : MexCfg) (hc : MexOk c) (hx : ∀ o, c.xper o ≠ 0) (f : Filt) (hO : 1 ≤ f.O) (hS : 1 ≤ f.S) (im : List ℚ) (qsort : List MFrame → List MFrame) (hq : IsQsort qsort)
    (l : List MFrame) (hphi : ∀ a ∈ l, ∀ b ∈ l, a.sigma ≤ b.sigma → c.phi a.sigma ≤ c.phi b.sigma)
    (hd : c.want = true → ∀ fr ∈ l, ∀ k, frameKey c f fr = some k → ∀ oct a, (c.descr k.o oct k a).isSome) (rounds : Nat) (hr : f.O ≤ rounds) (hf : c.force = false) :
    ∃ L D, mexSift c rounds f im (some (sourceFrames qsort l)) = some (L, D) ∧ L.Perm l ∧ L.Pairwise (fun a b => a.sigma ≤ b.sigma) ∧ (c.want = true → D.length = l.length) := by
  obtain ⟨L, lev, K, h1, h2, -, -, h3⟩ := userFrames_correct c hc hx f hO hS im qsort hq l hphi hd rounds hr
  have e1 : ∀ L : List MFrame, L.flatMap (frameOut c lev K) = L := by
    intro L
    induction L with
    | nil => rfl
    | cons a L ih =>
      rw [List.flatMap_cons, ih]
      unfold frameOut frameAngles
      rw [hf]
      simp
  have e2 : ∀ L : List MFrame, (L.flatMap (descrOut c lev K)).length = L.length := by
    intro L
    induction L with
    | nil => rfl
    | cons a L ih =>
      rw [List.flatMap_cons, List.length_append, ih]
      unfold descrOut frameAngles
      rw [hf]
      simp; omega
  refine ⟨L, if c.want then L.flatMap (descrOut c lev K) else [], ?_, h1, h2, ?_⟩
  · rw [h3, e1]
  · intro hw
    rw [if_pos hw, e2, h1.length_eq]

/-! ## The detected keypoints -/

theorem detectLoop_spec (c : MexCfg) (hc : MexOk c) (o : Int) (oct : List (List ℚ)) (n : Nat) (keys : List Keypoint) (hn : keys ≠ [] → 0 < n)
    (hd : c.want = true → ∀ k ∈ keys, ∀ a ∈ c.orient o oct k, (c.descr o oct k a).isSome) : ∀ (st : MexOut) (F : List MFrame) (D : List (List ℚ)), Has c st F D →
    ∃ st', keys.foldlM (fun st k => (c.orient o oct k).foldlM (fun st a => emit c n o oct k a st) st) st = some st' ∧
      Has c st' (F ++ keys.flatMap fun k => (c.orient o oct k).map fun a => ⟨k.y + 1, k.x + 1, k.sigma, c.halfPi - a⟩)
        (D ++ keys.flatMap fun k => (c.orient o oct k).map fun a => savedRow c.float ((c.descr o oct k a).getD [])) := by
  induction keys with
  | nil => intro st F D h; exact ⟨st, rfl, by simpa using h⟩
  | cons k keys ih =>
    intro st F D h
    obtain ⟨st1, e1, h1⟩ := emits_spec c hc n (hn (by simp)) o oct k (c.orient o oct k) (fun hw => hd hw k (by simp)) st F D h
    obtain ⟨st2, e2, h2⟩ := ih (fun _ => hn (by simp)) (fun hw k' hk' => hd hw k' (by simp [hk'])) st1 _ _ h1
    refine ⟨st2, by rw [List.foldlM_cons, e1]; exact e2, ?_⟩
    rw [List.append_assoc, List.append_assoc] at h2
    exact h2

/-- Specification: the frames of the keypoints detected in an octave: one for each orientation, with rows and columns swapped and counted from one. -/
def detOut (c : MexCfg) (o : Int) (oct : List (List ℚ)) : List MFrame := (c.detect o oct).flatMap fun k => (c.orient o oct k).map fun a => ⟨k.y + 1, k.x + 1, k.sigma, c.halfPi - a⟩

/-- Specification: their descriptors. -/
def detDescr (c : MexCfg) (o : Int) (oct : List (List ℚ)) : List (List ℚ) := (c.detect o oct).flatMap fun k => (c.orient o oct k).map fun a => savedRow c.float ((c.descr o oct k a).getD [])

theorem detOctaves_spec (c : MexCfg) (hc : MexOk c) (f : Filt) (im : List ℚ) (F : Nat → Filt) (hF : ∀ k : Nat, (k : Int) < f.O → AtOctave c.ops f (F k) im k)
    (hF1 : ∀ k : Nat, (k : Int) + 1 < f.O → processNext c.ops (F k) = (.ok, F (k + 1))) (hF2 : ∀ k : Nat, (k : Int) + 1 = f.O → (processNext c.ops (F k)).1 = .eof)
    (hd : c.want = true → ∀ o oct, ∀ k ∈ c.detect o oct, ∀ a ∈ c.orient o oct k, (c.descr o oct k a).isSome) : ∀ (m k i : Nat) (st : MexOut), (k : Int) < f.O → f.O ≤ k + m →
    Has c st ((List.range k).flatMap fun j : Nat => detOut c (f.oMin + j) (F j).octave) ((List.range k).flatMap fun j : Nat => detDescr c (f.oMin + j) (F j).octave) →
    ∃ st', mexOctaves c none m (F k) i st = some st' ∧
      Has c st' ((List.range f.O.toNat).flatMap fun j : Nat => detOut c (f.oMin + j) (F j).octave) ((List.range f.O.toNat).flatMap fun j : Nat => detDescr c (f.oMin + j) (F j).octave) := by
  intro m
  induction m with
  | zero => intro k i st h1 h2; omega
  | succ m ih =>
    intro k i st h1 h2 h
    have hA := hF k h1
    obtain ⟨st1, e1, hh⟩ := detectLoop_spec c hc (F k).oCur (F k).octave (c.detect (F k).oCur (F k).octave).length (c.detect (F k).oCur (F k).octave)
      (fun hne => List.length_pos_iff.mpr hne) (fun hw => hd hw _ _) st _ _ h
    have hstep : Has c st1 ((List.range (k + 1)).flatMap fun j : Nat => detOut c (f.oMin + j) (F j).octave)
        ((List.range (k + 1)).flatMap fun j : Nat => detDescr c (f.oMin + j) (F j).octave) := by
      rw [List.range_succ, List.flatMap_append, List.flatMap_append, List.flatMap_singleton, List.flatMap_singleton]
      unfold detOut detDescr
      unfold detOut detDescr at hh
      rw [hA.cur] at hh
      exact hh
    unfold mexOctaves
    have e0 : mexOctave c (F k) none i st = some (0, st1) := by
      unfold mexOctave detectLoop
      dsimp only
      rw [e1]; rfl
    rw [e0]
    simp only [Option.bind_eq_bind, Option.bind_some]
    by_cases hlast : (k : Int) + 1 = f.O
    · have h3 := hF2 k hlast
      obtain ⟨r, hr⟩ : ∃ r, r = processNext c.ops (F k) := ⟨_, rfl⟩
      rw [← hr] at h3 ⊢
      obtain ⟨e, f'⟩ := r
      dsimp only at h3
      subst h3
      refine ⟨st1, rfl, ?_⟩
      rw [show f.O.toNat = k + 1 by omega]
      exact hstep
    · rw [hF1 k (by omega)]
      dsimp only
      exact ih (k + 1) 0 st1 (by push_cast; omega) (by push_cast; omega) hstep

/-- **C175.**  Without the option `Frames`: the output is that of the octaves in order, of the keypoints of an octave in order, and of the orientations of a keypoint in order; nothing is lost or left
over when the buffers grow.  Every frame has one descriptor. -/
theorem detected_correct (c : MexCfg) (hc : MexOk c) (f : Filt) (hO : 1 ≤ f.O) (im : List ℚ)
    (hd : c.want = true → ∀ o oct, ∀ k ∈ c.detect o oct, ∀ a ∈ c.orient o oct k, (c.descr o oct k a).isSome) (rounds : Nat) (hr : f.O ≤ rounds) :
    ∃ lev : Nat → List (List ℚ), (∀ k : Nat, (k : Int) < f.O → OctaveOf c.ops f.oMin f.S im k (lev k)) ∧
      mexSift c rounds f im none = some ((List.range f.O.toNat).flatMap (fun k : Nat => detOut c (f.oMin + k) (lev k)),
        if c.want then (List.range f.O.toNat).flatMap (fun k : Nat => detDescr c (f.oMin + k) (lev k)) else []) := by
  obtain ⟨F, hF0, hF, hF1, hF2⟩ := at_octave c.ops f im hO
  refine ⟨fun k => (F k).octave, fun k hk => (hF k hk).data, ?_⟩
  obtain ⟨st, e, h⟩ := detOctaves_spec c hc f im F hF hF1 hF2 hd rounds 0 0 ⟨[], [], 0⟩ (by push_cast; omega) (by push_cast; omega)
    ⟨rfl, rfl, le_refl _, fun _ => rfl, fun _ => rfl, fun _ => rfl, rfl⟩
  unfold mexSift
  rw [hF0]
  dsimp only
  rw [e]
  simp only [Option.bind_eq_bind, Option.bind_some]
  rw [h.frames]
  by_cases hw : c.want = true
  · rw [if_pos hw, h.descr hw]
  · rw [if_neg hw, h.none (by simpa using hw)]; simp

/-! ## The hypotheses can be met -/

/-- A driver on octaves of small images, with one keypoint and two orientations in each octave. -/
def exCfg (force want : Bool) : MexCfg := ⟨⟨id, fun _ l => l, fun _ _ l => l, fun _ _ => []⟩, fun s => s / 4, fun o => 2 ^ o, 1, fun _ _ => [⟨0, 1, 1, 0, 1, 2, 0, 1⟩], fun _ _ _ => [0, 2],
  fun _ _ _ a => some (List.replicate 128 (a * a)), ⟨0, 0, 0, 0⟩, [], List.replicate 128 0, force, want, false⟩

theorem exCfg_ok (force want : Bool) : MexOk (exCfg force want) := by
  refine ⟨by simp [exCfg], ?_, ?_⟩
  · intro o oct k a d e
    obtain rfl := Option.some.inj e
    exact List.length_replicate
  · intro o oct k a d e v hv
    obtain rfl := Option.some.inj e
    rw [List.eq_of_mem_replicate hv]
    exact mul_self_nonneg a

/-- C174: three frames of different octaves, not in order. -/
example : ∃ L D, mexSift (exCfg false true) 2 ⟨4, 4, 2, 3, 0, 0, 0, 0, [], 0, []⟩ [1] (some (sourceFrames (List.mergeSort · fun a b => decide (korder a b ≤ 0)) [⟨1, 2, 6, 0⟩, ⟨2, 2, 1, 1⟩, ⟨3, 1, 5, 2⟩])) =
    some (L, D) ∧ L.Perm [⟨1, 2, 6, 0⟩, ⟨2, 2, 1, 1⟩, ⟨3, 1, 5, 2⟩] ∧ L.Pairwise (fun a b => a.sigma ≤ b.sigma) ∧ (true = true → D.length = 3) := by
  refine userFrames_kept (exCfg false true) (exCfg_ok _ _) (fun o => zpow_ne_zero o (by norm_num)) _ (by norm_num) (by norm_num) [1] _ ?_ _ ?_ (fun _ _ _ _ _ _ _ => rfl) 2 (by norm_num) rfl
  · intro l
    refine ⟨List.mergeSort_perm _ _, ?_⟩
    have := List.pairwise_mergeSort (le := fun a b : MFrame => decide (korder a b ≤ 0))
      (fun a b c h1 h2 => by
        simp only [decide_eq_true_eq, (korder_order _ _).1] at h1 h2 ⊢
        exact le_trans h1 h2)
      (fun a b => by
        simp only [Bool.or_eq_true, decide_eq_true_eq, (korder_order _ _).1]
        exact le_total _ _) l
    exact this.imp fun h => by simpa using h
  · intro a _ b _ h
    show a.sigma / 4 ≤ b.sigma / 4
    linarith

/-- C174: the order of the frames, and the orientations with the option. -/
example : (mexSift (exCfg true false) 2 ⟨4, 4, 2, 3, 0, 0, 0, 0, [], 0, []⟩ [1] (some [⟨2, 2, 1, 1⟩, ⟨3, 1, 5, 2⟩])) =
    some ([⟨2, 2, 1, 1⟩, ⟨2, 2, 1, -1⟩, ⟨3, 1, 5, 1⟩, ⟨3, 1, 5, -1⟩], []) := by decide +kernel

/-- C175: two octaves. -/
example : (∃ lev : Nat → List (List ℚ), (∀ k : Nat, (k : Int) < 2 → OctaveOf (exCfg false true).ops 0 3 [1] k (lev k)) ∧ mexSift (exCfg false true) 2 ⟨4, 4, 2, 3, 0, 0, 0, 0, [], 0, []⟩ [1] none =
      some ((List.range 2).flatMap (fun k : Nat => detOut (exCfg false true) (0 + k) (lev k)), (List.range 2).flatMap (fun k : Nat => detDescr (exCfg false true) (0 + k) (lev k)))) ∧
    (mexSift (exCfg false true) 2 ⟨4, 4, 2, 3, 0, 0, 0, 0, [], 0, []⟩ [1] none).map (fun o => (o.1, o.2.map fun d => d.take 2)) =
      some ([⟨3, 2, 1, 1⟩, ⟨3, 2, 1, -1⟩, ⟨3, 2, 1, 1⟩, ⟨3, 2, 1, -1⟩], [[0, 0], [255, 255], [0, 0], [255, 255]]) :=
  ⟨detected_correct (exCfg false true) (exCfg_ok _ _) ⟨4, 4, 2, 3, 0, 0, 0, 0, [], 0, []⟩ (by norm_num) [1] (fun _ _ _ _ _ _ _ => rfl) 2 (by norm_num), by decide +kernel⟩

/-! ## What does not hold -/

/-- The bounds that `vl_sift_calc_keypoint_descriptor` checks, for a keypoint of the current octave of an image of `width` by `height`. -/
def InBounds (xper : Int → ℚ) (width height : Nat) (k : Keypoint) : Prop :=
  0 ≤ trunc (k.x / xper k.o + 1 / 2) ∧ trunc (k.x / xper k.o + 1 / 2) < shiftLeft width (- k.o) ∧ 0 ≤ trunc (k.y / xper k.o + 1 / 2) ∧
    trunc (k.y / xper k.o + 1 / 2) < (shiftLeft height (- k.o) : Int) - 1

instance (xper : Int → ℚ) (width height : Nat) (k : Keypoint) : Decidable (InBounds xper width height k) := by unfold InBounds; infer_instance

/-- The claim: if the descriptor exists for the keypoints in these bounds, then the driver returns a descriptor for every frame with its centre in the image. -/
def LastColumnClaim : Prop := ∀ (c : MexCfg) (f : Filt) (im : List ℚ) (fr : MFrame), MexOk c → (∀ o, c.xper o = 2 ^ o) → (∀ oct k a, (c.descr k.o oct k a).isSome ↔ InBounds c.xper f.width f.height k) →
  1 ≤ f.O → 1 ≤ f.S → 1 ≤ fr.x → fr.x ≤ f.height → 1 ≤ fr.y → fr.y ≤ f.width → ∃ out, mexSift c f.O.toNat f im (some [fr]) = some out

/-- The claim: the frames given are returned, for every number of octaves the driver accepts. -/
def FramesKeptClaim : Prop := ∀ (c : MexCfg) (f : Filt) (im : List ℚ) (fr : MFrame), MexOk c → 0 ≤ f.O → 1 ≤ f.S → c.force = false → c.want = false →
  mexSift c f.O.toNat f im (some [fr]) = some ([fr], [])

/-- C174.  A frame in the last column of the image has no descriptor: the driver reads a buffer that nothing has written. -/
theorem lastColumn_claim_false : ¬ LastColumnClaim := by
  intro h
  let c : MexCfg := ⟨⟨id, fun _ l => l, fun _ _ l => l, fun _ _ => []⟩, fun _ => 0, fun o => 2 ^ o, 1, fun _ _ => [], fun _ _ _ => [],
    fun o _ k _ => if InBounds (fun o => 2 ^ o) 4 4 k then some (List.replicate 128 0) else none, ⟨0, 0, 0, 0⟩, [], List.replicate 128 0, false, true, true⟩
  have hc : MexOk c := by
    refine ⟨by simp [c], ?_, ?_⟩
    · intro o oct k a d e
      dsimp only [c] at e
      split_ifs at e
      obtain rfl := Option.some.inj e
      exact List.length_replicate
    · intro o oct k a d e v hv
      dsimp only [c] at e
      split_ifs at e
      obtain rfl := Option.some.inj e
      rw [List.eq_of_mem_replicate hv]
  obtain ⟨out, e⟩ := h c ⟨4, 4, 1, 1, 0, 0, 0, 0, [], 0, []⟩ [] ⟨4, 2, 1, 0⟩ hc (fun _ => rfl)
    (by intro oct k a; dsimp only [c]; split_ifs with hb <;> simp [hb]) (by norm_num) (by norm_num) (by norm_num) (by norm_num) (by norm_num) (by norm_num)
  have : mexSift c 1 ⟨4, 4, 1, 1, 0, 0, 0, 0, [], 0, []⟩ [] (some [⟨4, 2, 1, 0⟩]) = none := by
    decide +kernel
  exact absurd (e.symm.trans this) (by simp)

/-- C174.  With `Octaves` zero, which the driver accepts, every frame is lost. -/
theorem framesKept_claim_false : ¬ FramesKeptClaim := by
  intro h
  have := h ⟨⟨id, fun _ l => l, fun _ _ l => l, fun _ _ => []⟩, fun _ => 0, fun _ => 1, 1, fun _ _ => [], fun _ _ _ => [], fun _ _ _ _ => none, ⟨0, 0, 0, 0⟩, [], List.replicate 128 0, false, false, true⟩
    ⟨4, 4, 0, 1, 0, 0, 0, 0, [], 0, []⟩ [] ⟨2, 2, 1, 0⟩ ⟨by simp, by simp, by simp⟩ (by norm_num) (by norm_num) rfl rfl
  exact absurd this (by simp [mexSift, processFirst])

end Verif.Sift
