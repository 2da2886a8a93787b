import Verif.Sift.OctaveModel
import Mathlib.Tactic.Linarith
import Mathlib.Tactic.NormNum
import Mathlib.Tactic.Ring

/-!
# C57, C58: the sequence of octaves of a SIFT filter
-/

namespace Verif.Sift

/-- Specification: the levels of an octave with the given first level: each is the one before, smoothed. -/
def IsOctave (ops : Ops) (o : Int) (n : Nat) (base : List ℚ) (levels : List (List ℚ)) : Prop :=
  levels.length = n ∧ levels[0]? = some base ∧ ∀ s, s + 1 < n → ∃ a, levels[s]? = some a ∧ levels[s + 1]? = some (ops.smooth o (s + 1) a)

/-- Specification: octave number `k` of the scale space of an image. -/
inductive OctaveOf (ops : Ops) (oMin : Int) (S : Nat) (im : List ℚ) : Nat → List (List ℚ) → Prop
  | first (l : List (List ℚ)) : IsOctave ops oMin (S + 3) (ops.first im) l → OctaveOf ops oMin S im 0 l
  | next (k : Nat) (l l' : List (List ℚ)) (a : List ℚ) : OctaveOf ops oMin S im k l → l[S]? = some a → IsOctave ops (oMin + (k + 1)) (S + 3) (ops.next (oMin + (k + 1)) a) l' →
      OctaveOf ops oMin S im (k + 1) l'

theorem fillLevels_spec (ops : Ops) (o : Int) (base : List ℚ) (n : Nat) : IsOctave ops o (n + 1) base (fillLevels ops o base n) := by
  induction n with
  | zero => exact ⟨rfl, rfl, by omega⟩
  | succ n ih =>
    obtain ⟨h1, h2, h3⟩ := ih
    refine ⟨by simp [fillLevels, h1], ?_, ?_⟩
    · rw [fillLevels, List.getElem?_append_left (by omega)]; exact h2
    · intro s hs
      rw [fillLevels]
      by_cases e : s = n
      · subst e
        refine ⟨(fillLevels ops o base s)[s]'(by omega), ?_, ?_⟩
        · rw [List.getElem?_append_left (by omega), List.getElem?_eq_getElem]
        · rw [List.getElem?_append_right (by omega)]
          rw [show s + 1 - (fillLevels ops o base s).length = 0 by omega, List.getElem?_cons_zero]
          congr 2
          rw [List.getLastD_eq_getLast?, List.getLast?_eq_getElem?, show (fillLevels ops o base s).length - 1 = s by omega]
          rw [List.getElem?_eq_getElem (by omega)]
          rfl
      · obtain ⟨a, h4, h5⟩ := h3 s (by omega)
        refine ⟨a, ?_, ?_⟩
        · rw [List.getElem?_append_left (by omega)]; exact h4
        · rw [List.getElem?_append_left (by omega)]; exact h5

/-- The calls of `vl_sift_process_next_octave`: the results and the filter after `n` calls. -/
def nexts (ops : Ops) (f : Filt) : Nat → List Err × Filt
  | 0 => ([], f)
  | n + 1 =>
    let (es, f) := nexts ops f n
    let (e, f) := processNext ops f
    (es ++ [e], f)

/-- What holds of a filter after the first octave and `k` next octaves. -/
structure AtOctave (ops : Ops) (f0 f : Filt) (im : List ℚ) (k : Nat) : Prop where
  same : f.width = f0.width ∧ f.height = f0.height ∧ f.O = f0.O ∧ f.S = f0.S ∧ f.oMin = f0.oMin
  cur : f.oCur = f0.oMin + k
  size : f.octaveWidth = shiftLeft f0.width (- (f0.oMin + k)) ∧ f.octaveHeight = shiftLeft f0.height (- (f0.oMin + k))
  data : OctaveOf ops f0.oMin f0.S im k f.octave

theorem processNext_step (ops : Ops) (f0 f : Filt) (im : List ℚ) (k : Nat) (h : AtOctave ops f0 f im k) (hk : (k : Int) ≠ f0.O - 1) :
    ∃ f', processNext ops f = (.ok, f') ∧ AtOctave ops f0 f' im (k + 1) := by
  obtain ⟨⟨s1, s2, s3, s4, s5⟩, hc, -, hd⟩ := h
  unfold processNext
  rw [if_neg (by omega)]
  have hlen : f.octave.length = f0.S + 3 := by
    cases hd with
    | first l h => exact h.1
    | next k l l' a _ _ h => exact h.1
  have hmin : min f.S (f.S + 2) = f0.S := by omega
  have hget : f.octave[f0.S]? = some (f.octave.getD f0.S []) := by
    rw [List.getD_eq_getElem?_getD, List.getElem?_eq_getElem (by omega)]; rfl
  refine ⟨_, rfl, ⟨s1, s2, s3, s4, s5⟩, by simp only; push_cast; omega, ?_, ?_⟩
  · simp only
    rw [s1, s2, hc]
    push_cast
    rw [show f0.oMin + (k : Int) + 1 = f0.oMin + (k + 1) by ring]
    exact ⟨rfl, rfl⟩
  · simp only
    rw [hmin, hc, s4, show f0.oMin + (k : Int) + 1 = f0.oMin + (k + 1) by ring]
    exact OctaveOf.next k _ _ _ hd hget (fillLevels_spec ops _ _ (f0.S + 2))

/-- **C57.**  With at least one octave: after starting an image, whatever was done before with the filter, the first `O - 1` calls for the next octave succeed and give the octaves
of the scale space of this image in order, with their sizes; all later calls report the end and change nothing. -/
theorem octaves_correct (ops : Ops) (f : Filt) (im : List ℚ) (hO : 1 ≤ f.O) :
    (processFirst ops f im).1 = .ok ∧ ∀ n k : Nat, (k : Int) = min (n : Int) (f.O - 1) →
      (nexts ops (processFirst ops f im).2 n).1 = List.replicate k Err.ok ++ List.replicate (n - k) Err.eof ∧
      AtOctave ops f (nexts ops (processFirst ops f im).2 n).2 im k := by
  have h0 : (processFirst ops f im).1 = .ok ∧ AtOctave ops f (processFirst ops f im).2 im 0 := by
    unfold processFirst
    simp only
    rw [if_neg (by omega)]
    exact ⟨rfl, ⟨rfl, rfl, rfl, rfl, rfl⟩, by simp, by simp, OctaveOf.first _ (fillLevels_spec ops _ _ (f.S + 2))⟩
  refine ⟨h0.1, ?_⟩
  intro n
  induction n with
  | zero =>
    intro k hk
    have : k = 0 := by omega
    subst this
    exact ⟨rfl, h0.2⟩
  | succ n ih =>
    intro k hk
    by_cases hlt : (n : Int) < f.O - 1
    · obtain ⟨i1, i2⟩ := ih n (by omega)
      have : k = n + 1 := by omega
      subst this
      obtain ⟨f', e, h'⟩ := processNext_step ops f _ im n i2 (by omega)
      simp only [nexts]
      rw [e]
      refine ⟨?_, h'⟩
      simp only
      rw [i1]
      simp [List.replicate_succ']
    · obtain ⟨i1, i2⟩ := ih k (by omega)
      simp only [nexts]
      have e : processNext ops (nexts ops (processFirst ops f im).2 n).2 = (.eof, (nexts ops (processFirst ops f im).2 n).2) := by
        unfold processNext
        obtain ⟨⟨s1, s2, s3, s4, s5⟩, hc, -, -⟩ := i2
        rw [if_pos (by omega)]
      rw [e]
      refine ⟨?_, i2⟩
      simp only
      rw [i1, List.append_assoc, ← List.replicate_succ', show n - k + 1 = n + 1 - k by omega]

/-- **C57.**  The claim for every number of octaves: the calls end. -/
def OctavesEndClaim : Prop := ∀ (ops : Ops) (f : Filt) (im : List ℚ), 0 ≤ f.O → ∃ n, (processNext ops (nexts ops (processFirst ops f im).2 n).2).1 = .eof

/-- With zero octaves the first call reports the end, but all calls for the next octave succeed. -/
theorem zero_octaves (ops : Ops) (f : Filt) (im : List ℚ) (hO : f.O = 0) :
    (processFirst ops f im).1 = .eof ∧ ∀ n, (processNext ops (nexts ops (processFirst ops f im).2 n).2).1 = .ok := by
  have key : ∀ g : Filt, g.O = 0 → g.oMin ≤ g.oCur → (processNext ops g).1 = .ok ∧ (processNext ops g).2.O = 0 ∧ (processNext ops g).2.oMin ≤ (processNext ops g).2.oCur := by
    intro g h1 h2
    unfold processNext
    rw [if_neg (by omega)]
    exact ⟨rfl, h1, by simp only; omega⟩
  have hf : (processFirst ops f im).1 = .eof ∧ (processFirst ops f im).2.O = 0 ∧ (processFirst ops f im).2.oMin ≤ (processFirst ops f im).2.oCur := by
    unfold processFirst
    simp only
    rw [if_pos hO]
    exact ⟨rfl, hO, le_refl _⟩
  refine ⟨hf.1, ?_⟩
  have : ∀ n, (nexts ops (processFirst ops f im).2 n).2.O = 0 ∧ (nexts ops (processFirst ops f im).2 n).2.oMin ≤ (nexts ops (processFirst ops f im).2 n).2.oCur := by
    intro n
    induction n with
    | zero => exact hf.2
    | succ n ih =>
      simp only [nexts]
      exact (key _ ih.1 ih.2).2
  intro n
  exact (key _ (this n).1 (this n).2).1

theorem octavesEnd_claim_false : ¬ OctavesEndClaim := by
  intro h
  obtain ⟨n, hn⟩ := h ⟨id, fun _ => id, fun _ _ => id, fun _ _ => []⟩ (newFilt 16 16 0 3 0 4 [] []) [] (by decide)
  rw [(zero_octaves _ _ _ rfl).2 n] at hn
  cases hn

/-- The number of octaves of a new filter is positive unless zero is asked for. -/
theorem newFilt_O (width height : Nat) (noctaves : Int) (nlevels : Nat) (oMin maxO : Int) (octave : List (List ℚ)) (grad : List ℚ) (h : noctaves ≠ 0) :
    1 ≤ (newFilt width height noctaves nlevels oMin maxO octave grad).O := by
  unfold newFilt
  simp only
  split
  · exact le_max_right _ _
  · omega

/-- The hypotheses can be met. -/
example : 1 ≤ (newFilt 640 480 (-1) 3 (-1) 8 [] []).O := newFilt_O _ _ _ _ _ _ _ _ (by decide)

/-- A call that a user makes. -/
inductive Call
  | first (im : List ℚ)
  | next
  /-- Orientations or descriptors of keypoints. -/
  | useGradient

/-- The effect of a call. -/
def step (ops : Ops) (f : Filt) : Call → Filt
  | .first im => (processFirst ops f im).2
  | .next => (processNext ops f).2
  | .useGradient => updateGradient ops f

/-- The gradients are those of the current octave. -/
def Fresh (ops : Ops) (f : Filt) : Prop := f.grad = ops.gradients f.oCur f.octave

/-- **C58.**  The intended behaviour: for every history of calls, orientations and descriptors use the gradients of the current octave of the current image. -/
def GradientClaim : Prop := ∀ (ops : Ops) (width height : Nat) (noctaves : Int) (nlevels : Nat) (oMin maxO : Int) (octave : List (List ℚ)) (grad : List ℚ) (calls : List Call),
  1 ≤ noctaves → Fresh ops (step ops (calls.foldl (step ops) (newFilt width height noctaves nlevels oMin maxO octave grad)) .useGradient)

/-- When a second image is started while the gradients are those of the first octave, its descriptors are computed from the gradients of the first image. -/
theorem gradient_claim_false : ¬ GradientClaim := by
  intro h
  have := h ⟨id, fun _ => id, fun _ _ => id, fun _ l => l.getD 0 []⟩ 1 1 1 1 0 0 [] [] [.first [1], .useGradient, .first [2]] (by decide)
  revert this
  unfold Fresh
  decide +kernel

/-- The octave changes to one whose index is not that of the gradients in the filter. -/
def Careful (ops : Ops) (f : Filt) : List Call → Prop
  | [] => True
  | .first im :: cs => f.gradO ≠ f.oMin ∧ Careful ops (step ops f (.first im)) cs
  | .next :: cs => f.gradO ≠ f.oCur + 1 ∧ Careful ops (step ops f .next) cs
  | .useGradient :: cs => Careful ops (step ops f .useGradient) cs

theorem careful_fresh (ops : Ops) (calls : List Call) : ∀ f : Filt, Careful ops f calls → (f.gradO = f.oCur → Fresh ops f) →
    Fresh ops (step ops (calls.foldl (step ops) f) .useGradient) := by
  induction calls with
  | nil =>
    intro f _ h
    change Fresh ops (updateGradient ops f)
    unfold updateGradient
    by_cases e : f.gradO = f.oCur
    · rw [if_pos e]; exact h e
    · rw [if_neg e]; exact rfl
  | cons c cs ih =>
    intro f hc h
    rw [List.foldl_cons]
    cases c with
    | first im =>
      obtain ⟨h1, h2⟩ := hc
      refine ih _ h2 ?_
      intro e
      exfalso
      revert e
      simp only [step, processFirst]
      by_cases e : f.O = 0
      · rw [if_pos e]; exact h1
      · rw [if_neg e]; exact h1
    | next =>
      obtain ⟨h1, h2⟩ := hc
      refine ih _ h2 ?_
      simp only [step, processNext]
      by_cases e : f.oCur = f.oMin + f.O - 1
      · rw [if_pos e]; exact h
      · rw [if_neg e]; intro e'; exact absurd e' h1
    | useGradient =>
      refine ih _ hc ?_
      simp only [step, updateGradient]
      by_cases e : f.gradO = f.oCur
      · rw [if_pos e]; exact h
      · rw [if_neg e]; intro _; exact rfl

/-- **C58.**  It holds for the histories in which the octave never changes to one with the index of the octave whose gradients are in the filter. -/
theorem gradient_fresh_partial (ops : Ops) (width height : Nat) (noctaves : Int) (nlevels : Nat) (oMin maxO : Int) (octave : List (List ℚ)) (grad : List ℚ) (calls : List Call)
    (hc : Careful ops (newFilt width height noctaves nlevels oMin maxO octave grad) calls) :
    Fresh ops (step ops (calls.foldl (step ops) (newFilt width height noctaves nlevels oMin maxO octave grad)) .useGradient) := by
  refine careful_fresh ops calls _ hc ?_
  intro e
  simp only [newFilt] at e
  omega

/-- **C58.**  In particular it holds for the histories of a new filter that start a single image. -/
theorem gradient_one_image_partial (ops : Ops) (width height : Nat) (noctaves : Int) (nlevels : Nat) (oMin maxO : Int) (octave : List (List ℚ)) (grad : List ℚ) (im : List ℚ)
    (calls : List Call) (hone : ∀ c ∈ calls, ∀ im, c ≠ .first im) :
    Fresh ops (step ops ((.first im :: calls).foldl (step ops) (newFilt width height noctaves nlevels oMin maxO octave grad)) .useGradient) := by
  have key : ∀ (calls : List Call), (∀ c ∈ calls, ∀ im, c ≠ .first im) → ∀ f : Filt, f.gradO ≤ f.oCur → Careful ops f calls := by
    intro calls
    induction calls with
    | nil => intro _ _ _; trivial
    | cons c cs ih =>
      intro hone f hf
      have ih := ih (fun c hc => hone c (List.mem_cons_of_mem _ hc))
      cases c with
      | first im => exact absurd rfl (hone _ List.mem_cons_self im)
      | next =>
        refine ⟨by omega, ih _ ?_⟩
        simp only [step, processNext]
        by_cases e : f.oCur = f.oMin + f.O - 1
        · rw [if_pos e]; exact hf
        · rw [if_neg e]; simp only; omega
      | useGradient =>
        refine ih _ ?_
        simp only [step, updateGradient]
        by_cases e : f.gradO = f.oCur
        · rw [if_pos e]; exact hf
        · rw [if_neg e]
  refine gradient_fresh_partial ops _ _ _ _ _ _ _ _ _ ⟨?_, key calls hone _ ?_⟩
  · simp only [newFilt]; omega
  · simp only [step, processFirst]
    by_cases e : (newFilt width height noctaves nlevels oMin maxO octave grad).O = 0
    · rw [if_pos e]; simp only [newFilt]; omega
    · rw [if_neg e]; simp only [newFilt]; omega

/-- The hypotheses can be met, and by a history with two images: gradients are used in both octaves of both. -/
example (ops : Ops) : Careful ops (newFilt 8 8 2 1 0 3 [] []) [.first [1], .useGradient, .next, .useGradient, .first [2], .useGradient, .next] := by
  simp [Careful, newFilt, step, processFirst, processNext, updateGradient]

end Verif.Sift
