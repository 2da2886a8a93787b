import Verif.Slic.CleanLemmas

/-!
# Properties of the elimination of small regions

C36: `clean_correct`.
-/

namespace Verif.Slic

open Relation

section
variable {w h : Nat}

/-- Neighbours with the same label, both already labelled. -/
def Link (w h : Nat) (c : Nat → Nat) (a b : Nat) : Prop := Adj w h a b ∧ c a ≠ 0 ∧ c b = c a

theorem connected_symm {g : Nat → Nat} {a b : Nat} (hc : Connected w h g a b) : Connected w h g b a := by
  induction hc with
  | refl => exact ReflTransGen.refl
  | tail _ h1 ih => exact ReflTransGen.head ⟨adj_symm h1.1, h1.2.symm⟩ ih

theorem connected_label {g : Nat → Nat} {a b : Nat} (hc : Connected w h g a b) : g b = g a := by
  induction hc with
  | refl => rfl
  | tail _ h1 ih => rw [h1.2, ih]

theorem connected_lt {g : Nat → Nat} {a b : Nat} (ha : a < w * h) (hc : Connected w h g a b) : b < w * h := by
  induction hc with
  | refl => exact ha
  | tail _ h1 _ => exact h1.1.2.1

/-- What holds when the pixels before `i` have been visited. -/
structure CInv (w h : Nat) (g : Nat → Nat) (min i : Nat) (c : Nat → Nat) : Prop where
  done : ∀ j < i, c j ≠ 0
  comp : ∀ a < w * h, c a ≠ 0 → ReflTransGen (Link w h c) a 0 ∨ AtLeast min (ReflTransGen (Link w h c) a)
  keep : ∀ a < w * h, c a ≠ 0 → AtLeast min (Connected w h g a) → c a = g a + 1
  from' : ∀ a < w * h, c a ≠ 0 → ∃ k < w * h, c a = g k + 1
  const : ∀ a b, a < w * h → c a ≠ 0 → Connected w h g a b → c b = c a

theorem AtLeast.mono {n : Nat} {S T : Nat → Prop} (hS : AtLeast n S) (hST : ∀ q, S q → T q) : AtLeast n T := by
  obtain ⟨F, h1, h2⟩ := hS
  exact ⟨F, h1, fun q hq => hST q (h2 q hq)⟩

theorem cinv_step {g c0 : Nat → Nat} {min p v : Nat} (hI : CInv w h g min p c0) (hp : p < w * h) (h0 : c0 p = 0) (M : List Nat) (hnd : M.Nodup)
    (hM : ∀ q, q ∈ M ↔ Connected w h g p q)
    (hv : (min ≤ M.length ∧ v = g p + 1) ∨ (M.length < min ∧ ((p = 0 ∧ v = g p + 1) ∨ ∃ q, Adj w h p q ∧ c0 q ≠ 0 ∧ v = c0 q))) :
    CInv w h g min (p + 1) (fun q => if q ∈ M then v else c0 q) := by
  have hv0 : v ≠ 0 := by
    rcases hv with ⟨_, h1⟩ | ⟨_, ⟨_, h1⟩ | ⟨q, _, h2, h3⟩⟩
    · omega
    · omega
    · rw [h3]; exact h2
  have hpM : p ∈ M := (hM p).mpr ReflTransGen.refl
  have hMlt : ∀ q ∈ M, q < w * h := fun q hq => connected_lt hp ((hM q).mp hq)
  have hM0 : ∀ q ∈ M, c0 q = 0 := by
    intro q hq
    by_contra hne
    have := hI.const q p (hMlt q hq) hne (connected_symm ((hM q).mp hq))
    rw [h0] at this
    exact hne this.symm
  have hnM : ∀ q, c0 q ≠ 0 → q ∉ M := fun q hq hm => hq (hM0 q hm)
  set c' : Nat → Nat := fun q => if q ∈ M then v else c0 q with hc'
  have hc'M : ∀ q ∈ M, c' q = v := fun q hq => by simp [hc', hq]
  have hc'n : ∀ q, q ∉ M → c' q = c0 q := fun q hq => by simp [hc', hq]
  have hmono : ∀ a b, ReflTransGen (Link w h c0) a b → ReflTransGen (Link w h c') a b := by
    intro a b hab
    refine ReflTransGen.mono ?_ _ _ hab
    intro x y ⟨h1, h2, h3⟩
    have hy : c0 y ≠ 0 := by rw [h3]; exact h2
    exact ⟨h1, by rw [hc'n x (hnM x h2)]; exact h2, by rw [hc'n x (hnM x h2), hc'n y (hnM y hy)]; exact h3⟩
  have hin : ∀ a ∈ M, ∀ b, Connected w h g a b → b ∈ M ∧ ReflTransGen (Link w h c') a b := by
    intro a ha b hab
    induction hab with
    | refl => exact ⟨ha, ReflTransGen.refl⟩
    | @tail x y hax hxy ih =>
      have hy : y ∈ M := (hM y).mpr (((hM a).mp ha).trans (hax.tail hxy))
      exact ⟨hy, ih.2.tail ⟨hxy.1, by rw [hc'M x ih.1]; exact hv0, by rw [hc'M x ih.1, hc'M y hy]⟩⟩
  have hcase : ∀ a, c' a ≠ 0 → a ∈ M ∨ (a ∉ M ∧ c0 a ≠ 0) := by
    intro a ha
    by_cases m : a ∈ M
    · exact Or.inl m
    · rw [hc'n a m] at ha; exact Or.inr ⟨m, ha⟩
  refine ⟨?_, ?_, ?_, ?_, ?_⟩
  · intro j hj
    by_cases m : j ∈ M
    · rw [hc'M j m]; exact hv0
    · rw [hc'n j m]
      apply hI.done
      have : j ≠ p := fun e => m (e ▸ hpM)
      omega
  · intro a ha hca
    rcases hcase a hca with m | ⟨_, hca⟩
    · have hap : ReflTransGen (Link w h c') a p := (hin a m p (connected_symm ((hM a).mp m))).2
      rcases hv with ⟨hl, _⟩ | ⟨_, ⟨hp0, _⟩ | ⟨q, hq1, hq2, hq3⟩⟩
      · right
        refine ⟨M.toFinset, by rw [List.toFinset_card_of_nodup hnd]; exact hl, ?_⟩
        intro q hq
        rw [List.mem_toFinset] at hq
        exact (hin a m q ((connected_symm ((hM a).mp m)).trans ((hM q).mp hq))).2
      · left; rw [← hp0]; exact hap
      · have haq : ReflTransGen (Link w h c') a q :=
          hap.tail ⟨hq1, by rw [hc'M p hpM]; exact hv0, by rw [hc'M p hpM, hc'n q (hnM q hq2)]; exact hq3.symm⟩
        rcases hI.comp q hq1.2.1 hq2 with h1 | h1
        · exact Or.inl (haq.trans (hmono _ _ h1))
        · exact Or.inr (h1.mono (fun r hr => haq.trans (hmono _ _ hr)))
    · rcases hI.comp a ha hca with h1 | h1
      · exact Or.inl (hmono _ _ h1)
      · exact Or.inr (h1.mono (hmono a))
  · intro a ha hca hbig
    rcases hcase a hca with m | ⟨m, hca⟩
    · rw [hc'M a m, connected_label ((hM a).mp m)]
      rcases hv with ⟨_, h1⟩ | ⟨hl, _⟩
      · exact h1
      · exfalso
        obtain ⟨F, h1, h2⟩ := hbig
        have hsub : F ⊆ M.toFinset := by
          intro q hq
          rw [List.mem_toFinset]
          exact (hin a m q (h2 q hq)).1
        have := Finset.card_le_card hsub
        rw [List.toFinset_card_of_nodup hnd] at this
        omega
    · rw [hc'n a m]; exact hI.keep a ha hca hbig
  · intro a ha hca
    rcases hcase a hca with m | ⟨m, hca⟩
    · rw [hc'M a m]
      rcases hv with ⟨_, h1⟩ | ⟨_, ⟨_, h1⟩ | ⟨q, hq1, hq2, hq3⟩⟩
      · exact ⟨p, hp, h1⟩
      · exact ⟨p, hp, h1⟩
      · rw [hq3]; exact hI.from' q hq1.2.1 hq2
    · rw [hc'n a m]; exact hI.from' a ha hca
  · intro a b ha hca hab
    rcases hcase a hca with m | ⟨m, hca⟩
    · rw [hc'M a m, hc'M b (hin a m b hab).1]
    · have := hI.const a b ha hca hab
      rw [hc'n a m, hc'n b (hnM b (by rw [this]; exact hca)), this]

theorem cleanPixel_spec {seg : List Nat} {g : Nat → Nat} (hs : Arr seg (w * h) g) (hu : ∀ p < w * h, g p + 1 < 2 ^ 32) (min p : Nat) (hp : p < w * h) (cl : List Nat)
    (c0 : Nat → Nat) (hcl : Arr cl (w * h) c0) (hI : CInv w h g min p c0) :
    ∃ cl' c', cleanPixel w h seg min p cl = some cl' ∧ Arr cl' (w * h) c' ∧ CInv w h g min (p + 1) c' := by
  unfold cleanPixel
  rw [hcl.rd hp]
  simp only [Option.bind_eq_bind, Option.bind_some]
  by_cases h0 : c0 p = 0
  swap
  · rw [if_pos h0]
    refine ⟨cl, c0, rfl, hcl, ⟨?_, hI.comp, hI.keep, hI.from', hI.const⟩⟩
    intro j hj
    by_cases e : j = p
    · rw [e]; exact h0
    · exact hI.done j (by omega)
  rw [if_neg (by simpa using h0), hs.rd hp]
  simp only [Option.bind_some]
  have hup : u32 (g p + 1) = g p + 1 := Nat.mod_eq_of_lt (hu p hp)
  rw [hup]
  obtain ⟨cl1, e1, h1⟩ := hcl.wr hp (g p + 1)
  rw [e1]
  simp only [Option.bind_some]
  obtain ⟨r, e2, h2⟩ := findLabel_spec h1 hp (g p)
  rw [e2]
  simp only [Option.bind_some]
  have hinit : Inv w h g c0 p ⟨cl1, [p]⟩ := by
    refine ⟨h1.congr ?_, by simp, ?_⟩
    · intro i _
      simp [upd1]
    · intro q hq
      simp only [List.mem_singleton] at hq
      subst hq
      exact ⟨hp, h0, rfl, ReflTransGen.refl⟩
  obtain ⟨s, e3, hI3, h3, h4⟩ := grow_spec hs hup (w * h + 1) 0 ⟨cl1, [p]⟩ hinit (by omega) (by simp) (by intro i hi; omega)
  rw [e3]
  simp only [Option.bind_some]
  have hpm : p ∈ s.members := h3 p (by simp)
  have hM : ∀ q, q ∈ s.members ↔ Connected w h g p q := by
    intro q
    refine ⟨fun hq => (hI3.mem q hq).2.2.2, ?_⟩
    intro hq
    induction hq with
    | refl => exact hpm
    | @tail a b hpa hab ih =>
      have hlab := connected_label (hpa.tail hab)
      apply h4 a ih b hab.1 _ hlab
      by_contra hne
      have := hI.const b p hab.1.2.1 hne (connected_symm (hpa.tail hab))
      rw [h0] at this
      exact hne this.symm
  have hfind : (p = 0 ∧ r = g p + 1) ∨ ∃ q, Adj w h p q ∧ c0 q ≠ 0 ∧ r = c0 q := by
    have hne : ∀ q, Adj w h p q → upd1 c0 p (g p + 1) q = c0 q := by
      intro q hq
      unfold upd1
      rw [if_neg]
      intro e
      subst e
      obtain ⟨_, _, h5⟩ := hq
      omega
    rcases h2 with ⟨h2, h5⟩ | ⟨q, hq, h5, h6⟩
    · left
      refine ⟨?_, by rw [h2, hup]⟩
      by_contra hp0
      obtain ⟨q, hlt, hadj⟩ := exists_before hp hp0
      have := h5 q hadj
      rw [hne q hadj] at this
      exact hI.done q hlt this
    · right
      rw [hne q hq] at h5 h6
      exact ⟨q, hq, h5, h6⟩
  by_cases hl : s.members.length < min
  · rw [if_pos hl]
    obtain ⟨cl2, e4, h5⟩ := relabel_spec s.members.reverse r s.cleaned _ hI3.arr (fun q hq => (hI3.mem q (List.mem_reverse.mp hq)).1)
    refine ⟨cl2, fun q => if q ∈ s.members then r else c0 q, e4, h5.congr ?_, cinv_step hI hp h0 s.members hI3.nodup hM (Or.inr ⟨hl, hfind⟩)⟩
    intro i _
    simp only [List.mem_reverse]
    by_cases m : i ∈ s.members
    · simp [m]
    · simp [m]
  · rw [if_neg hl]
    exact ⟨s.cleaned, _, rfl, hI3.arr, cinv_step hI hp h0 s.members hI3.nodup hM (Or.inl ⟨by omega, rfl⟩)⟩

/-- C36.  For every segmentation (with labels below `2^32 - 1`), every image size and every minimum size, the elimination of small regions labels every pixel,
stays within its blocks and:
* every connected component of equal labels of the result contains the first pixel or has at least `minRegionSize` pixels;
* a pixel whose component was already that large keeps its label;
* the pixels of one component stay together;
* every label of the result is one of the labels given. -/
theorem clean_correct (w h minRegionSize : Nat) (seg : List Nat) (hlen : seg.length = w * h) (hlab : ∀ l ∈ seg, l + 1 < 2 ^ 32) :
    ∃ out, clean w h minRegionSize seg = some out ∧ out.length = w * h ∧
      (∀ p < w * h, Connected w h (fun q => out.getD q 0) p 0 ∨ AtLeast minRegionSize (Connected w h (fun q => out.getD q 0) p)) ∧
      (∀ p < w * h, AtLeast minRegionSize (Connected w h (fun q => seg.getD q 0) p) → out[p]? = seg[p]?) ∧
      (∀ p < w * h, ∀ q, Connected w h (fun q => seg.getD q 0) p q → out[p]? = out[q]?) ∧
      ∀ l ∈ out, l ∈ seg := by
  have hs : Arr seg (w * h) (fun q => seg.getD q 0) := Arr.of_len' hlen 0
  have hgm : ∀ k < w * h, seg.getD k 0 ∈ seg := by
    intro k hk
    have hk' : k < seg.length := by omega
    simp [List.getD, hk']
  have hu : ∀ p < w * h, seg.getD p 0 + 1 < 2 ^ 32 := fun p hp => hlab _ (hgm p hp)
  obtain ⟨cl, e1, c, hc, hI⟩ := iter_inv (n := w * h) (f := cleanPixel w h seg minRegionSize) (s := List.replicate (w * h) 0)
    (fun i cl => ∃ c, Arr cl (w * h) c ∧ CInv w h (fun q => seg.getD q 0) minRegionSize i c)
    ⟨fun _ => 0, Arr.replicate _ _, ⟨by intro j hj; omega, by simp, by simp, by simp, by simp⟩⟩
    (by
      intro p hp cl ⟨c, hc, hI⟩
      obtain ⟨cl', c', e, h1, h2⟩ := cleanPixel_spec hs hu minRegionSize p hp cl c hc hI
      exact ⟨cl', e, c', h1, h2⟩)
  have hdec : ∀ p < w * h, u32 (c p + (2 ^ 32 - 1)) = c p - 1 := by
    intro p hp
    obtain ⟨k, hk, e⟩ := hI.from' p hp (hI.done p hp)
    have hk' := hu k hk
    unfold u32
    rw [e]
    rw [show seg.getD k 0 + 1 + (2 ^ 32 - 1) = seg.getD k 0 + 2 ^ 32 by omega, Nat.add_mod_right, Nat.mod_eq_of_lt (by omega)]
    omega
  obtain ⟨out, e2, ho⟩ := iter_inv (n := w * h) (f := fun (pixel : Nat) (cleaned : List Nat) => (do
      let c ← rd cleaned pixel
      wr cleaned pixel (u32 (c + (2 ^ 32 - 1))) : Option (List Nat))) (s := cl)
    (fun i out => Arr out (w * h) (fun q => if q < i then c q - 1 else c q)) (hc.congr (by simp)) (by
      intro p hp out ho
      rw [ho.rd hp]
      simp only [Option.bind_eq_bind, Option.bind_some, lt_irrefl, if_false]
      obtain ⟨out', e, h1⟩ := ho.wr hp (u32 (c p + (2 ^ 32 - 1)))
      refine ⟨out', e, h1.congr ?_⟩
      intro i hi
      rw [hdec p hp]
      simp only [upd1]
      by_cases ci : i = p
      · subst ci; simp
      · rw [if_neg ci]
        by_cases cj : i < p
        · rw [if_pos cj, if_pos (by omega)]
        · rw [if_neg cj, if_neg (by omega)])
  have ho' : ∀ p < w * h, out[p]? = some (c p - 1) := by
    intro p hp
    rw [ho.get p hp, if_pos hp]
  have hod : ∀ p < w * h, out.getD p 0 = c p - 1 := by intro p hp; simp [List.getD, ho' p hp]
  have hsd : ∀ p < w * h, seg[p]? = some (seg.getD p 0) := hs.get
  have hlink : ∀ a b, ReflTransGen (Link w h c) a b → Connected w h (fun q => out.getD q 0) a b := by
    intro a b hab
    refine ReflTransGen.mono ?_ _ _ hab
    intro x y ⟨h1, h2, h3⟩
    exact ⟨h1, by simp only [hod x h1.1, hod y h1.2.1, h3]⟩
  refine ⟨out, ?_, ho.len, ?_, ?_, ?_, ?_⟩
  · unfold clean
    simp only [Option.bind_eq_bind] at e2 ⊢
    rw [e1]
    exact e2
  · intro p hp
    rcases hI.comp p hp (hI.done p hp) with h1 | h1
    · exact Or.inl (hlink _ _ h1)
    · exact Or.inr (h1.mono (hlink p))
  · intro p hp hbig
    rw [ho' p hp, hsd p hp, hI.keep p hp (hI.done p hp) hbig]
    rfl
  · intro p hp q hq
    rw [ho' p hp, ho' q (connected_lt hp hq), hI.const p q hp (hI.done p hp) hq]
  · intro l hl
    obtain ⟨p, hp, e⟩ := List.getElem_of_mem hl
    have hp' : p < w * h := by rw [← ho.len]; exact hp
    have h1 := ho' p hp'
    rw [List.getElem?_eq_getElem hp, Option.some_inj] at h1
    obtain ⟨k, hk, e'⟩ := hI.from' p hp' (hI.done p hp')
    rw [← e, h1, e']
    exact hgm k hk

/-- A case: the single pixel of label 2 and the pair of label 1 are absorbed when the minimum is three; the six pixels of label 0 are kept. -/
example : clean 3 3 3 [0, 0, 0, 0, 2, 0, 0, 1, 1] = some [0, 0, 0, 0, 0, 0, 0, 0, 0] ∧ clean 3 3 2 [0, 0, 0, 0, 2, 0, 0, 1, 1] = some [0, 0, 0, 0, 0, 0, 0, 1, 1] := by
  decide +kernel

end

end Verif.Slic
