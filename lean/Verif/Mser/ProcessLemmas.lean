import Verif.Mser.SelectLemmas
import Verif.Mser.GrowProps

/-!
# The whole detector
-/

namespace Verif.Mser

open Verif.Erfill (Touch coords stridesFrom)

theorem numPixels_eq (dims : List Nat) : numPixels dims = dims.prod := by
  unfold numPixels
  have : ∀ (l : List Nat) (s : Nat), l.foldl (fun s d => s * d) s = s * l.prod := by
    intro l
    induction l with
    | nil => intro s; simp
    | cons d l ih => intro s; rw [List.foldl_cons, ih, List.prod_cons, Nat.mul_assoc]
  rw [this, Nat.one_mul]

/-- What `process` does, in terms of the functions that describe the arrays. -/
theorem process_spec (P : Params) (dims im : List Nat) (hl : im.length = dims.prod) (h256 : ∀ v ∈ im, v < 256) (hsmall : dims.prod < 2 ^ 32) (h0 : 0 < dims.prod) (perm0 : List Nat)
    (hp0 : perm0.length = dims.prod) (r0 : List Reg) (hr0 : r0.length = dims.prod) (erBuf : Nat → List Er) (herb : ∀ n, n ≤ (erBuf n).length) :
    ∃ o r f f' g₀ g₁ g m, process P dims im perm0 r0 erBuf = some o ∧ o.perm.Perm (List.range dims.prod) ∧ Final dims im r o.joins f ∧ Arr o.r dims.prod f' ∧
      (∀ p < dims.prod, (f' p).parent = (f p).parent ∧ (f' p).area = (f p).area) ∧ o.ner = (extList im f o.perm).length ∧ o.nextremal = o.ner ∧
      o.ner ≤ m ∧ Arr o.er m g ∧ Tree dims im (extList im f o.perm) g ∧ SameTree o.ner g₀ g ∧
      (∀ k < o.ner, ∃ t, IsTop g₀ ((g₀ k).value + P.delta) k t ∧ (g k).variation = (((g₀ t).area : ℚ) - (g₀ k).area) / (g₀ k).area) ∧ SameRec o.ner g₁ g ∧
      (∀ k < o.ner, (g₁ k).maxStable = true ↔ Stable o.ner g k) ∧ o.nunstable = (o.ner : Int) - marked o.ner g₁ ∧
      o.counts.nmer = (marked o.ner g : Int) ∧
      (∀ k < o.ner, (g k).maxStable = true ↔ (g₁ k).maxStable = true ∧ GoodSize P dims.prod (g₁ k) ∧ Diverse P g k) ∧
      o.counts.nbad = tally o.ner (fun k => (g₁ k).maxStable && decide (P.maxVariation ≤ (g₁ k).variation)) ∧
      o.counts.nbig = tally o.ner (fun k => (g₁ k).maxStable && decide ((g₁ k).variation < P.maxVariation ∧ P.maxArea * dims.prod < (g₁ k).area)) ∧
      o.counts.nsmall = tally o.ner (fun k => (g₁ k).maxStable && decide ((g₁ k).variation < P.maxVariation ∧ ((g₁ k).area : ℚ) ≤ P.maxArea * dims.prod ∧ ((g₁ k).area : ℚ) < P.minArea * dims.prod)) ∧
      o.counts.nbad + o.counts.nbig + o.counts.nsmall + o.counts.ndup + marked o.ner g = marked o.ner g₁ ∧
      o.mer = ((List.range o.ner).filter (fun k => (g k).maxStable)).map (fun k => (g k).index) := by
  have hvoid : dims.prod ≤ void := by unfold void; omega
  unfold process
  simp only [numPixels_eq]
  have hl' := hl
  obtain ⟨perm, e1, hperm, hsort⟩ := sortPixels_correct im h256 perm0 (by omega)
  rw [hl] at e1 hperm
  rw [e1]
  simp only [Option.bind_eq_bind, Option.bind_some]
  obtain ⟨r, fr, e2, hr, hrv⟩ := initForest_spec (nel := dims.prod) hr0
  rw [e2]
  simp only [Option.bind_some]
  obtain ⟨s, f, e3, F, hner⟩ := grow_final hl hvoid hperm hsort hr hrv
  rw [e3]
  simp only [Option.bind_some]
  have hlen := extList_length F hperm h0
  rw [← hner] at hlen
  obtain ⟨r', f', er1, g1, e4, hr', her1, hf', hg1⟩ := extract_spec hl hperm F (er := erBuf (s.ner + 1)) (by rw [hlen]; exact herb _)
  rw [e4]
  simp only [Option.bind_some]
  have hcap : (extList im f perm).length ≤ er1.length := by rw [her1.len, hlen]; exact herb _
  rw [← her1.len] at her1
  obtain ⟨er2, g2, e5, her2, hT, hsc⟩ := link_spec hvoid hperm hsort F hr' her1 hcap (fun p hp => ⟨(hf' p hp).1, (hf' p hp).2.2⟩) hg1
  rw [e5]
  simp only [Option.bind_some]
  have hS := hT.shape
  obtain ⟨er3, g3, e6, her3, hst3, hv3⟩ := variations_spec hS her2 hcap hsc P.delta
  rw [e6]
  simp only [Option.bind_some]
  have hS3 := hst3.shape hS
  obtain ⟨er4, g4, c4, e7, her4, hsr4, hms4, hc4⟩ := selectStable_spec hS3 her3 hcap (fun k hk => (hv3 k hk).1)
  rw [e7]
  simp only [Option.bind_some]
  have hS4 := hsr4.tree.shape hS3
  rw [hc4]
  obtain ⟨er5, g5, c5, e8, her5, hsr5, hn5, hk5, hb1, hb2, hb3, hsum⟩ := filterStable_spec (P := P) (nel := dims.prod) hS4 her4 hcap
  rw [e8]
  simp only [Option.bind_some]
  rw [if_neg (by rw [hn5]; omega), hn5, Int.toNat_natCast, saveStable_spec her5 hcap]
  refine ⟨_, s.r, f, f', g2, g4, g5, er1.length, rfl, hperm, F, hr', fun p hp => ⟨(hf' p hp).1, (hf' p hp).2.1⟩, rfl, by simp only; omega, hcap, her5, ?_, ?_, ?_, hsr5, ?_, rfl, hn5, hk5, hb1, hb2, hb3, hsum, rfl⟩
  · have hall := ((hst3.trans hsr4.tree).trans hsr5.tree)
    have hlt : ∀ {i p : Nat}, (extList im f perm)[i]? = some p → i < (extList im f perm).length := fun {i p} h => by rw [List.getElem?_eq_some_iff] at h; exact h.1
    refine ⟨?_, hT.lt, hT.nodup, hT.sorted, ?_, ?_⟩
    · intro i p hp; rw [(hall i (hlt hp)).2.1, (hall i (hlt hp)).2.2.1]; exact hT.index i p hp
    · intro i p hp; rw [(hall i (hlt hp)).1]; exact hT.parent i p hp
    · intro i p hp; rw [(hall i (hlt hp)).2.2.2]; exact hT.area i p hp
  · exact (hst3.trans hsr4.tree).trans hsr5.tree
  · intro k hk
    obtain ⟨_, t, ht, hv⟩ := hv3 k hk
    refine ⟨t, ht, ?_⟩
    rw [← hv]
    exact (hsr5.var hk).trans (hsr4.var hk)
  · intro k hk
    rw [hms4 k hk]
    have hall := (hsr4.trans hsr5)
    have key : ∀ j < (extList im f perm).length, (Loses g3 j k ↔ Loses g5 j k) := by
      intro j hj
      unfold Loses
      have hp := hS3.par_lt j hj
      rw [(hall.tree j hj).1, (hall.tree j hj).2.2.1, (hall.tree _ hp).2.2.1, hall.var hj, hall.var hp]
    unfold Stable
    constructor
    · intro h j hj; rw [← key j hj]; exact h j hj
    · intro h j hj; rw [key j hj]; exact h j hj

end Verif.Mser
