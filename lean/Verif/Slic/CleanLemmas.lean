import Verif.Flat
import Verif.Slic.Model
import Verif.Slic.Spec
import Mathlib.Data.Finset.Range
import Mathlib.Tactic.Linarith

/-!
# Lemmas about the elimination of small regions
-/

namespace Verif.Slic

/-- Invariant rule for a fold over a list. -/
theorem foldlM_inv {α σ : Type} (P : List α → σ → Prop) (f : σ → α → Option σ) : ∀ (L : List α) (s : σ), P [] s →
    (∀ pre a, a ∈ L → ∀ s, P pre s → ∃ s', f s a = some s' ∧ P (pre ++ [a]) s') → ∃ s', L.foldlM f s = some s' ∧ P L s' := by
  intro L
  induction L using List.reverseRecOn with
  | nil => intro s h _; exact ⟨s, rfl, h⟩
  | append_singleton L a ih =>
    intro s h hs
    obtain ⟨s1, e1, h1⟩ := ih s h (fun pre b hb => hs pre b (by simp [hb]))
    obtain ⟨s2, e2, h2⟩ := hs L a (by simp) s1 h1
    exact ⟨s2, by rw [List.foldlM_append, e1]; simp [e2], h2⟩

section
variable {w h : Nat}

theorem pix_lt {x y : Nat} (hx : x < w) (hy : y < h) : x + y * w < w * h := by
  have := Nat.mul_le_mul_right w (show y + 1 ≤ h by omega)
  rw [Nat.add_mul, Nat.mul_comm h w] at this; omega

theorem pix_mod {x y : Nat} (hx : x < w) : (x + y * w) % w = x := by rw [Nat.add_mul_mod_self_right, Nat.mod_eq_of_lt hx]

theorem pix_div {x y : Nat} (hx : x < w) : (x + y * w) / w = y := by
  rw [Nat.add_mul_div_right _ _ (by omega), Nat.div_eq_of_lt hx, Nat.zero_add]

theorem pix_col {p : Nat} (hp : p < w * h) : p % w < w := Nat.mod_lt _ (by rcases Nat.eq_zero_or_pos w with e | e; (subst e; omega); exact e)

theorem pix_row {p : Nat} (hp : p < w * h) : p / w < h := Nat.div_lt_of_lt_mul hp

theorem adj_symm {p q : Nat} (hpq : Adj w h p q) : Adj w h q p := by
  obtain ⟨h1, h2, h3⟩ := hpq
  exact ⟨h2, h1, by omega⟩

/-- The place in direction `d` is in the image. -/
def InImage (w h p : Nat) (d : Int × Int) : Prop :=
  0 ≤ ((p % w : Nat) : Int) + d.1 ∧ ((p % w : Nat) : Int) + d.1 < w ∧ 0 ≤ ((p / w : Nat) : Int) + d.2 ∧ ((p / w : Nat) : Int) + d.2 < h

theorem dir_adj {p : Nat} (hp : p < w * h) {d : Int × Int} (hd : d ∈ dirs) (hi : InImage w h p d) :
    ∃ q : Nat, ((p % w : Nat) : Int) + d.1 + (((p / w : Nat) : Int) + d.2) * w = (q : Int) ∧ Adj w h p q := by
  obtain ⟨h1, h2, h3, h4⟩ := hi
  obtain ⟨x, ex⟩ := Int.eq_ofNat_of_zero_le h1
  obtain ⟨y, ey⟩ := Int.eq_ofNat_of_zero_le h3
  rw [ex] at h2; rw [ey] at h4
  have hx : x < w := by omega
  have hy : y < h := by omega
  refine ⟨x + y * w, by rw [ex, ey]; push_cast; rfl, hp, pix_lt hx hy, ?_⟩
  rw [pix_mod hx, pix_div hx]
  simp only [dirs, List.mem_cons, List.not_mem_nil, or_false] at hd
  rcases hd with rfl | rfl | rfl | rfl <;> simp only at ex ey <;> omega

theorem adj_dir {p q : Nat} (hpq : Adj w h p q) :
    ∃ d ∈ dirs, InImage w h p d ∧ ((p % w : Nat) : Int) + d.1 + (((p / w : Nat) : Int) + d.2) * w = (q : Int) := by
  obtain ⟨h1, h2, h3⟩ := hpq
  have c1 := pix_col h1
  have c2 := pix_col h2
  have r1 := pix_row h1
  have r2 := pix_row h2
  have key : ∀ d : Int × Int, ((p % w : Nat) : Int) + d.1 = (q % w : Nat) → ((p / w : Nat) : Int) + d.2 = (q / w : Nat) →
      InImage w h p d ∧ ((p % w : Nat) : Int) + d.1 + (((p / w : Nat) : Int) + d.2) * w = (q : Int) := by
    intro d e1 e2
    refine ⟨by unfold InImage; rw [e1, e2]; exact ⟨Int.natCast_nonneg _, by exact_mod_cast c2, Int.natCast_nonneg _, by exact_mod_cast r2⟩, ?_⟩
    rw [e1, e2]
    exact_mod_cast (by rw [Nat.mul_comm]; exact Nat.mod_add_div q w : q % w + q / w * w = q)
  rcases h3 with ⟨h3, h4 | h4⟩ | ⟨h3, h4 | h4⟩
  · exact ⟨(1, 0), by simp [dirs], key _ (by simp only; omega) (by simp only; omega)⟩
  · exact ⟨(-1, 0), by simp [dirs], key _ (by simp only; omega) (by simp only; omega)⟩
  · exact ⟨(0, 1), by simp [dirs], key _ (by simp only; omega) (by simp only; omega)⟩
  · exact ⟨(0, -1), by simp [dirs], key _ (by simp only; omega) (by simp only; omega)⟩

/-- What the growth of a segment keeps: `c0` are the labels before it, `p` its first pixel. -/
structure Inv (w h : Nat) (g c0 : Nat → Nat) (p : Nat) (s : St) : Prop where
  arr : Arr s.cleaned (w * h) (fun q => if q ∈ s.members then g p + 1 else c0 q)
  nodup : s.members.Nodup
  mem : ∀ q ∈ s.members, q < w * h ∧ c0 q = 0 ∧ g q = g p ∧ Connected w h g p q

theorem Inv.length_le {g c0 : Nat → Nat} {p : Nat} {s : St} (hI : Inv w h g c0 p s) : s.members.length ≤ w * h := by
  have h1 : s.members.toFinset ⊆ Finset.range (w * h) := by
    intro q hq
    rw [List.mem_toFinset] at hq
    exact Finset.mem_range.mpr (hI.mem q hq).1
  have h2 := Finset.card_le_card h1
  rwa [List.toFinset_card_of_nodup hI.nodup, Finset.card_range] at h2

variable {seg : List Nat} {g c0 : Nat → Nat} {p : Nat}

theorem expand_spec (hs : Arr seg (w * h) g) (hu : u32 (g p + 1) = g p + 1) (o : Nat) (s : St) (hI : Inv w h g c0 p s) (ho : o ∈ s.members) :
    ∃ s', expand w h seg (g p) o s = some s' ∧ Inv w h g c0 p s' ∧ (∃ t, s'.members = s.members ++ t) ∧
      ∀ q, Adj w h o q → c0 q = 0 → g q = g p → q ∈ s'.members := by
  obtain ⟨ho1, ho2, ho3, ho4⟩ := hI.mem o ho
  unfold expand
  obtain ⟨s', e, h1, h2, h3⟩ := foldlM_inv
    (fun (pre : List (Int × Int)) (s' : St) => Inv w h g c0 p s' ∧ (∃ t, s'.members = s.members ++ t) ∧
      ∀ d ∈ pre, InImage w h o d → ∀ q : Nat, ((o % w : Nat) : Int) + d.1 + (((o / w : Nat) : Int) + d.2) * w = (q : Int) → c0 q = 0 → g q = g p → q ∈ s'.members)
    (fun (s : St) (d : Int × Int) =>
      if 0 ≤ ((o % w : Nat) : Int) + d.1 ∧ ((o % w : Nat) : Int) + d.1 < w ∧ 0 ≤ ((o / w : Nat) : Int) + d.2 ∧ ((o / w : Nat) : Int) + d.2 < h then do
        let c ← rdI s.cleaned (((o % w : Nat) : Int) + d.1 + (((o / w : Nat) : Int) + d.2) * w)
        if c = 0 then do
          let l ← rdI seg (((o % w : Nat) : Int) + d.1 + (((o / w : Nat) : Int) + d.2) * w)
          if l = g p then do
            let cleaned ← wrI s.cleaned (((o % w : Nat) : Int) + d.1 + (((o / w : Nat) : Int) + d.2) * w) (u32 (g p + 1))
            if s.members.length < w * h then some ⟨cleaned, s.members ++ [(((o % w : Nat) : Int) + d.1 + (((o / w : Nat) : Int) + d.2) * w).toNat]⟩ else none
          else some s
        else some s
      else some s) dirs s ⟨hI, ⟨[], by simp⟩, by simp⟩ (by
    intro pre d hd s' ⟨hI', ⟨t, ht⟩, hpre⟩
    by_cases c : InImage w h o d
    swap
    · have c' : ¬ (0 ≤ ((o % w : Nat) : Int) + d.1 ∧ ((o % w : Nat) : Int) + d.1 < w ∧ 0 ≤ ((o / w : Nat) : Int) + d.2 ∧ ((o / w : Nat) : Int) + d.2 < h) := c
      rw [if_neg c']
      refine ⟨s', rfl, hI', ⟨t, ht⟩, ?_⟩
      intro d' hd' hin
      rcases List.mem_append.mp hd' with hd' | hd'
      · exact hpre d' hd' hin
      · rw [List.mem_singleton] at hd'; subst hd'; exact absurd hin c
    have c' : (0 ≤ ((o % w : Nat) : Int) + d.1 ∧ ((o % w : Nat) : Int) + d.1 < w ∧ 0 ≤ ((o / w : Nat) : Int) + d.2 ∧ ((o / w : Nat) : Int) + d.2 < h) := c
    rw [if_pos c']
    obtain ⟨q, eq, hadj⟩ := dir_adj ho1 hd c
    have hq := hadj.2.1
    rw [eq]
    simp only [rdI_nat, wrI_nat, Int.toNat_natCast, hI'.arr.rd hq, hs.rd hq, Option.bind_eq_bind, Option.bind_some]
    have hdone : ∀ s'' : St, (∀ r ∈ s'.members, r ∈ s''.members) → (c0 q = 0 → g q = g p → q ∈ s''.members) → 
        ∀ d' ∈ pre ++ [d], InImage w h o d' → ∀ r : Nat, ((o % w : Nat) : Int) + d'.1 + (((o / w : Nat) : Int) + d'.2) * w = (r : Int) → c0 r = 0 → g r = g p → r ∈ s''.members := by
      intro s'' hsub hqq d' hd' hin r er h0 hg
      rcases List.mem_append.mp hd' with hd' | hd'
      · exact hsub r (hpre d' hd' hin r er h0 hg)
      · rw [List.mem_singleton] at hd'
        subst hd'
        rw [eq] at er
        have : q = r := by exact_mod_cast er
        subst this
        exact hqq h0 hg
    by_cases m : q ∈ s'.members
    · rw [if_pos m, if_neg (by omega)]
      exact ⟨s', rfl, hI', ⟨t, ht⟩, hdone s' (fun r hr => hr) (fun _ _ => m)⟩
    rw [if_neg m]
    by_cases z : c0 q = 0
    swap
    · rw [if_neg z]
      exact ⟨s', rfl, hI', ⟨t, ht⟩, hdone s' (fun r hr => hr) (fun h0 _ => absurd h0 z)⟩
    rw [if_pos z]
    by_cases l : g q = g p
    swap
    · rw [if_neg l]
      exact ⟨s', rfl, hI', ⟨t, ht⟩, hdone s' (fun r hr => hr) (fun _ h1 => absurd h1 l)⟩
    rw [if_pos l, hu]
    obtain ⟨cl, ecl, hcl⟩ := hI'.arr.wr hq (g p + 1)
    rw [ecl]
    simp only [Option.bind_some]
    have hInew : Inv w h g c0 p ⟨cl, s'.members ++ [q]⟩ := by
      refine ⟨hcl.congr ?_, ?_, ?_⟩
      · intro i _
        simp only [upd1, List.mem_append, List.mem_singleton]
        by_cases ci : i = q
        · rw [if_pos ci, if_pos (Or.inr ci)]
        · rw [if_neg ci]; simp [ci]
      · simp only
        rw [List.nodup_append]
        refine ⟨hI'.nodup, by simp, ?_⟩
        intro a ha b hb hab
        rw [List.mem_singleton] at hb
        exact m (by rw [← hb, ← hab]; exact ha)
      · intro r hr
        simp only [List.mem_append, List.mem_singleton] at hr
        rcases hr with hr | rfl
        · exact hI'.mem r hr
        · exact ⟨hq, z, l, ho4.tail ⟨hadj, by rw [l, ho3]⟩⟩
    have hlen := hInew.length_le
    simp only [List.length_append, List.length_singleton] at hlen
    rw [if_pos (by omega)]
    exact ⟨_, rfl, hInew, ⟨t ++ [q], by simp [ht]⟩, hdone _ (fun r hr => by simp [hr]) (fun _ _ => by simp)⟩)
  refine ⟨s', e, h1, h2, ?_⟩
  intro q hq h0 hg
  obtain ⟨d, hd, hin, eq⟩ := adj_dir hq
  exact h3 d hd hin q eq h0 hg

theorem grow_spec (hs : Arr seg (w * h) g) (hu : u32 (g p + 1) = g p + 1) : ∀ (fuel k : Nat) (s : St), Inv w h g c0 p s → w * h < fuel + k → k ≤ s.members.length →
    (∀ i < k, ∀ o, s.members[i]? = some o → ∀ q, Adj w h o q → c0 q = 0 → g q = g p → q ∈ s.members) →
    ∃ s', grow w h seg (g p) fuel k s = some s' ∧ Inv w h g c0 p s' ∧ (∀ q ∈ s.members, q ∈ s'.members) ∧
      ∀ o ∈ s'.members, ∀ q, Adj w h o q → c0 q = 0 → g q = g p → q ∈ s'.members := by
  intro fuel
  induction fuel with
  | zero =>
    intro k s hI hf hk
    have := hI.length_le
    omega
  | succ fuel ih =>
    intro k s hI hf hk hc
    unfold grow
    by_cases c : k < s.members.length
    · rw [if_pos c, rd_of_lt c]
      simp only [Option.bind_eq_bind, Option.bind_some]
      obtain ⟨s1, e1, hI1, ⟨t, ht⟩, h1⟩ := expand_spec hs hu s.members[k] s hI (List.getElem_mem c)
      rw [e1]
      simp only [Option.bind_some]
      have hsub : ∀ q ∈ s.members, q ∈ s1.members := by intro q hq; rw [ht]; simp [hq]
      obtain ⟨s2, e2, hI2, h2, h3⟩ := ih (k + 1) s1 hI1 (by omega) (by rw [ht, List.length_append]; omega) (by
        intro i hi o ho q hq h0 hg
        rw [ht, List.getElem?_append_left (by omega)] at ho
        by_cases ci : i = k
        · subst ci
          rw [List.getElem?_eq_getElem c, Option.some_inj] at ho
          subst ho
          exact h1 q hq h0 hg
        · exact hsub q (hc i (by omega) o ho q hq h0 hg))
      exact ⟨s2, e2, hI2, fun q hq => h2 q (hsub q hq), h3⟩
    · rw [if_neg c]
      refine ⟨s, rfl, hI, fun q hq => hq, ?_⟩
      intro o ho
      obtain ⟨i, hi, e⟩ := List.getElem_of_mem ho
      exact hc i (by omega) o (by rw [List.getElem?_eq_getElem hi, e])

/-- The label found is that of a neighbour already cleaned, if there is one. -/
theorem findLabel_spec {cleaned : List Nat} {c : Nat → Nat} (hc : Arr cleaned (w * h) c) (hp : p < w * h) (label : Nat) :
    ∃ r, findLabel w h cleaned p label = some r ∧
      ((r = u32 (label + 1) ∧ ∀ q, Adj w h p q → c q = 0) ∨ ∃ q, Adj w h p q ∧ c q ≠ 0 ∧ r = c q) := by
  unfold findLabel
  obtain ⟨r, e, hr⟩ := foldlM_inv
    (fun (pre : List (Int × Int)) (r : Nat) =>
      ((r = u32 (label + 1) ∧ ∀ d ∈ pre, InImage w h p d → ∀ q : Nat, ((p % w : Nat) : Int) + d.1 + (((p / w : Nat) : Int) + d.2) * w = (q : Int) → c q = 0) ∨
        ∃ q, Adj w h p q ∧ c q ≠ 0 ∧ r = c q))
    (fun (cleanedLabel : Nat) (d : Int × Int) =>
      if 0 ≤ ((p % w : Nat) : Int) + d.1 ∧ ((p % w : Nat) : Int) + d.1 < w ∧ 0 ≤ ((p / w : Nat) : Int) + d.2 ∧ ((p / w : Nat) : Int) + d.2 < h then do
        let c ← rdI cleaned (((p % w : Nat) : Int) + d.1 + (((p / w : Nat) : Int) + d.2) * w)
        if c ≠ 0 then some c else some cleanedLabel
      else some cleanedLabel) dirs (u32 (label + 1)) (Or.inl ⟨rfl, by simp⟩) (by
    intro pre d hd r hr
    by_cases cc : InImage w h p d
    swap
    · have c' : ¬ (0 ≤ ((p % w : Nat) : Int) + d.1 ∧ ((p % w : Nat) : Int) + d.1 < w ∧ 0 ≤ ((p / w : Nat) : Int) + d.2 ∧ ((p / w : Nat) : Int) + d.2 < h) := cc
      rw [if_neg c']
      refine ⟨r, rfl, hr.imp ?_ id⟩
      rintro ⟨h1, h2⟩
      refine ⟨h1, ?_⟩
      intro d' hd' hin
      rcases List.mem_append.mp hd' with hd' | hd'
      · exact h2 d' hd' hin
      · rw [List.mem_singleton] at hd'; subst hd'; exact absurd hin cc
    have c' : (0 ≤ ((p % w : Nat) : Int) + d.1 ∧ ((p % w : Nat) : Int) + d.1 < w ∧ 0 ≤ ((p / w : Nat) : Int) + d.2 ∧ ((p / w : Nat) : Int) + d.2 < h) := cc
    rw [if_pos c']
    obtain ⟨q, eq, hadj⟩ := dir_adj hp hd cc
    rw [eq]
    simp only [rdI_nat, hc.rd hadj.2.1, Option.bind_eq_bind, Option.bind_some]
    by_cases z : c q = 0
    · rw [if_neg (by simpa using z)]
      refine ⟨r, rfl, hr.imp ?_ id⟩
      rintro ⟨h1, h2⟩
      refine ⟨h1, ?_⟩
      intro d' hd' hin q' eq'
      rcases List.mem_append.mp hd' with hd' | hd'
      · exact h2 d' hd' hin q' eq'
      · rw [List.mem_singleton] at hd'
        subst hd'
        rw [eq] at eq'
        have : q = q' := by exact_mod_cast eq'
        rw [← this]; exact z
    · rw [if_pos z]
      exact ⟨_, rfl, Or.inr ⟨q, hadj, z, rfl⟩⟩)
  refine ⟨r, e, hr.imp ?_ id⟩
  rintro ⟨h1, h2⟩
  refine ⟨h1, ?_⟩
  intro q hq
  obtain ⟨d, hd, hin, eq⟩ := adj_dir hq
  exact h2 d hd hin q eq

/-- Every pixel but the first has a neighbour before it. -/
theorem exists_before {p : Nat} (hp : p < w * h) (h0 : p ≠ 0) : ∃ q, q < p ∧ Adj w h p q := by
  have c1 := pix_col hp
  have r1 := pix_row hp
  have e := Nat.mod_add_div p w
  by_cases c : p % w = 0
  · have hr : p / w ≠ 0 := by intro hr; rw [hr, c] at e; simp at e; omega
    obtain ⟨r, hr'⟩ := Nat.exists_eq_succ_of_ne_zero hr
    refine ⟨0 + r * w, ?_, hp, pix_lt (by omega) (by omega), ?_⟩
    · rw [hr', Nat.mul_succ, Nat.mul_comm] at e; omega
    · rw [pix_mod (by omega), pix_div (by omega)]; omega
  · have hq : p - 1 = (p % w - 1) + (p / w) * w := by rw [Nat.mul_comm]; omega
    refine ⟨p - 1, by omega, hp, by omega, ?_⟩
    rw [hq, pix_mod (by omega), pix_div (by omega)]; omega

theorem relabel_spec (L : List Nat) (v : Nat) : ∀ (cl : List Nat) (f : Nat → Nat), Arr cl (w * h) f → (∀ q ∈ L, q < w * h) →
    ∃ cl', L.foldlM (fun cl q => wr cl q v) cl = some cl' ∧ Arr cl' (w * h) (fun q => if q ∈ L then v else f q) := by
  induction L with
  | nil => intro cl f hf _; exact ⟨cl, rfl, hf.congr (by simp)⟩
  | cons a L ih =>
    intro cl f hf hL
    obtain ⟨c1, e1, h1⟩ := hf.wr (hL a (by simp)) v
    obtain ⟨c2, e2, h2⟩ := ih c1 _ h1 (fun q hq => hL q (by simp [hq]))
    refine ⟨c2, by rw [List.foldlM_cons, e1]; exact e2, h2.congr ?_⟩
    intro i _
    simp only [upd1, List.mem_cons]
    by_cases m : i ∈ L
    · simp [m]
    · by_cases ia : i = a
      · simp [ia]
      · simp [m, ia]

end

end Verif.Slic
