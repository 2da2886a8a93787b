import Verif.Homker.Lemmas
import Mathlib.Data.Int.Log
import Mathlib.Analysis.SpecialFunctions.Pow.Real
import Mathlib.Analysis.SpecialFunctions.Trigonometric.Basic

/-!
# Properties of the homogeneous kernel map
-/

namespace Verif.Homker

open Spec

set_option linter.unusedSectionVars false

variable {K : Type} [Field K] [LinearOrder K] [IsStrictOrderedRing K]

/-- The table stores the values of `Psi` at the points of the grid. -/
structure Tabulates (M : Map K) (order : Nat) (Psi : K → Nat → K) : Prop where
  ord : M.order = order
  num : M.numSubdivisions = 8 + 8 * order
  subdivision : M.subdivision = 1 / ((8 + 8 * order : Nat) : K)
  table : ∀ i < 29 * (8 + 8 * order), ∀ j < 2 * order + 1, rd M.table (i * (2 * order + 1) + j) = some (Psi (grid (8 + 8 * order) i) j)

/-- The period in use: the one of the caller, or the default one if the caller gives a negative number. -/
def inUse (F : Fns K) (k : Kernel) (w : Window) (order : Nat) (period : K) : K := if period < 0 then Spec.defaultPeriod F order k w else period

/-- **The table of every map is the closed form of the feature map**, sampled at the points of the grid: no access is out of bounds, no square root is taken of a negative number. -/
theorem new_correct {F : Fns K} (hF : IsFns F) (kernel : Kernel) (window : Window) {gamma : K} (hg : 0 < gamma) (order : Nat) {period : K} (hp : period ≠ 0) {block : List K}
    (hb : block.length = (2 * order + 1) * ((8 + 8 * order) * 29) + 2 * (1 + order)) :
    ∃ M T freq, new F kernel gamma order period window block = some M ∧ T = inUse F kernel window order period ∧ 0 < T ∧
      IsSampling (fun j => smooth F kernel T (j * (2 * F.pi / T)) window) order freq ∧
      Tabulates M order (psi F gamma (2 * F.pi / T) (fun j => smooth F kernel T (j * (2 * F.pi / T)) window) freq) := by
  have hT : ∃ T, periodOf F kernel window order period = some T ∧ T = inUse F kernel window order period ∧ 0 < T := by
    unfold inUse periodOf
    by_cases h : period < 0
    · exact ⟨_, by rw [if_pos h, defaultPeriod_eq], by rw [if_pos h], lt_of_lt_of_le one_pos (one_le_defaultPeriod _ _ _)⟩
    · exact ⟨period, by rw [if_neg h], by rw [if_neg h], lt_of_le_of_ne (not_lt.1 h) (Ne.symm hp)⟩
  obtain ⟨T, eT, hT1, hT2⟩ := hT
  have hL : 0 < 2 * F.pi / T := div_pos (mul_pos two_pos hF.pi) hT2
  have hn : (((8 + 8 * order : Nat)) : K) ≠ 0 := by
    have : (0 : K) < ((8 + 8 * order : Nat) : K) := by exact_mod_cast (by omega : 0 < 8 + 8 * order)
    exact this.ne'
  obtain ⟨b, g, freq, e1, h1, h2, h3, h4⟩ := sampleLoop_eq (F := F) kernel window (T := T) (L := 2 * F.pi / T) (order := order) (kappa := (2 * order + 1) * ((8 + 8 * order) * 29))
    (fq := (2 * order + 1) * ((8 + 8 * order) * 29) + (1 + order)) (M := (2 * order + 1) * ((8 + 8 * order) * 29) + 2 * (1 + order)) (by omega) rfl
    (S := fun j => smooth F kernel T (j * (2 * F.pi / T)) window) (fun j => smooth_eq hF kernel window hT2 _) (3 * order + 2) ⟨block, 0, 0⟩ _ (fun _ => 0)
    { block := Arr.of_len' hb 0, le := Nat.zero_le _, kap := fun i hi => absurd hi (Nat.not_lt_zero i), frq := fun i hi => absurd hi (Nat.not_lt_zero i), zero := fun _ => rfl, zero' := fun _ => rfl,
      incr := fun i hi => absurd hi (Nat.not_lt_zero _), bound := fun i hi => absurd hi (Nat.not_lt_zero i), skip := fun i hi => absurd hi (Nat.not_lt_zero _), pos := fun i hi => absurd hi (Nat.not_lt_zero i),
      lt := fun i hi => absurd hi (Nat.succ_ne_zero i), jle := fun h => absurd h (Nat.lt_irrefl 0), jle' := Nat.zero_le _ } rfl
  obtain ⟨s, g', e2, h5, h6⟩ := fill_eq hF (gamma := gamma) hL (S := fun j => smooth F kernel T (j * (2 * F.pi / T)) window) (fun j => smooth_nonneg hF kernel window T _) (freq := freq)
    (M := (2 * order + 1) * ((8 + 8 * order) * 29) + 2 * (1 + order)) (kappa := (2 * order + 1) * ((8 + 8 * order) * 29)) (fq := (2 * order + 1) * ((8 + 8 * order) * 29) + (1 + order)) (by omega) rfl
    (num := 8 + 8 * order) (by omega) rfl h1 h3 h4
  refine ⟨⟨order, 8 + 8 * order, 1 / ((8 + 8 * order : Nat) : K), s.1⟩, T, freq, ?_, hT1, hT2, h2, rfl, rfl, rfl, ?_⟩
  · unfold new assert'
    rw [if_pos (by simpa using hg)]
    simp only [Option.bind_eq_bind, Option.bind_some]
    rw [eT]
    simp only [Option.bind_some]
    rw [divv_of hn]
    simp only [Option.bind_some]
    rw [if_pos (by simpa using hb)]
    simp only [Option.bind_some]
    rw [divv_of hT2.ne']
    simp only [Option.bind_some]
    rw [e1]
    simp only [Option.bind_some, Option.pure_def]
    rw [e2]
    rfl
  · intro i hi j hj
    have hlt : i * (2 * order + 1) + j < (2 * order + 1) * ((8 + 8 * order) * 29) + 2 * (1 + order) := by
      have : (i + 1) * (2 * order + 1) ≤ 29 * (8 + 8 * order) * (2 * order + 1) := Nat.mul_le_mul_right _ hi
      rw [Nat.add_mul, Nat.one_mul] at this
      have e : 29 * (8 + 8 * order) * (2 * order + 1) = (2 * order + 1) * ((8 + 8 * order) * 29) := by ring
      omega
    rw [h5.rd hlt, h6 i hi j hj]

theorem grid_lt {num : Nat} (hn : 0 < num) (i : Nat) : (grid num i : K) < grid num (i + 1) := by
  have h := Nat.div_add_mod i num
  have hm := Nat.mod_lt i hn
  have e : i = i / num * num + i % num := by rw [Nat.mul_comm]; exact h.symm
  rw [e, grid_next hn _ hm, grid_eq hn _ hm]
  apply mul_lt_mul_of_pos_right _ (zpow_pos two_pos _)
  have : (0 : K) < num := by exact_mod_cast hn
  have : ((i % num : Nat) : K) / num < (((i % num : Nat) : K) + 1) / num := div_lt_div_of_pos_right (lt_add_one _) this
  linarith

theorem grid_mono {num : Nat} (hn : 0 < num) : StrictMono (grid num : Nat → K) := strictMono_nat_of_lt_succ (grid_lt hn)

/-- The interval of the grid that contains a number is unique. -/
theorem grid_unique {num : Nat} (hn : 0 < num) {i i' : Nat} {x : K} (h1 : grid num i ≤ x) (h2 : x < grid num (i + 1)) (h1' : grid num i' ≤ x) (h2' : x < grid num (i' + 1)) : i = i' := by
  have a := (grid_mono (K := K) hn).lt_iff_lt.1 (lt_of_le_of_lt h1 h2')
  have b := (grid_mono (K := K) hn).lt_iff_lt.1 (lt_of_le_of_lt h1' h2)
  omega

theorem descend_eq {sub : K} (dim : Nat) : ∀ (k fuel : Nat) (m : K) (v : Nat), k < fuel → (k : K) * sub ≤ m → m < ((k : K) + 1) * sub → descend sub dim fuel m v = some (m - k * sub, v + k * dim) := by
  intro k
  induction k with
  | zero =>
    intro fuel m v hf h1 h2
    obtain ⟨fuel, rfl⟩ : ∃ f, fuel = f + 1 := ⟨fuel - 1, by omega⟩
    rw [Nat.cast_zero, zero_add, one_mul] at h2
    rw [descend, if_neg (not_le.2 h2), Nat.cast_zero, zero_mul, sub_zero, Nat.zero_mul, Nat.add_zero]
  | succ k ih =>
    intro fuel m v hf h1 h2
    obtain ⟨fuel, rfl⟩ : ∃ f, fuel = f + 1 := ⟨fuel - 1, by omega⟩
    push_cast at h1 h2
    have hs : 0 < sub := by nlinarith
    have hk : (0 : K) ≤ k := Nat.cast_nonneg k
    rw [descend, if_pos (by nlinarith), ih fuel (m - sub) (v + dim) (by omega) (by nlinarith) (by nlinarith)]
    push_cast
    congr 2
    · ring
    · ring

theorem exists_cell {sub m : K} (h0 : 0 ≤ m) : ∀ n : Nat, m < (n : K) * sub → ∃ k < n, (k : K) * sub ≤ m ∧ m < ((k : K) + 1) * sub := by
  intro n
  induction n with
  | zero =>
    intro h
    rw [Nat.cast_zero, zero_mul] at h
    exact absurd h (not_lt.2 h0)
  | succ n ih =>
    intro h
    by_cases hc : m < (n : K) * sub
    · obtain ⟨k, hk, h'⟩ := ih hc
      exact ⟨k, by omega, h'⟩
    · refine ⟨n, by omega, not_lt.1 hc, ?_⟩
      push_cast at h
      exact h

theorem iter_stride {n dim stride : Nat} (hs : 0 < stride) {dest : List K} {f : Nat → K} (hd : Arr dest n f) (hlen : ∀ j < dim, j * stride < n) (v : Nat → K) {body : Nat → List K → Option (List K)}
    (hbody : ∀ j < dim, ∀ l, body j l = wr l (j * stride) (v j)) :
    ∃ l, iter dim body dest = some l ∧ Arr l n (fun a => if a % stride = 0 ∧ a / stride < dim then v (a / stride) else f a) := by
  obtain ⟨l, e, h⟩ := iter_inv (fun j l => Arr l n (fun a => if a % stride = 0 ∧ a / stride < j then v (a / stride) else f a)) (n := dim) (f := body) (s := dest)
    (hd.congr fun a _ => by simp) (by
      intro j hj l hl
      obtain ⟨l', e, hl'⟩ := hl.wr (hlen j hj) (v j)
      refine ⟨l', by rw [hbody j hj, e], hl'.congr fun a ha => ?_⟩
      unfold upd1
      beta_reduce
      by_cases h1 : a = j * stride
      · rw [if_pos h1, h1, Nat.mul_mod_left, Nat.mul_div_cancel _ hs, if_pos ⟨rfl, by omega⟩]
      · rw [if_neg h1]
        by_cases h2 : a % stride = 0 ∧ a / stride < j
        · rw [if_pos h2, if_pos ⟨h2.1, by omega⟩]
        · rw [if_neg h2, if_neg]
          rintro ⟨h3, h4⟩
          apply h2
          refine ⟨h3, ?_⟩
          rcases Nat.lt_succ_iff_lt_or_eq.1 h4 with h | h
          · exact h
          · exact absurd (by rw [← h, Nat.div_mul_cancel (Nat.dvd_of_mod_eq_zero h3)]) h1)
  exact ⟨l, e, h⟩

/-- What the map gives at `x`: zero if the absolute value is less than `2^-19` or not less than `2^8`, otherwise the straight line between the points of the grid around it, with the sign of `x`. -/
def IsValue (order : Nat) (Psi : K → Nat → K) (x : K) (v : Nat → K) : Prop :=
  ((|x| < 2 ^ (-19 : Int) ∨ 2 ^ (8 : Int) ≤ |x|) ∧ ∀ j < 2 * order + 1, v j = 0) ∨
  ((2 ^ (-19 : Int) ≤ |x| ∧ |x| < 2 ^ (8 : Int)) ∧ ∃ i, i + 1 < 29 * (8 + 8 * order) ∧ grid (8 + 8 * order) i ≤ |x| ∧ |x| < grid (8 + 8 * order) (i + 1) ∧
    ∀ j < 2 * order + 1, v j = (if 0 ≤ x then 1 else -1) * line (grid (8 + 8 * order) i) (grid (8 + 8 * order) (i + 1)) (Psi (grid (8 + 8 * order) i) j) (Psi (grid (8 + 8 * order) (i + 1)) j) |x|)

/-- **Evaluating the map never reads outside the table** and writes the interpolated features to the places of the destination that are multiples of the stride, and to no other. -/
theorem evaluate_correct {frexp : K → K × Int} (hfr : IsFrexp frexp) {M : Map K} {order : Nat} {Psi : K → Nat → K} (hM : Tabulates M order Psi) {dest : List K} {n : Nat} {f : Nat → K} (hd : Arr dest n f) {stride : Nat} (hs : 0 < stride)
    (hlen : 2 * order * stride < n) (x : K) :
    ∃ l v, evaluate frexp M dest stride x = some l ∧ Arr l n (fun a => if a % stride = 0 ∧ a / stride < 2 * order + 1 then v (a / stride) else f a) ∧ IsValue order Psi x v := by
  have hlen' : ∀ j < 2 * order + 1, j * stride < n := fun j hj => lt_of_le_of_lt (Nat.mul_le_mul_right _ (by omega)) hlen
  obtain ⟨hx, hm⟩ := hfr x
  unfold evaluate
  dsimp only
  rw [hM.ord]
  generalize (frexp x).1 = m at *
  generalize (frexp x).2 = e at *
  have hsgn : m * (2 * if m ≥ 0 then 1 else -1) = 2 * |m| := by
    by_cases h : m ≥ 0
    · rw [if_pos h, abs_of_nonneg h]; ring
    · rw [if_neg h, abs_of_neg (not_le.1 h)]; ring
  rw [hsgn]
  have h2e : (0 : K) < 2 ^ e := zpow_pos two_pos e
  have habs : |x| = 2 * |m| * 2 ^ (e - 1) := by
    rw [hx, abs_mul, abs_of_pos h2e, zpow_sub_one₀ two_ne_zero]
    field_simp
  have hsx : (if m ≥ 0 then (1 : K) else -1) = if 0 ≤ x then 1 else -1 := by
    by_cases h : 0 ≤ m
    · rw [if_pos h, if_pos (by rw [hx]; exact mul_nonneg h h2e.le)]
    · rw [if_neg h, if_neg (by rw [hx, not_le]; exact mul_neg_of_neg_of_pos (not_le.1 h) h2e)]
  rw [hsx]
  by_cases hx0 : x = 0
  · have hm0 : m = 0 := by
      rcases mul_eq_zero.1 (hx ▸ hx0) with h | h
      · exact h
      · exact absurd h h2e.ne'
    rw [if_pos (Or.inl (by rw [hm0, abs_zero, mul_zero]))]
    obtain ⟨l, e1, h1⟩ := iter_stride (dim := 2 * order + 1) hs hd hlen' (fun _ => 0) (body := fun j d => Verif.wr d (j * stride) 0) (fun _ _ _ => rfl)
    refine ⟨l, _, e1, h1, Or.inl ⟨Or.inl ?_, fun _ _ => rfl⟩⟩
    rw [hx0, abs_zero]
    exact zpow_pos two_pos _
  · obtain ⟨hm1, hm2⟩ := hm hx0
    have hlo : 2 ^ (e - 1) ≤ |x| := by
      rw [habs]
      exact le_mul_of_one_le_left (zpow_pos two_pos _).le (by linarith)
    have hhi : |x| < 2 ^ e := by
      rw [habs, show (2 : K) ^ e = 2 * 2 ^ (e - 1) by rw [zpow_sub_one₀ two_ne_zero]; field_simp]
      exact mul_lt_mul_of_pos_right (by linarith) (zpow_pos two_pos _)
    by_cases hr : e - 1 ≤ -20 ∨ e - 1 ≥ 8
    · rw [if_pos (Or.inr hr)]
      obtain ⟨l, e1, h1⟩ := iter_stride (dim := 2 * order + 1) hs hd hlen' (fun _ => 0) (body := fun j d => Verif.wr d (j * stride) 0) (fun _ _ _ => rfl)
      refine ⟨l, _, e1, h1, Or.inl ⟨?_, fun _ _ => rfl⟩⟩
      rcases hr with hr | hr
      · left
        exact lt_of_lt_of_le hhi (zpow_le_zpow_right₀ one_le_two (by omega))
      · right
        exact le_trans (zpow_le_zpow_right₀ one_le_two hr) hlo
    · have hmn : 2 * |m| ≠ 0 := by linarith
      rw [if_neg (by push Not; push Not at hr; exact ⟨hmn, hr⟩)]
      push Not at hr
      rw [hM.num, hM.subdivision]
      have hnum : (0 : K) < ((8 + 8 * order : Nat) : K) := by exact_mod_cast (by omega : 0 < 8 + 8 * order)
      obtain ⟨k, hk, hk1, hk2⟩ := exists_cell (sub := 1 / ((8 + 8 * order : Nat) : K)) (m := 2 * |m| - 1) (by linarith) (8 + 8 * order) (by
        rw [mul_one_div_cancel hnum.ne']
        linarith)
      rw [descend_eq (2 * order + 1) k (8 + 8 * order + 1) _ _ (by omega) hk1 hk2]
      simp only [Option.bind_eq_bind, Option.bind_some]
      obtain ⟨E, hE⟩ : ∃ E : Nat, e - 1 + 20 = E := ⟨(e - 1 + 20).toNat, by omega⟩
      rw [hE, Int.toNat_natCast]
      have hE' : e - 1 = (E : Int) - 20 := by omega
      have hE1 : E < 28 := by omega
      have hi : E * (8 + 8 * order) + k + 1 < 29 * (8 + 8 * order) := by
        have : (E + 1) * (8 + 8 * order) ≤ 28 * (8 + 8 * order) := Nat.mul_le_mul_right _ (by omega)
        rw [Nat.add_mul, Nat.one_mul] at this
        omega
      have hpos : E * (8 + 8 * order) * (2 * order + 1) + k * (2 * order + 1) = (E * (8 + 8 * order) + k) * (2 * order + 1) := by rw [← Nat.add_mul]
      rw [hpos]
      obtain ⟨l, e1, h1⟩ := iter_stride (dim := 2 * order + 1) hs hd hlen'
        (fun j => (if 0 ≤ x then 1 else -1) * ((Psi (grid (8 + 8 * order) (E * (8 + 8 * order) + k + 1)) j - Psi (grid (8 + 8 * order) (E * (8 + 8 * order) + k)) j) * (((8 + 8 * order : Nat) : K) * (2 * |m| - 1 - k * (1 / ((8 + 8 * order : Nat) : K)))) + Psi (grid (8 + 8 * order) (E * (8 + 8 * order) + k)) j))
        (body := fun j d => (Verif.rd M.table ((E * (8 + 8 * order) + k) * (2 * order + 1) + j)).bind fun f1 => (Verif.rd M.table ((E * (8 + 8 * order) + k) * (2 * order + 1) + (2 * order + 1) + j)).bind fun f2 =>
          Verif.wr d (j * stride) ((if 0 ≤ x then 1 else -1) * ((f2 - f1) * (((8 + 8 * order : Nat) : K) * (2 * |m| - 1 - k * (1 / ((8 + 8 * order : Nat) : K)))) + f1))) (by
          intro j hj l
          have t2 := hM.table (E * (8 + 8 * order) + k + 1) hi j hj
          rw [Nat.add_mul _ 1, Nat.one_mul] at t2
          rw [hM.table _ (by omega) j hj, t2]
          rfl)
      refine ⟨l, fun j => (if 0 ≤ x then 1 else -1) * ((Psi (grid (8 + 8 * order) (E * (8 + 8 * order) + k + 1)) j - Psi (grid (8 + 8 * order) (E * (8 + 8 * order) + k)) j) * (((8 + 8 * order : Nat) : K) * (2 * |m| - 1 - k * (1 / ((8 + 8 * order : Nat) : K)))) + Psi (grid (8 + 8 * order) (E * (8 + 8 * order) + k)) j), e1, h1, Or.inr ⟨⟨le_trans (zpow_le_zpow_right₀ one_le_two (by omega)) hlo, lt_of_lt_of_le hhi (zpow_le_zpow_right₀ one_le_two (by omega))⟩, E * (8 + 8 * order) + k, hi, ?_, ?_, ?_⟩⟩
      · rw [grid_eq (by omega) E hk, habs, hE']
        apply mul_le_mul_of_nonneg_right _ (zpow_pos two_pos _).le
        rw [mul_one_div] at hk1
        linarith
      · rw [grid_next (by omega) E hk, habs, hE']
        apply mul_lt_mul_of_pos_right _ (zpow_pos two_pos _)
        rw [mul_one_div] at hk2
        linarith
      · intro j hj
        dsimp only
        congr 1
        unfold line
        generalize Psi (grid (8 + 8 * order) (E * (8 + 8 * order) + k)) j = u
        generalize Psi (grid (8 + 8 * order) (E * (8 + 8 * order) + k + 1)) j = w
        rw [grid_eq (by omega) E hk, grid_next (by omega) E hk, habs, hE']
        have hz : (2 : K) ^ ((E : Int) - 20) ≠ 0 := (zpow_pos two_pos _).ne'
        generalize (2 : K) ^ ((E : Int) - 20) = z at *
        generalize ((8 + 8 * order : Nat) : K) = N at *
        have hd : (1 + ((k : K) + 1) / N) * z - (1 + (k : K) / N) * z = z / N := by ring
        rw [hd, eq_div_iff (div_ne_zero hz hnum.ne')]
        field_simp
        ring

/-- **The map is odd.** -/
theorem value_odd {order : Nat} {Psi : K → Nat → K} {x : K} {v v' : Nat → K} (h : IsValue order Psi x v) (h' : IsValue order Psi (-x) v') : ∀ j < 2 * order + 1, v' j = - v j := by
  intro j hj
  unfold IsValue at h h'
  rw [abs_neg] at h'
  rcases h with ⟨h1, h2⟩ | ⟨h1, i, hi, g1, g2, h2⟩
  · rcases h' with ⟨_, h2'⟩ | ⟨h1', _⟩
    · rw [h2 j hj, h2' j hj, neg_zero]
    · rcases h1 with h1 | h1
      · exact absurd h1 (not_lt.2 h1'.1)
      · exact absurd h1 (not_le.2 h1'.2)
  · rcases h' with ⟨h1', _⟩ | ⟨_, i', hi', g1', g2', h2'⟩
    · rcases h1' with h1' | h1'
      · exact absurd h1' (not_lt.2 h1.1)
      · exact absurd h1' (not_le.2 h1.2)
    · obtain rfl := grid_unique (by omega) g1 g2 g1' g2'
      rw [h2 j hj, h2' j hj]
      have hx : x ≠ 0 := by
        rintro rfl
        rw [abs_zero] at h1
        exact absurd h1.1 (not_le.2 (zpow_pos two_pos _))
      rcases lt_or_gt_of_ne hx with h | h
      · rw [if_neg (not_le.2 h), if_pos (by linarith)]; ring
      · rw [if_pos h.le, if_neg (by linarith)]; ring

/-- **The map is exact at the points of the grid** in the range. -/
theorem value_grid {order : Nat} {Psi : K → Nat → K} {i : Nat} {v : Nat → K} (h1 : 8 + 8 * order ≤ i) (h2 : i < 28 * (8 + 8 * order)) (h : IsValue order Psi (grid (8 + 8 * order) i) v) :
    ∀ j < 2 * order + 1, v j = Psi (grid (8 + 8 * order) i) j := by
  intro j hj
  have hn : 0 < 8 + 8 * order := by omega
  have hpos : (0 : K) < grid (8 + 8 * order) i := by
    unfold grid
    apply mul_pos _ (zpow_pos two_pos _)
    positivity
  have e1 : (grid (8 + 8 * order) (1 * (8 + 8 * order) + 0) : K) = 2 ^ (-19 : Int) := by
    rw [grid_eq hn 1 hn]
    norm_num
  have e2 : (grid (8 + 8 * order) (28 * (8 + 8 * order) + 0) : K) = 2 ^ (8 : Int) := by
    rw [grid_eq hn 28 hn]
    norm_num
  have l1 : (2 : K) ^ (-19 : Int) ≤ grid (8 + 8 * order) i := by
    rw [← e1]
    exact (grid_mono hn).monotone (by omega)
  have l2 : grid (8 + 8 * order) i < (2 : K) ^ (8 : Int) := by
    rw [← e2]
    exact grid_mono hn (by omega)
  unfold IsValue at h
  rw [abs_of_pos hpos] at h
  rcases h with ⟨h, _⟩ | ⟨_, i', hi', g1, g2, h⟩
  · rcases h with h | h
    · exact absurd h (not_lt.2 l1)
    · exact absurd h (not_le.2 l2)
  · obtain rfl := grid_unique hn (le_refl _) (grid_lt hn i) g1 g2
    rw [h j hj, if_pos hpos.le, one_mul]
    unfold line
    have := sub_pos.2 (grid_lt (K := K) hn i)
    rw [sub_self, mul_zero, add_zero, mul_div_assoc, div_self this.ne', mul_one]

/-- The documentation says that a negative *or null* period selects the default one. -/
def NullPeriodClaim (F : Fns K) : Prop := ∀ kernel window (gamma : K) order block, 0 < gamma → block.length = (2 * order + 1) * ((8 + 8 * order) * 29) + 2 * (1 + order) →
  new F kernel gamma order 0 window block = new F kernel gamma order (-1) window block

theorem new_null {F : Fns K} (kernel : Kernel) (window : Window) (gamma : K) (order : Nat) (block : List K) : new F kernel gamma order 0 window block = none := by
  have hn : (((8 + 8 * order : Nat)) : K) ≠ 0 := by
    have : (0 : K) < ((8 + 8 * order : Nat) : K) := by exact_mod_cast (by omega : 0 < 8 + 8 * order)
    exact this.ne'
  unfold new assert' periodOf
  rw [if_neg (lt_irrefl _)]
  simp only [Option.bind_eq_bind, Option.bind_some]
  rw [divv_of hn]
  simp only [Option.bind_some, divv, if_true]
  split
  · simp only [Option.bind_some]
    split <;> rfl
  · rfl

/-- **A null period divides by zero**, unlike what the documentation says. -/
theorem null_period_claim_false {F : Fns K} (hF : IsFns F) : ¬ NullPeriodClaim F := by
  intro h
  obtain ⟨M, _, _, e, _⟩ := new_correct hF .chi2 .uniform (gamma := 1) one_pos 0 (period := -1) (by simp) (block := List.replicate 234 0) List.length_replicate
  have := h .chi2 .uniform 1 0 (List.replicate 234 0) one_pos List.length_replicate
  rw [new_null, e] at this
  cases this

/-- The functions over the real numbers. -/
noncomputable def real : Fns ℝ := ⟨Real.pi, Real.exp, Real.log, Real.sqrt, Real.sin, Real.cos, fun x y => x ^ y⟩

theorem real_isFns : IsFns real where
  pi := Real.pi_pos
  exp := Real.exp_pos
  log4 := Real.log_pos (by norm_num)
  sqrt := fun x hx => ⟨Real.sqrt_nonneg x, Real.mul_self_sqrt hx⟩
  pow := fun x y hx => Real.rpow_pos_of_pos hx y

/-- `frexp` over the rational numbers -/
def frexpQ (x : ℚ) : ℚ × Int := (x / 2 ^ (Int.log 2 |x| + 1), Int.log 2 |x| + 1)

theorem frexpQ_isFrexp : IsFrexp frexpQ := by
  intro x
  have h2 : (0 : ℚ) < 2 ^ (Int.log 2 |x| + 1) := zpow_pos two_pos _
  refine ⟨?_, fun hx => ?_⟩
  · unfold frexpQ
    exact (div_mul_cancel₀ _ h2.ne').symm
  · unfold frexpQ
    dsimp only
    rw [abs_div, abs_of_pos h2]
    have l1 := Int.zpow_log_le_self (b := 2) one_lt_two (abs_pos.2 hx)
    have l2 := Int.lt_zpow_succ_log_self (b := 2) one_lt_two |x|
    push_cast at l1 l2
    refine ⟨?_, (div_lt_one h2).2 l2⟩
    rw [le_div_iff₀ h2, zpow_add_one₀ two_ne_zero]
    linarith

/-- A map of order 0 whose table stores `17 * i` at the point `i` of the grid: the value at -1.0625, half way between the points 160 and 161. -/
example : evaluate frexpQ ⟨0, 8, 1 / 8, (List.range 232).map fun i => (17 * i : ℚ)⟩ [1, 2, 3] 1 (-17 / 16) = some [-(17 * 160 + 17 / 2), 2, 3] := by
  have h : frexpQ (-17 / 16) = (-17 / 32, 1) := by
    unfold frexpQ
    have : Int.log 2 |(-17 / 16 : ℚ)| = 0 := by
      rw [show |(-17 / 16 : ℚ)| = 17 / 16 by norm_num [abs_div]]
      exact Int.log_of_one_le_right 2 (by norm_num) |>.trans (by decide +kernel)
    rw [this]
    norm_num
  unfold evaluate
  rw [h]
  decide +kernel

/-- **The inner product of the features is the kernel**, with the integral of the spectral representation replaced by the sum over the samples: it depends on `x` and `y` only by their geometric mean and their ratio. -/
theorem psi_inner {gamma L : ℝ} (hL : 0 ≤ L) {S : Nat → ℝ} (hS : ∀ j, 0 ≤ S j) (freq : Nat → Nat) {x y : ℝ} (hx : 0 < x) (hy : 0 < y) (order : Nat) :
    ∑ j ∈ Finset.range (2 * order + 1), psi real gamma L S freq x j * psi real gamma L S freq y j =
      L * (x * y) ^ (gamma / 2) * (S (freq 0) + 2 * ∑ i ∈ Finset.range order, S (freq (i + 1)) * Real.cos (freq (i + 1) * L * Real.log (x / y))) := by
  have hxg : 0 ≤ x ^ gamma := (Real.rpow_pos_of_pos hx gamma).le
  have hyg : 0 ≤ y ^ gamma := (Real.rpow_pos_of_pos hy gamma).le
  have key : ∀ c s : ℝ, 0 ≤ c → 0 ≤ s → Real.sqrt (c * (L * x ^ gamma) * s) * Real.sqrt (c * (L * y ^ gamma) * s) = c * L * (x * y) ^ (gamma / 2) * s := by
    intro c s hc hs
    rw [← Real.sqrt_mul (by positivity)]
    have e : c * (L * x ^ gamma) * s * (c * (L * y ^ gamma) * s) = (c * L * (x * y) ^ (gamma / 2) * s) ^ 2 := by
      have : ((x * y) ^ (gamma / 2)) ^ 2 = x ^ gamma * y ^ gamma := by
        rw [← Real.rpow_natCast, ← Real.rpow_mul (by positivity), Nat.cast_ofNat, div_mul_cancel₀ _ two_ne_zero, Real.mul_rpow hx.le hy.le]
      calc _ = (c * L * s) ^ 2 * (x ^ gamma * y ^ gamma) := by ring
        _ = _ := by rw [← this]; ring
    rw [e, Real.sqrt_sq (by positivity)]
  induction order with
  | zero =>
    rw [Nat.mul_zero, Nat.zero_add, Finset.sum_range_one, Finset.sum_range_zero, mul_zero, add_zero]
    have := key 1 (S (freq 0)) zero_le_one (hS _)
    simp only [one_mul] at this
    exact this
  | succ n ih =>
    rw [show 2 * (n + 1) + 1 = 2 * n + 1 + 1 + 1 by ring, Finset.sum_range_succ, Finset.sum_range_succ, ih, Finset.sum_range_succ]
    have e1 : ∀ z : ℝ, psi real gamma L S freq z (2 * n + 1) = Real.sqrt (2 * (L * z ^ gamma) * S (freq (n + 1))) * Real.cos (freq (n + 1) * (L * Real.log z)) := by
      intro z
      unfold psi real
      dsimp only
      rw [if_pos (by omega), show 2 * n / 2 = n by omega]
    have e2 : ∀ z : ℝ, psi real gamma L S freq z (2 * n + 1 + 1) = Real.sqrt (2 * (L * z ^ gamma) * S (freq (n + 1))) * Real.sin (freq (n + 1) * (L * Real.log z)) := by
      intro z
      unfold psi real
      dsimp only
      rw [if_neg (by omega), show (2 * n + 1) / 2 = n by omega]
    rw [e1, e1, e2, e2, Real.log_div hx.ne' hy.ne']
    have e3 : (freq (n + 1) : ℝ) * L * (Real.log x - Real.log y) = freq (n + 1) * (L * Real.log x) - freq (n + 1) * (L * Real.log y) := by ring
    rw [e3, Real.cos_sub]
    have := key 2 (S (freq (n + 1))) zero_le_two (hS _)
    linear_combination (Real.cos (freq (n + 1) * (L * Real.log x)) * Real.cos (freq (n + 1) * (L * Real.log y)) + Real.sin (freq (n + 1) * (L * Real.log x)) * Real.sin (freq (n + 1) * (L * Real.log y))) * this

end Verif.Homker
