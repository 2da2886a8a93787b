import Verif.Mathop.CompareLemmas

/-!
# Properties of the comparisons of vectors
-/

open Finset

namespace Verif.Mathop

/-! ## The loops compute the sums of the table -/

theorem rd_of {n : Nat} {X : List ℝ} {x : Nat → ℝ} (h : Holds n X x) {i : Nat} (hi : i < n) : rd X i = some (x i) := by rw [rd_getElem?, h i hi]

theorem log_part {x y : ℝ} (hx : 0 ≤ x) (hy : 0 ≤ y) (h : x ≠ 0) : (quot y x).bind (fun r => realLibm.log2 (1 + r)) = some (Real.logb 2 ((x + y) / x)) := by
  have hp : 0 < x := lt_of_le_of_ne hx (Ne.symm h)
  have e : 1 + y / x = (x + y) / x := by rw [add_div, div_self h]
  rw [quot, if_neg h, Option.bind_some]
  show (if 0 < 1 + y / x then _ else _) = _
  rw [if_pos (by positivity), e]

theorem js_part {x y : ℝ} (hx : 0 ≤ x) (hy : 0 ≤ y) : x * Real.logb 2 (2 * x / (x + y)) = if x ≠ 0 then x - x * Real.logb 2 ((x + y) / x) else 0 := by
  by_cases h : x = 0
  · simp [h]
  · have hp : 0 < x := lt_of_le_of_ne hx (Ne.symm h)
    rw [if_pos h, mul_div_assoc, Real.logb_mul (by norm_num) (by positivity), Real.logb_self_eq_one (by norm_num), ← inv_div (x + y) x, Real.logb_inv]
    ring

/-- Every comparison of two histograms is the sum of the terms of the table. -/
theorem comparison_exact (c : Cmp) {n : Nat} {X Y : List ℝ} {x y : Nat → ℝ} (hX : Holds n X x) (hY : Holds n Y y) (hx : ∀ i < n, 0 ≤ x i) (hy : ∀ i < n, 0 ≤ y i) :
    comparison realLibm c n X Y = some (∑ i ∈ range n, term c (x i) (y i)) := by
  have fin : ∀ (f : Nat → ℝ) (body : Nat → ℝ → Option ℝ), (∀ i < n, ∀ acc, body i acc = some (acc + f i)) → iter n body 0 = some (∑ i ∈ range n, f i) := by
    intro f body h
    rw [iter_sum n f 0 h, zero_add]
  cases c
  case distL1 =>
    exact fin _ _ fun i hi acc => by
      simp only [rd_of hX hi, rd_of hY hi, Option.bind_eq_bind, Option.bind_some, term]
      rw [abs_eq_max_neg]
  case distL2 =>
    exact fin _ _ fun i hi acc => by
      simp only [rd_of hX hi, rd_of hY hi, Option.bind_eq_bind, Option.bind_some, term]
      rw [sq]
  case distChi2 =>
    exact fin _ _ fun i hi acc => by
      simp only [rd_of hX hi, rd_of hY hi, Option.bind_eq_bind, Option.bind_some, term]
      split_ifs with h
      · rw [quot, if_neg h, Option.map_some, sq]
      · rw [not_not.1 h, div_zero, add_zero]
  case distHellinger =>
    exact fin _ _ fun i hi acc => by
      have h1 := hx i hi
      have h2 := hy i hi
      have e : realLibm.sqrt (x i * y i) = some √(x i * y i) := if_pos (mul_nonneg h1 h2)
      simp only [rd_of hX hi, rd_of hY hi, Option.bind_eq_bind, Option.bind_some, term, e]
      rw [Real.sqrt_mul h1, sub_sq, Real.sq_sqrt h1, Real.sq_sqrt h2]
      congr 1; ring
  case distJS =>
    exact fin _ _ fun i hi acc => by
      have h1 := hx i hi
      have h2 := hy i hi
      simp only [rd_of hX hi, rd_of hY hi, Option.bind_eq_bind, Option.bind_some, term]
      rw [js_part h1 h2, add_comm (x i) (y i), js_part h2 h1]
      by_cases a : x i = 0
      · by_cases b : y i = 0
        · simp [a, b]
        · have l := log_part h2 h1 b
          rw [if_neg (not_not.2 a), if_neg (not_not.2 a), if_pos b]
          rw [if_pos b, l, Option.map_some]
          congr 1; ring
      · have k := log_part h1 h2 a
        rw [if_pos a, if_pos a, k]
        simp only [Option.map_some, Option.bind_some]
        by_cases b : y i = 0
        · rw [if_neg (not_not.2 b), if_neg (not_not.2 b), add_comm (y i)]
          congr 1; ring
        · have l := log_part h2 h1 b
          rw [if_pos b, if_pos b, l, Option.map_some, add_comm (y i)]
          congr 1; ring
  case kernL2 =>
    exact fin _ _ fun i hi acc => by
      simp only [rd_of hX hi, rd_of hY hi, Option.bind_eq_bind, Option.bind_some, term]
  case kernL1 =>
    show (iter n _ 0).bind _ = _
    rw [fin (fun i => |x i| + |y i| - |x i - y i|) _ fun i hi acc => by simp only [rd_of hX hi, rd_of hY hi, Option.bind_eq_bind, Option.bind_some], Option.bind_some, sum_div]
    congr 1
    refine sum_congr rfl fun i hi => ?_
    rw [abs_of_nonneg (hx i (mem_range.1 hi)), abs_of_nonneg (hy i (mem_range.1 hi)), term, min_def]
    split_ifs with h
    · rw [abs_of_nonpos (by linarith)]; ring
    · rw [abs_of_nonneg (by linarith)]; ring
  case kernChi2 =>
    exact fin _ _ fun i hi acc => by
      simp only [rd_of hX hi, rd_of hY hi, Option.bind_eq_bind, Option.bind_some, term]
      split_ifs with h
      · rw [quot, if_neg h, Option.map_some]; congr 2; ring
      · rw [not_not.1 h, div_zero, mul_zero, add_zero]
  case kernHellinger =>
    exact fin _ _ fun i hi acc => by
      have e : realLibm.sqrt (x i * y i) = some √(x i * y i) := if_pos (mul_nonneg (hx i hi) (hy i hi))
      simp only [rd_of hX hi, rd_of hY hi, Option.bind_eq_bind, Option.bind_some, term, e]
  case kernJS =>
    show (iter n _ 0).bind _ = _
    rw [fin (fun i => x i * Real.logb 2 ((x i + y i) / x i) + y i * Real.logb 2 ((x i + y i) / y i)) _ fun i hi acc => by
      have h1 := hx i hi
      have h2 := hy i hi
      simp only [rd_of hX hi, rd_of hY hi, Option.bind_eq_bind, Option.bind_some]
      by_cases a : x i = 0
      · by_cases b : y i = 0
        · simp [a, b]
        · have l := log_part h2 h1 b
          rw [if_neg (not_not.2 a)]
          rw [if_pos b, l, Option.map_some, a, add_comm (y i)]
          congr 1; ring
      · have k := log_part h1 h2 a
        rw [if_pos a, k]
        simp only [Option.map_some, Option.bind_some]
        by_cases b : y i = 0
        · rw [if_neg (not_not.2 b), b]
          congr 1; ring
        · have l := log_part h2 h1 b
          rw [if_pos b, l, Option.map_some, add_comm (y i) (x i)]
          congr 1; ring, Option.bind_some, mul_sum]
    congr 1
    refine sum_congr rfl fun i _ => ?_
    rw [term]; ring

/-- For the `l1` and `l2` distances and the linear kernel the components may have any sign. -/
theorem comparison_signed (c : Cmp) (hc : c = .distL1 ∨ c = .distL2 ∨ c = .kernL2) {n : Nat} {X Y : List ℝ} {x y : Nat → ℝ} (hX : Holds n X x) (hY : Holds n Y y) :
    comparison realLibm c n X Y = some (∑ i ∈ range n, term c (x i) (y i)) := by
  have fin : ∀ (f : Nat → ℝ) (body : Nat → ℝ → Option ℝ), (∀ i < n, ∀ acc, body i acc = some (acc + f i)) → iter n body 0 = some (∑ i ∈ range n, f i) := by
    intro f body h
    rw [iter_sum n f 0 h, zero_add]
  rcases hc with rfl | rfl | rfl
  · exact fin _ _ fun i hi acc => by
      simp only [rd_of hX hi, rd_of hY hi, Option.bind_eq_bind, Option.bind_some, term]
      rw [abs_eq_max_neg]
  · exact fin _ _ fun i hi acc => by
      simp only [rd_of hX hi, rd_of hY hi, Option.bind_eq_bind, Option.bind_some, term]
      rw [sq]
  · exact fin _ _ fun i hi acc => by
      simp only [rd_of hX hi, rd_of hY hi, Option.bind_eq_bind, Option.bind_some, term]

/-- The squared Mahalanobis distance, with `s` the inverses of the variances. -/
theorem mahalanobis_exact {n : Nat} {X M S : List ℝ} {x m s : Nat → ℝ} (hX : Holds n X x) (hM : Holds n M m) (hS : Holds n S s) :
    mahalanobis n X M S = some (∑ i ∈ range n, (x i - m i) ^ 2 * s i) := by
  unfold mahalanobis
  rw [iter_sum n (fun i => (x i - m i) ^ 2 * s i) 0 fun i hi acc => by
    simp only [rd_of hX hi, rd_of hM hi, rd_of hS hi, Option.bind_eq_bind, Option.bind_some]
    rw [sq], zero_add]

/-! ## The distances are squared distances for the kernels -/

theorem chi2_self {x : ℝ} (_ : 0 ≤ x) : 2 * (x * x / (x + x)) = x := by
  by_cases h : x = 0
  · simp [h]
  · rw [← two_mul, mul_div_mul_right _ _ h]; ring

theorem js_self {x : ℝ} (_ : 0 ≤ x) : x / 2 * Real.logb 2 ((x + x) / x) = x / 2 := by
  by_cases h : x = 0
  · simp [h]
  · rw [← two_mul, mul_div_cancel_right₀ _ h, Real.logb_self_eq_one (by norm_num), mul_one]

theorem term_kernel_distance {d k : Cmp} (h : Pair d k) {x y : ℝ} (hx : 0 ≤ x) (hy : 0 ≤ y) : term d x y = term k x x + term k y y - 2 * term k x y := by
  cases h
  case l1 =>
    simp only [term, min_self]
    rcases le_total x y with h | h
    · rw [min_eq_left h, abs_of_nonpos (by linarith)]; ring
    · rw [min_eq_right h, abs_of_nonneg (by linarith)]; ring
  case l2 => simp only [term]; ring
  case chi2 =>
    simp only [term]
    rw [chi2_self hx, chi2_self hy]
    by_cases h : x + y = 0
    · have h1 : x = 0 := by linarith
      have h2 : y = 0 := by linarith
      simp [h1, h2]
    · field_simp; ring
  case hellinger =>
    simp only [term]
    rw [Real.sqrt_mul hx, Real.sqrt_mul hx, Real.sqrt_mul hy, sub_sq, Real.sq_sqrt hx, Real.sq_sqrt hy, Real.mul_self_sqrt hx, Real.mul_self_sqrt hy]
    ring
  case js =>
    simp only [term]
    rw [js_self hx, js_self hy, js_part hx hy, add_comm x y, js_part hy hx, add_comm y x]
    by_cases a : x = 0
    · by_cases b : y = 0
      · simp [a, b]
      · rw [if_neg (not_not.2 a), if_pos b, a]; ring
    · by_cases b : y = 0
      · rw [if_pos a, if_neg (not_not.2 b), b]; ring
      · rw [if_pos a, if_pos b]; ring

theorem term_comm (c : Cmp) (x y : ℝ) : term c x y = term c y x := by
  cases c <;> simp only [term]
  · exact abs_sub_comm x y
  · ring
  · rw [add_comm y x]; congr 1; ring
  · ring
  · rw [add_comm y x]; ring
  · exact min_comm x y
  · ring
  · rw [add_comm y x, mul_comm y x]
  · rw [mul_comm]
  · rw [add_comm y x]; ring

/-- The remark at vl/mathop.c:126-135: the distance is given by the kernel of the same name. -/
theorem kernel_distance {d k : Cmp} (h : Pair d k) {n : Nat} {X Y : List ℝ} {x y : Nat → ℝ} (hX : Holds n X x) (hY : Holds n Y y) (hx : ∀ i < n, 0 ≤ x i) (hy : ∀ i < n, 0 ≤ y i) :
    ∃ dxy kxx kyy kxy kyx, comparison realLibm d n X Y = some dxy ∧ comparison realLibm k n X X = some kxx ∧ comparison realLibm k n Y Y = some kyy ∧
      comparison realLibm k n X Y = some kxy ∧ comparison realLibm k n Y X = some kyx ∧ dxy = kxx + kyy - kxy - kyx := by
  refine ⟨_, _, _, _, _, comparison_exact d hX hY hx hy, comparison_exact k hX hX hx hx, comparison_exact k hY hY hy hy, comparison_exact k hX hY hx hy, comparison_exact k hY hX hy hx, ?_⟩
  rw [← sum_add_distrib, ← sum_sub_distrib, ← sum_sub_distrib]
  refine sum_congr rfl fun i hi => ?_
  rw [term_kernel_distance h (hx i (mem_range.1 hi)) (hy i (mem_range.1 hi)), term_comm k (y i) (x i)]
  ring

theorem term_psd {d k : Cmp} (h : Pair d k) : Psd (fun a => 0 ≤ a) (term k) := by
  cases h
  case l1 => exact psd_min
  case l2 => exact psd_prod _ (fun x => x)
  case chi2 =>
    have h1 : Psd (fun a => 0 ≤ a) (fun x y => x * y * (if 0 < x ∧ 0 < y then 1 / (x + y) else 0)) := by
      intro m x c hx
      have h2 := psd_cauchy m (fun i => if 0 < x i then x i else 1) (fun i => if 0 < x i then c i * x i else 0) (by
        intro i _
        by_cases hi : 0 < x i
        · simp only [hi, if_true]
        · simp only [hi, if_false]; exact one_pos)
      refine le_of_le_of_eq h2 (sum_congr rfl fun i hi => sum_congr rfl fun j hj => ?_)
      by_cases a : 0 < x i <;> by_cases b : 0 < x j <;> simp [a, b]; ring
    have h2 : Psd (fun a => 0 ≤ a) (fun x y => √2 * √2 * (x * y * (if 0 < x ∧ 0 < y then 1 / (x + y) else 0))) := h1.scale (fun _ => √2)
    refine h2.congr fun x y hx hy => ?_
    simp only [term]
    rw [Real.mul_self_sqrt (by norm_num)]
    rcases hx.eq_or_lt with rfl | hx
    · simp
    · rcases hy.eq_or_lt with rfl | hy
      · simp
      · rw [if_pos ⟨hx, hy⟩]; ring
  case hellinger => exact (psd_prod _ (fun x => √x)).congr fun x y hx _ => by simp only [term]; rw [Real.sqrt_mul hx]
  case js =>
    have hl : 0 < Real.log 2 := Real.log_pos (by norm_num)
    refine (psd_entropy.scale (fun _ => √(1 / (2 * Real.log 2)))).congr fun x y hx hy => ?_
    simp only [term]
    rw [Real.mul_self_sqrt (by positivity)]
    have e : ∀ a b : ℝ, 0 ≤ a → 0 ≤ b → a / 2 * Real.logb 2 ((a + b) / a) = 1 / (2 * Real.log 2) * (a * Real.log (a + b) - a * Real.log a) := by
      intro a b ha hb
      rcases ha.eq_or_lt with rfl | ha
      · simp
      · rw [Real.logb, Real.log_div (by positivity) ha.ne']
        field_simp
    rw [e x y hx hy, add_comm x y, e y x hy hx]
    ring

/-- Each of these kernels is an inner product of features: all its quadratic forms on histograms are nonnegative. -/
theorem kernel_psd {d k : Cmp} (h : Pair d k) {n m : Nat} {X : Nat → List ℝ} {x : Nat → Nat → ℝ} (hX : ∀ i < m, Holds n (X i) (x i)) (hx : ∀ i < m, ∀ t < n, 0 ≤ x i t) (c : Nat → ℝ) :
    ∃ G : Nat → Nat → ℝ, (∀ i < m, ∀ j < m, comparison realLibm k n (X i) (X j) = some (G i j)) ∧ 0 ≤ ∑ i ∈ range m, ∑ j ∈ range m, c i * c j * G i j := by
  refine ⟨fun i j => ∑ t ∈ range n, term k (x i t) (x j t), fun i hi j hj => comparison_exact k (hX i hi) (hX j hj) (hx i hi) (hx j hj), ?_⟩
  have e : ∑ i ∈ range m, ∑ j ∈ range m, c i * c j * ∑ t ∈ range n, term k (x i t) (x j t) = ∑ t ∈ range n, ∑ i ∈ range m, ∑ j ∈ range m, c i * c j * term k (x i t) (x j t) := by
    rw [sum_comm (s := range n)]
    refine sum_congr rfl fun i _ => ?_
    rw [sum_comm (s := range n)]
    exact sum_congr rfl fun j _ => mul_sum _ _ _
  rw [e]
  exact sum_nonneg fun t ht => term_psd h m (fun i => x i t) c fun i hi => hx i hi t (mem_range.1 ht)

theorem term_pos {d k : Cmp} (h : Pair d k) {x y : ℝ} (hx : 0 ≤ x) (hy : 0 ≤ y) (hne : x ≠ y) : 0 < term d x y := by
  have hs : x - y ≠ 0 := sub_ne_zero.2 hne
  cases h
  case l1 => exact abs_pos.2 hs
  case l2 => simp only [term]; positivity
  case chi2 =>
    have : 0 < x + y := by
      rcases hx.eq_or_lt with rfl | hx
      · have : 0 < y := lt_of_le_of_ne hy hne
        linarith
      · linarith
    simp only [term]; positivity
  case hellinger =>
    have : √x - √y ≠ 0 := sub_ne_zero.2 fun e => hne ((Real.sqrt_inj hx hy).1 e)
    simp only [term]; positivity
  case js =>
    have hl : 0 < Real.log 2 := Real.log_pos (by norm_num)
    have key : ∀ a b : ℝ, 0 ≤ a → 0 ≤ b → a ≠ b → (a - b) / 2 / Real.log 2 ≤ a * Real.logb 2 (2 * a / (a + b)) ∧ (0 < a → (a - b) / 2 / Real.log 2 < a * Real.logb 2 (2 * a / (a + b))) := by
      intro a b ha hb hab
      rcases ha.eq_or_lt with rfl | ha
      · refine ⟨?_, fun h => absurd h (lt_irrefl 0)⟩
        rw [zero_mul]
        have : 0 ≤ b / 2 / Real.log 2 := by positivity
        have e : (0 - b) / 2 / Real.log 2 = - (b / 2 / Real.log 2) := by ring
        rw [e]; linarith
      · have h1 : 0 < (a + b) / (2 * a) := by positivity
        have h2 : (a + b) / (2 * a) ≠ 1 := by
          intro e
          rw [div_eq_one_iff_eq (by positivity)] at e
          exact hab (by linarith)
        have h3 := Real.log_lt_sub_one_of_pos h1 h2
        have h4 : (a - b) / 2 < a * Real.log (2 * a / (a + b)) := by
          rw [← inv_div (a + b) (2 * a), Real.log_inv]
          have : a * ((a + b) / (2 * a) - 1) = (b - a) / 2 := by field_simp; ring
          have := mul_lt_mul_of_pos_left h3 ha
          linarith
        have h5 : (a - b) / 2 / Real.log 2 < a * Real.logb 2 (2 * a / (a + b)) := by
          rw [Real.logb, ← mul_div_assoc]
          exact div_lt_div_of_pos_right h4 hl
        exact ⟨h5.le, fun _ => h5⟩
    simp only [term]
    have e : (x - y) / 2 / Real.log 2 + (y - x) / 2 / Real.log 2 = 0 := by ring
    obtain ⟨p1, p2⟩ := key x y hx hy hne
    obtain ⟨q1, q2⟩ := key y x hy hx (Ne.symm hne)
    rw [add_comm y x] at q1 q2
    rcases hx.eq_or_lt with h | h
    · have : 0 < y := lt_of_le_of_ne hy (h ▸ hne)
      have := q2 this
      linarith
    · have := p2 h
      linarith

theorem term_self {d k : Cmp} (h : Pair d k) {x : ℝ} (hx : 0 ≤ x) : term d x x = 0 := by
  rw [term_kernel_distance h hx hx]; ring

theorem term_nonneg {d k : Cmp} (h : Pair d k) {x y : ℝ} (hx : 0 ≤ x) (hy : 0 ≤ y) : 0 ≤ term d x y := by
  by_cases e : x = y
  · rw [e, term_self h hy]
  · exact (term_pos h hx hy e).le

/-- The square roots of the distances are a metric on histograms. -/
theorem distance_metric {d k : Cmp} (h : Pair d k) {n : Nat} {X Y Z : List ℝ} {x y z : Nat → ℝ} (hX : Holds n X x) (hY : Holds n Y y) (hZ : Holds n Z z)
    (hx : ∀ i < n, 0 ≤ x i) (hy : ∀ i < n, 0 ≤ y i) (hz : ∀ i < n, 0 ≤ z i) :
    ∃ dxy dyx dyz dxz, comparison realLibm d n X Y = some dxy ∧ comparison realLibm d n Y X = some dyx ∧ comparison realLibm d n Y Z = some dyz ∧ comparison realLibm d n X Z = some dxz ∧
      0 ≤ dxy ∧ dxy = dyx ∧ (dxy = 0 ↔ ∀ i < n, x i = y i) ∧ √dxz ≤ √dxy + √dyz := by
  have nn : ∀ {a b : Nat → ℝ}, (∀ i < n, 0 ≤ a i) → (∀ i < n, 0 ≤ b i) → 0 ≤ ∑ i ∈ range n, term d (a i) (b i) := fun ha hb => sum_nonneg fun i hi => term_nonneg h (ha i (mem_range.1 hi)) (hb i (mem_range.1 hi))
  refine ⟨_, _, _, _, comparison_exact d hX hY hx hy, comparison_exact d hY hX hy hx, comparison_exact d hY hZ hy hz, comparison_exact d hX hZ hx hz, nn hx hy, sum_congr rfl fun i _ => term_comm d _ _, ?_, ?_⟩
  · rw [sum_eq_zero_iff_of_nonneg fun i hi => term_nonneg h (hx i (mem_range.1 hi)) (hy i (mem_range.1 hi))]
    constructor
    · intro hz i hi
      by_contra hne
      exact absurd (hz i (mem_range.2 hi)) (term_pos h (hx i hi) (hy i hi) hne).ne'
    · intro he i hi
      rw [he i (mem_range.1 hi)]
      exact term_self h (hy i (mem_range.1 hi))
  · set A := ∑ i ∈ range n, term d (x i) (y i) with hA
    set B := ∑ i ∈ range n, term d (y i) (z i) with hB
    have hA0 : 0 ≤ A := nn hx hy
    have hB0 : 0 ≤ B := nn hy hz
    set C := ∑ i ∈ range n, (term k (x i) (y i) - term k (x i) (z i) - term k (y i) (y i) + term k (y i) (z i)) with hC
    have hD : ∑ i ∈ range n, term d (x i) (z i) = A + B + 2 * C := by
      rw [hA, hB, hC, mul_sum, ← sum_add_distrib, ← sum_add_distrib]
      refine sum_congr rfl fun i hi => ?_
      have h1 := hx i (mem_range.1 hi)
      have h2 := hy i (mem_range.1 hi)
      have h3 := hz i (mem_range.1 hi)
      rw [term_kernel_distance h h1 h3, term_kernel_distance h h1 h2, term_kernel_distance h h2 h3]
      ring
    have hq : ∀ s t : ℝ, 0 ≤ s ^ 2 * A + 2 * s * t * C + t ^ 2 * B := by
      intro s t
      rw [hA, hB, hC, mul_sum, mul_sum, mul_sum, ← sum_add_distrib, ← sum_add_distrib]
      refine sum_nonneg fun i hi => ?_
      have h1 := hx i (mem_range.1 hi)
      have h2 := hy i (mem_range.1 hi)
      have h3 := hz i (mem_range.1 hi)
      have := term_psd h 3 (fun j => if j = 0 then x i else if j = 1 then y i else z i) (fun j => if j = 0 then s else if j = 1 then t - s else - t) (by
        intro j _
        show 0 ≤ _
        split_ifs <;> assumption)
      simp only [sum_range_succ, sum_range_zero] at this
      norm_num at this
      rw [term_kernel_distance h h1 h2, term_kernel_distance h h2 h3]
      rw [term_comm k (y i) (x i), term_comm k (z i) (x i), term_comm k (z i) (y i)] at this
      refine le_of_le_of_eq this ?_
      ring
    have hcs : C ≤ √A * √B := by
      by_contra hcon
      have hcon := not_le.1 hcon
      have hA' := Real.mul_self_sqrt hA0
      have hB' := Real.mul_self_sqrt hB0
      have a0 := Real.sqrt_nonneg A
      have b0 := Real.sqrt_nonneg B
      have hCpos : 0 < C := lt_of_le_of_lt (by positivity) hcon
      have hC2 : A * B < C * C := by
        have : √A * √B * (√A * √B) < C * C := mul_self_lt_mul_self (by positivity) hcon
        calc A * B = √A * √B * (√A * √B) := by rw [← hA', ← hB', Real.sqrt_mul_self a0, Real.sqrt_mul_self b0]; ring
          _ < C * C := this
      rcases hB0.eq_or_lt with hb | hb
      · have := hq 1 (- (A + 1) / C)
        rw [← hb] at this
        have e : (1 : ℝ) ^ 2 * A + 2 * 1 * (-(A + 1) / C) * C + (-(A + 1) / C) ^ 2 * 0 = - A - 2 := by field_simp; ring
        rw [e] at this
        linarith
      · have := hq B (- C)
        have e : B ^ 2 * A + 2 * B * (- C) * C + (- C) ^ 2 * B = B * (A * B - C * C) := by ring
        rw [e] at this
        nlinarith
    rw [hD]
    refine Real.sqrt_le_iff.2 ⟨by positivity, ?_⟩
    rw [add_sq, Real.sq_sqrt hA0, Real.sq_sqrt hB0]
    linarith

/-! ## The table of the documentation -/

/-- Full claim of the table at vl/mathop.c:105-110 for the Hellinger kernel. -/
def HellingerTableClaim : Prop :=
  ∀ (n : Nat) (X Y : List ℝ) (x y : Nat → ℝ), Holds n X x → Holds n Y y → (∀ i < n, 0 ≤ x i) → (∀ i < n, 0 ≤ y i) →
    comparison realLibm .kernHellinger n X Y = some (∑ i ∈ range n, 2 * √(x i * y i))

/-- The code returns half of what the table says. -/
theorem hellingerTable_claim_false : ¬ HellingerTableClaim := by
  intro h
  have hX : Holds 1 [1] (fun _ => 1) := by intro i hi; obtain rfl : i = 0 := by omega
                                           rfl
  have h1 := h 1 [1] [1] (fun _ => 1) (fun _ => 1) hX hX (by simp) (by simp)
  rw [comparison_exact .kernHellinger hX hX (by simp) (by simp)] at h1
  simp [term] at h1

/-- Two histograms with a null bin in common meet the hypotheses. -/
example : comparison realLibm .distChi2 3 [1, 0, 2] [3, 0, 2] = some 1 := by
  have hX : Holds 3 [1, 0, 2] (fun i => if i = 0 then 1 else if i = 1 then 0 else 2) := by
    intro i hi
    rcases i with _ | _ | _ | i
    · simp
    · simp
    · simp
    · omega
  have hY : Holds 3 [3, 0, 2] (fun i => if i = 0 then 3 else if i = 1 then 0 else 2) := by
    intro i hi
    rcases i with _ | _ | _ | i
    · simp
    · simp
    · simp
    · omega
  rw [comparison_exact .distChi2 hX hY (by intro i _; split_ifs <;> norm_num) (by intro i _; split_ifs <;> norm_num)]
  simp only [sum_range_succ, sum_range_zero, term]
  norm_num

end Verif.Mathop
