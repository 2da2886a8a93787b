/-!
# Common base of the model: checked array accesses and three-way comparisons

C arrays are modelled by lists.  The accessors below return `none` when the index lies outside the array, i.e. when the C
program would have undefined behaviour.  `none` is propagated by the `Option` monad, so `f … = some r` says in particular
that no access of the execution of `f` was out of bounds and that no `assert` failed.
-/

namespace Verif

variable {α : Type}

/-- Read `l[i]`; `none` when out of bounds. -/
def rd (l : List α) (i : Nat) : Option α := l[i]?

/-- Write `l[i] = x`; `none` when out of bounds. -/
def wr (l : List α) (i : Nat) (x : α) : Option (List α) :=
  if i < l.length then some (l.set i x) else none

/-- `t = l[i] ; l[i] = l[j] ; l[j] = t` -/
def swp (l : List α) (i j : Nat) : Option (List α) := do
  let t ← rd l i
  let u ← rd l j
  let l ← wr l i u
  wr l j t

/-- C `assert`. -/
def assert' (b : Bool) : Option Unit := if b then some () else none

/-- What a caller has to guarantee about a three-way comparison callback: it is the sign of a total preorder. -/
structure ThreeWay (cmp : α → α → Int) : Prop where
  antisymm : ∀ a b, cmp a b < 0 ↔ 0 < cmp b a
  trans : ∀ a b c, cmp a b ≤ 0 → cmp b c ≤ 0 → cmp a c ≤ 0

theorem ThreeWay.refl {cmp : α → α → Int} (h : ThreeWay cmp) (a : α) : cmp a a ≤ 0 := by
  have := h.antisymm a a
  omega

theorem ThreeWay.total {cmp : α → α → Int} (h : ThreeWay cmp) (a b : α) : cmp a b ≤ 0 ∨ cmp b a ≤ 0 := by
  have := h.antisymm a b
  have := h.antisymm b a
  omega

theorem ThreeWay.le_iff {cmp : α → α → Int} (h : ThreeWay cmp) (a b : α) : cmp a b ≤ 0 ↔ 0 ≤ cmp b a := by
  have := h.antisymm a b
  have := h.antisymm b a
  omega

/-- The default comparison `array[indexA] - array[indexB]` of the generic headers, on integers. -/
theorem threeWay_sub : ThreeWay (fun a b : Int => a - b) :=
  ⟨fun a b => by omega, fun a b c => by omega⟩

/-- `VL_HEAP_cmp (array, i, j)`, vl/heap-def.h:233-241, and `VL_QSORT_cmp (array, i, j)`, vl/qsort-def.h:72-80: compare two
entries of an array (the overriding comparisons of the clients of the headers also only look at the two entries). -/
def cmpAt (cmp : α → α → Int) (a : List α) (i j : Nat) : Option Int := do
  let x ← rd a i
  let y ← rd a j
  pure (cmp x y)

/-! ### Facts about the accessors -/

theorem rd_of_lt {l : List α} {i : Nat} (h : i < l.length) : rd l i = some l[i] := by
  simp [rd, h]

theorem rd_eq_some {l : List α} {i : Nat} {x : α} : rd l i = some x ↔ ∃ h : i < l.length, l[i] = x := by
  simp [rd, List.getElem?_eq_some_iff]

theorem wr_of_lt {l : List α} {i : Nat} (h : i < l.length) (x : α) : wr l i x = some (l.set i x) := by
  simp [wr, h]

theorem wr_eq_some {l l' : List α} {i : Nat} {x : α} : wr l i x = some l' ↔ i < l.length ∧ l' = l.set i x := by
  unfold wr
  split
  · simp_all [eq_comm]
  · simp; omega

theorem swp_of_lt {l : List α} {i j : Nat} (hi : i < l.length) (hj : j < l.length) :
    swp l i j = some ((l.set i l[j]).set j l[i]) := by
  simp [swp, rd_of_lt, hi, hj, wr_of_lt]

theorem swp_eq_some {l l' : List α} {i j : Nat} (h : swp l i j = some l') :
    ∃ (hi : i < l.length) (hj : j < l.length), l' = (l.set i l[j]).set j l[i] := by
  by_cases hi : i < l.length
  · by_cases hj : j < l.length
    · refine ⟨hi, hj, ?_⟩
      rw [swp_of_lt hi hj] at h
      simpa using h.symm
    · simp [swp, rd, hi, hj] at h
  · simp [swp, rd, hi] at h

theorem swp_perm {l l' : List α} {i j : Nat} (h : swp l i j = some l') : l'.Perm l := by
  obtain ⟨hi, hj, rfl⟩ := swp_eq_some h
  exact List.set_set_perm hi hj

theorem swp_length {l l' : List α} {i j : Nat} (h : swp l i j = some l') : l'.length = l.length :=
  (swp_perm h).length_eq

theorem swp_getElem? {l l' : List α} {i j : Nat} (h : swp l i j = some l') (k : Nat) :
    l'[k]? = if k = j then l[i]? else if k = i then l[j]? else l[k]? := by
  obtain ⟨hi, hj, rfl⟩ := swp_eq_some h
  rw [List.getElem?_set, List.getElem?_set]
  by_cases hkj : k = j
  · subst hkj; simp [hj, hi]
  · by_cases hki : k = i
    · subst hki; simp [hi, hj, Ne.symm hkj, hkj]
    · simp [Ne.symm hkj, Ne.symm hki, hkj, hki]

theorem cmpAt_spec {cmp : α → α → Int} {a : List α} {i j : Nat} (hi : i < a.length) (hj : j < a.length) :
    cmpAt cmp a i j = some (cmp a[i] a[j]) := by
  simp [cmpAt, rd_of_lt, hi, hj]

/-- Comparison of array entries, `none` (outside of the array) being the largest element. -/
def ole (cmp : α → α → Int) : Option α → Option α → Prop
  | some x, some y => cmp x y ≤ 0
  | _, none => True
  | none, some _ => False

theorem ole_trans {cmp : α → α → Int} (h : ThreeWay cmp) {x y z : Option α}
    (h1 : ole cmp x y) (h2 : ole cmp y z) : ole cmp x z := by
  cases x <;> cases y <;> cases z <;> simp_all [ole]
  exact h.trans _ _ _ h1 h2

theorem ole_refl {cmp : α → α → Int} (h : ThreeWay cmp) (x : Option α) : ole cmp x x := by
  cases x <;> simp [ole, h.refl]

end Verif
