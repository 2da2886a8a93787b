import Verif.Getopt.Model
import Mathlib.Logic.Basic
import Mathlib.Tactic.Conv

/-!
# Option parsing
-/

namespace Verif.Getopt

/-! ## Specification: a parser of the whole list -/

/-- What is observed after one call: the value returned, `optarg` and `*longindex`. -/
abbrev Event := Int × Option Str × Option Nat

/-- The letters of the options: a leading colon is not one of them. -/
def known (optstring : Str) : Str := if optstring.head? = some 58 then optstring.tail else optstring

/-- The code for a missing argument. -/
def missing (optstring : Str) : Int := if optstring.head? = some 58 then 58 else 63

/-- The letters of an argument such as `-abc`, when `next` are the arguments behind it and `li` is the long option seen last: what is reported,
and whether the next argument is used. -/
def letters (optstring : Str) (next : List Str) (li : Option Nat) : Str → List Event × Bool
  | [] => ([], false)
  | ch :: cs =>
    if ch ∉ known optstring then ((63, none, li) :: (letters optstring next li cs).1, (letters optstring next li cs).2)
    else if (known optstring)[(known optstring).idxOf ch + 1]? ≠ some 58 then
      (((ch.toNat : Int), none, li) :: (letters optstring next li cs).1, (letters optstring next li cs).2)
    else if cs ≠ [] then ([((ch.toNat : Int), some cs, li)], false)
    else match next with
      | [] => ([(missing optstring, none, li)], false)
      | v :: _ => ([((ch.toNat : Int), some v, li)], true)

/-- What a long option reports: its value, or 0 if the value is stored in a variable. -/
def code (o : LongOpt) : Int := if o.flag = none then o.val else 0

/-- The store of a long option. -/
def store (o : LongOpt) : List (Nat × Int) := (o.flag.map (fun f => (f, o.val))).toList

/-- What an argument reports, what it stores, whether it uses the next argument, and the long option seen last. -/
structure Report where
  events : List Event
  stores : List (Nat × Int)
  used : Bool
  li : Option Nat

/-- An argument such as `--name` or `--name=value` (given without the dashes). -/
def longArg (c : Ctx) (next : List Str) (li : Option Nat) (a : Str) : Report :=
  match c.longopts.findIdx? (fun o => o.name = a.takeWhile (· ≠ 61)) with
  | none => ⟨[(63, none, li)], [], false, li⟩
  | some i =>
    match c.longopts[i]? with
    | none => ⟨[], [], false, li⟩
    | some o =>
      if o.hasArg = 1 ∨ o.hasArg = 2 then
        match a.dropWhile (· ≠ 61) with
        | _ :: value => ⟨[(code o, some value, some i)], store o, false, some i⟩
        | [] =>
          if o.hasArg = 1 then
            match next with
            | [] => ⟨[(missing c.optstring, none, some i)], [], false, some i⟩
            | v :: _ => ⟨[(code o, some v, some i)], store o, true, some i⟩
          else ⟨[(code o, none, some i)], store o, false, some i⟩
      else ⟨[(code o, none, some i)], store o, false, some i⟩

/-- One argument that starts with a dash, given without this dash. -/
def optionArg (c : Ctx) (next : List Str) (li : Option Nat) : Str → Report
  | 45 :: a => longArg c next li a
  | a => ⟨(letters c.optstring next li a).1, [], (letters c.optstring next li a).2, li⟩

/-- What the whole list reports and stores, the arguments that are options (`heads`), the arguments that are options or used by options
(`options`), and the operands. -/
structure Parsed where
  events : List Event
  stores : List (Nat × Int)
  heads : List Str
  options : List Str
  operands : List Str

/-- The parser: an argument that starts with a dash is an option; any other argument that is not used by an option is an operand. -/
def parse (c : Ctx) (li : Option Nat) : List Str → Parsed
  | [] => ⟨[], [], [], [], []⟩
  | a :: next =>
    if a.head? = some 45 then
      let r := optionArg c next li a.tail
      let n := r.used.toNat
      let p := parse c r.li (next.drop n)
      ⟨r.events ++ p.events, r.stores ++ p.stores, a :: p.heads, a :: next.take n ++ p.options, p.operands⟩
    else
      let p := parse c li next
      ⟨p.events, p.stores, p.heads, p.options, a :: p.operands⟩
termination_by l => l.length
decreasing_by all_goals simp; try omega

/-- Arguments with a meaning for the parser: not `-` and not `--`. -/
def Plain (a : Str) : Prop := a ≠ [45] ∧ a ≠ [45, 45]

/-- Options that do not report the code of the end. -/
def Codes (c : Ctx) : Prop := (∀ ch ∈ c.optstring, ch.toNat < 128) ∧ ∀ o ∈ c.longopts, code o ≠ -1

/-! ## Rotation of the arguments -/

theorem iter_shift {α : Type} (A Y C : List α) (x : α) :
    ∃ z, iter Y.length (fun k argv => do
      let i := A.length + Y.length + 1 - 1 - k
      let a ← rd argv (i - 1)
      wr argv i a) (A ++ (Y ++ (x :: C))) = some (A ++ (z :: (Y ++ C))) := by
  obtain ⟨l, e1, z, e2⟩ := iter_inv (n := Y.length) (f := fun k (argv : List α) => (do
      let i := A.length + Y.length + 1 - 1 - k
      let a ← rd argv (i - 1)
      wr argv i a : Option (List α))) (s := A ++ (Y ++ (x :: C)))
    (fun k l => ∃ z, l = A ++ (Y.take (Y.length - k) ++ (z :: (Y.drop (Y.length - k) ++ C)))) ⟨x, by simp⟩ (by
    rintro k hk l ⟨z, rfl⟩
    have hm : Y.length - (k + 1) < Y.length := by omega
    have h1 : rd (A ++ (Y.take (Y.length - k) ++ (z :: (Y.drop (Y.length - k) ++ C)))) (A.length + Y.length + 1 - 1 - k - 1) =
        some (Y[Y.length - (k + 1)]) := by
      rw [rd_getElem?, List.getElem?_append_right (by omega), List.getElem?_append_left (by simp; omega),
        List.getElem?_take_of_lt (by omega), List.getElem?_eq_getElem (by omega)]
      congr 1
      congr 1
      omega
    simp only
    rw [h1]
    simp only [Option.bind_eq_bind, Option.bind_some]
    rw [wr_of_lt (by simp; omega)]
    refine ⟨_, rfl, Y[Y.length - (k + 1)], ?_⟩
    rw [List.set_append_right _ _ (by omega), List.set_append_right _ _ (by simp; omega)]
    rw [show A.length + Y.length + 1 - 1 - k - A.length - (Y.take (Y.length - k)).length = 0 by simp; omega, List.set_cons_zero]
    have ht : Y.take (Y.length - k) = Y.take (Y.length - (k + 1)) ++ [Y[Y.length - (k + 1)]] := by
      rw [← List.take_succ_eq_append_getElem hm]
      congr 1; omega
    have hd : Y.drop (Y.length - (k + 1)) = Y[Y.length - (k + 1)] :: Y.drop (Y.length - k) := by
      rw [List.drop_eq_getElem_cons hm]
      congr 2; omega
    rw [ht, hd]
    simp only [List.append_assoc, List.cons_append, List.nil_append])
  refine ⟨z, ?_⟩
  rw [e1, e2]
  simp

theorem shift_spec (A Y C : List (Option Str)) (x : Option Str) :
    shift A.length (A.length + Y.length + 1) (A ++ (Y ++ (x :: C))) = some (A ++ (x :: (Y ++ C))) := by
  obtain ⟨z, e⟩ := iter_shift A Y C x
  unfold shift
  rw [show A.length + Y.length + 1 - 1 - A.length = Y.length by omega]
  have hr : rd (A ++ (Y ++ (x :: C))) (A.length + Y.length + 1 - 1) = some x := by
    rw [rd_getElem?, List.getElem?_append_right (by omega), List.getElem?_append_right (by omega)]
    rw [show A.length + Y.length + 1 - 1 - A.length - Y.length = 0 by omega]
    rfl
  rw [hr]
  simp only [Option.bind_eq_bind] at e ⊢
  rw [Option.bind_some, e, Option.bind_some, wr_of_lt (by simp)]
  rw [List.set_append_right _ _ (Nat.le_refl _), Nat.sub_self, List.set_cons_zero]

/-- The option moves before the operands. -/
theorem rotate_spec (A C : List (Option Str)) : ∀ (D B : List (Option Str)),
    iter D.length (fun _ argv => shift A.length (A.length + B.length + D.length) argv) (A ++ (B ++ (D ++ C))) = some (A ++ (D ++ (B ++ C))) := by
  have key : ∀ (k : Nat) (D B : List (Option Str)), k ≤ D.length → iter k (fun _ argv => shift A.length (A.length + B.length + D.length) argv)
      (A ++ (B ++ (D ++ C))) = some (A ++ (D.drop (D.length - k) ++ (B ++ (D.take (D.length - k) ++ C)))) := by
    intro k D B hk
    obtain ⟨l, e1, e2⟩ := iter_inv (n := k) (f := fun _ (argv : List (Option Str)) => shift A.length (A.length + B.length + D.length) argv)
      (s := A ++ (B ++ (D ++ C))) (fun k l => l = A ++ (D.drop (D.length - k) ++ (B ++ (D.take (D.length - k) ++ C)))) (by simp) (by
      rintro j hj l rfl
      have hm : D.length - (j + 1) < D.length := by omega
      have ht : D.take (D.length - j) = D.take (D.length - (j + 1)) ++ [D[D.length - (j + 1)]] := by
        rw [← List.take_succ_eq_append_getElem hm]
        congr 1; omega
      have hd : D.drop (D.length - (j + 1)) = D[D.length - (j + 1)] :: D.drop (D.length - j) := by
        rw [List.drop_eq_getElem_cons hm]
        congr 2; omega
      have := shift_spec A (D.drop (D.length - j) ++ (B ++ D.take (D.length - (j + 1)))) C D[D.length - (j + 1)]
      rw [show A.length + (D.drop (D.length - j) ++ (B ++ D.take (D.length - (j + 1)))).length + 1 = A.length + B.length + D.length by
        simp; omega] at this
      refine ⟨_, ?_, rfl⟩
      rw [hd, ht]
      simp only [List.append_assoc, List.cons_append, List.nil_append] at this ⊢
      exact this)
    rw [e1, e2]
  intro D B
  rw [key D.length D B (Nat.le_refl _)]
  simp

/-! ## One call -/

theorem doneOption_spec (A B D C : List (Option Str)) (s : St) (ret : Int) (h : s.argv = A ++ (B ++ (D ++ C))) (h1 : s.optind = A.length)
    (h2 : s.optbegin = A.length + B.length) (h3 : s.optend = A.length + B.length + D.length) :
    doneOption s ret = some (ret, { s with argv := A ++ (D ++ (B ++ C)), optind := A.length + D.length }) := by
  unfold doneOption
  have := rotate_spec A C D B
  rw [h, h1, h2, h3]
  simp only [Option.bind_eq_bind]
  rw [show A.length + B.length + D.length - (A.length + B.length) = D.length by omega, this]
  rfl

theorem findShort_eq (ch : UInt8) : ∀ s : Str, findShort s ch = if ch ∈ s then some (s[s.idxOf ch + 1]? == some 58) else none
  | [] => by simp [findShort]
  | x :: r => by
    unfold findShort
    by_cases h : x = ch
    · subst h
      simp [List.head?_eq_getElem?]
    · rw [if_neg h, findShort_eq ch r]
      have h' : ¬ ch = x := fun e => h e.symm
      have hb : (x == ch) = false := by simp [h]
      simp [List.idxOf_cons, hb, h']

theorem scan_found (a : Str) (ha : a.head? = some 45) (C : List (Option Str)) : ∀ (B : List Str) (A : List (Option Str)) (n : Nat),
    (∀ b ∈ B, b.head? ≠ some 45) → B.length ≤ n → scan (A ++ (B.map some ++ (some a :: C))) n A.length = some (some (A.length + B.length, a.tail))
  | [], A, n, _, _ => by
    unfold scan
    have : rd (A ++ (([] : List Str).map some ++ (some a :: C))) A.length = some (some a) := by
      rw [rd_getElem?, List.getElem?_append_right (Nat.le_refl _)]; simp
    rw [this]
    simp [ha]
  | b :: B, A, 0, _, h => by simp at h
  | b :: B, A, n + 1, hB, h => by
    unfold scan
    have : rd (A ++ ((b :: B).map some ++ (some a :: C))) A.length = some (some b) := by
      rw [rd_getElem?, List.getElem?_append_right (Nat.le_refl _)]; simp
    rw [this]
    have hb := hB b (by simp)
    have ih := scan_found a ha C B (A ++ [some b]) n (fun x hx => hB x (by simp [hx])) (by simpa using h)
    simp only [List.length_append, List.length_cons, List.length_nil, List.append_assoc, List.cons_append, List.nil_append] at ih
    simp only [Option.bind_eq_bind, Option.bind_some, List.map_cons, List.cons_append, List.length_cons]
    rw [if_pos hb, ih]
    congr 3
    omega

theorem scan_none (C : List (Option Str)) : ∀ (B : List Str) (b : Str) (A : List (Option Str)),
    (∀ x ∈ b :: B, x.head? ≠ some 45) → scan (A ++ ((b :: B).map some ++ C)) B.length A.length = some none
  | B, b, A, hB => by
    unfold scan
    have : rd (A ++ ((b :: B).map some ++ C)) A.length = some (some b) := by
      rw [rd_getElem?, List.getElem?_append_right (Nat.le_refl _)]; simp
    rw [this]
    have hb := hB b (by simp)
    simp only [Option.bind_eq_bind, Option.bind_some]
    rw [if_pos hb]
    match B with
    | [] => rfl
    | b' :: B =>
      have ih := scan_none C B b' (A ++ [some b]) (fun x hx => hB x (by simp [List.mem_cons.mp hx]))
      simp only [List.length_append, List.length_cons, List.length_nil, List.append_assoc, List.cons_append, List.nil_append, List.map_cons] at ih ⊢
      exact ih

/-- Between two arguments: the options so far are in `A`, the operands so far in `B`. -/
structure Ready (c : Ctx) (s : St) (A : List (Option Str)) (B next : List Str) : Prop where
  argv : s.argv = A ++ (B.map some ++ (next.map some ++ [none]))
  optind : s.optind = A.length
  place : s.place = []
  optreset : s.optreset = false
  argc : c.argc = A.length + B.length + next.length

/-- Inside the argument `a`. -/
structure Mid (c : Ctx) (s : St) (A : List (Option Str)) (B : List Str) (a : Str) (next : List Str) : Prop where
  argv : s.argv = A ++ (B.map some ++ (some a :: (next.map some ++ [none])))
  optind : s.optind = A.length
  optbegin : s.optbegin = A.length + B.length
  optend : s.optend = A.length + B.length + 1
  optarg : s.optarg = none
  optreset : s.optreset = false
  argc : c.argc = A.length + B.length + 1 + next.length

theorem Mid.done {c : Ctx} {s : St} {A : List (Option Str)} {B : List Str} {a : Str} {next : List Str} (h : Mid c s A B a next) (ret : Int) (oa : Option Str)
    (oo : Int) (li : Option Nat) (fl : List (Nat × Int)) (s0 : St)
    (hs0 : s0 = { s with place := [], optarg := oa, optopt := oo, longindex := li, flags := fl }) :
    ∃ s', doneOption s0 ret = some (ret, s') ∧
      Ready c s' (A ++ [some a]) B next ∧ s'.optarg = oa ∧ s'.longindex = li ∧ s'.flags = fl := by
  rw [doneOption_spec A (B.map some) [some a] (next.map some ++ [none]) s0 ret (by simp [hs0, h.argv]) (by rw [hs0]; exact h.optind)
    (by simp [hs0, h.optbegin]) (by simp [hs0, h.optend])]
  subst hs0
  refine ⟨_, rfl, ⟨?_, ?_, rfl, h.optreset, ?_⟩, rfl, rfl, rfl⟩
  · simp
  · simp
  · rw [h.argc]; simp; omega

theorem Mid.done1 {c : Ctx} {s : St} {A : List (Option Str)} {B : List Str} {a v : Str} {next : List Str} (h : Mid c s A B a (v :: next)) (ret : Int) (oa : Option Str)
    (oo : Int) (li : Option Nat) (fl : List (Nat × Int)) (s0 : St)
    (hs0 : s0 = { s with place := [], optarg := oa, optopt := oo, longindex := li, flags := fl, optend := s.optend + 1 }) :
    ∃ s', doneOption s0 ret = some (ret, s') ∧
      Ready c s' (A ++ [some a, some v]) B next ∧ s'.optarg = oa ∧ s'.longindex = li ∧ s'.flags = fl := by
  rw [doneOption_spec A (B.map some) [some a, some v] (next.map some ++ [none]) s0 ret (by simp [hs0, h.argv]) (by rw [hs0]; exact h.optind)
    (by simp [hs0, h.optbegin]) (by simp [hs0, h.optend])]
  subst hs0
  refine ⟨_, rfl, ⟨?_, ?_, rfl, h.optreset, ?_⟩, rfl, rfl, rfl⟩
  · simp
  · simp
  · rw [h.argc]; simp; omega

theorem Mid.next {c : Ctx} {s : St} {A : List (Option Str)} {B : List Str} {a v : Str} {next : List Str} (h : Mid c s A B a (v :: next)) :
    rd s.argv s.optend = some (some v) := by
  rw [h.argv, h.optend, rd_getElem?, List.getElem?_append_right (by omega), List.getElem?_append_right (by simp; omega)]
  rw [show A.length + B.length + 1 - A.length - (B.map some).length = 1 by simp; omega]
  rfl

theorem Mid.set {c : Ctx} {s : St} {A : List (Option Str)} {B : List Str} {a : Str} {next : List Str} (h : Mid c s A B a next)
    (place : Str) (oo : Int) (li : Option Nat) : Mid c { s with place := place, optopt := oo, longindex := li } A B a next :=
  ⟨h.argv, h.optind, h.optbegin, h.optend, h.optarg, h.optreset, h.argc⟩

theorem getopt_mid (c : Ctx) (s : St) (h1 : s.optreset = false) (h2 : s.place ≠ []) :
    getopt c s = short c (c.optstring.head? == some 58) (known c.optstring) s := by
  unfold getopt
  simp only [h1, h2, Bool.false_eq_true, or_self, if_false]
  congr 1
  unfold known
  by_cases h : c.optstring.head? = some 58 <;> simp [h]

theorem chr_known {c : Ctx} (hc : Codes c) {ch : UInt8} (h : ch ∈ known c.optstring) : chr ch = (ch.toNat : Int) := by
  unfold chr
  rw [if_pos]
  apply hc.1
  unfold known at h
  split at h
  · exact List.mem_of_mem_tail h
  · exact h

theorem missing_eq (o : Str) : (if (o.head? == some 58) = true then 58 else 63 : Int) = missing o := by
  unfold missing
  by_cases h : o.head? = some 58 <;> simp [h]

theorem missing_ne (o : Str) : missing o ≠ -1 := by
  unfold missing
  split <;> decide

theorem letters_run {c : Ctx} (hc : Codes c) {A : List (Option Str)} {B : List Str} {a : Str} {next : List Str} : ∀ (cs : Str) (s : St), cs ≠ [] →
    Mid c s A B a next → s.place = cs →
    ∃ s', Ready c s' (A ++ (some a :: (next.take (letters c.optstring next s.longindex cs).2.toNat).map some)) B
        (next.drop (letters c.optstring next s.longindex cs).2.toNat) ∧ s'.longindex = s.longindex ∧ s'.flags = s.flags ∧
      ∀ l t, Drive c s' l t → ∃ r s'' l', short c (c.optstring.head? == some 58) (known c.optstring) s = some (r, s'') ∧ r ≠ -1 ∧
        (letters c.optstring next s.longindex cs).1 ++ l = (r, s''.optarg, s''.longindex) :: l' ∧ Drive c s'' l' t
  | [], _, h, _, _ => absurd rfl h
  | ch :: cs, s, _, hm, hp => by
    unfold short letters
    rw [hp]
    simp only
    rw [findShort_eq]
    by_cases hk : ch ∈ known c.optstring
    · have hch := chr_known hc hk
      have hne : (ch.toNat : Int) ≠ -1 := by omega
      rw [if_pos hk, if_neg (not_not.mpr hk), hch]
      by_cases hx : (known c.optstring)[(known c.optstring).idxOf ch + 1]? = some 58
      · rw [if_neg (not_not.mpr hx), show ((known c.optstring)[(known c.optstring).idxOf ch + 1]? == some 58) = true by simp [hx]]
        simp only
        by_cases hcs : cs = []
        · rw [if_neg (not_not.mpr hcs), if_neg (not_not.mpr hcs), missing_eq]
          match next, hm with
          | [], hm =>
            rw [if_pos (show s.optbegin + 1 ≥ c.argc by rw [hm.optbegin, hm.argc]; simp)]
            obtain ⟨s', e, hr, h1, h2, h3⟩ := hm.done (missing c.optstring) none (ch.toNat : Int) s.longindex s.flags
              { s with place := [], optopt := (ch.toNat : Int) } (by rw [← hm.optarg])
            refine ⟨s', by simpa using hr, h2, h3, ?_⟩
            intro l t hd
            refine ⟨_, s', l, e, missing_ne _, ?_, hd⟩
            rw [h1, h2]; rfl
          | v :: next, hm =>
            rw [if_neg (show ¬ s.optbegin + 1 ≥ c.argc by rw [hm.optbegin, hm.argc]; simp)]
            rw [hm.next]
            obtain ⟨s', e, hr, h1, h2, h3⟩ := hm.done1 (ch.toNat : Int) (some v) (ch.toNat : Int) s.longindex s.flags
              { s with place := [], optopt := (ch.toNat : Int), optarg := some v, optend := s.optend + 1 } rfl
            refine ⟨s', by simpa using hr, h2, h3, ?_⟩
            intro l t hd
            refine ⟨_, s', l, e, hne, ?_, hd⟩
            rw [h1, h2]; rfl
        · rw [if_pos hcs, if_pos hcs]
          obtain ⟨s', e, hr, h1, h2, h3⟩ := hm.done (ch.toNat : Int) (some cs) (ch.toNat : Int) s.longindex s.flags
              { s with place := [], optopt := (ch.toNat : Int), optarg := some cs } rfl
          refine ⟨s', by simpa using hr, h2, h3, ?_⟩
          intro l t hd
          refine ⟨_, s', l, e, hne, ?_, hd⟩
          rw [h1, h2]; rfl
      · rw [if_pos hx, show ((known c.optstring)[(known c.optstring).idxOf ch + 1]? == some 58) = false by simp [hx]]
        simp only
        by_cases hcs : cs = []
        · subst hcs
          rw [if_neg (not_not.mpr rfl)]
          obtain ⟨s', e, hr, h1, h2, h3⟩ := hm.done (ch.toNat : Int) none (ch.toNat : Int) s.longindex s.flags
              { s with place := [], optopt := (ch.toNat : Int) } (by rw [← hm.optarg])
          refine ⟨s', by simpa [letters] using hr, h2, h3, ?_⟩
          intro l t hd
          refine ⟨_, s', l, e, hne, ?_, hd⟩
          rw [h1, h2]; rfl
        · rw [if_pos hcs]
          obtain ⟨s', hr, h2, h3, hrun⟩ := letters_run hc cs { s with place := cs, optopt := (ch.toNat : Int) } hcs (hm.set cs _ s.longindex) rfl
          refine ⟨s', hr, h2, h3, ?_⟩
          intro l t hd
          obtain ⟨r, s'', l', e1, e2, e3, e4⟩ := hrun l t hd
          refine ⟨_, _, _, rfl, hne, ?_, Drive.more (by rw [getopt_mid _ _ (by exact hm.optreset) (by exact hcs)]; exact e1) e2 e4⟩
          rw [← e3]
          change _ = (_, s.optarg, s.longindex) :: _
          rw [hm.optarg]; rfl
    · rw [if_neg hk, if_pos hk]
      simp only
      by_cases hcs : cs = []
      · subst hcs
        rw [if_neg (not_not.mpr rfl)]
        obtain ⟨s', e, hr, h1, h2, h3⟩ := hm.done 63 none (chr ch) s.longindex s.flags
            { s with place := [], optopt := chr ch } (by rw [← hm.optarg])
        refine ⟨s', by simpa [letters] using hr, h2, h3, ?_⟩
        intro l t hd
        refine ⟨_, s', l, e, by decide, ?_, hd⟩
        rw [h1, h2]; rfl
      · rw [if_pos hcs]
        obtain ⟨s', hr, h2, h3, hrun⟩ := letters_run hc cs { s with place := cs, optopt := chr ch } hcs (hm.set cs _ s.longindex) rfl
        refine ⟨s', hr, h2, h3, ?_⟩
        intro l t hd
        obtain ⟨r, s'', l', e1, e2, e3, e4⟩ := hrun l t hd
        refine ⟨_, _, _, rfl, by decide, ?_, Drive.more (by rw [getopt_mid _ _ (by exact hm.optreset) (by exact hcs)]; exact e1) e2 e4⟩
        rw [← e3]
        change _ = (_, s.optarg, s.longindex) :: _
        rw [hm.optarg]; rfl

theorem findLong_eq (name : Str) : ∀ (l : List LongOpt) (i : Nat),
    (l.findIdx? (fun o => o.name = name) = none ∧ findLong l name i = none) ∨
      ∃ j o, l.findIdx? (fun o => o.name = name) = some j ∧ l[j]? = some o ∧ findLong l name i = some (i + j, o)
  | [], i => Or.inl ⟨rfl, rfl⟩
  | o :: l, i => by
    unfold findLong
    by_cases h : o.name = name
    · right
      refine ⟨0, o, by simp [List.findIdx?_cons, h], rfl, ?_⟩
      rw [if_pos ⟨by rw [h], h⟩]; rfl
    · rw [if_neg (fun e => h e.2)]
      rcases findLong_eq name l (i + 1) with ⟨h1, h2⟩ | ⟨j, o', h1, h2, h3⟩
      · left; exact ⟨by simp [List.findIdx?_cons, h, h1], h2⟩
      · right
        refine ⟨j + 1, o', by simp [List.findIdx?_cons, h, h1], by simpa using h2, ?_⟩
        rw [h3]; congr 2; omega

theorem longDone_eq (o : LongOpt) (s : St) : longDone o s = doneOption { s with place := [], flags := s.flags ++ store o } (code o) := by
  unfold longDone store code
  cases o.flag <;> simp

theorem drop_name (a : Str) : a.drop (a.takeWhile (· ≠ 61)).length = a.dropWhile (· ≠ 61) := by
  have h := List.takeWhile_append_dropWhile (p := fun x => decide (x ≠ (61 : UInt8))) (l := a)
  calc a.drop (a.takeWhile (· ≠ 61)).length
      = (a.takeWhile (· ≠ 61) ++ a.dropWhile (· ≠ 61)).drop (a.takeWhile (· ≠ 61)).length := by rw [h]
    _ = _ := List.drop_left

theorem long_run {c : Ctx} (hc : Codes c) {A : List (Option Str)} {B : List Str} {a : Str} {next : List Str} (b : Str) (s : St) (hm : Mid c s A B a next) :
    ∃ s', Ready c s' (A ++ (some a :: (next.take (longArg c next s.longindex b).used.toNat).map some)) B
        (next.drop (longArg c next s.longindex b).used.toNat) ∧ s'.longindex = (longArg c next s.longindex b).li ∧
      s'.flags = s.flags ++ (longArg c next s.longindex b).stores ∧
      ∃ r, long c (c.optstring.head? == some 58) b s = some (r, s') ∧ r ≠ -1 ∧
        (longArg c next s.longindex b).events = [(r, s'.optarg, s'.longindex)] := by
  unfold long longArg
  rcases findLong_eq (b.takeWhile (· ≠ 61)) c.longopts 0 with ⟨h1, h2⟩ | ⟨j, o, h1, h2, h3⟩
  · simp only [h1, h2]
    obtain ⟨s', e, hr, h1, h2, h3⟩ := hm.done 63 none s.optopt s.longindex s.flags { s with place := [] } (by rw [← hm.optarg])
    exact ⟨s', by simpa using hr, h2, by simp [h3], 63, e, by decide, by simp [h1, h2]⟩
  · have ho : code o ≠ -1 := hc.2 o (List.mem_of_getElem? h2)
    simp only [h1, h2, h3]
    rw [Nat.zero_add, drop_name, missing_eq]
    simp only [longDone_eq]
    by_cases ha : o.hasArg = 1 ∨ o.hasArg = 2
    · simp only [if_pos ha]
      cases hv : b.dropWhile (· ≠ 61) with
      | cons x value =>
        simp only
        obtain ⟨s', e, hr, h1, h2, h3⟩ := hm.done (code o) (some value) s.optopt (some j) (s.flags ++ store o)
          { s with longindex := some j, optarg := some value, place := [], flags := s.flags ++ store o } rfl
        exact ⟨s', by simpa using hr, h2, h3, _, e, ho, by simp [h1, h2]⟩
      | nil =>
        simp only
        by_cases ha1 : o.hasArg = 1
        · simp only [if_pos ha1]
          match next, hm with
          | [], hm =>
            rw [if_pos (show s.optbegin + 1 ≥ c.argc by rw [hm.optbegin, hm.argc]; simp)]
            obtain ⟨s', e, hr, h1, h2, h3⟩ := hm.done (missing c.optstring) none s.optopt (some j) s.flags
              { s with place := [], longindex := some j } (by rw [← hm.optarg])
            exact ⟨s', by simpa using hr, h2, by simp [h3], _, e, missing_ne _, by simp [h1, h2]⟩
          | v :: next, hm =>
            rw [if_neg (show ¬ s.optbegin + 1 ≥ c.argc by rw [hm.optbegin, hm.argc]; simp)]
            rw [hm.next]
            obtain ⟨s', e, hr, h1, h2, h3⟩ := hm.done1 (code o) (some v) s.optopt (some j) (s.flags ++ store o)
              { s with place := [], longindex := some j, optarg := some v, optend := s.optend + 1, flags := s.flags ++ store o } rfl
            exact ⟨s', by simpa using hr, h2, h3, _, e, ho, by simp [h1, h2]⟩
        · simp only [if_neg ha1]
          obtain ⟨s', e, hr, h1, h2, h3⟩ := hm.done (code o) none s.optopt (some j) (s.flags ++ store o)
            { s with longindex := some j, place := [], flags := s.flags ++ store o } (by rw [← hm.optarg])
          exact ⟨s', by simpa using hr, h2, h3, _, e, ho, by simp [h1, h2]⟩
    · simp only [if_neg ha]
      obtain ⟨s', e, hr, h1, h2, h3⟩ := hm.done (code o) none s.optopt (some j) (s.flags ++ store o)
        { s with longindex := some j, place := [], flags := s.flags ++ store o } (by rw [← hm.optarg])
      exact ⟨s', by simpa using hr, h2, h3, _, e, ho, by simp [h1, h2]⟩

theorem option_run {c : Ctx} (hc : Codes c) {A : List (Option Str)} {B : List Str} {a : Str} {next : List Str} (b : Str) (s : St) (hb : b ≠ [])
    (hb' : b ≠ [45]) (hm : Mid c { s with optbegin := A.length + B.length, optend := A.length + B.length + 1, optarg := none, place := b } A B a next) :
    ∃ s', Ready c s' (A ++ (some a :: (next.take (optionArg c next s.longindex b).used.toNat).map some)) B
        (next.drop (optionArg c next s.longindex b).used.toNat) ∧ s'.longindex = (optionArg c next s.longindex b).li ∧
      s'.flags = s.flags ++ (optionArg c next s.longindex b).stores ∧
      ∀ l t, Drive c s' l t →
        ∃ r s'' l', option c (c.optstring.head? == some 58) (known c.optstring) (A.length + B.length) b s = some (r, s'') ∧ r ≠ -1 ∧
          (optionArg c next s.longindex b).events ++ l = (r, s''.optarg, s''.longindex) :: l' ∧ Drive c s'' l' t := by
  match b, hb, hb', hm with
  | ch :: b, _, hb', hm =>
    by_cases h : ch = 45
    · subst h
      match b, hb', hm with
      | x :: b, hb', hm =>
        obtain ⟨s', h1, h2, h3, r, h4, h5, h6⟩ := long_run hc (x :: b) _ hm
        refine ⟨s', h1, h2, h3, ?_⟩
        intro l t hd
        refine ⟨r, s', l, h4, h5, ?_, hd⟩
        have : (optionArg c next s.longindex (45 :: x :: b)).events = [(r, s'.optarg, s'.longindex)] := h6
        rw [this]; rfl
    · obtain ⟨s', h1, h2, h3, h4⟩ := letters_run hc (ch :: b) _ (by simp) hm rfl
      have e1 : optionArg c next s.longindex (ch :: b) = ⟨(letters c.optstring next s.longindex (ch :: b)).1, [],
          (letters c.optstring next s.longindex (ch :: b)).2, s.longindex⟩ := by
        unfold optionArg
        split
        · rename_i heq; exact absurd (List.cons.inj heq).1 h
        · rfl
      rw [e1]
      refine ⟨s', h1, h2, by simpa using h3, ?_⟩
      intro l t hd
      obtain ⟨r, s'', l', k1, k2, k3, k4⟩ := h4 l t hd
      refine ⟨r, s'', l', ?_, k2, k3, k4⟩
      rw [← k1]
      unfold option
      split
      · rename_i heq; exact absurd (List.cons.inj heq).1 h
      · rename_i heq; exact absurd (List.cons.inj heq).1 h
      · rfl

theorem run {c : Ctx} (hc : Codes c) : ∀ (n : Nat) (A : List (Option Str)) (B next : List Str) (s : St), next.length ≤ n → (∀ b ∈ B, b.head? ≠ some 45) →
    Ready c s A B next → (∀ a ∈ (parse c s.longindex next).heads, Plain a) →
    ∃ t, Drive c s (parse c s.longindex next).events t ∧
      t.argv = A ++ ((parse c s.longindex next).options.map some ++ ((B ++ (parse c s.longindex next).operands).map some ++ [none])) ∧
      t.optind = A.length + (parse c s.longindex next).options.length ∧ t.flags = s.flags ++ (parse c s.longindex next).stores := by
  intro n
  induction n with
  | zero =>
    intro A B next s hn hB hr _
    obtain rfl : next = [] := List.eq_nil_of_length_eq_zero (by omega)
    have hargv := hr.argv
    have hargc := hr.argc
    simp only [List.map_nil, List.nil_append, List.length_nil, Nat.add_zero] at hargv hargc
    unfold parse
    simp only [List.map_nil, List.nil_append, List.append_nil, List.length_nil, Nat.add_zero]
    cases B with
    | nil =>
      refine ⟨{ s with optreset := false, place := [] }, Drive.stop ?_, hargv, hr.optind, rfl⟩
      unfold getopt
      simp only [hr.place, or_true, if_true]
      rw [if_pos]
      rw [hr.optind, hargc]; simp
    | cons b B =>
      refine ⟨{ s with optreset := false, place := [], optbegin := c.argc }, Drive.stop ?_, hargv, hr.optind, rfl⟩
      unfold getopt
      simp only [hr.place, or_true, if_true]
      rw [if_neg (by rw [hr.optind, hargc]; simp), hargv, hr.optind, hargc,
        show A.length + (b :: B).length - 1 - A.length = B.length by simp, scan_none _ B b A hB]
      rfl
  | succ n ih =>
    intro A B next s hn hB hr hp
    match next, hn, hr, hp with
    | [], _, hr, hp => exact ih A B [] s (by simp) hB hr hp
    | a :: next, hn, hr, hp =>
      have hn' : next.length ≤ n := by simpa using hn
      by_cases ha : a.head? = some 45
      · obtain ⟨b, rfl⟩ : ∃ b, a = 45 :: b := by
          cases a with
          | nil => simp at ha
          | cons x b => exact ⟨b, by simp at ha; rw [ha]⟩
        rw [parse] at hp ⊢
        simp only [List.head?_cons, if_true, List.tail_cons] at hp ⊢
        obtain ⟨hp1, hp2⟩ := hp (45 :: b) (by simp)
        have hm : Mid c { s with optreset := false, optbegin := A.length + B.length, optend := A.length + B.length + 1, optarg := none, place := b }
            A B (45 :: b) next :=
          ⟨by simpa using hr.argv, hr.optind, rfl, rfl, rfl, rfl, by rw [hr.argc]; simp; omega⟩
        obtain ⟨s', h1, h2, h3, h4⟩ := option_run hc b { s with optreset := false } (fun e => hp1 (by rw [e])) (fun e => hp2 (by rw [e])) hm
        simp only at h1 h2 h3 h4
        obtain ⟨t, k1, k2, k3, k4⟩ := ih _ B _ s' (by simp; omega) hB h1 (by
          intro x hx
          rw [h2] at hx
          exact hp x (by simp [hx]))
        rw [h2] at k1 k2 k3 k4
        obtain ⟨r, s'', l', j1, j2, j3, j4⟩ := h4 _ _ k1
        refine ⟨t, ?_, ?_, ?_, ?_⟩
        · rw [j3]
          refine Drive.more ?_ j2 j4
          rw [← j1]
          have hs : scan s.argv (c.argc - 1 - s.optind) s.optind = some (some (A.length + B.length, b)) := by
            rw [hr.argv, hr.optind]
            exact scan_found (45 :: b) rfl (next.map some ++ [none]) B A (c.argc - 1 - A.length) hB (by rw [hr.argc]; simp; omega)
          unfold getopt
          simp only [hr.place, or_true, if_true]
          rw [if_neg (by rw [hr.optind, hr.argc]; simp; omega), hs]
          simp only [Option.bind_eq_bind, Option.bind_some]
          congr 1
          unfold known
          by_cases h : c.optstring.head? = some 58 <;> simp [h]
        · rw [k2]; simp
        · rw [k3]; simp; omega
        · rw [k4, h3]; simp
      · rw [parse] at hp ⊢
        simp only [if_neg ha] at hp ⊢
        obtain ⟨t, k1, k2, k3, k4⟩ := ih A (B ++ [a]) next s hn' (by
            intro b hb
            rcases List.mem_append.mp hb with h | h
            · exact hB b h
            · rw [List.mem_singleton.mp h]; exact ha)
          ⟨by simpa using hr.argv, hr.optind, hr.place, hr.optreset, by rw [hr.argc]; simp; omega⟩ hp
        exact ⟨t, k1, by rw [k2]; simp, k3, k4⟩

/-- **C63** (partial).  For every list of arguments in which no option is `-` or `--`, the calls report exactly what the parser reports, in order, with the values
that are given to the options; at the end `argv` holds the program, the options in order with their values, the operands in their order, and the null pointer, and
`optind` is the index of the first operand. -/
theorem getopt_correct_partial (c : Ctx) (hc : Codes c) (prog : Str) (args : List Str) (hn : c.argc = args.length + 1)
    (hp : ∀ a ∈ (parse c none args).heads, Plain a) :
    ∃ t, Drive c (init prog args) (parse c none args).events t ∧
      t.argv = some prog :: (parse c none args).options.map some ++ (parse c none args).operands.map some ++ [none] ∧
      t.optind = 1 + (parse c none args).options.length ∧ t.flags = (parse c none args).stores := by
  obtain ⟨t, h1, h2, h3, h4⟩ := run hc args.length [some prog] [] args (init prog args) (Nat.le_refl _) (by simp)
    ⟨by simp [init], rfl, rfl, rfl, by rw [hn]; simp; omega⟩ hp
  exact ⟨t, h1, by rw [h2]; simp [init], by rw [h3]; simp [init], by rw [h4]; simp [init]⟩

/-- The hypotheses can be met: `-v in --size 3 -ofile out`, with the letters `vo:` and the long option `size`. -/
example : ∃ t, Drive ⟨7, [118, 111, 58], [⟨[115, 105, 122, 101], 1, none, 7⟩]⟩
      (init [112] [[45, 118], [105, 110], [45, 45, 115, 105, 122, 101], [51], [45, 111, 102], [120]])
      [(118, none, none), (7, some [51], some 0), (111, some [102], some 0)] t ∧
    t.argv = [some [112], some [45, 118], some [45, 45, 115, 105, 122, 101], some [51], some [45, 111, 102], some [105, 110], some [120], none] ∧
    t.optind = 5 ∧ t.flags = [] := by
  have := getopt_correct_partial ⟨7, [118, 111, 58], [⟨[115, 105, 122, 101], 1, none, 7⟩]⟩ (by
      constructor
      · decide
      · intro o ho
        rw [List.mem_singleton.mp ho]
        decide) [112] [[45, 118], [105, 110], [45, 45, 115, 105, 122, 101], [51], [45, 111, 102], [120]] rfl (by
      simp [parse, optionArg, longArg, letters, known, Plain, List.findIdx?_cons, List.idxOf_cons])
  simpa [parse, optionArg, longArg, letters, known, code, store, List.findIdx?_cons, List.idxOf_cons] using this

/-! ## The argument `--` -/

/-- The property with `--`, when there are no options at all: the operands are those before and behind `--`. -/
def dashdashClaim : Prop :=
  ∀ (prog : Str) (pre post : List Str), (∀ a ∈ pre, a.head? ≠ some 45) →
    ∃ t, Drive ⟨pre.length + post.length + 2, [], []⟩ (init prog (pre ++ [45, 45] :: post)) [] t ∧
      t.argv.drop t.optind = (pre ++ post).map some ++ [none]

/-- What the code does: `--` overwrites what follows it, which may be the null pointer, and this is skipped too. -/
theorem dashdash (prog : Str) (pre post : List Str) (h : ∀ a ∈ pre, a.head? ≠ some 45) :
    ∃ t, getopt ⟨pre.length + post.length + 2, [], []⟩ (init prog (pre ++ [45, 45] :: post)) = some (-1, t) ∧
      t.optind = pre.length + 3 ∧
      t.argv = some prog :: pre.map some ++ [some [45, 45], some [45, 45]] ++ (post.map some ++ [none]).tail := by
  have hs : scan (init prog (pre ++ [45, 45] :: post)).argv (pre.length + post.length + 2 - 1 - 1) 1 = some (some (1 + pre.length, [45])) := by
    have := scan_found [45, 45] rfl (post.map some ++ [none]) pre [some prog] (pre.length + post.length) h (by omega)
    simpa [init] using this
  unfold getopt
  have h1 : ¬ (init prog (pre ++ [45, 45] :: post)).optind ≥ pre.length + post.length + 2 := by simp [init]
  simp only
  rw [if_pos (Or.inr (show (init prog (pre ++ [45, 45] :: post)).place = [] from rfl)), if_neg h1]
  change ∃ t, (scan (init prog (pre ++ [45, 45] :: post)).argv (pre.length + post.length + 2 - 1 - 1) 1 >>= _) = some (-1, t) ∧ _
  rw [hs]
  simp only [Option.bind_eq_bind, Option.bind_some, option]
  unfold doneOption
  simp only
  rw [show 1 + pre.length + 1 - (1 + pre.length) = 1 by omega]
  have hsh : shift (1 + pre.length + 1) (1 + pre.length + 1) (init prog (pre ++ [45, 45] :: post)).argv =
      some (some prog :: pre.map some ++ [some [45, 45], some [45, 45]] ++ (post.map some ++ [none]).tail) := by
    unfold shift
    have e : (init prog (pre ++ [45, 45] :: post)).argv = (some prog :: pre.map some) ++ (some [45, 45] :: (post.map some ++ [none])) := by simp [init]
    have hr : rd (init prog (pre ++ [45, 45] :: post)).argv (1 + pre.length + 1 - 1) = some (some [45, 45]) := by
      rw [e, rd_getElem?, List.getElem?_append_right (by simp; omega)]
      rw [show 1 + pre.length + 1 - 1 - (some prog :: pre.map some).length = 0 by simp; omega]
      rfl
    rw [hr, show 1 + pre.length + 1 - 1 - (1 + pre.length + 1) = 0 by omega]
    simp only [Option.bind_eq_bind, Option.bind_some, iter]
    rw [e, wr_of_lt (by simp; omega), List.set_append_right _ _ (by simp +arith)]
    rw [show 1 + pre.length + 1 - (some prog :: pre.map some).length = 1 by simp +arith]
    cases post <;> simp
  have hi : iter 1 (fun _ argv => shift (1 + pre.length + 1) (1 + pre.length + 1) argv) (init prog (pre ++ [45, 45] :: post)).argv =
      some (some prog :: pre.map some ++ [some [45, 45], some [45, 45]] ++ (post.map some ++ [none]).tail) := by
    simp only [iter]
    exact hsh
  simp only [Option.bind_eq_bind] at hi ⊢
  rw [hi]
  refine ⟨_, rfl, ?_, rfl⟩
  simp only
  omega

/-- So the property fails: of `prog a -- b c` only `c` is left. -/
theorem dashdash_claim_false : ¬ dashdashClaim := by
  intro h
  obtain ⟨t, hd, ht⟩ := h [112] [[97]] [[98], [99]] (by decide)
  obtain ⟨t', e, e1, e2⟩ := dashdash [112] [[97]] [[98], [99]] (by decide)
  cases hd with
  | stop hg =>
    have : t = t' := by
      have := hg.symm.trans e
      simpa using this
    subst this
    rw [e1, e2] at ht
    revert ht
    decide

/-- The argument `-` makes the code read behind the end of the string of the letters. -/
theorem lone_dash : getopt ⟨2, [97], []⟩ (init [112] [[45]]) = none := by decide

end Verif.Getopt
