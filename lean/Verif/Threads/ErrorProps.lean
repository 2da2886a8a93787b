import Verif.Threads.ErrorModel

/-!
# The last error belongs to the thread
-/

namespace Verif.Threads

/-! ## Specification: one thread alone -/

/-- Code and message of the last error. -/
structure Err where
  code : Int
  text : List UInt8

/-- No error. -/
def noErr : Err := ⟨0, []⟩

/-- The message stored for a text: at most 1023 characters of the string. -/
def stored : Option (List UInt8) → List UInt8
  | some text => (text.takeWhile (· ≠ 0)).take 1023
  | none => []

/-- A call, for a thread alone. -/
def runOp (e : Err) : Op → Err × List Out
  | .setError c m => (⟨c, stored m⟩, [.code c])
  | .getError => (e, [.code e.code])
  | .getMessage => (e, [.text e.text])
  | .exit => (noErr, [])

/-- Several calls, for a thread alone. -/
def runOps : Err → List Op → Err × List Out
  | e, [] => (e, [])
  | e, op :: l => ((runOps (runOp e op).1 l).1, (runOp e op).2 ++ (runOps (runOp e op).1 l).2)

theorem runOps_append (e : Err) (a b : List Op) :
    runOps e (a ++ b) = ((runOps (runOps e a).1 b).1, (runOps e a).2 ++ (runOps (runOps e a).1 b).2) := by
  induction a generalizing e with
  | nil => rfl
  | cons op a ih => simp [runOps, ih, List.append_assoc]

theorem runOps_snoc (e : Err) (a : List Op) (op : Op) :
    runOps e (a ++ [op]) = ((runOp (runOps e a).1 op).1, (runOps e a).2 ++ (runOp (runOps e a).1 op).2) := by
  rw [runOps_append]; simp [runOps]

/-! ## Invariant -/

/-- A block holds an error. -/
def Holds (r : Rec) (e : Err) : Prop := r.message.length = errMsgLen ∧ r.lastError = e.code ∧ cstr r.message = e.text

/-- The block that belongs to a thread. -/
def owned (l : Local) : Option Nat :=
  match l.phase with
  | .set _ p => some p
  | .use _ p => some p
  | .code _ _ p => some p
  | _ => l.tls

/-- The block of the thread holds an error; a thread without a block has none. -/
def View (h : Heap) (l : Local) (e : Err) : Prop :=
  match owned l with
  | none => e = noErr
  | some p => ∃ r, h p = some r ∧ Holds r e

/-- State of a thread after the calls `done`. -/
def LInv (P : List Op) (h : Heap) (l : Local) : Prop :=
  ∃ done, l.log = (runOps noErr done).2 ∧
    match l.phase with
    | .idle => P = done ++ l.prog ∧ View h l (runOps noErr done).1
    | .get op => op ≠ .exit ∧ P = done ++ op :: l.prog ∧ View h l (runOps noErr done).1
    | .new op => op ≠ .exit ∧ P = done ++ op :: l.prog ∧ l.tls = none ∧ (runOps noErr done).1 = noErr
    | .set op p => op ≠ .exit ∧ P = done ++ op :: l.prog ∧ (∀ q, l.tls = some q → q = p) ∧ View h l (runOps noErr done).1
    | .use op p => op ≠ .exit ∧ P = done ++ op :: l.prog ∧ l.tls = some p ∧ View h l (runOps noErr done).1
    | .code e m p => P = done ++ .setError e m :: l.prog ∧ l.tls = some p ∧ View h l ⟨(runOps noErr done).1.code, stored m⟩

theorem take_takeWhile (q : UInt8 → Bool) (l : List UInt8) (n : Nat) : (l.take n).takeWhile q = (l.takeWhile q).take n := by
  induction l generalizing n with
  | nil => simp
  | cons a l ih =>
    cases n with
    | zero => simp
    | succ n =>
      rw [List.take_succ_cons, List.takeWhile_cons, List.takeWhile_cons]
      split
      · rw [ih, List.take_succ_cons]
      · simp

theorem takeWhile_append_stop (q : UInt8 → Bool) (a b : List UInt8) (x : UInt8) (hx : q x = false) :
    (a ++ x :: b).takeWhile q = a.takeWhile q := by
  induction a with
  | nil => simp [hx]
  | cons c a ih =>
    rw [List.cons_append, List.takeWhile_cons, List.takeWhile_cons, ih]

theorem writeMessage_spec {buf : List UInt8} (hb : buf.length = errMsgLen) (m : Option (List UInt8)) :
    (writeMessage buf m).length = errMsgLen ∧ cstr (writeMessage buf m) = stored m := by
  unfold errMsgLen at hb
  cases m with
  | none =>
    cases buf with
    | nil => simp at hb
    | cons a l => exact ⟨by simpa [writeMessage, errMsgLen] using hb, by simp [writeMessage, cstr, stored]⟩
  | some text =>
    refine ⟨?_, ?_⟩
    · unfold writeMessage errMsgLen
      rw [List.length_append, List.length_cons, List.length_drop, List.length_take]
      omega
    · unfold writeMessage cstr stored errMsgLen
      rw [takeWhile_append_stop _ _ _ _ (by decide), take_takeWhile]

theorem view_of_owned {h : Heap} {l : Local} {e : Err} {p : Nat} (hp : owned l = some p) : View h l e ↔ ∃ r, h p = some r ∧ Holds r e := by
  unfold View; rw [hp]

theorem view_congr {h : Heap} {l l' : Local} {e : Err} (ho : owned l' = owned l) : View h l' e ↔ View h l e := by
  unfold View; rw [ho]

/-- The block of a thread is live. -/
theorem owned_live {P : List Op} {h : Heap} {l : Local} (hl : LInv P h l) {p : Nat} (hp : owned l = some p) : h p ≠ none := by
  obtain ⟨done, _, hm⟩ := hl
  have key : ∀ e, View h l e → h p ≠ none := fun e hv => by
    obtain ⟨r, hr, _⟩ := (view_of_owned hp).1 hv
    rw [hr]; simp
  cases hph : l.phase with
  | idle => rw [hph] at hm; exact key _ hm.2
  | get op => rw [hph] at hm; exact key _ hm.2.2
  | new op => rw [hph] at hm; unfold owned at hp; rw [hph] at hp; rw [hm.2.2.1] at hp; exact absurd hp (by simp)
  | set op q => rw [hph] at hm; exact key _ hm.2.2.2
  | use op q => rw [hph] at hm; exact key _ hm.2.2.2
  | code e m q => rw [hph] at hm; exact key _ hm.2.2

/-- Nothing changes for a thread when its block is not changed. -/
theorem linv_frame {P : List Op} {h h' : Heap} {l : Local} (hl : LInv P h l) (hh : ∀ p, owned l = some p → h' p = h p) : LInv P h' l := by
  have key : ∀ e, View h l e → View h' l e := by
    intro e hv
    unfold View at hv ⊢
    split
    · rename_i ho; rw [ho] at hv; exact hv
    · rename_i p ho; rw [ho] at hv; rw [hh p ho]; exact hv
  obtain ⟨done, h1, hm⟩ := hl
  refine ⟨done, h1, ?_⟩
  cases hph : l.phase <;> rw [hph] at hm <;> simp only at hm ⊢
  · exact ⟨hm.1, key _ hm.2⟩
  · exact ⟨hm.1, hm.2.1, key _ hm.2.2⟩
  · exact hm
  · exact ⟨hm.1, hm.2.1, hm.2.2.1, key _ hm.2.2.2⟩
  · exact ⟨hm.1, hm.2.1, hm.2.2.1, key _ hm.2.2.2⟩
  · exact ⟨hm.1, hm.2.1, key _ hm.2.2⟩

/-- What a step of a thread does to it and to the heap. -/
theorem step_spec {P : List Op} {h h' : Heap} {l l' : Local} (hl : LInv P h l) (hs : LStep h l h' l') :
    LInv P h' l' ∧ (∀ q, owned l ≠ some q → h q ≠ none → h' q = h q) ∧ ∀ q, owned l' = some q → owned l = some q ∨ h q = none := by
  have hlive := fun {p} => owned_live hl (p := p)
  obtain ⟨done, h1, hm⟩ := hl
  cases hs with
  | @call op rest a b c =>
    rw [a] at hm; simp only at hm
    refine ⟨⟨done, h1, c, by rw [hm.1, b], (view_congr (by simp [owned, a])).1 hm.2⟩, fun _ _ _ => rfl, fun q hq => ?_⟩
    left; simpa [owned, a] using hq
  | @getSome op p a b =>
    rw [a] at hm; simp only at hm
    refine ⟨⟨done, h1, hm.1, hm.2.1, fun q hq => ?_, (view_congr (by simp [owned, a, b])).1 hm.2.2⟩, fun _ _ _ => rfl, fun q hq => ?_⟩
    · change l.tls = some q at hq; rw [b] at hq; exact (Option.some.inj hq).symm
    · left; simpa [owned, a, b] using hq
  | @getNone op a b =>
    rw [a] at hm; simp only at hm
    refine ⟨⟨done, h1, hm.1, hm.2.1, b, ?_⟩, fun _ _ _ => rfl, fun q hq => ?_⟩
    · have := hm.2.2; unfold View owned at this; rw [a] at this; simp only [b] at this; exact this
    · simp [owned, b] at hq
  | @new op p g a b c =>
    rw [a] at hm; simp only at hm
    refine ⟨⟨done, h1, hm.1, hm.2.1, fun q hq => ?_, ?_⟩, fun q _ hq => ?_, fun q hq => ?_⟩
    · change l.tls = some q at hq; rw [hm.2.2.1] at hq; exact absurd hq (by simp)
    · rw [view_of_owned (p := p) (by simp [owned]), hm.2.2.2]
      refine ⟨_, Function.update_self .., ?_, rfl, ?_⟩
      · simpa using c
      · cases g with
        | nil => simp [errMsgLen] at c
        | cons x g => simp [cstr, noErr]
    · exact Function.update_of_ne (fun e => by rw [e] at hq; exact hq b) _ _
    · right
      have : p = q := by simpa [owned] using hq
      rw [← this]; exact b
  | @setKey op p a =>
    rw [a] at hm; simp only at hm
    refine ⟨⟨done, h1, hm.1, hm.2.1, rfl, (view_congr (by simp [owned, a])).1 hm.2.2.2⟩, fun _ _ _ => rfl, fun q hq => ?_⟩
    left; simpa [owned, a] using hq
  | @getError p r a b =>
    rw [a] at hm; simp only at hm
    have ho : owned l = some p := by simp [owned, a]
    obtain ⟨r', e, hr⟩ := (view_of_owned ho).1 hm.2.2.2
    rw [b] at e; obtain rfl := Option.some.inj e
    refine ⟨⟨done ++ [.getError], ?_, ?_, ?_⟩, fun _ _ _ => rfl, fun q hq => ?_⟩
    · rw [runOps_snoc, h1]; simp [runOp, hr.2.1]
    · rw [hm.2.1]; simp
    · rw [runOps_snoc, view_of_owned (p := p) (by simp [owned, hm.2.2.1])]
      exact ⟨r, b, hr⟩
    · left; simpa [owned, a, hm.2.2.1] using hq
  | @getMessage p r a b =>
    rw [a] at hm; simp only at hm
    have ho : owned l = some p := by simp [owned, a]
    obtain ⟨r', e, hr⟩ := (view_of_owned ho).1 hm.2.2.2
    rw [b] at e; obtain rfl := Option.some.inj e
    refine ⟨⟨done ++ [.getMessage], ?_, ?_, ?_⟩, fun _ _ _ => rfl, fun q hq => ?_⟩
    · rw [runOps_snoc, h1]; simp [runOp, hr.2.2]
    · rw [hm.2.1]; simp
    · rw [runOps_snoc, view_of_owned (p := p) (by simp [owned, hm.2.2.1])]
      exact ⟨r, b, hr⟩
    · left; simpa [owned, a, hm.2.2.1] using hq
  | @setMessage e m p r a b =>
    rw [a] at hm; simp only at hm
    have ho : owned l = some p := by simp [owned, a]
    obtain ⟨r', e', hr⟩ := (view_of_owned ho).1 hm.2.2.2
    rw [b] at e'; obtain rfl := Option.some.inj e'
    refine ⟨⟨done, h1, hm.2.1, hm.2.2.1, ?_⟩, fun q hq _ => ?_, fun q hq => ?_⟩
    · rw [view_of_owned (p := p) (by simp [owned])]
      obtain ⟨w1, w2⟩ := writeMessage_spec hr.1 m
      exact ⟨_, Function.update_self .., w1, hr.2.1, w2⟩
    · exact Function.update_of_ne (fun e => hq (by rw [ho, e])) _ _
    · left; simpa [owned, a] using hq
  | @setCode e m p r a b =>
    rw [a] at hm; simp only at hm
    have ho : owned l = some p := by simp [owned, a]
    obtain ⟨r', e', hr⟩ := (view_of_owned ho).1 hm.2.2
    rw [b] at e'; obtain rfl := Option.some.inj e'
    refine ⟨⟨done ++ [.setError e m], ?_, ?_, ?_⟩, fun q hq _ => ?_, fun q hq => ?_⟩
    · rw [runOps_snoc, h1]; simp [runOp]
    · rw [hm.1]; simp
    · rw [runOps_snoc, view_of_owned (p := p) (by simp [owned, hm.2.1])]
      exact ⟨_, Function.update_self .., hr.1, rfl, hr.2.2⟩
    · exact Function.update_of_ne (fun e => hq (by rw [ho, e])) _ _
    · left; simpa [owned, a, hm.2.1] using hq
  | @exitSome p rest a b c =>
    rw [a] at hm; simp only at hm
    have ho : owned l = some p := by simp [owned, a, c]
    refine ⟨⟨done ++ [.exit], ?_, ?_⟩, fun q hq _ => ?_, fun q hq => ?_⟩
    · rw [runOps_snoc, h1]; simp [runOp]
    · simp only [a]
      refine ⟨by rw [hm.1, b]; simp, ?_⟩
      rw [runOps_snoc]; simp [View, owned, runOp]
    · exact Function.update_of_ne (fun e => hq (by rw [ho, e])) _ _
    · simp [owned, a] at hq
  | @exitNone rest a b c =>
    rw [a] at hm; simp only at hm
    refine ⟨⟨done ++ [.exit], ?_, ?_⟩, fun _ _ _ => rfl, fun q hq => ?_⟩
    · rw [runOps_snoc, h1]; simp [runOp]
    · simp only [a]
      refine ⟨by rw [hm.1, b]; simp, ?_⟩
      rw [runOps_snoc]; simp [View, owned, c, runOp]
    · left; simpa [owned, a] using hq

variable {T : Type} [DecidableEq T]

theorem world_inv {P : T → List Op} {s : World T} (h : Relation.ReflTransGen WStep (start P) s) :
    (∀ t, LInv (P t) s.heap (s.loc t)) ∧ ∀ t u p, owned (s.loc t) = some p → owned (s.loc u) = some p → t = u := by
  induction h with
  | refl => exact ⟨fun t => ⟨[], rfl, rfl, rfl⟩, fun t u p hp => by simp [start, owned] at hp⟩
  | @tail s s' _ h2 ih =>
    obtain ⟨t, h', l', hs, rfl⟩ := h2
    obtain ⟨i1, i2⟩ := ih
    obtain ⟨j1, j2, j3⟩ := step_spec (i1 t) hs
    have other : ∀ u, u ≠ t → ∀ p, owned (s.loc u) = some p → owned l' ≠ some p := by
      intro u hu p hp hp'
      rcases j3 p hp' with e | e
      · exact hu (i2 u t p hp e)
      · exact owned_live (i1 u) hp e
    refine ⟨fun u => ?_, fun u v p hu hv => ?_⟩
    · by_cases e : u = t
      · subst e; simp only [Function.update_self]; exact j1
      · simp only [Function.update_of_ne e]
        exact linv_frame (i1 u) fun p hp => j2 p (fun hp' => e (i2 u t p hp hp')) (owned_live (i1 u) hp)
    · by_cases e : u = t <;> by_cases e' : v = t
      · rw [e, e']
      · subst e; simp only [Function.update_self, Function.update_of_ne e'] at hu hv
        exact absurd hu (other v e' p hv)
      · subst e'; simp only [Function.update_self, Function.update_of_ne e] at hu hv
        exact absurd hv (other u e p hu)
      · simp only [Function.update_of_ne e, Function.update_of_ne e'] at hu hv
        exact i2 u v p hu hv

/-- **C62**: in every interleaving, whenever a thread is between two calls, its results so far are those the calls it has made yield when it runs
alone: the last error and message of a thread are those it has set itself, messages are cut at 1023 characters. -/
theorem error_per_thread {P : T → List Op} {s : World T} (h : Relation.ReflTransGen WStep (start P) s) (t : T) (ht : (s.loc t).phase = .idle) :
    ∃ done, P t = done ++ (s.loc t).prog ∧ (s.loc t).log = (runOps noErr done).2 := by
  obtain ⟨done, h1, h2⟩ := (world_inv h).1 t
  rw [ht] at h2
  exact ⟨done, h2.1, h1⟩

/-- **C62**: no call ever uses a block that is not allocated, and every thread can go on, whatever the others do. -/
theorem error_no_dangling {P : T → List Op} {s : World T} (h : Relation.ReflTransGen WStep (start P) s) (t : T)
    (ht : (s.loc t).phase ≠ .idle ∨ (s.loc t).prog ≠ []) (hfree : ∃ p, s.heap p = none) : ∃ h' l', LStep s.heap (s.loc t) h' l' := by
  have hi := (world_inv h).1 t
  have hlive := fun {p} => owned_live hi (p := p)
  obtain ⟨done, _, hm⟩ := hi
  cases hph : (s.loc t).phase with
  | idle =>
    cases hp : (s.loc t).prog with
    | nil => rw [hph, hp] at ht; simp at ht
    | cons op rest =>
      by_cases e : op = .exit
      · subst e
        cases htls : (s.loc t).tls with
        | none => exact ⟨_, _, .exitNone hph hp htls⟩
        | some p => exact ⟨_, _, .exitSome hph hp htls⟩
      · exact ⟨_, _, .call hph hp e⟩
  | get op =>
    cases htls : (s.loc t).tls with
    | none => exact ⟨_, _, .getNone hph htls⟩
    | some p => exact ⟨_, _, .getSome hph htls⟩
  | new op =>
    obtain ⟨p, hp⟩ := hfree
    exact ⟨_, _, .new p (List.replicate errMsgLen 7) hph hp List.length_replicate⟩
  | set op p => exact ⟨_, _, .setKey hph⟩
  | use op p =>
    rw [hph] at hm
    cases hr : s.heap p with
    | none => exact absurd hr (hlive (by simp [owned, hph]))
    | some r =>
      cases op with
      | setError e m => exact ⟨_, _, .setMessage hph hr⟩
      | getError => exact ⟨_, _, .getError hph hr⟩
      | getMessage => exact ⟨_, _, .getMessage hph hr⟩
      | exit => exact absurd rfl hm.1
  | code e m p =>
    cases hr : s.heap p with
    | none => exact absurd hr (hlive (by simp [owned, hph]))
    | some r => exact ⟨_, _, .setCode hph hr⟩

/-! ## Examples -/

/-- What a thread alone obtains: the message is cut, and another error without message clears it. -/
example : (runOps noErr [.getError, .setError 3 (some [72, 105]), .getMessage, .setError 4 none, .getError, .getMessage, .exit, .getError]).2 =
    [.code 0, .code 3, .text [72, 105], .code 4, .code 4, .text [], .code 0] := by decide

/-- Two threads set different errors in between each other; both states are live at the end. -/
example : ∃ s : World (Fin 2), Relation.ReflTransGen WStep (start fun t => if t = 0 then [.setError 1 none, .getError] else [.setError 2 none]) s ∧
    (s.loc 0).log = [.code 1, .code 1] ∧ (s.loc 1).log = [.code 2] := by
  have st : ∀ {a b : World (Fin 2)} (t : Fin 2) {h' : Heap} {l' : Local}, Relation.ReflTransGen WStep a b → LStep b.heap (b.loc t) h' l' →
      Relation.ReflTransGen WStep a { heap := h', loc := Function.update b.loc t l' } := fun t h' l' h hs => h.tail ⟨t, _, _, hs, rfl⟩
  have h := Relation.ReflTransGen.refl (r := WStep) (a := start fun t : Fin 2 => if t = 0 then [.setError 1 none, .getError] else [.setError 2 none])
  have h := st 0 h (.call rfl rfl (by decide))
  have h := st 1 h (.call rfl rfl (by decide))
  have h := st 0 h (.getNone rfl rfl)
  have h := st 1 h (.getNone rfl rfl)
  have h := st 0 h (.new 10 (List.replicate errMsgLen 7) rfl rfl List.length_replicate)
  have h := st 1 h (.new 20 (List.replicate errMsgLen 8) rfl rfl List.length_replicate)
  have h := st 1 h (.setKey rfl)
  have h := st 0 h (.setKey rfl)
  have h := st 0 h (.setMessage rfl rfl)
  have h := st 1 h (.setMessage rfl rfl)
  have h := st 0 h (.setCode rfl rfl)
  have h := st 1 h (.setCode rfl rfl)
  have h := st 0 h (.call rfl rfl (by decide))
  have h := st 0 h (.getSome rfl rfl)
  have h := st 0 h (.setKey rfl)
  have h := st 0 h (.getError rfl rfl)
  exact ⟨_, h, rfl, rfl⟩

end Verif.Threads
