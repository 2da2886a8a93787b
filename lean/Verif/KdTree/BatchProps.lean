import Verif.KdTree.AgreeLemmas

/-! # C25: independence of query history and schedule -/

namespace Verif.KdTree

variable {K : Type} [Field K] [LinearOrder K]

/-- The answer of a new searcher: neighbours and number of comparisons. -/
def freshAnswer (F : Forest K) (k : Nat) (q : List K) : Option (List (Neighbor K) × Nat) :=
  (query F (newSearcher F (List.replicate F.maxNumNodes { tree := 0, nodeIndex := 0, lowerBound := 0 })) (List.replicate k missing) k q).map
    (fun r => r.2)

variable [IsStrictOrderedRing K]

omit [Field K] [LinearOrder K] [IsStrictOrderedRing K] in
theorem newSearcher_ok (F : Forest K) (blk : List (SearchState K)) (h : blk.length = F.maxNumNodes) : (newSearcher F blk).Ok F :=
  ⟨h, by simp [newSearcher], by simp [newSearcher]⟩

/-- C25: the answer of a searcher that has been used in any way is the answer of a new searcher, and the searcher remains usable. -/
theorem query_fresh (F : Forest K) (hF : F.Built) (S : Searcher K) (hS : S.Ok F) (k : Nat) (hk : 0 < k) (nb : List (Neighbor K))
    (hb : nb.length = k) (q : List K) (hq : q.length = F.dim) :
    ∃ S' out nc, query F S nb k q = some (S', out, nc) ∧ S'.Ok F ∧ out.length = k ∧ freshAnswer F k q = some (out, nc) := by
  obtain ⟨S', pts, out, nc, h1, h2, h3, -, -, -⟩ := query_spec F hF S hS k hk q hq nb hb
  refine ⟨S', out, nc, h1, h2, ?_, ?_⟩
  · rw [h3.1]
    have := h3.2.1
    simp
    omega
  · unfold freshAnswer
    rw [← query_agree F hF S _ hS (newSearcher_ok F _ (by simp)) k hk nb _ hb (by simp) q hq, h1]
    rfl

/-- C25, histories: after any sequence of queries every answer was the one of a new searcher. -/
theorem history_independent (F : Forest K) (hF : F.Built) (l : List (Nat × List K × List (Neighbor K)))
    (hl : ∀ r ∈ l, 0 < r.1 ∧ r.2.1.length = F.dim ∧ r.2.2.length = r.1) (S : Searcher K) (hS : S.Ok F) :
    ∃ S' outs, runQueries F l S = some (S', outs) ∧ S'.Ok F ∧
      List.Forall₂ (fun r out => ∃ nc, freshAnswer F r.1 r.2.1 = some (out, nc)) l outs := by
  induction l generalizing S with
  | nil => exact ⟨S, [], rfl, hS, .nil⟩
  | cons r l ih =>
    obtain ⟨k, q, blk⟩ := r
    obtain ⟨g1, g2, g3⟩ := hl _ (List.mem_cons_self ..)
    simp only at g1 g2 g3
    obtain ⟨S1, out, nc, h1, h2, -, h3⟩ := query_fresh F hF S hS k g1 blk g3 q g2
    obtain ⟨S2, outs, e1, e2, e3⟩ := ih (fun r hr => hl r (List.mem_cons_of_mem _ hr)) S1 h2
    refine ⟨S2, out :: outs, ?_, e2, .cons ⟨nc, h3⟩ e3⟩
    simp only [runQueries, Option.bind_eq_bind]
    rw [h1]
    simp only [Option.bind_some]
    rw [e1]
    rfl

/-- The answer to query number `qi` of the batch. -/
def ans (F : Forest K) (k : Nat) (queries : List K) (qi : Nat) : List (Neighbor K) × Nat :=
  (freshAnswer F k (AllPairs.vec queries F.dim qi)).getD ([], 0)

/-- Invariant of a thread. -/
structure ThreadOk (F : Forest K) (k Q : Nat) (queries : List K) (th : Thread K) : Prop where
  searcher : th.searcher.Ok F
  nbs : th.nbs.length = k
  todo : ∀ qi ∈ th.todo, qi < Q
  cur : ∀ qi ni, th.cur = some (qi, ni) → qi < Q ∧ th.nbs = (ans F k queries qi).1

/-- Invariant of the parallel region: whatever is not in the output is still to be done by some thread. -/
structure BatchInv (F : Forest K) (k Q : Nat) (queries : List K) (tot : Nat) (st : Batch K) : Prop where
  threads : ∀ th ∈ st.threads, ThreadOk F k Q queries th
  len : st.out.length = Q * k
  out : ∀ qi < Q, ∀ ni < k, st.out[qi * k + ni]? = (ans F k queries qi).1[ni]?.map cell ∨
    ∃ th ∈ st.threads, qi ∈ th.todo ∨ ∃ nj, th.cur = some (qi, nj) ∧ nj ≤ ni
  total : (st.threads.map (fun th => th.comps + (th.todo.map (fun qi => (ans F k queries qi).2)).sum)).sum = tot

omit [IsStrictOrderedRing K] [Field K] [LinearOrder K] in
theorem sum_set {α : Type} (f : α → Nat) (l : List α) (t : Nat) (ht : t < l.length) (x : α) (h : f x = f l[t]) :
    ((l.set t x).map f).sum = (l.map f).sum := by
  induction l generalizing t with
  | nil => simp at ht
  | cons a l ih =>
    cases t with
    | zero => simp only [List.set_cons_zero, List.map_cons, List.sum_cons]; simp only [List.getElem_cons_zero] at h; rw [h]
    | succ t =>
      simp only [List.set_cons_succ, List.map_cons, List.sum_cons]
      rw [ih t (by simpa using ht) (by simpa using h)]

omit [IsStrictOrderedRing K] [Field K] [LinearOrder K] in
theorem mem_set_other {α : Type} {l : List α} {t : Nat} (ht : t < l.length) {x y : α} (h : y ∈ l) (hy : y ≠ l[t]) : y ∈ l.set t x := by
  obtain ⟨i, hi, rfl⟩ := List.mem_iff_getElem.1 h
  have : t ≠ i := by rintro rfl; exact hy rfl
  rw [List.mem_iff_getElem]
  exact ⟨i, by simpa using hi, by rw [List.getElem_set_ne this]⟩

theorem threadStep_inv {F : Forest K} (hF : F.Built) {k Q tot : Nat} (hk : 0 < k) {queries : List K} (hq : queries.length = Q * F.dim)
    {st : Batch K} (h : BatchInv F k Q queries tot st) {t : Nat} (ht : t < st.threads.length) :
    ∃ st', threadStep F k queries t st = some st' ∧ BatchInv F k Q queries tot st' ∧ st'.threads.length = st.threads.length := by
  unfold threadStep
  rw [rd_of_lt ht]
  simp only [Option.bind_eq_bind, Option.bind_some]
  have hth := h.threads _ (List.getElem_mem ht)
  -- replacing the thread keeps the obligations of the other threads
  have hkeep : ∀ (x : Thread K) (qi ni : Nat), (∃ th ∈ st.threads, qi ∈ th.todo ∨ ∃ nj, th.cur = some (qi, nj) ∧ nj ≤ ni) →
      ((qi ∈ (st.threads[t]).todo ∨ ∃ nj, (st.threads[t]).cur = some (qi, nj) ∧ nj ≤ ni) → qi ∈ x.todo ∨ ∃ nj, x.cur = some (qi, nj) ∧ nj ≤ ni) →
      ∃ th ∈ st.threads.set t x, qi ∈ th.todo ∨ ∃ nj, th.cur = some (qi, nj) ∧ nj ≤ ni := by
    intro x qi ni ⟨th, h1, h2⟩ hx
    by_cases c : th = st.threads[t]
    · rw [c] at h2
      exact ⟨x, List.mem_set ht x, hx h2⟩
    · exact ⟨th, mem_set_other ht h1 c, h2⟩
  have hset : ∀ (x : Thread K), ThreadOk F k Q queries x → ∀ th ∈ st.threads.set t x, ThreadOk F k Q queries th := by
    intro x hx th hm
    rcases List.mem_or_eq_of_mem_set hm with c | c
    · exact h.threads th c
    · rw [c]; exact hx
  cases hcur : st.threads[t].cur with
  | some c =>
    obtain ⟨qi, ni⟩ := c
    obtain ⟨hqi, hnbs⟩ := hth.cur qi ni hcur
    simp only
    by_cases hni : ni < k
    · rw [if_pos hni, rd_of_lt (by rw [hth.nbs]; exact hni)]
      simp only [Option.bind_some]
      have hlt : qi * k + ni < st.out.length := by
        rw [h.len]
        calc qi * k + ni < qi * k + k := by omega
          _ = (qi + 1) * k := by rw [Nat.succ_mul]
          _ ≤ Q * k := Nat.mul_le_mul_right _ hqi
      rw [wr_of_lt hlt, wr_of_lt ht]
      simp only [Option.bind_some]
      refine ⟨_, rfl, ⟨hset _ ⟨hth.searcher, hth.nbs, hth.todo, fun qj nj hj => ?_⟩, by simp [h.len], fun qj hqj nj hnj => ?_, ?_⟩, by simp⟩
      · simp only [Option.some.injEq, Prod.mk.injEq] at hj
        rw [← hj.1]
        exact ⟨hqi, hnbs⟩
      · simp only
        by_cases c : qi * k + ni = qj * k + nj
        · have e1 : qi = qj := by
            have := congrArg (· / k) c
            simp only [Nat.mul_comm _ k, Nat.mul_add_div hk, Nat.div_eq_of_lt hni, Nat.div_eq_of_lt hnj] at this
            omega
          have e2 : ni = nj := by rw [e1] at c; omega
          subst e1 e2
          left
          rw [List.getElem?_set_self hlt, ← hnbs, List.getElem?_eq_getElem (by rw [hth.nbs]; exact hni)]
          rfl
        · rw [List.getElem?_set_ne c]
          rcases h.out qj hqj nj hnj with d | d
          · exact Or.inl d
          · refine Or.inr (hkeep _ qj nj d ?_)
            rintro (g | ⟨nk, g1, g2⟩)
            · exact Or.inl g
            · right
              rw [hcur] at g1
              simp only [Option.some.injEq, Prod.mk.injEq] at g1
              obtain ⟨rfl, rfl⟩ := g1
              refine ⟨ni + 1, rfl, ?_⟩
              have : ni ≠ nj := fun e => c (by rw [e])
              omega
      · simp only
        rw [sum_set _ _ _ ht _ (by simp only)]
        exact h.total
    · rw [if_neg hni, wr_of_lt ht]
      simp only [Option.bind_some]
      refine ⟨_, rfl, ⟨hset _ ⟨hth.searcher, hth.nbs, hth.todo, fun qj nj hj => by simp at hj⟩, h.len, fun qj hqj nj hnj => ?_, ?_⟩, by simp⟩
      · rcases h.out qj hqj nj hnj with d | d
        · exact Or.inl d
        · refine Or.inr (hkeep _ qj nj d ?_)
          rintro (g | ⟨nk, g1, g2⟩)
          · exact Or.inl g
          · rw [hcur] at g1
            simp only [Option.some.injEq, Prod.mk.injEq] at g1
            omega
      · simp only
        rw [sum_set _ _ _ ht _ (by simp only)]
        exact h.total
  | none =>
    simp only
    cases htodo : st.threads[t].todo with
    | nil => exact ⟨st, rfl, h, rfl⟩
    | cons qi rest =>
      simp only
      have hqi : qi < Q := hth.todo qi (by rw [htodo]; simp)
      rw [AllPairs.slice_vec hq hqi rfl]
      simp only [Option.bind_some]
      have hvl : (AllPairs.vec queries F.dim qi).length = F.dim := by
        have : qi * F.dim + F.dim ≤ queries.length := by
          rw [hq, ← Nat.succ_mul]; exact Nat.mul_le_mul_right _ hqi
        simp only [AllPairs.vec, List.length_take, List.length_drop]; omega
      obtain ⟨S', out, nc, e1, e2, e3, e4⟩ := query_fresh F hF _ hth.searcher k hk _ hth.nbs (AllPairs.vec queries F.dim qi) hvl
      have hans : ans F k queries qi = (out, nc) := by unfold ans; rw [e4]; rfl
      rw [e1]
      simp only [Option.bind_some]
      rw [wr_of_lt ht]
      simp only [Option.bind_some]
      refine ⟨_, rfl, ⟨hset _ ⟨e2, e3, fun qj hj => hth.todo qj (by rw [htodo]; exact List.mem_cons_of_mem _ hj), fun qj nj hj => ?_⟩, h.len,
        fun qj hqj nj hnj => ?_, ?_⟩, by simp⟩
      · simp only [Option.some.injEq, Prod.mk.injEq] at hj
        rw [← hj.1, hans]
        exact ⟨hqi, rfl⟩
      · rcases h.out qj hqj nj hnj with d | d
        · exact Or.inl d
        · refine Or.inr (hkeep _ qj nj d ?_)
          rintro (g | ⟨nk, g1, g2⟩)
          · rw [htodo] at g
            rcases List.mem_cons.1 g with c | c
            · right
              exact ⟨0, by rw [c], Nat.zero_le _⟩
            · exact Or.inl c
          · rw [hcur] at g1
            simp at g1
      · simp only
        rw [sum_set _ _ _ ht _ (by simp only [htodo, List.map_cons, List.sum_cons, hans]; omega)]
        exact h.total

/-- C25, schedules: the queries of a batch are assigned to threads in any way and the threads are interleaved in any way.  No step
fails, and when all the threads have finished, every entry of the output is the one of a new searcher and the number of comparisons is the
sum of those of new searchers. -/
theorem batch_schedule_independent (F : Forest K) (hF : F.Built) (k Q : Nat) (hk : 0 < k) (queries : List K)
    (hq : queries.length = Q * F.dim) (assign : List (List Nat)) (hassign : assign.flatten.Perm (List.range Q))
    (blks : List (List (SearchState K) × List (Neighbor K))) (hblks : blks.length = assign.length)
    (hb : ∀ b ∈ blks, b.1.length = F.maxNumNodes ∧ b.2.length = k) (out : List (Nat × Option K)) (ho : out.length = Q * k)
    (sched : List Nat) (hs : ∀ t ∈ sched, t < assign.length) :
    ∃ st, runBatch F k queries sched (startBatch F assign blks out) = some st ∧
      (st.finished →
        (∀ qi < Q, ∀ ni < k, ∃ l nc, freshAnswer F k (AllPairs.vec queries F.dim qi) = some (l, nc) ∧
          st.out[qi * k + ni]? = l[ni]?.map cell) ∧
        st.out.length = Q * k ∧
        st.total = ((List.range Q).map (fun qi => ((freshAnswer F k (AllPairs.vec queries F.dim qi)).getD ([], 0)).2)).sum) := by
  have hstart : BatchInv F k Q queries ((List.range Q).map (fun qi => (ans F k queries qi).2)).sum (startBatch F assign blks out) := by
    have hzip : ∀ p ∈ assign.zip blks, p.1 ∈ assign ∧ p.2 ∈ blks := fun p hp => List.of_mem_zip hp
    refine ⟨?_, ho, ?_, ?_⟩
    · intro th hth
      simp only [startBatch, List.mem_map] at hth
      obtain ⟨p, hp, rfl⟩ := hth
      obtain ⟨h1, h2⟩ := hb _ (hzip p hp).2
      refine ⟨newSearcher_ok F _ h1, h2, fun qi hqi => ?_, fun _ _ hc => by simp at hc⟩
      exact List.mem_range.1 (hassign.subset (List.mem_flatten.2 ⟨p.1, (hzip p hp).1, hqi⟩))
    · intro qi hqi ni _
      right
      obtain ⟨l, hl, hm⟩ := List.mem_flatten.1 (hassign.symm.subset (List.mem_range.2 hqi))
      obtain ⟨i, hi, rfl⟩ := List.mem_iff_getElem.1 hl
      refine ⟨_, List.mem_map.2 ⟨(assign[i], blks[i]'(by omega)), ?_, rfl⟩, Or.inl hm⟩
      rw [List.mem_iff_getElem]
      exact ⟨i, by simp; omega, by simp⟩
    · simp only [startBatch, List.map_map]
      rw [← (hassign.map (fun qi => (ans F k queries qi).2)).sum_eq, List.map_flatten, List.sum_flatten, List.map_map]
      have : assign = (assign.zip blks).map Prod.fst := by
        rw [List.map_fst_zip]; omega
      conv_rhs => rw [this, List.map_map]
      congr 1
      apply List.map_congr_left
      intro p _
      simp
  have hrun : ∀ (sched : List Nat) (st : Batch K), (∀ t ∈ sched, t < st.threads.length) →
      BatchInv F k Q queries ((List.range Q).map (fun qi => (ans F k queries qi).2)).sum st →
      ∃ st', runBatch F k queries sched st = some st' ∧
        BatchInv F k Q queries ((List.range Q).map (fun qi => (ans F k queries qi).2)).sum st' := by
    intro sched
    induction sched with
    | nil => intro st _ h; exact ⟨st, rfl, h⟩
    | cons t ts ih =>
      intro st ht h
      obtain ⟨st1, e1, h1, l1⟩ := threadStep_inv hF hk hq h (ht t (List.mem_cons_self ..))
      obtain ⟨st2, e2, h2⟩ := ih st1 (fun t' ht' => by rw [l1]; exact ht t' (List.mem_cons_of_mem _ ht')) h1
      refine ⟨st2, ?_, h2⟩
      simp only [runBatch, Option.bind_eq_bind]
      rw [e1]
      exact e2
  obtain ⟨st, e, h⟩ := hrun sched (startBatch F assign blks out) (fun t ht => by
    have := hs t ht
    simp [startBatch]; omega) hstart
  refine ⟨st, e, fun hfin => ⟨fun qi hqi ni hni => ?_, h.len, ?_⟩⟩
  · have hvl : (AllPairs.vec queries F.dim qi).length = F.dim := by
      have : qi * F.dim + F.dim ≤ queries.length := by
        rw [hq, ← Nat.succ_mul]; exact Nat.mul_le_mul_right _ hqi
      simp only [AllPairs.vec, List.length_take, List.length_drop]; omega
    obtain ⟨S', l, nc, e1, e2, e3, e4⟩ := query_fresh F hF _ (newSearcher_ok F (List.replicate F.maxNumNodes ⟨0, 0, 0⟩) (by simp)) k hk
      (List.replicate k missing) (by simp) (AllPairs.vec queries F.dim qi) hvl
    refine ⟨l, nc, e4, ?_⟩
    rcases h.out qi hqi ni hni with c | ⟨th, c1, c2⟩
    · rw [c]; unfold ans; rw [e4]; rfl
    · obtain ⟨f1, f2⟩ := hfin th c1
      rw [f1, f2] at c2
      simp at c2
  · change st.total = ((List.range Q).map (fun qi => (ans F k queries qi).2)).sum
    rw [← h.total]
    unfold Batch.total
    congr 1
    apply List.map_congr_left
    intro th hth
    rw [(hfin th hth).1]
    simp

/-! ### A concrete case: two interleaved threads -/

private def exRun : Option (Batch ℚ) :=
  runBatch (lineForest distL2) 1 [7/5, -1, 5] [1, 0, 0, 1, 0, 1, 1, 1, 1]
    (startBatch (lineForest distL2) [[1], [0, 2]]
      [(List.replicate 3 ⟨0, 0, 0⟩, [missing]), (List.replicate 3 ⟨0, 0, 0⟩, [missing])] (List.replicate 3 (0, none)))

example : exRun.map (fun st => st.out) = some [(0, some (49/25)), (0, some 1), (1, some 4)] := by decide +kernel

example : exRun.map (fun st => st.total) = some 5 := by decide +kernel

example : exRun.map (fun st => st.threads.map (fun th => th.todo.length + (th.cur.map Prod.fst).getD 0)) = some [0, 0] := by decide +kernel

end Verif.KdTree
