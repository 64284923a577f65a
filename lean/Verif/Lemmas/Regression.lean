import Verif.Spec.Regression
namespace Verif.Reg
open Verif.RegSpec

variable {W : World}

/-! ### The plan -/

theorem insertStage_perm (t : Test) : ∀ l, (insertStage t l).Perm (t :: l)
  | [] => List.Perm.refl _
  | u :: l => by
    simp only [insertStage]
    split
    · exact List.Perm.refl _
    · exact ((insertStage_perm t l).cons u).trans (List.Perm.swap _ _ _)

theorem sortStage_perm : ∀ l, (sortStage l).Perm l
  | [] => List.Perm.refl _
  | t :: l => (insertStage_perm t _).trans ((sortStage_perm l).cons t)

theorem insertStage_sorted (t : Test) : ∀ l, l.Pairwise (fun a b : Test => a.stage ≤ b.stage) →
    (insertStage t l).Pairwise fun a b => a.stage ≤ b.stage
  | [], _ => by simp [insertStage]
  | u :: l, h => by
    have hu := List.pairwise_cons.1 h
    simp only [insertStage]
    split
    · rename_i hle
      refine List.pairwise_cons.2 ⟨?_, h⟩
      intro b hb
      rcases List.mem_cons.1 hb with rfl | hb
      · exact hle
      · exact Int.le_trans hle (hu.1 b hb)
    · rename_i hlt
      refine List.pairwise_cons.2 ⟨?_, insertStage_sorted t l hu.2⟩
      intro b hb
      rcases List.mem_cons.1 ((insertStage_perm t l).mem_iff.1 hb) with rfl | hb
      · omega
      · exact hu.1 b hb

theorem sortStage_sorted : ∀ l, (sortStage l).Pairwise fun a b => a.stage ≤ b.stage
  | [] => List.Pairwise.nil
  | t :: l => insertStage_sorted t _ (sortStage_sorted l)

theorem insertStage_filter (t : Test) (k : Int) : ∀ l, l.Pairwise (fun a b : Test => a.stage ≤ b.stage) →
    (insertStage t l).filter (fun u => u.stage == k) = (t :: l).filter (fun u => u.stage == k)
  | [], _ => rfl
  | u :: l, h => by
    have hu := List.pairwise_cons.1 h
    simp only [insertStage]
    split
    · rfl
    · rename_i hlt
      have ih := insertStage_filter t k l hu.2
      simp only [List.filter_cons] at ih ⊢
      rw [ih]
      by_cases h1 : u.stage == k
      · have h2 : (t.stage == k) = false := by
          have := eq_of_beq h1
          simp; omega
        simp [h1, h2]
      · simp [h1]

theorem sortStage_filter (k : Int) : ∀ l,
    (sortStage l).filter (fun u => u.stage == k) = l.filter (fun u => u.stage == k)
  | [] => rfl
  | t :: l => by
    rw [sortStage, insertStage_filter t k _ (sortStage_sorted l), List.filter_cons, List.filter_cons,
      sortStage_filter k l]

/-! ### Recording -/

/-- What recording a result does, and does not do. -/
structure Recorded (t : Test) (o : Outcome) (s s' : RM W) : Prop where
  results : s'.results = s.results ++ [(t, o)]
  cases : ∃ st, s'.cases = s.cases ++ [(t, st)] ∧ Agrees st o
  queue : s'.queue = s.queue
  cur : s'.cur = s.cur
  phase : s'.phase = s.phase
  total : s'.total = s.total
  count : s'.count = s.count + 1
  passed : s'.passed = s.passed + if o = .pass then 1 else 0
  failures : s'.failures = s.failures + if o = .fail then 1 else 0
  skipped : s'.skipped = s.skipped + if o = .skip then 1 else 0
  xfailed : s'.xfailed = s.xfailed + if o = .xfail then 1 else 0
  tearing : s'.tearing = s.tearing
  teardowns : s'.teardowns = s.teardowns
  first : s'.first = s.first
  starts : s'.starts = s.starts
  randomSeed : s'.randomSeed = s.randomSeed
  rng : s'.rng = s.rng
  xrng : s'.xrng = s.xrng
  saved : s'.saved = s.saved

/-- What happens to the reason for termination. -/
def TermAfter (o : Outcome) (s s' : RM W) : Prop :=
  s'.terminated = if o = .fail ∧ s.terminated = none ∧ W.maxFailures > 0 ∧
    ((s.failures + 1 : Nat) : Int) ≥ W.maxFailures then some W.regTerminated else s.terminated

theorem recordSkipped_rec (t : Test) (s : RM W) :
    Recorded t .skip s (recordSkipped t s) ∧ (recordSkipped t s).terminated = s.terminated :=
  ⟨⟨rfl, ⟨.skipped, rfl, trivial⟩, rfl, rfl, rfl, rfl, rfl, rfl, rfl, rfl, rfl, rfl, rfl, rfl, rfl, rfl,
    rfl, rfl, rfl⟩, rfl⟩

theorem recordInitFailed_rec (t : Test) (s : RM W) :
    Recorded t .fail s (recordInitFailed t s) ∧ (recordInitFailed t s).terminated = s.terminated :=
  ⟨⟨rfl, ⟨.error, rfl, trivial⟩, rfl, rfl, rfl, rfl, rfl, rfl, rfl, rfl, rfl, rfl, rfl, rfl, rfl, rfl,
    rfl, rfl, rfl⟩, rfl⟩

theorem recordPassed_rec (t : Test) (s : RM W) :
    Recorded t .pass s (recordPassed t s) ∧ (recordPassed t s).terminated = s.terminated :=
  ⟨⟨rfl, ⟨.passed, rfl, trivial⟩, rfl, rfl, rfl, rfl, rfl, rfl, rfl, rfl, rfl, rfl, rfl, rfl, rfl, rfl,
    rfl, rfl, rfl⟩, rfl⟩

theorem recordXfail_rec (t : Test) (s : RM W) :
    Recorded t (shown W .xfailed) s (recordXfail t s) ∧ (recordXfail t s).terminated = s.terminated := by
  have e : shown W .xfailed = if W.xfailInResults then .xfail else .pass := rfl
  rw [e]
  unfold recordXfail
  split
  · exact ⟨⟨rfl, ⟨.xfailed, rfl, trivial⟩, rfl, rfl, rfl, rfl, rfl, rfl, rfl, rfl, rfl, rfl, rfl, rfl, rfl,
      rfl, rfl, rfl, rfl⟩, rfl⟩
  · exact ⟨⟨rfl, ⟨.passed, rfl, trivial⟩, rfl, rfl, rfl, rfl, rfl, rfl, rfl, rfl, rfl, rfl, rfl, rfl, rfl,
      rfl, rfl, rfl, rfl⟩, rfl⟩

theorem recordFailed_rec (t : Test) (s : RM W) :
    Recorded t .fail s (recordFailed t s) ∧ TermAfter .fail s (recordFailed t s) := by
  unfold recordFailed limitFailures TermAfter addFailed
  simp only [true_and]
  split
  · exact ⟨⟨rfl, ⟨.failed, rfl, trivial⟩, rfl, rfl, rfl, rfl, rfl, rfl, rfl, rfl, rfl, rfl, rfl, rfl, rfl,
      rfl, rfl, rfl, rfl⟩, rfl⟩
  · exact ⟨⟨rfl, ⟨.failed, rfl, trivial⟩, rfl, rfl, rfl, rfl, rfl, rfl, rfl, rfl, rfl, rfl, rfl, rfl, rfl,
      rfl, rfl, rfl, rfl⟩, rfl⟩

theorem shown_ne_fail {v : Verdict} (h : v ≠ .failed) : shown W v ≠ .fail := by
  cases v <;> simp [shown] at h ⊢
  split <;> simp

theorem matcherHit_iff (e : Exc) (l : List Expect) :
    matcherHit W e l = true ↔ ∃ m, Expect.matcher m ∈ l ∧ W.matches_ m e = true := by
  unfold matcherHit
  rw [List.any_eq_true]
  constructor
  · rintro ⟨x, hx, h⟩
    cases x with
    | cls c => simp at h
    | matcher m => exact ⟨m, hx, h⟩
  · rintro ⟨m, hm, h⟩
    exact ⟨_, hm, h⟩

theorem classHit_iff (e : Exc) (l : List Expect) :
    classHit W e l = true ↔ ∃ c, Expect.cls c ∈ l ∧ W.isa e c = true := by
  unfold classHit
  rw [List.any_eq_true]
  constructor
  · rintro ⟨x, hx, h⟩
    cases x with
    | cls c => exact ⟨c, hx, h⟩
    | matcher m => simp at h
  · rintro ⟨m, hm, h⟩
    exact ⟨_, hm, h⟩

theorem expected_iff (t : Test) (e : Exc) :
    Expected W t e ↔ (classHit W e t.expectError = true ∨ matcherHit W e t.expectError = true) := by
  rw [matcherHit_iff, classHit_iff]; rfl

theorem termAfter_of_ne {o : Outcome} {s s' : RM W} (h : o ≠ .fail) (ht : s'.terminated = s.terminated) :
    TermAfter o s s' := by
  unfold TermAfter
  rw [if_neg (fun x => h x.1), ht]

/-- Scoring a test records it with its verdict. -/
theorem scoreTest_rec (t : Test) (exc : Option Exc) (s : RM W) :
    ∃ v, Judged W t exc v ∧ Recorded t (shown W v) s (scoreTest t exc s) ∧
      TermAfter (shown W v) s (scoreTest t exc s) := by
  have xf : Recorded t (shown W .xfailed) s (recordXfail t s) ∧
      TermAfter (shown W .xfailed) s (recordXfail t s) :=
    ⟨(recordXfail_rec t s).1, termAfter_of_ne (shown_ne_fail (by simp)) (recordXfail_rec t s).2⟩
  have pa : Recorded t (shown W .passed) s (recordPassed t s) ∧
      TermAfter (shown W .passed) s (recordPassed t s) :=
    ⟨(recordPassed_rec t s).1, termAfter_of_ne (shown_ne_fail (by simp)) (recordPassed_rec t s).2⟩
  have sk : Recorded t (shown W .skipped) s (recordSkipped t s) ∧
      TermAfter (shown W .skipped) s (recordSkipped t s) :=
    ⟨(recordSkipped_rec t s).1, termAfter_of_ne (shown_ne_fail (by simp)) (recordSkipped_rec t s).2⟩
  have fa : Recorded t (shown W .failed) s (recordFailed t s) ∧
      TermAfter (shown W .failed) s (recordFailed t s) := recordFailed_rec t s
  cases exc with
  | none =>
    simp only [scoreTest]
    split
    · rename_i h
      exact ⟨.failed, .inl ⟨rfl, .inl h⟩, fa⟩
    · rename_i h
      split
      · rename_i h2
        exact ⟨.failed, .inl ⟨rfl, .inr h2⟩, fa⟩
      · rename_i h2
        exact ⟨.passed, .inl ⟨rfl, Decidable.not_not.1 h, by simpa using h2⟩, pa⟩
  | some e =>
    simp only [scoreTest]
    split
    · rename_i h
      exact ⟨.skipped, ⟨e, rfl, h⟩, sk⟩
    · rename_i h1
      split
      · rename_i h
        exact ⟨.xfailed, ⟨e, rfl, .inl h⟩, xf⟩
      · rename_i h2
        split
        · rename_i h
          exact ⟨.passed, .inr ⟨e, rfl, h⟩, pa⟩
        · rename_i h3
          have hne : ¬ Ender W e := by
            rintro (h | h | h)
            · exact h1 h
            · exact h2 h
            · exact h3 h
          split
          · rename_i h4
            split
            · rename_i h
              exact ⟨.xfailed, ⟨e, rfl, .inr ⟨hne, .inl ((expected_iff t e).2 (.inr h))⟩⟩, xf⟩
            · rename_i h5
              split
              · rename_i h
                exact ⟨.xfailed, ⟨e, rfl, .inr ⟨hne, .inl ((expected_iff t e).2 (.inl h))⟩⟩, xf⟩
              · rename_i h6
                have hx : Judged W t (some e) .failed := by
                  refine .inr ⟨e, rfl, hne, ?_, fun h => h4 h.1⟩
                  rw [expected_iff]
                  rintro (h | h)
                  · exact h6 h
                  · exact h5 h
                split
                · exact ⟨.failed, hx, fa⟩
                · exact ⟨.failed, hx, fa⟩
          · rename_i h4
            have h4 : t.expectError = [] := Decidable.not_not.1 h4
            have hnx : ¬ Expected W t e := by
              rintro (⟨c, hc, _⟩ | ⟨c, hc, _⟩)
              · rw [h4] at hc; exact absurd hc (by simp)
              · rw [h4] at hc; exact absurd hc (by simp)
            split
            · rename_i h5
              split
              · rename_i h6
                exact ⟨.xfailed, ⟨e, rfl, .inr ⟨hne, .inr ⟨h4, h5, h6⟩⟩⟩, xf⟩
              · rename_i h6
                exact ⟨.failed, .inr ⟨e, rfl, hne, hnx, fun h => h6 h.2.2⟩, fa⟩
            · rename_i h5
              exact ⟨.failed, .inr ⟨e, rfl, hne, hnx, fun h => h5 h.2.1⟩, fa⟩

theorem judged_unique (hW : Sane W) {t : Test} {exc : Option Exc} {v v' : Verdict}
    (h : Judged W t exc v) (h' : Judged W t exc v') : v = v' := by
  cases exc with
  | none =>
    cases v <;> cases v' <;> simp [Judged] at h h' ⊢ <;> grind
  | some e =>
    have a := hW.skip_xfail e
    have b := hW.skip_success e
    have c := hW.xfail_success e
    cases v <;> cases v' <;> simp [Judged, Ender] at h h' ⊢ <;> grind

/-! ### The invariant -/

/-- Facts which hold whenever the manager is between two actions. -/
structure Base (P : List Test) (s : RM W) : Prop where
  passed : s.passed = howMany .pass s.results
  failures : s.failures = howMany .fail s.results
  skipped : s.skipped = howMany .skip s.results
  xfailed : s.xfailed = howMany .xfail s.results
  count : s.count = s.results.length + 1
  total : s.total = P.length
  report : ∃ l : List (Test × Status × Outcome), s.cases = l.map (fun x => (x.1, x.2.1)) ∧
    s.results = l.map (fun x => (x.1, x.2.2)) ∧ ∀ x ∈ l, Agrees x.2.1 x.2.2
  seeds : ∀ st ∈ s.starts, st.randomSeed = W.seed + (W.sha1 st.test.fullname : Int) ∧
    st.rng = W.seeded (W.seed + (W.sha1 st.test.fullname : Int)) ∧
    st.xrng = W.seeded (W.seed + (W.sha1 st.test.fullname : Int))

/-- The manager has recorded some tests and is about to go on with the others. -/
structure Mid (P : List Test) (r x : W.Rng) (q : List Test) (s : RM W) : Prop extends Base P s where
  split : s.results.map (·.1) ++ q = P
  tearing : s.tearing = false
  teardowns : s.teardowns = 0
  starts : (s.starts.map (·.test)).Sublist (s.results.map (·.1))
  randomSeed : s.randomSeed = W.seed
  rng : s.rng = r
  xrng : s.xrng = x

/-- The states in which the manager waits. -/
inductive Inv (P : List Test) (r x : W.Rng) (s : RM W) : Prop
  | finished : s.phase = .idle → s.tearing = true → s.teardowns = 1 → Base P s →
      s.results.map (·.1) = P → (s.starts.map (·.test)).Sublist P →
      s.randomSeed = W.seed → s.rng = r → s.xrng = x → Inv P r x s
  | waiting (t : Test) : (s.phase = .timer ∨ (s.phase = .dead ∧ s.terminated = some W.simFailure)) →
      s.cur = some t → Mid P r x (t :: s.queue) s → Inv P r x s
  | running (t : Test) (pre : List (Start W)) (st : Start W) : s.phase = .running → s.cur = some t →
      s.tearing = false → s.teardowns = 0 → Base P s →
      s.results.map (·.1) ++ t :: s.queue = P →
      s.starts = pre ++ [st] → st.test = t → (pre.map (·.test)).Sublist (s.results.map (·.1)) →
      s.saved = some (r, x) → s.randomSeed = W.seed + (W.sha1 t.fullname : Int) → Inv P r x s

theorem howMany_append (o o' : Outcome) (t : Test) (l : List (Test × Outcome)) :
    howMany o (l ++ [(t, o')]) = howMany o l + if o' = o then 1 else 0 := by
  unfold howMany
  rw [List.map_append, List.count_append]
  simp [List.count_cons]

theorem base_recorded {P : List Test} {s s' : RM W} {t : Test} {o : Outcome} (h : Base P s)
    (hr : Recorded t o s s') : Base P s' := by
  obtain ⟨l, h1, h2, h3⟩ := h.report
  obtain ⟨st, h4, h5⟩ := hr.cases
  refine ⟨?_, ?_, ?_, ?_, ?_, ?_, ?_, ?_⟩
  · rw [hr.passed, hr.results, howMany_append, h.passed]
  · rw [hr.failures, hr.results, howMany_append, h.failures]
  · rw [hr.skipped, hr.results, howMany_append, h.skipped]
  · rw [hr.xfailed, hr.results, howMany_append, h.xfailed]
  · rw [hr.count, hr.results, h.count, List.length_append]; rfl
  · rw [hr.total, h.total]
  · refine ⟨l ++ [(t, st, o)], ?_, ?_, ?_⟩
    · rw [h4, h1]; simp
    · rw [hr.results, h2]; simp
    · intro x hx
      rcases List.mem_append.1 hx with hx | hx
      · exact h3 x hx
      · simp only [List.mem_singleton] at hx; subst hx; exact h5
  · rw [hr.starts]; exact h.seeds

theorem mid_recorded {P : List Test} {r x : W.Rng} {q : List Test} {s s' : RM W} {t : Test} {o : Outcome}
    (h : Mid P r x (t :: q) s) (hr : Recorded t o s s') : Mid P r x q s' := by
  refine ⟨base_recorded h.toBase hr, ?_, ?_, ?_, ?_, ?_, ?_, ?_⟩
  · rw [hr.results, ← h.split]; simp
  · rw [hr.tearing, h.tearing]
  · rw [hr.teardowns, h.teardowns]
  · rw [hr.starts, hr.results, List.map_append]
    exact h.starts.trans (List.sublist_append_left _ _)
  · rw [hr.randomSeed, h.randomSeed]
  · rw [hr.rng, h.rng]
  · rw [hr.xrng, h.xrng]

theorem mid_take {P : List Test} {r x : W.Rng} {l : List Test} {s : RM W} (t : Test) (q : List Test)
    (h : Mid P r x l s) : Mid P r x l (take t q s) :=
  ⟨⟨h.passed, h.failures, h.skipped, h.xfailed, h.count, h.total, h.report, h.seeds⟩, h.split, h.tearing,
    h.teardowns, h.starts, h.randomSeed, h.rng, h.xrng⟩

theorem inv_schedule {P : List Test} {r x : W.Rng} {s : RM W} {t : Test} (hc : s.cur = some t)
    (h : Mid P r x (t :: s.queue) s) : Inv P r x (scheduleNext s) := by
  have e : scheduleNext s = begin_ t s := by unfold scheduleNext; rw [hc]
  rw [e]
  refine .running t s.starts _ rfl hc h.tearing h.teardowns ?_ h.split rfl rfl h.starts ?_ rfl
  · refine ⟨h.passed, h.failures, h.skipped, h.xfailed, h.count, h.total, h.report, ?_⟩
    intro st hst
    rcases List.mem_append.1 hst with hst | hst
    · exact h.seeds st hst
    · simp only [List.mem_singleton] at hst; subst hst; exact ⟨rfl, rfl, rfl⟩
  · simp only [begin_, started, seedFor, h.rng, h.xrng]

theorem inv_execute {P : List Test} {r x : W.Rng} : ∀ (q : List Test) (s : RM W), Mid P r x q s →
    Inv P r x (execute q s)
  | [], s, h => by
    have hsp := h.split
    rw [List.append_nil] at hsp
    simp only [execute, tearDown, h.tearing, Bool.false_eq_true, if_false]
    refine .finished rfl rfl (by simp only [h.teardowns]) ?_ hsp ?_ h.randomSeed h.rng h.xrng
    · exact ⟨h.passed, h.failures, h.skipped, h.xfailed, h.count, h.total, h.report, h.seeds⟩
    · rw [← hsp]; exact h.starts
  | t :: q, s, h => by
    rw [execute]
    split
    · exact inv_execute q _ (mid_recorded (mid_take t q h) (recordSkipped_rec t _).1)
    · split
      · rename_i e he
        obtain ⟨v, -, hr, -⟩ := scoreTest_rec t (some e) (take t q s)
        exact inv_execute q _ (mid_recorded (mid_take t q h) hr)
      · split
        · unfold launch
          have hm := mid_take t q h
          split
          · exact inv_schedule (t := t) rfl
              ⟨⟨hm.passed, hm.failures, hm.skipped, hm.xfailed, hm.count, hm.total, hm.report, hm.seeds⟩,
                hm.split, hm.tearing, hm.teardowns, hm.starts, hm.randomSeed, hm.rng, hm.xrng⟩
          · exact .waiting t (.inl rfl) rfl
              ⟨⟨hm.passed, hm.failures, hm.skipped, hm.xfailed, hm.count, hm.total, hm.report, hm.seeds⟩,
                hm.split, hm.tearing, hm.teardowns, hm.starts, hm.randomSeed, hm.rng, hm.xrng⟩
        · exact inv_execute q _ (mid_recorded (mid_take t q h) (recordInitFailed_rec t _).1)

theorem testComplete_eq {s : RM W} {t : Test} {r x : W.Rng} {exc : Option Exc} (hc : s.cur = some t)
    (hs : s.saved = some (r, x)) :
    testComplete exc s = execute s.queue (scoreTest t (judgedBy s exc) (restored s r x)) := by
  obtain ⟨v, -, hr, -⟩ := scoreTest_rec t (judgedBy s exc) (restored s r x)
  have hq := hr.queue
  unfold testComplete
  simp only [hc, hs]
  rw [hq]; rfl

theorem mid_complete {P : List Test} {r x : W.Rng} {s : RM W} {t : Test} {pre : List (Start W)} {st : Start W}
    {exc : Option Exc} (h3 : s.tearing = false) (h4 : s.teardowns = 0) (hb : Base P s)
    (h5 : s.results.map (·.1) ++ t :: s.queue = P) (h6 : s.starts = pre ++ [st]) (h7 : st.test = t)
    (h8 : (pre.map (·.test)).Sublist (s.results.map (·.1))) :
    Mid P r x s.queue (scoreTest t exc (restored s r x)) := by
  obtain ⟨v, -, hr, -⟩ := scoreTest_rec t exc (restored s r x)
  have hb' : Base P (restored s r x) :=
    ⟨hb.passed, hb.failures, hb.skipped, hb.xfailed, hb.count, hb.total, hb.report, hb.seeds⟩
  refine ⟨base_recorded hb' hr, ?_, ?_, ?_, ?_, ?_, ?_, ?_⟩
  · rw [hr.results, ← h5]; simp [restored]
  · rw [hr.tearing]; exact h3
  · rw [hr.teardowns]; exact h4
  · rw [hr.starts, hr.results]
    show (s.starts.map _).Sublist ((s.results ++ _).map _)
    rw [h6, List.map_append, List.map_append]
    simp only [List.map_cons, List.map_nil, h7]
    exact h8.append (List.Sublist.refl _)
  · rw [hr.randomSeed]; rfl
  · rw [hr.rng]; rfl
  · rw [hr.xrng]; rfl

theorem inv_simEnd {P : List Test} {r x : W.Rng} {s : RM W} (hd : s.phase ≠ .dead)
    (h : Inv P r x s) : Inv P r x (simEnd s) := by
  cases h with
  | finished h1 h2 h3 h4 h5 h6 h7 h8 h9 =>
    unfold simEnd
    rw [if_pos h2]
    exact .finished h1 h2 h3 h4 h5 h6 h7 h8 h9
  | waiting t hp hc hm =>
    have hp : s.phase = .timer := hp.resolve_right fun e => hd e.1
    have e : simEnd s = abandoned (simStopped s) := by
      unfold simEnd; rw [if_neg (by rw [hm.tearing]; simp), if_neg (by rw [hp]; simp)]
    rw [e]
    exact .waiting t (.inr ⟨rfl, rfl⟩) hc
      ⟨⟨hm.passed, hm.failures, hm.skipped, hm.xfailed, hm.count, hm.total, hm.report, hm.seeds⟩,
        hm.split, hm.tearing, hm.teardowns, hm.starts, hm.randomSeed, hm.rng, hm.xrng⟩
  | running t pre st hp hc h3 h4 hb h5 h6 h7 h8 h9 h10 =>
    have e : simEnd s = testComplete none (simStopped s) := by
      unfold simEnd; rw [if_neg (by rw [h3]; simp), if_pos hp]
    rw [e, testComplete_eq (s := simStopped s) (t := t) (r := r) (x := x) hc h9]
    exact inv_execute _ _ (mid_complete (s := simStopped s) h3 h4
      ⟨hb.passed, hb.failures, hb.skipped, hb.xfailed, hb.count, hb.total, hb.report, hb.seeds⟩ h5 h6 h7 h8)

theorem inv_step {P : List Test} {r x : W.Rng} {s : RM W} (ev : Ev W) (h : Inv P r x s) :
    Inv P r x (step ev s) := by
  cases ev with
  | timer =>
    simp only [step]
    split
    · rename_i hp
      cases h with
      | finished h1 => rw [h1] at hp; cases hp
      | running _ _ _ h1 => rw [h1] at hp; cases hp
      | waiting t _ hc hm => exact inv_schedule hc hm
    · exact h
  | complete exc =>
    simp only [step]
    split
    · rename_i hp
      cases h with
      | finished h1 => rw [h1] at hp; cases hp
      | waiting t h1 => rcases h1 with h1 | ⟨h1, -⟩ <;> (rw [h1] at hp; cases hp)
      | running t pre st _ hc h3 h4 hb h5 h6 h7 h8 h9 h10 =>
        rw [testComplete_eq hc h9]
        exact inv_execute _ _ (mid_complete h3 h4 hb h5 h6 h7 h8)
    · exact h
  | use r' x' =>
    simp only [step]
    split
    · rename_i hp
      cases h with
      | finished h1 => rw [h1] at hp; cases hp
      | waiting t h1 => rcases h1 with h1 | ⟨h1, -⟩ <;> (rw [h1] at hp; cases hp)
      | running t pre st _ hc h3 h4 hb h5 h6 h7 h8 h9 h10 =>
        exact .running t pre st hp hc h3 h4
          ⟨hb.passed, hb.failures, hb.skipped, hb.xfailed, hb.count, hb.total, hb.report, hb.seeds⟩
          h5 h6 h7 h8 h9 h10
    · exact h
  | simEnd =>
    simp only [step]
    split
    · exact h
    · rename_i hd; exact inv_simEnd hd h

theorem inv_steps {P : List Test} {r x : W.Rng} : ∀ (evs : List (Ev W)) {s : RM W}, Inv P r x s →
    Inv P r x (steps evs s)
  | [], _, h => h
  | ev :: evs, _, h => inv_steps evs (inv_step ev h)

theorem inv_regression (shuffle : List Test → List Test) (filters : List (PyStr → Bool))
    (tests : List Test) (rng xrng : W.Rng) (evs : List (Ev W)) :
    Inv (plan shuffle filters tests) rng xrng (regression W shuffle filters tests rng xrng evs) := by
  refine inv_steps evs (inv_execute _ _ ?_)
  exact ⟨⟨rfl, rfl, rfl, rfl, rfl, rfl, ⟨[], rfl, rfl, by simp⟩, by intro st h; cases h⟩, rfl, rfl, rfl,
    List.Sublist.refl _, rfl, rfl, rfl⟩

end Verif.Reg

namespace Verif.Reg
open Verif.RegSpec

variable {W : World}

/-! ### Progress -/

theorem execute_results : ∀ (q : List Test) (s : RM W), s.tearing = false →
    (∃ l, (execute q s).results = s.results ++ l) ∧ (execute q s).phase ≠ .dead
  | [], s, h => by
    simp only [execute, tearDown, h, Bool.false_eq_true, if_false]
    exact ⟨⟨[], by simp⟩, by simp⟩
  | t :: q, s, h => by
    have go : ∀ {o : Outcome} {s' : RM W}, Recorded t o (take t q s) s' →
        (∃ l, (execute q s').results = s.results ++ l) ∧ (execute q s').phase ≠ .dead := by
      intro o s' hr
      obtain ⟨⟨l, h1⟩, h2⟩ := execute_results q s' (by rw [hr.tearing]; exact h)
      refine ⟨⟨(t, o) :: l, ?_⟩, h2⟩
      rw [h1, hr.results]
      simp [take]
    rw [execute]
    split
    · exact go (recordSkipped_rec t _).1
    · split
      · rename_i e he
        obtain ⟨v, -, hr, -⟩ := scoreTest_rec t (some e) (take t q s)
        exact go hr
      · split
        · unfold launch
          split
          · exact ⟨⟨[], by simp [scheduleNext, begin_, started, seedFor, take]⟩, by simp [scheduleNext, begin_, started, seedFor, take]⟩
          · exact ⟨⟨[], by simp [take]⟩, by simp⟩
        · exact go (recordInitFailed_rec t _).1

/-- What completing the running test does. -/
theorem complete_results {P : List Test} {r x : W.Rng} {s : RM W} {t : Test} (exc : Option Exc)
    (h : Inv P r x s) (hp : s.phase = .running) (hc : s.cur = some t) :
    ∃ v l, Judged W t (judgedBy s exc) v ∧ (testComplete exc s).results = s.results ++ (t, shown W v) :: l ∧
      (testComplete exc s).phase ≠ .dead := by
  cases h with
  | finished h1 => rw [h1] at hp; cases hp
  | waiting t h1 => rcases h1 with h1 | ⟨h1, -⟩ <;> (rw [h1] at hp; cases hp)
  | running t' pre st _ hc' h3 h4 hb h5 h6 h7 h8 h9 h10 =>
    rw [hc] at hc'
    cases hc'
    rw [testComplete_eq hc h9]
    obtain ⟨v, hv, hr, -⟩ := scoreTest_rec t (judgedBy s exc) (restored s r x)
    obtain ⟨⟨l, h1⟩, h2⟩ := execute_results s.queue _ (hr.tearing.trans h3)
    refine ⟨v, l, hv, ?_, h2⟩
    rw [h1, hr.results]
    simp [restored]

/-- The timer fires and the test completes. -/
def round (exc : Option Exc) (s : RM W) : RM W := step (.complete exc) (step .timer s)

theorem round_progress {P : List Test} {r x : W.Rng} {s : RM W} (exc : Option Exc) (h : Inv P r x s)
    (hd : s.phase ≠ .dead) : (round exc s).phase ≠ .dead ∧
      ((round exc s).tearing = true ∨ s.results.length < (round exc s).results.length) := by
  have go : ∀ {s1 : RM W} {t : Test}, Inv P r x s1 → s1.phase = .running → s1.cur = some t →
      s1.results = s.results → (step (.complete exc) s1).phase ≠ .dead ∧
        ((step (.complete exc) s1).tearing = true ∨
          s.results.length < (step (.complete exc) s1).results.length) := by
    intro s1 t h1 h2 h3 h4
    obtain ⟨v, l, -, h5, h6⟩ := complete_results exc h1 h2 h3
    simp only [step, h2, if_true]
    refine ⟨h6, .inr ?_⟩
    rw [h5, h4]
    simp
  unfold round
  have h0 := h
  cases h with
  | finished h1 h2 =>
    have e : step .timer s = s := by simp [step, h1]
    rw [e]
    simp only [step, h1, reduceCtorEq, if_false, h2, true_or, and_true]
    exact fun e => by cases e
  | waiting t hp hc hm =>
    have hp : s.phase = .timer := hp.resolve_right fun e => hd e.1
    have e : step .timer s = begin_ t s := by
      simp only [step, hp, if_true, scheduleNext, hc]
    have hi := inv_step .timer h0
    rw [e] at hi ⊢
    exact go (t := t) hi rfl hc rfl
  | running t pre st hp hc =>
    have e : step .timer s = s := by simp [step, hp]
    rw [e]
    exact go h0 hp hc rfl

theorem inv_round {P : List Test} {r x : W.Rng} {s : RM W} (exc : Option Exc) (h : Inv P r x s) :
    Inv P r x (round exc s) := inv_step _ (inv_step _ h)

theorem tearing_phase {P : List Test} {r x : W.Rng} {s : RM W} (h : Inv P r x s) (ht : s.tearing = true) :
    s.phase = .idle := by
  cases h with
  | finished h1 => exact h1
  | waiting t _ _ hm => rw [hm.tearing] at ht; cases ht
  | running t pre st _ _ h3 => rw [h3] at ht; cases ht

theorem tearing_step {P : List Test} {r x : W.Rng} {s : RM W} (ev : Ev W) (h : Inv P r x s)
    (ht : s.tearing = true) : step ev s = s := by
  have hp := tearing_phase h ht
  cases ev <;> simp [step, hp, simEnd, ht]

theorem tearing_steps {P : List Test} {r x : W.Rng} {s : RM W} : ∀ (evs : List (Ev W)), Inv P r x s →
    s.tearing = true → steps evs s = s
  | [], _, _ => rfl
  | ev :: evs, h, ht => by
    rw [steps, tearing_step ev h ht]
    exact tearing_steps evs h ht

theorem results_le {P : List Test} {r x : W.Rng} {s : RM W} (h : Inv P r x s) (ht : s.tearing ≠ true) :
    s.results.length < P.length := by
  cases h with
  | finished _ h2 => exact absurd h2 ht
  | waiting t _ _ hm => rw [← hm.split]; simp
  | running t pre st _ _ _ _ _ h5 => rw [← h5]; simp

/-- Enough completed tests bring the regression to its end. -/
theorem rounds_finish {P : List Test} {r x : W.Rng} : ∀ (excs : List (Option Exc)) (s : RM W), Inv P r x s →
    s.phase ≠ .dead → P.length ≤ s.results.length + excs.length →
    (steps (excs.flatMap fun e => [.timer, .complete e]) s).tearing = true
  | [], s, h, hd, hl => by
    by_cases ht : s.tearing = true
    · exact ht
    · have := results_le h ht
      simp at hl; omega
  | e :: es, s, h, hd, hl => by
    obtain ⟨h1, h2⟩ := round_progress e h hd
    have hi := inv_round e h
    show (steps (es.flatMap _) (round e s)).tearing = true
    rcases h2 with h2 | h2
    · rw [tearing_steps _ hi h2]; exact h2
    · exact rounds_finish es _ hi h1 (by simp at hl; omega)

/-! ### The limit on failures -/

/-- What holds with a limit. -/
structure Lim (s : RM W) : Prop where
  none : s.terminated = none → (s.failures : Int) < W.maxFailures
  some : ∀ e, s.terminated = some e → e = W.regTerminated ∨ e = W.simFailure
  over : W.maxFailures ≤ s.failures → ∃ pre post, s.results = pre ++ post ∧
    (howMany .fail pre : Int) = W.maxFailures ∧
    (∀ p ∈ post, p.2 = if Skipped W p.1 then .skip else .fail) ∧
    (s.starts.map (·.test)).Sublist (pre.map (·.1))

theorem lim_recorded {P : List Test} {r x : W.Rng} {q : List Test} {s s' : RM W} {t : Test} {o : Outcome}
    (hk : W.maxFailures > 0) (hl : Lim s) (hr : Recorded t o s s') (hm : Mid P r x q s')
    (ht : TermAfter o s s')
    (ho : s.terminated ≠ none → o = if Skipped W t then .skip else .fail) : Lim s' := by
  have hf := hr.failures
  unfold TermAfter at ht
  refine ⟨?_, ?_, ?_⟩
  · intro hn
    rw [hn] at ht
    split at ht
    · cases ht
    · rename_i h
      have := hl.none ht.symm
      by_cases hof : o = .fail
      · rw [if_pos hof] at hf
        have : ¬ (((s.failures + 1 : Nat) : Int) ≥ W.maxFailures) := fun h' => h ⟨hof, ht.symm, hk, h'⟩
        omega
      · rw [if_neg hof] at hf
        omega
  · intro e he
    rw [he] at ht
    split at ht
    · exact .inl (Option.some.inj ht)
    · exact hl.some e ht.symm
  · intro hge
    by_cases h : W.maxFailures ≤ s.failures
    · obtain ⟨pre, post, h1, h2, h3, h4⟩ := hl.over h
      have hne : s.terminated ≠ Option.none := fun e => by have := hl.none e; omega
      refine ⟨pre, post ++ [(t, o)], ?_, h2, ?_, ?_⟩
      · rw [hr.results, h1, List.append_assoc]
      · intro p hp
        rcases List.mem_append.1 hp with hp | hp
        · exact h3 p hp
        · simp only [List.mem_singleton] at hp
          subst hp
          exact ho hne
      · rw [hr.starts]; exact h4
    · refine ⟨s'.results, [], by simp, ?_, by simp, hm.starts⟩
      have := hm.failures
      split at hf <;> omega

/-- The tests do not expect the exceptions the manager makes up. -/
def Unexpected (W : World) (P : List Test) : Prop :=
  ∀ t ∈ P, ¬ Expected W t W.regTerminated ∧ ¬ Expected W t W.simFailure

theorem judged_terminated (hW : Sane W) {t : Test} {e : Exc} {v : Verdict}
    (hx : ¬ Expected W t W.regTerminated ∧ ¬ Expected W t W.simFailure)
    (he : e = W.regTerminated ∨ e = W.simFailure) (hv : Judged W t (some e) v) : v = .failed := by
  refine judged_unique hW hv ?_
  rcases he with rfl | rfl
  · exact .inr ⟨_, rfl, hW.reg.1, hx.1, fun h => by have := hW.reg.2; simp_all⟩
  · exact .inr ⟨_, rfl, hW.sim.1, hx.2, fun h => by have := hW.sim.2; simp_all⟩

theorem lim_take {s : RM W} {t : Test} {q : List Test} (h : Lim s) : Lim (take t q s) :=
  ⟨h.none, h.some, h.over⟩

/-- What holds in the states in which the manager waits. -/
def LimW (s : RM W) : Prop :=
  Lim s ∧ (s.tearing = false → (s.failures : Int) < W.maxFailures ∧
    (s.phase ≠ .dead → s.terminated = none))

theorem limW_execute {P : List Test} {r x : W.Rng} (hW : Sane W) (hk : W.maxFailures > 0)
    (hx : Unexpected W P) (hi : ∀ n t, W.initOk n t = true) :
    ∀ (q : List Test) (s : RM W), Mid P r x q s → Lim s → LimW (execute q s)
  | [], s, hm, hl => by
    simp only [execute, tearDown, hm.tearing, Bool.false_eq_true, if_false]
    exact ⟨⟨hl.none, hl.some, hl.over⟩, by simp⟩
  | t :: q, s, hm, hl => by
    have htP : t ∈ P := by rw [← hm.split]; simp
    rw [execute]
    split
    · rename_i hs
      have hr := recordSkipped_rec t (take t q s)
      have hm' := mid_recorded (mid_take t q hm) hr.1
      exact limW_execute hW hk hx hi q _ hm' (lim_recorded hk (lim_take hl) hr.1 hm'
        (termAfter_of_ne (by simp) hr.2)
        (fun _ => by rw [if_pos]; exact ⟨hs.1, by simpa using hs.2⟩))
    · rename_i hs
      split
      · rename_i e he
        obtain ⟨v, hv, hr, ht⟩ := scoreTest_rec t (some e) (take t q s)
        have hm' := mid_recorded (mid_take t q hm) hr
        have := judged_terminated hW (hx t htP) (hl.some e he) hv
        subst this
        exact limW_execute hW hk hx hi q _ hm' (lim_recorded hk (lim_take hl) hr hm' ht
          (fun _ => by rw [if_neg]; rfl; exact fun h => hs ⟨h.1, by rw [h.2]; simp⟩))
      · rename_i hn
        rw [if_pos (hi _ _)]
        have hfl := hl.none hn
        have hover : ¬ (W.maxFailures ≤ s.failures) := by omega
        unfold launch
        split
        · refine ⟨⟨fun _ => hfl, hl.some, fun h => absurd h hover⟩, fun _ => ⟨hfl, fun _ => hn⟩⟩
        · refine ⟨⟨fun _ => hfl, hl.some, fun h => absurd h hover⟩, fun _ => ⟨hfl, fun _ => hn⟩⟩

theorem limW_complete {P : List Test} {r x : W.Rng} (hW : Sane W) (hk : W.maxFailures > 0)
    (hx : Unexpected W P) (hi : ∀ n t, W.initOk n t = true) {s : RM W} {exc : Option Exc}
    (h : Inv P r x s) (hp : s.phase = .running) (hlt : (s.failures : Int) < W.maxFailures)
    (hs : ∀ e, s.terminated = some e → e = W.regTerminated ∨ e = W.simFailure) :
    LimW (testComplete exc s) := by
  cases h with
  | finished h1 => rw [h1] at hp; cases hp
  | waiting t h1 => rcases h1 with h1 | ⟨h1, -⟩ <;> (rw [h1] at hp; cases hp)
  | running t pre st _ hc h3 h4 hb h5 h6 h7 h8 h9 h10 =>
    rw [testComplete_eq hc h9]
    have hm := mid_complete (r := r) (x := x) (exc := judgedBy s exc) h3 h4 hb h5 h6 h7 h8
    obtain ⟨v, hv, hr, ht⟩ := scoreTest_rec t (judgedBy s exc) (restored s r x)
    refine limW_execute hW hk hx hi _ _ hm ?_
    have hover : ¬ (W.maxFailures ≤ s.failures) := by omega
    -- the last result is the one that may reach the limit
    have hf := hr.failures
    have e0 : (restored s r x).failures = s.failures := rfl
    rw [e0] at hf
    unfold TermAfter at ht
    refine ⟨?_, ?_, ?_⟩
    · intro hn
      rw [hn] at ht
      split at ht
      · cases ht
      · rename_i h
        by_cases hof : shown W v = .fail
        · rw [if_pos hof] at hf
          have : ¬ (((s.failures + 1 : Nat) : Int) ≥ W.maxFailures) := fun h' => h ⟨hof, ht.symm, hk, h'⟩
          omega
        · rw [if_neg hof] at hf
          omega
    · intro e he
      rw [he] at ht
      split at ht
      · exact .inl (Option.some.inj ht)
      · exact hs e ht.symm
    · intro hge
      refine ⟨_, [], (List.append_nil _).symm, ?_, by simp, hm.starts⟩
      have := hm.failures
      split at hf <;> omega

theorem limW_step {P : List Test} {r x : W.Rng} (hW : Sane W) (hk : W.maxFailures > 0)
    (hx : Unexpected W P) (hi : ∀ n t, W.initOk n t = true) {s : RM W} (ev : Ev W)
    (h : Inv P r x s) (hl : LimW s) : LimW (step ev s) := by
  by_cases htear : s.tearing = true
  · rw [tearing_step ev h htear]; exact hl
  have htear : s.tearing = false := by simpa using htear
  obtain ⟨hlt, hnone⟩ := hl.2 htear
  have hover : ¬ (W.maxFailures ≤ s.failures) := by omega
  cases ev with
  | timer =>
    simp only [step]
    split
    · rename_i hp
      have hn := hnone (by rw [hp]; simp)
      unfold scheduleNext
      split
      · exact hl
      · exact ⟨⟨fun _ => hlt, hl.1.some, fun h => absurd h hover⟩, fun _ => ⟨hlt, fun _ => hn⟩⟩
    · exact hl
  | complete exc =>
    simp only [step]
    split
    · rename_i hp
      exact limW_complete hW hk hx hi h hp hlt hl.1.some
    · exact hl
  | use r' x' =>
    simp only [step]
    split
    · rename_i hp
      have hn := hnone (by rw [hp]; simp)
      exact ⟨⟨fun _ => hlt, hl.1.some, fun h => absurd h hover⟩, fun _ => ⟨hlt, fun _ => hn⟩⟩
    · exact hl
  | simEnd =>
    simp only [step]
    split
    · exact hl
    · rename_i hd
      by_cases hp : s.phase = .running
      · have e : simEnd s = testComplete none (simStopped s) := by
          unfold simEnd; rw [if_neg (by rw [htear]; simp), if_pos hp]
        rw [e]
        refine limW_complete hW hk hx hi (P := P) (r := r) (x := x) (s := simStopped s) ?_ hp hlt ?_
        · cases h with
          | finished h1 => rw [h1] at hp; cases hp
          | waiting t h1 => rcases h1 with h1 | ⟨h1, -⟩ <;> (rw [h1] at hp; cases hp)
          | running t pre st _ hc h3 h4 hb h5 h6 h7 h8 h9 h10 =>
            exact .running t pre st hp hc h3 h4
              ⟨hb.passed, hb.failures, hb.skipped, hb.xfailed, hb.count, hb.total, hb.report, hb.seeds⟩
              h5 h6 h7 h8 h9 h10
        · intro e he
          exact .inr (Option.some.inj he).symm
      · have e : simEnd s = abandoned (simStopped s) := by
          unfold simEnd; rw [if_neg (by rw [htear]; simp), if_neg hp]
        rw [e]
        refine ⟨⟨(fun e => by cases e), fun e he => .inr (Option.some.inj he).symm, fun h => absurd h hover⟩,
          fun _ => ⟨hlt, fun h => absurd rfl h⟩⟩

theorem limW_steps {P : List Test} {r x : W.Rng} (hW : Sane W) (hk : W.maxFailures > 0)
    (hx : Unexpected W P) (hi : ∀ n t, W.initOk n t = true) : ∀ (evs : List (Ev W)) (s : RM W),
    Inv P r x s → LimW s → LimW (steps evs s)
  | [], _, _, hl => hl
  | ev :: evs, s, h, hl =>
    limW_steps hW hk hx hi evs _ (inv_step ev h) (limW_step hW hk hx hi ev h hl)

/-! ### No limit -/

/-- Every test recorded so far was started, unless it is marked as skipped. -/
def AllRun (s : RM W) : Prop :=
  s.terminated = none ∧
    s.starts.map (·.test) = (s.results.map (·.1)).filter fun t => decide (¬ Skipped W t)

/-- `AllRun`, with the running test. -/
def AllRunW (s : RM W) : Prop :=
  s.terminated = none ∧ ((s.phase ≠ .running ∧ AllRun s) ∨
    ∃ t, s.phase = .running ∧ s.cur = some t ∧ ¬ Skipped W t ∧
      s.starts.map (·.test) = ((s.results.map (·.1)).filter fun t => decide (¬ Skipped W t)) ++ [t])

/-- The test waited for is not one marked as skipped. -/
def CurOk (s : RM W) : Prop := s.phase = .timer → ∀ t, s.cur = some t → ¬ Skipped W t

theorem allRun_execute {P : List Test} {r x : W.Rng} (hk : ¬ W.maxFailures > 0)
    (hi : ∀ n t, W.initOk n t = true) :
    ∀ (q : List Test) (s : RM W), Mid P r x q s → AllRun s → AllRunW (execute q s) ∧ CurOk (execute q s)
  | [], s, hm, hl => by
    simp only [execute, tearDown, hm.tearing, Bool.false_eq_true, if_false]
    exact ⟨⟨hl.1, .inl ⟨by simp, hl⟩⟩, fun h => by cases h⟩
  | t :: q, s, hm, hl => by
    rw [execute]
    split
    · rename_i hs
      have hr := recordSkipped_rec t (take t q s)
      refine allRun_execute hk hi q _ (mid_recorded (mid_take t q hm) hr.1) ⟨hr.2.trans hl.1, ?_⟩
      have hsk : Skipped W t := ⟨hs.1, by simpa using hs.2⟩
      rw [hr.1.starts, hr.1.results]
      show s.starts.map _ = ((s.results ++ _).map _).filter _
      rw [List.map_append, List.filter_append, hl.2]
      simp [hsk]
    · rename_i hs
      have hsk : ¬ Skipped W t := fun h => hs ⟨h.1, by rw [h.2]; simp⟩
      simp only [hl.1, hi, if_true]
      unfold launch
      split
      · refine ⟨⟨hl.1, .inr ⟨t, rfl, rfl, hsk, ?_⟩⟩, fun h => by cases h⟩
        show (s.starts ++ [_]).map _ = _
        rw [List.map_append, hl.2]; rfl
      · refine ⟨⟨hl.1, .inl ⟨by simp, hl⟩⟩, fun _ u hu => by cases hu; exact hsk⟩

theorem allRun_step {P : List Test} {r x : W.Rng} (hk : ¬ W.maxFailures > 0)
    (hi : ∀ n t, W.initOk n t = true) {s : RM W} (ev : Ev W) (hev : ev ≠ .simEnd)
    (h : Inv P r x s) (hl : AllRunW s ∧ CurOk s) : AllRunW (step ev s) ∧ CurOk (step ev s) := by
  cases ev with
  | timer =>
    simp only [step]
    split
    · rename_i hp
      obtain ⟨⟨hn, hl⟩, hco⟩ := hl
      rcases hl with ⟨-, hl⟩ | ⟨t, hp', -⟩
      · cases hc : s.cur with
        | none =>
          have e : scheduleNext s = s := by unfold scheduleNext; rw [hc]
          rw [e]
          exact ⟨⟨hn, .inl ⟨by rw [hp]; simp, hl⟩⟩, hco⟩
        | some t =>
          have e : scheduleNext s = begin_ t s := by unfold scheduleNext; rw [hc]
          rw [e]
          refine ⟨⟨hn, .inr ⟨t, rfl, hc, hco hp t hc, ?_⟩⟩, fun h => by cases h⟩
          show (s.starts ++ [_]).map _ = _
          rw [List.map_append, hl.2]; rfl
      · rw [hp] at hp'; cases hp'
    · exact hl
  | complete exc =>
    simp only [step]
    split
    · rename_i hp
      cases h with
      | finished h1 => rw [h1] at hp; cases hp
      | waiting t h1 => rcases h1 with h1 | ⟨h1, -⟩ <;> (rw [h1] at hp; cases hp)
      | running t pre st _ hc h3 h4 hb h5 h6 h7 h8 h9 h10 =>
        rw [testComplete_eq hc h9]
        have hm := mid_complete (r := r) (x := x) (exc := judgedBy s exc) h3 h4 hb h5 h6 h7 h8
        obtain ⟨v, hv, hr, ht⟩ := scoreTest_rec t (judgedBy s exc) (restored s r x)
        refine allRun_execute hk hi _ _ hm ⟨?_, ?_⟩
        · unfold TermAfter at ht
          rw [if_neg (fun h => hk h.2.2.1)] at ht
          exact ht.trans hl.1.1
        · obtain ⟨⟨hn, hl⟩, -⟩ := hl
          rcases hl with ⟨hp', -⟩ | ⟨t', -, hc', hsk, hl⟩
          · exact absurd hp hp'
          · rw [hc] at hc'
            cases hc'
            rw [hr.starts, hr.results]
            show s.starts.map _ = ((s.results ++ _).map _).filter _
            rw [hl, List.map_append, List.filter_append]
            simp [hsk]
    · exact hl
  | use r' x' =>
    simp only [step]
    split
    · rename_i hp
      obtain ⟨⟨hn, hl⟩, hco⟩ := hl
      rcases hl with ⟨hp', -⟩ | ⟨t, hp', hc, hsk, hl⟩
      · exact absurd hp hp'
      · exact ⟨⟨hn, .inr ⟨t, hp', hc, hsk, hl⟩⟩, fun h => by rw [show s.phase = .running from hp] at h; cases h⟩
    · exact hl
  | simEnd => exact absurd rfl hev

theorem allRun_steps {P : List Test} {r x : W.Rng} (hk : ¬ W.maxFailures > 0)
    (hi : ∀ n t, W.initOk n t = true) : ∀ (evs : List (Ev W)) (s : RM W), Ev.simEnd ∉ evs → Inv P r x s →
    AllRunW s ∧ CurOk s → AllRunW (steps evs s)
  | [], _, _, _, hl => hl.1
  | ev :: evs, s, hn, h, hl =>
    allRun_steps hk hi evs _ (fun h => hn (List.mem_cons_of_mem _ h)) (inv_step ev h)
      (allRun_step hk hi ev (fun h => hn (by rw [h]; exact List.mem_cons_self)) h hl)

/-! ### A running test means the regression goes on -/

theorem execute_open : ∀ (q : List Test) (s : RM W), s.tearing = false →
    ((execute q s).phase = .running ∨ (execute q s).phase = .timer) → (execute q s).terminated = none
  | [], s, h => by
    simp only [execute, tearDown, h, Bool.false_eq_true, if_false]
    rintro (h | h) <;> cases h
  | t :: q, s, h => by
    rw [execute]
    split
    · exact execute_open q _ h
    · split
      · rename_i e he
        obtain ⟨v, -, hr, -⟩ := scoreTest_rec t (some e) (take t q s)
        exact execute_open q _ (hr.tearing.trans h)
      · rename_i hn
        split
        · intro _
          unfold launch
          split <;> exact hn
        · exact execute_open q _ h

theorem open_step {P : List Test} {r x : W.Rng} {s : RM W} (ev : Ev W) (h : Inv P r x s)
    (ho : (s.phase = .running ∨ s.phase = .timer) → s.terminated = none) :
    ((step ev s).phase = .running ∨ (step ev s).phase = .timer) → (step ev s).terminated = none := by
  have hcomplete : ∀ (exc : Option Exc) (u : RM W), Inv P r x u → u.phase = .running →
      ((testComplete exc u).phase = .running ∨ (testComplete exc u).phase = .timer) →
      (testComplete exc u).terminated = none := by
    intro exc u h hp
    cases h with
    | finished h1 => rw [h1] at hp; cases hp
    | waiting t h1 => rcases h1 with h1 | ⟨h1, -⟩ <;> (rw [h1] at hp; cases hp)
    | running t pre st _ hc h3 h4 hb h5 h6 h7 h8 h9 h10 =>
      rw [testComplete_eq hc h9]
      obtain ⟨v, -, hr, -⟩ := scoreTest_rec t (judgedBy u exc) (restored u r x)
      exact execute_open _ _ (hr.tearing.trans h3)
  cases ev with
  | timer =>
    simp only [step]
    split
    · rename_i hp
      intro _
      unfold scheduleNext
      split <;> exact ho (.inr hp)
    · exact ho
  | complete exc =>
    simp only [step]
    split
    · rename_i hp; exact hcomplete exc s h hp
    · exact ho
  | use r' x' =>
    simp only [step]
    split
    · rename_i hp; exact fun _ => ho (.inl hp)
    · exact ho
  | simEnd =>
    simp only [step]
    split
    · exact ho
    · rename_i hd
      unfold simEnd
      split
      · exact ho
      · split
        · rename_i hp
          refine hcomplete none (simStopped s) ?_ hp
          cases h with
          | finished h1 => rw [h1] at hp; cases hp
          | waiting t h1 => rcases h1 with h1 | ⟨h1, -⟩ <;> (rw [h1] at hp; cases hp)
          | running t pre st _ hc h3 h4 hb h5 h6 h7 h8 h9 h10 =>
            exact .running t pre st hp hc h3 h4
              ⟨hb.passed, hb.failures, hb.skipped, hb.xfailed, hb.count, hb.total, hb.report, hb.seeds⟩
              h5 h6 h7 h8 h9 h10
        · rintro (h | h) <;> cases h

theorem open_steps {P : List Test} {r x : W.Rng} : ∀ (evs : List (Ev W)) (s : RM W), Inv P r x s →
    ((s.phase = .running ∨ s.phase = .timer) → s.terminated = none) →
    (((steps evs s).phase = .running ∨ (steps evs s).phase = .timer) → (steps evs s).terminated = none)
  | [], _, _, ho => ho
  | ev :: evs, _, h, ho => open_steps evs _ (inv_step ev h) (open_step ev h ho)

theorem open_regression (shuffle : List Test → List Test) (filters : List (PyStr → Bool))
    (tests : List Test) (r x : W.Rng) (evs : List (Ev W))
    (h : (regression W shuffle filters tests r x evs).phase = .running) :
    (regression W shuffle filters tests r x evs).terminated = none :=
  open_steps (P := plan shuffle filters tests) (r := r) (x := x) evs _ (inv_regression shuffle filters tests r x [])
    (execute_open _ _ rfl) (.inl h)

end Verif.Reg
