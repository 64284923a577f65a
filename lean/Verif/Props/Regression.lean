import Verif.Lemmas.Regression
/-!
# C50–C54: the regression manager

Every theorem is about `regression`: a whole regression over registered tests, with any filters, any
sequence of events (tests completing with any exception, random numbers being drawn, the simulator
ending) and any settings.
-/
namespace Verif
open Reg RegSpec

/-! ## A concrete regression -/
namespace RegEx

/-- Exception 1 is AssertionError, 2 SimFailure, 3 RegressionTerminated, 4 skip, 5 xfail, 6 TestSuccess,
7 ValueError. Class 0 is BaseException, class n that of exception n. -/
def W (k : Int) (initFails : Nat) : World :=
  { isa := fun e c => c == 0 || c == e, matches_ := fun m e => m == e, isSkip := (· == 4), isXfail := (· == 5),
    isSuccess := (· == 6), isFailure := (· == 1), regTerminated := 3, simFailure := 2,
    initOk := fun n _ => n != initFails, testcaseMode := false, xfailInResults := true, maxFailures := k,
    seed := 1000, sha1 := fun n => n.length, Rng := Int, seeded := fun s => s }

instance (k : Int) (n : Nat) : DecidableEq (W k n).Rng := inferInstanceAs (DecidableEq Int)

instance (k : Int) (n m : Nat) : OfNat (W k n).Rng m := inferInstanceAs (OfNat Int m)

def test (id : Nat) (name : String) (stage : Int) : Test :=
  { id := id, fullname := name.toList, stage := stage, skip := false, expectError := [], expectFail := false }

def a := test 0 "m.a" 1
def b := { test 1 "m.bb" 0 with expectFail := true }
def c := { test 2 "m.ccc" 0 with skip := true }
def d := { test 3 "m.dddd" 1 with expectError := [.cls 7] }
def e := { test 4 "m.eeeee" 0 with expectError := [.cls 0] }

theorem sane (k : Int) (n : Nat) : Sane (W k n) := by
  refine ⟨?_, ?_, ?_, ?_, ?_⟩
  · rintro e ⟨h1, h2⟩
    simp [W] at h1 h2
    exact absurd (h1.symm.trans h2) (by decide)
  · rintro e ⟨h1, h2⟩
    simp [W] at h1 h2
    exact absurd (h1.symm.trans h2) (by decide)
  · rintro e ⟨h1, h2⟩
    simp [W] at h1 h2
    exact absurd (h1.symm.trans h2) (by decide)
  · simp [W, Ender]
  · simp [W, Ender]

end RegEx

/-! ## C50 -/

/-- **C50** The tests of a regression without random ordering: those selected, sorted by stage, and
within each stage in registration order. -/
theorem C50_plan (filters : List (PyStr → Bool)) (tests : List Test) :
    (∀ t, t ∈ plan id filters tests ↔ t ∈ tests ∧ Selected filters t) ∧
    (plan id filters tests).Pairwise (fun x y => x.stage ≤ y.stage) ∧
    ∀ (sel : Test → Bool), (∀ t, sel t = true ↔ Selected filters t) → ∀ k : Int,
      (plan id filters tests).filter (fun t => t.stage == k) =
        (tests.filter sel).filter (fun t => t.stage == k) := by
  have hany : ∀ t : Test, (filters.any fun f => f t.fullname) = true ↔ ∃ f ∈ filters, f t.fullname = true := by
    intro t; exact List.any_eq_true
  refine ⟨?_, ?_, ?_⟩
  · intro t
    unfold plan Selected
    simp only [id]
    split
    · rename_i h
      rw [(sortStage_perm tests).mem_iff]
      exact ⟨fun ht => ⟨ht, .inl h⟩, fun ht => ht.1⟩
    · rename_i h
      rw [List.mem_filter, hany, (sortStage_perm tests).mem_iff]
      exact ⟨fun ht => ⟨ht.1, .inr ht.2⟩, fun ht => ⟨ht.1, ht.2.resolve_left h⟩⟩
  · unfold plan
    simp only [id]
    split
    · exact sortStage_sorted tests
    · exact (sortStage_sorted tests).filter _
  · intro sel hsel k
    unfold plan
    simp only [id]
    split
    · rename_i h
      have : tests.filter sel = tests := List.filter_eq_self.2 fun t _ => (hsel t).2 (.inl h)
      rw [this, sortStage_filter]
    · rename_i h
      have hs : ∀ t : Test, (filters.any fun f => f t.fullname) = sel t := by
        intro t
        rw [Bool.eq_iff_iff, hany, hsel]
        exact ⟨.inr, fun x => x.resolve_left h⟩
      have : (sortStage tests).filter (fun t => filters.any fun f => f t.fullname) =
          (sortStage tests).filter sel := List.filter_congr fun t _ => hs t
      rw [this, List.filter_filter, List.filter_filter]
      have c1 : ∀ l : List Test, l.filter (fun t => t.stage == k && sel t) =
          (l.filter fun t => t.stage == k).filter sel := by
        intro l
        rw [List.filter_filter]
        exact List.filter_congr fun t _ => Bool.and_comm _ _
      rw [c1, c1, sortStage_filter]

example : plan id [] [RegEx.a, RegEx.b, RegEx.c, RegEx.d] = [RegEx.b, RegEx.c, RegEx.a, RegEx.d] := by decide

/-- **C50** With random ordering (any rearrangement), still the selected tests, each as often as it was
registered, sorted by stage. -/
theorem C50_plan_random (shuffle : List Test → List Test) (filters : List (PyStr → Bool)) (tests : List Test)
    (h : ∀ l, (shuffle l).Perm l) (sel : Test → Bool) (hsel : ∀ t, sel t = true ↔ Selected filters t) :
    (plan shuffle filters tests).Perm (tests.filter sel) ∧
    (plan shuffle filters tests).Pairwise (fun x y => x.stage ≤ y.stage) := by
  unfold plan
  dsimp only
  have hp : (sortStage (shuffle tests)).Perm tests := (sortStage_perm _).trans (h tests)
  split
  · rename_i hf
    have : tests.filter sel = tests := List.filter_eq_self.2 fun t _ => (hsel t).2 (.inl hf)
    rw [this]
    exact ⟨hp, sortStage_sorted _⟩
  · rename_i hf
    have hs : ∀ t : Test, (filters.any fun f => f t.fullname) = sel t := by
      intro t
      rw [Bool.eq_iff_iff, List.any_eq_true, hsel]
      exact ⟨.inr, fun x => x.resolve_left hf⟩
    have : (sortStage (shuffle tests)).filter (fun t => filters.any fun f => f t.fullname) =
        (sortStage (shuffle tests)).filter sel := List.filter_congr fun t _ => hs t
    refine ⟨?_, (sortStage_sorted _).filter _⟩
    rw [this]
    exact hp.filter _

example : (plan List.reverse [] [RegEx.a, RegEx.b, RegEx.c, RegEx.d]).Perm [RegEx.a, RegEx.b, RegEx.c, RegEx.d] :=
  by simpa using (C50_plan_random List.reverse [] [RegEx.a, RegEx.b, RegEx.c, RegEx.d]
    (fun l => List.reverse_perm l) (fun _ => true) (fun _ => by simp [Selected])).1

/-- **C50** At every moment the results recorded are those of the first tests of the plan, in its order,
each once; tests are started in that order, each at most once; the report is written and the simulator
stopped at most once, and when it is, every test of the plan has been recorded. -/
theorem C50_recorded_once (W : World) (shuffle : List Test → List Test) (filters : List (PyStr → Bool))
    (tests : List Test) (r x : W.Rng) (evs : List (Ev W)) :
    let s := regression W shuffle filters tests r x evs
    let P := plan shuffle filters tests
    (s.results.map (·.1)) <+: P ∧ (s.starts.map (·.test)).Sublist P ∧
    (s.teardowns = if s.tearing = true then 1 else 0) ∧
    (s.tearing = true ↔ s.results.map (·.1) = P) ∧
    (s.cases.map (·.1)) = s.results.map (·.1) := by
  intro s P
  have h : Inv P r x s := inv_regression shuffle filters tests r x evs
  have hrep : ∀ {s : RM W}, Base P s → (s.cases.map (·.1)) = s.results.map (·.1) := by
    intro s hb
    obtain ⟨l, h1, h2, -⟩ := hb.report
    rw [h1, h2, List.map_map, List.map_map]
    rfl
  cases h with
  | finished h1 h2 h3 h4 h5 h6 h7 =>
    refine ⟨by rw [h5]; exact List.prefix_refl _, h6, by rw [h3, if_pos h2], ⟨fun _ => h5, fun _ => h2⟩, hrep h4⟩
  | waiting t _ _ hm =>
    refine ⟨⟨_, hm.split⟩, ?_, by rw [hm.teardowns, hm.tearing]; rfl, ?_, hrep hm.toBase⟩
    · rw [← hm.split]
      exact hm.starts.trans (List.sublist_append_left _ _)
    · rw [hm.tearing]
      refine ⟨fun e => by simp at e, fun e => ?_⟩
      have hs := hm.split
      rw [← e] at hs
      simp at hs
  | running t pre st _ _ h3 h4 hb h5 h6 h7 h8 =>
    refine ⟨⟨_, h5⟩, ?_, by rw [h4, h3]; rfl, ?_, hrep hb⟩
    · rw [h6, ← h5, List.map_append]
      simp only [List.map_cons, List.map_nil, h7]
      refine h8.append ?_
      exact List.Sublist.cons_cons _ (List.nil_sublist _)
    · rw [h3]
      refine ⟨fun e => by simp at e, fun e => ?_⟩
      rw [← e] at h5
      simp at h5

/-- **C50** The regression comes to its end: from any moment, unless the simulator ended, when the tests
that are left complete, whatever their results, everything has been recorded and the report written. -/
theorem C50_ends (W : World) (shuffle : List Test → List Test) (filters : List (PyStr → Bool))
    (tests : List Test) (r x : W.Rng) (evs : List (Ev W)) (excs : List (Option Exc)) (hn : Ev.simEnd ∉ evs)
    (hl : (plan shuffle filters tests).length ≤
      (regression W shuffle filters tests r x evs).results.length + excs.length) :
    let s := regression W shuffle filters tests r x (evs ++ excs.flatMap fun e => [.timer, .complete e])
    s.teardowns = 1 ∧ s.results.map (·.1) = plan shuffle filters tests := by
  intro s
  have hst : ∀ (l l' : List (Ev W)) (s : RM W), steps (l ++ l') s = steps l' (steps l s) := by
    intro l l'
    induction l with
    | nil => intro s; rfl
    | cons ev l ih => intro s; exact ih _
  have hd : ∀ (evs : List (Ev W)) (s : RM W), Ev.simEnd ∉ evs → Inv (plan shuffle filters tests) r x s →
      s.phase ≠ .dead → (steps evs s).phase ≠ .dead := by
    intro evs
    induction evs with
    | nil => intro s _ _ h; exact h
    | cons ev evs ih =>
      intro s hn h hp
      refine ih _ (fun h => hn (List.mem_cons_of_mem _ h)) (inv_step ev h) ?_
      cases ev with
      | timer =>
        simp only [step, scheduleNext]
        split
        · split
          · exact hp
          · simp [begin_, started, seedFor]
        · exact hp
      | complete exc =>
        simp only [step]
        split
        · rename_i hr
          have h0 := h
          cases h with
          | finished h1 => rw [h1] at hr; cases hr
          | waiting t h1 => rcases h1 with h1 | ⟨h1, -⟩ <;> (rw [h1] at hr; cases hr)
          | running t pre st _ hc =>
            obtain ⟨_, _, _, _, h2⟩ := complete_results exc h0 hr hc
            exact h2
        · exact hp
      | use r' x' =>
        simp only [step]
        split <;> exact hp
      | simEnd => exact absurd List.mem_cons_self hn
  have h0 : Inv (plan shuffle filters tests) r x (startRegression shuffle filters (RM.init W tests r x)) :=
    inv_regression shuffle filters tests r x []
  have hd0 : (startRegression shuffle filters (RM.init W tests r x)).phase ≠ .dead :=
    (execute_results _ _ rfl).2
  have ht : s.tearing = true := by
    show (steps (evs ++ _) _).tearing = true
    rw [hst]
    exact rounds_finish excs _ (inv_regression shuffle filters tests r x evs) (hd evs _ hn h0 hd0) hl
  have hall := C50_recorded_once W shuffle filters tests r x
    (evs ++ excs.flatMap fun e => [.timer, .complete e])
  exact ⟨by rw [hall.2.2.1, if_pos ht], hall.2.2.2.1.1 ht⟩

example :
    let s := regression (RegEx.W 0 0) id [] [RegEx.a, RegEx.b, RegEx.c, RegEx.d] 5 6
      [.complete (some 1), .timer, .complete none, .timer, .complete (some 7)]
    s.results = [(RegEx.b, .xfail), (RegEx.c, .skip), (RegEx.a, .pass), (RegEx.d, .xfail)] ∧ s.teardowns = 1 := by
  decide

/-- **C50** in full for the end of the simulation: when the simulator ends, every test is recorded and the
report written. -/
def C50_sim_end_full : Prop :=
  ∀ (W : World) (shuffle : List Test → List Test) (filters : List (PyStr → Bool)) (tests : List Test)
    (r x : W.Rng) (evs : List (Ev W)),
    let s := regression W shuffle filters tests r x (evs ++ [.simEnd])
    s.teardowns = 1 ∧ s.results.map (·.1) = plan shuffle filters tests

/-- If the simulator ends between two tests, the remaining tests are not recorded and no report is
written. -/
theorem C50_sim_end_counterexample : ¬ C50_sim_end_full := by
  intro h
  have := (h (RegEx.W 0 0) id [] [RegEx.a, RegEx.d] 5 6 [.complete none]).1
  revert this
  decide

/-- **C50** (part) When the simulator ends while a test runs, or after the last one, every test is
recorded and the report written, once. Missing: the moment between two tests. -/
theorem C50_sim_end_partial (W : World) (shuffle : List Test → List Test) (filters : List (PyStr → Bool))
    (tests : List Test) (r x : W.Rng) (evs : List (Ev W))
    (hp : (regression W shuffle filters tests r x evs).phase = .running ∨
      (regression W shuffle filters tests r x evs).phase = .idle) :
    let s := regression W shuffle filters tests r x (evs ++ [.simEnd])
    s.teardowns = 1 ∧ s.results.map (·.1) = plan shuffle filters tests := by
  intro s
  have hst : ∀ (l l' : List (Ev W)) (s : RM W), steps (l ++ l') s = steps l' (steps l s) := by
    intro l l'
    induction l with
    | nil => intro s; rfl
    | cons ev l ih => intro s; exact ih _
  have hs : s = step .simEnd (regression W shuffle filters tests r x evs) := by
    show steps (evs ++ _) _ = _
    rw [hst]; rfl
  have h := inv_regression shuffle filters tests r x evs
  have ht : s.tearing = true := by
    rw [hs]
    have hexec : ∀ (q : List Test) (u : RM W), u.tearing = false → u.terminated ≠ none →
        (execute q u).tearing = true := by
      intro q
      induction q with
      | nil => intro u hu _; simp [execute, tearDown, hu]
      | cons t q ih =>
        intro u hu hn
        rw [execute]
        split
        · exact ih _ hu hn
        · split
          · rename_i e he
            obtain ⟨v, -, hr, htm⟩ := scoreTest_rec t (some e) (take t q u)
            refine ih _ (hr.tearing.trans hu) ?_
            unfold TermAfter at htm
            rw [htm]
            split
            · simp
            · exact hn
          · rename_i he; exact absurd he hn
    cases h with
    | finished h1 h2 => simp [step, h1, simEnd, h2]
    | waiting t h1 =>
      rcases hp with hp | hp <;> rcases h1 with h1 | ⟨h1, -⟩ <;> (rw [h1] at hp; cases hp)
    | running t pre st hp' hc h3 h4 hb h5 h6 h7 h8 h9 h10 =>
      have e : step .simEnd (regression W shuffle filters tests r x evs) =
          testComplete none (simStopped (regression W shuffle filters tests r x evs)) := by
        simp only [step, hp', reduceCtorEq, if_false]
        unfold simEnd; rw [if_neg (by rw [h3]; simp), if_pos hp']
      rw [e, testComplete_eq (s := simStopped _) (t := t) (r := r) (x := x) hc h9]
      obtain ⟨v, hv, hr, htm⟩ := scoreTest_rec t (judgedBy (simStopped (regression W shuffle filters tests r x evs)) none)
        (restored (simStopped (regression W shuffle filters tests r x evs)) r x)
      refine hexec _ _ (hr.tearing.trans h3) ?_
      unfold TermAfter at htm
      rw [htm]
      split
      · simp
      · simp [restored, simStopped]
  have hall := C50_recorded_once W shuffle filters tests r x (evs ++ [.simEnd])
  exact ⟨by rw [hall.2.2.1, if_pos ht], hall.2.2.2.1.1 ht⟩

example :
    let s := regression (RegEx.W 0 0) id [] [RegEx.a, RegEx.b, RegEx.c, RegEx.d] 5 6
      [.complete (some 1), .timer, .simEnd]
    s.results = [(RegEx.b, .xfail), (RegEx.c, .skip), (RegEx.a, .fail), (RegEx.d, .fail)] ∧ s.teardowns = 1 := by
  decide

/-! ## C51 -/

/-- **C51** The counters are the numbers of results with each outcome; they add up to the number of
results, which is `count - 1`, and at the end to `total_tests`; the report agrees with the results. -/
theorem C51_counters (W : World) (shuffle : List Test → List Test) (filters : List (PyStr → Bool))
    (tests : List Test) (r x : W.Rng) (evs : List (Ev W)) :
    let s := regression W shuffle filters tests r x evs
    s.passed = howMany .pass s.results ∧ s.failures = howMany .fail s.results ∧
    s.skipped = howMany .skip s.results ∧ s.xfailed = howMany .xfail s.results ∧
    s.passed + s.failures + s.skipped + s.xfailed = s.results.length ∧
    s.count = s.results.length + 1 ∧
    s.total = (plan shuffle filters tests).length ∧
    (s.tearing = true → s.passed + s.failures + s.skipped + s.xfailed = s.total) ∧
    (∃ l : List (Test × Status × Outcome), s.cases = l.map (fun x => (x.1, x.2.1)) ∧
      s.results = l.map (fun x => (x.1, x.2.2)) ∧ ∀ x ∈ l, Agrees x.2.1 x.2.2) := by
  intro s
  have h : Inv (plan shuffle filters tests) r x s := inv_regression shuffle filters tests r x evs
  have hb : Base (plan shuffle filters tests) s := by
    cases h with
    | finished _ _ _ h => exact h
    | waiting _ _ _ h => exact h.toBase
    | running _ _ _ _ _ _ _ h => exact h
  have hsum : ∀ l : List (Test × Outcome),
      howMany .pass l + howMany .fail l + howMany .skip l + howMany .xfail l = l.length := by
    intro l
    induction l with
    | nil => rfl
    | cons p l ih =>
      have hc : ∀ o, howMany o (p :: l) = howMany o l + if p.2 = o then 1 else 0 := by
        intro o; unfold howMany; simp [List.count_cons]
      rw [hc, hc, hc, hc, List.length_cons, ← ih]
      cases p.2 <;> simp <;> omega
  have h1 : s.passed + s.failures + s.skipped + s.xfailed = s.results.length := by
    rw [hb.passed, hb.failures, hb.skipped, hb.xfailed, hsum]
  refine ⟨hb.passed, hb.failures, hb.skipped, hb.xfailed, h1, hb.count, hb.total, ?_, hb.report⟩
  intro ht
  have := (C50_recorded_once W shuffle filters tests r x evs).2.2.2.1.1 ht
  rw [h1, hb.total, ← this, List.length_map]

example :
    let s := regression (RegEx.W 0 0) id [] [RegEx.a, RegEx.b, RegEx.c, RegEx.d] 5 6
      [.complete none, .timer, .complete none, .timer, .complete (some 7)]
    (s.passed, s.failures, s.skipped, s.xfailed, s.count, s.total) = (1, 1, 1, 1, 5, 4) ∧ s.tearing = true := by
  decide

/-- **C51** The number in `running name (number/total)` is the place of the test among the tests to run: a test is waiting to
run or running exactly until the end, and it is the one with the number `count`. -/
theorem C51_number (W : World) (shuffle : List Test → List Test) (filters : List (PyStr → Bool))
    (tests : List Test) (r x : W.Rng) (evs : List (Ev W)) :
    let s := regression W shuffle filters tests r x evs
    s.tearing = false → ∃ t, s.cur = some t ∧ 1 ≤ s.count ∧ s.count ≤ s.total ∧
      (plan shuffle filters tests)[s.count - 1]? = some t := by
  intro s ht
  have h : Inv (plan shuffle filters tests) r x s := inv_regression shuffle filters tests r x evs
  have key : ∀ t q, s.cur = some t → Base (plan shuffle filters tests) s →
      s.results.map (·.1) ++ t :: q = plan shuffle filters tests →
      ∃ t, s.cur = some t ∧ 1 ≤ s.count ∧ s.count ≤ s.total ∧ (plan shuffle filters tests)[s.count - 1]? = some t := by
    intro t q hc hb hs
    have hl := congrArg List.length hs
    rw [List.length_append, List.length_map, List.length_cons] at hl
    refine ⟨t, hc, by rw [hb.count]; omega, by rw [hb.count, hb.total]; omega, ?_⟩
    rw [hb.count, Nat.add_sub_cancel, ← hs, List.getElem?_append_right (by rw [List.length_map]; exact Nat.le_refl _),
      List.length_map, Nat.sub_self]
    rfl
  cases h with
  | finished _ h => rw [h] at ht; cases ht
  | waiting t _ hc hm => exact key t _ hc hm.toBase hm.split
  | running t _ _ _ hc _ _ hb hs => exact key t _ hc hb hs

example :
    let s := regression (RegEx.W 0 0) id [] [RegEx.a, RegEx.b, RegEx.c, RegEx.d] 5 6 [.complete none, .timer]
    (s.count, s.total, s.tearing) = (3, 4, false) := by
  decide

/-! ## C52 -/

/-- **C52** A test that completes is recorded with the verdict that follows from its exception and its
expectations, whatever happened before. -/
theorem C52_verdict (W : World) (hW : Sane W) (shuffle : List Test → List Test)
    (filters : List (PyStr → Bool)) (tests : List Test) (r x : W.Rng) (evs : List (Ev W)) (t : Test)
    (exc : Option Exc) (v : Verdict)
    (hp : (regression W shuffle filters tests r x evs).phase = .running)
    (hc : (regression W shuffle filters tests r x evs).cur = some t)
    (hv : Judged W t exc v) :
    ∃ l, (step (.complete exc) (regression W shuffle filters tests r x evs)).results =
      (regression W shuffle filters tests r x evs).results ++ (t, shown W v) :: l := by
  have h := inv_regression shuffle filters tests r x evs
  obtain ⟨v', l, hv', h1, -⟩ := complete_results exc h hp hc
  have hn := open_regression shuffle filters tests r x evs hp
  have hj : judgedBy (regression W shuffle filters tests r x evs) exc = exc := by
    unfold judgedBy; rw [hn]
  rw [hj] at hv'
  have := judged_unique hW hv hv'
  subst this
  refine ⟨l, ?_⟩
  simp only [step, hp, if_true]
  exact h1

/-- **C52** There is exactly one verdict for every exception and every expectation. -/
theorem C52_decided (W : World) (hW : Sane W) (t : Test) (exc : Option Exc) :
    ∃ v, Judged W t exc v ∧ ∀ v', Judged W t exc v' → v' = v := by
  have h : ∃ v, Judged W t exc v := by
    cases exc with
    | none =>
      by_cases h : t.expectError ≠ [] ∨ t.expectFail = true
      · exact ⟨.failed, .inl ⟨rfl, h⟩⟩
      · refine ⟨.passed, .inl ⟨rfl, ?_, ?_⟩⟩
        · exact Classical.byContradiction fun e => h (.inl e)
        · cases hx : t.expectFail
          · rfl
          · exact absurd (.inr hx) h
    | some e =>
      by_cases h1 : W.isSkip e = true
      · exact ⟨.skipped, e, rfl, h1⟩
      by_cases h2 : W.isXfail e = true
      · exact ⟨.xfailed, e, rfl, .inl h2⟩
      by_cases h3 : W.isSuccess e = true
      · exact ⟨.passed, .inr ⟨e, rfl, h3⟩⟩
      have hne : ¬ Ender W e := by
        rintro (h | h | h)
        · exact h1 h
        · exact h2 h
        · exact h3 h
      by_cases h4 : Expected W t e ∨ (t.expectError = [] ∧ t.expectFail = true ∧ W.isFailure e = true)
      · exact ⟨.xfailed, e, rfl, .inr ⟨hne, h4⟩⟩
      · exact ⟨.failed, .inr ⟨e, rfl, hne, fun h => h4 (.inl h), fun h => h4 (.inr h)⟩⟩
  obtain ⟨v, hv⟩ := h
  exact ⟨v, hv, fun v' h' => judged_unique hW h' hv⟩

example : Judged (RegEx.W 0 0) RegEx.d (some 7) .xfailed ∧ Judged (RegEx.W 0 0) RegEx.d (some 1) .failed ∧
    Judged (RegEx.W 0 0) RegEx.b (some 1) .xfailed ∧ Judged (RegEx.W 0 0) RegEx.b none .failed ∧
    Judged (RegEx.W 0 0) RegEx.b (some 6) .passed := by
  refine ⟨⟨7, rfl, .inr ⟨by simp [Ender, RegEx.W], .inl (.inl ⟨7, by decide, rfl⟩)⟩⟩,
    .inr ⟨1, rfl, by simp [Ender, RegEx.W], ?_, by decide⟩,
    ⟨1, rfl, .inr ⟨by simp [Ender, RegEx.W], .inr ⟨rfl, rfl, rfl⟩⟩⟩, .inl ⟨rfl, .inr rfl⟩,
    .inr ⟨6, rfl, rfl⟩⟩
  rintro (⟨c, h1, h2⟩ | ⟨m, h1, h2⟩)
  · simp [RegEx.d] at h1; subst h1; simp [RegEx.W] at h2
  · simp [RegEx.d] at h1

example : (regression (RegEx.W 0 0) id [] [RegEx.d] 5 6 []).phase = .running ∧
    (regression (RegEx.W 0 0) id [] [RegEx.d] 5 6 []).cur = some RegEx.d := by decide

/-! ## C53 -/

/-- What COCOTB_MAX_FAILURES = k promises about a state: when k failures have been recorded, everything
after the k-th is reported as failed (or skipped if marked so), none of that was run, and the regression
is over. -/
def Stopped (W : World) (P : List Test) (s : RM W) : Prop :=
  s.teardowns = 1 ∧ s.results.map (·.1) = P ∧ ∃ pre post, s.results = pre ++ post ∧
    (howMany .fail pre : Int) = W.maxFailures ∧
    (∀ p ∈ post, p.2 = if Skipped W p.1 then .skip else .fail) ∧
    (s.starts.map (·.test)).Sublist (pre.map (·.1))

/-- **C53** in full. -/
def C53_limit_full : Prop :=
  ∀ (W : World), Sane W → W.maxFailures > 0 → ∀ (shuffle : List Test → List Test)
    (filters : List (PyStr → Bool)) (tests : List Test) (r x : W.Rng) (evs : List (Ev W)),
    W.maxFailures ≤ (regression W shuffle filters tests r x evs).failures →
      Stopped W (plan shuffle filters tests) (regression W shuffle filters tests r x evs)

/-- A test that fails to initialise is counted, but does not stop the regression: with a limit of one, a
test is started after the first failure. -/
theorem C53_limit_counterexample_init : ¬ C53_limit_full := by
  intro h
  have := (h (RegEx.W 1 1) (RegEx.sane 1 1) (by decide) id [] [RegEx.a, RegEx.d] 5 6 [] (by decide)).1
  revert this
  decide

/-- A test that never ran is reported as an expected failure if `expect_error` covers the reason for
stopping, for instance with BaseException. -/
theorem C53_limit_counterexample_expected : ∃ evs : List (Ev (RegEx.W 1 0)),
    (regression (RegEx.W 1 0) id [] [RegEx.c, RegEx.test 7 "m.z" 0, RegEx.e] 5 6 evs).results =
      [(RegEx.c, .skip), (RegEx.test 7 "m.z" 0, .fail), (RegEx.e, .xfail)] ∧
    (regression (RegEx.W 1 0) id [] [RegEx.c, RegEx.test 7 "m.z" 0, RegEx.e] 5 6 evs).starts.map (·.test) =
      [RegEx.test 7 "m.z" 0] := ⟨[.complete (some 1)], by decide, by decide⟩

/-- **C53** (part) It holds for regressions in which every test can be initialised and no test expects
the exceptions with which the regression manager ends a regression. -/
theorem C53_limit_partial (W : World) (hW : Sane W) (hk : W.maxFailures > 0)
    (shuffle : List Test → List Test) (filters : List (PyStr → Bool)) (tests : List Test) (r x : W.Rng)
    (evs : List (Ev W)) (hi : ∀ n t, W.initOk n t = true)
    (hx : ∀ t ∈ plan shuffle filters tests, ¬ Expected W t W.regTerminated ∧ ¬ Expected W t W.simFailure)
    (hf : W.maxFailures ≤ (regression W shuffle filters tests r x evs).failures) :
    Stopped W (plan shuffle filters tests) (regression W shuffle filters tests r x evs) := by
  have h0 : Mid (W := W) (plan shuffle filters tests) r x (plan shuffle filters tests)
      { RM.init W tests r x with
        queue := plan shuffle filters tests, total := (plan shuffle filters tests).length, count := 1, first := true } :=
    ⟨⟨rfl, rfl, rfl, rfl, rfl, rfl, ⟨[], rfl, rfl, by simp⟩, by intro st h; cases h⟩, rfl, rfl, rfl,
      List.Sublist.refl _, rfl, rfl, rfl⟩
  have hl : LimW (startRegression shuffle filters (RM.init W tests r x)) := by
    refine limW_execute hW hk hx hi _ _ h0 ⟨fun _ => by simpa [RM.init] using hk, by simp [RM.init], ?_⟩
    intro h
    simp [RM.init] at h
    omega
  have h := limW_steps hW hk hx hi evs _ (inv_execute _ _ h0) hl
  have hall := C50_recorded_once W shuffle filters tests r x evs
  have ht : (regression W shuffle filters tests r x evs).tearing = true := by
    cases hh : (regression W shuffle filters tests r x evs).tearing with
    | true => rfl
    | false =>
      have := (h.2 hh).1
      change (regression W shuffle filters tests r x evs).failures < W.maxFailures at this
      omega
  exact ⟨by rw [hall.2.2.1, if_pos ht], hall.2.2.2.1.1 ht, h.1.over hf⟩

example :
    let s := regression (RegEx.W 1 0) id [] [RegEx.b, RegEx.c, RegEx.a] 5 6 [.complete none]
    s.results = [(RegEx.b, .fail), (RegEx.c, .skip), (RegEx.a, .fail)] ∧ s.failures = 2 ∧
      s.starts.map (·.test) = [RegEx.b] ∧ s.tearing = true := by decide

/-- **C53** Without a limit every selected test that is not marked as skipped is run (if the simulator
does not end and every test can be initialised). -/
theorem C53_no_limit (W : World) (hk : W.maxFailures ≤ 0)
    (shuffle : List Test → List Test) (filters : List (PyStr → Bool)) (tests : List Test) (r x : W.Rng)
    (evs : List (Ev W)) (hi : ∀ n t, W.initOk n t = true) (hn : Ev.simEnd ∉ evs)
    (ht : (regression W shuffle filters tests r x evs).tearing = true) :
    (regression W shuffle filters tests r x evs).starts.map (·.test) =
      (plan shuffle filters tests).filter fun t => decide (¬ Skipped W t) := by
  have h0 : Mid (W := W) (plan shuffle filters tests) r x (plan shuffle filters tests)
      { RM.init W tests r x with
        queue := plan shuffle filters tests, total := (plan shuffle filters tests).length, count := 1, first := true } :=
    ⟨⟨rfl, rfl, rfl, rfl, rfl, rfl, ⟨[], rfl, rfl, by simp⟩, by intro st h; cases h⟩, rfl, rfl, rfl,
      List.Sublist.refl _, rfl, rfl, rfl⟩
  have h1 := allRun_steps (by omega) hi evs _ hn (inv_execute _ _ h0)
    (allRun_execute (by omega) hi _ _ h0 ⟨rfl, rfl⟩)
  have hp := tearing_phase (inv_regression shuffle filters tests r x evs) ht
  have hres := (C50_recorded_once W shuffle filters tests r x evs).2.2.2.1.1 ht
  rcases h1.2 with ⟨-, h2⟩ | ⟨t, h2, -⟩
  · have := h2.2
    change (regression W shuffle filters tests r x evs).starts.map _ =
      ((regression W shuffle filters tests r x evs).results.map _).filter _ at this
    rw [this, hres]
  · change (regression W shuffle filters tests r x evs).phase = _ at h2
    rw [hp] at h2; cases h2

example :
    let s := regression (RegEx.W 0 0) id [] [RegEx.b, RegEx.c, RegEx.a] 5 6
      [.complete none, .timer, .complete (some 1)]
    s.tearing = true ∧ s.failures = 2 ∧ s.starts.map (·.test) = [RegEx.b, RegEx.a] := by decide

/-! ## C54 -/

/-- **C54** Whatever ran before, in whatever order, and however much randomness it drew: every test
starts with RANDOM_SEED, Python's generator and the generator that resolves X values determined by the
regression's seed and its own name; and whenever no test is running, the generators and the seed are as
they were before the first test. -/
theorem C54_seeds (W : World) (shuffle : List Test → List Test) (filters : List (PyStr → Bool))
    (tests : List Test) (r x : W.Rng) (evs : List (Ev W)) :
    let s := regression W shuffle filters tests r x evs
    (∀ st ∈ s.starts, st.randomSeed = W.seed + (W.sha1 st.test.fullname : Int) ∧
      st.rng = W.seeded (W.seed + (W.sha1 st.test.fullname : Int)) ∧
      st.xrng = W.seeded (W.seed + (W.sha1 st.test.fullname : Int))) ∧
    (s.phase ≠ .running → s.randomSeed = W.seed ∧ s.rng = r ∧ s.xrng = x) ∧
    (s.phase = .running → ∃ pre st, s.starts = pre ++ [st] ∧ s.cur = some st.test ∧
      s.randomSeed = st.randomSeed) := by
  intro s
  have h : Inv (plan shuffle filters tests) r x s := inv_regression shuffle filters tests r x evs
  cases h with
  | finished h1 _ _ hb _ _ h7 h8 h9 =>
    exact ⟨hb.seeds, fun _ => ⟨h7, h8, h9⟩, fun h => by rw [h1] at h; cases h⟩
  | waiting t h1 _ hm =>
    refine ⟨hm.seeds, fun _ => ⟨hm.randomSeed, hm.rng, hm.xrng⟩, fun h => ?_⟩
    rcases h1 with h1 | ⟨h1, -⟩ <;> (rw [h1] at h; cases h)
  | running t pre st h1 hc _ _ hb _ h6 h7 _ _ h10 =>
    refine ⟨hb.seeds, fun h => absurd h1 h, fun _ => ⟨pre, st, h6, by rw [h7]; exact hc, ?_⟩⟩
    rw [h10, (hb.seeds st (by rw [h6]; simp)).1, h7]

example :
    let s := regression (RegEx.W 0 0) id [] [RegEx.a, RegEx.b] 5 6
      [.use 17 18, .complete (some 1), .timer, .use 33 34, .complete none]
    s.starts.map (·.randomSeed) = [1004, 1003] ∧ s.rng = 5 ∧ s.xrng = 6 ∧ s.randomSeed = 1000 := by
  decide

end Verif
