import Verif.Model.PytestTimes
import Verif.Spec.PytestTimes
/-! # C172: the times in the reports of the pytest plugin -/
namespace Verif
open PytestTimes PytestTimes.Spec

namespace PytestTimesL

/-- Holds of everything before each report, and the report. -/
def Every (P : List Ev → Rep → Prop) (tr : List Ev) : Prop :=
  ∀ pre r post, tr = pre ++ .report r :: post → P pre r

theorem every_snoc {P : List Ev → Rep → Prop} {tr : List Ev} (h : Every P tr) (e : Ev) (he : ∀ r, e = .report r → P tr r) :
    Every P (tr ++ [e]) := by
  intro pre r post hp
  rcases List.eq_nil_or_concat post with rfl | ⟨post', x, rfl⟩
  · have := List.append_inj' hp rfl
    obtain ⟨rfl, h2⟩ := this
    simp at h2
    exact he r h2
  · rw [List.concat_eq_append, ← List.cons_append, ← List.append_assoc] at hp
    have := List.append_inj' hp rfl
    exact h pre r post' this.1

/-- What holds of a report and what was before it. -/
def Right (pre : List Ev) (r : Rep) : Prop :=
  (∃ u, phase pre = some (r.when_, r.start, u) ∧ u + r.duration = tick pre) ∧ r.stop = time pre ∧
  r.start + r.simDuration = r.stop ∧
  r.simDuration = own pre + (if allRuns pre = runs pre then runs pre - 1 else runs pre) ∧
  r.ratio = if r.simDuration = 0 then 0 else (r.duration : Rat) / (r.simDuration : Rat)

/-- The state within a phase. -/
structure In (w : When) (a : Nat) (st : St) : Prop where
  every : Every Right st.trace
  ph : ∃ u, phase st.trace = some (w, st.simTimeStart, u) ∧ st.callStart = some u ∧ u ≤ st.clock
  tm : time st.trace = st.now
  tk : tick st.trace = st.clock
  sch : st.scheduled = true ↔ allRuns st.trace ≠ 0
  rs : runs st.trace ≤ allRuns st.trace
  len : st.now = st.simTimeStart + own st.trace + (if allRuns st.trace = runs st.trace then runs st.trace - 1 else runs st.trace)
  tl : Tiled a (reports st.trace) st.simTimeStart

/-- The state between phases. -/
structure Btw (a : Nat) (st : St) : Prop where
  every : Every Right st.trace
  sch : st.scheduled = true ↔ allRuns st.trace ≠ 0
  tl : Tiled a (reports st.trace) st.now

theorem tiled_snoc {a b : Nat} {rs : List Rep} (h : Tiled a rs b) (r : Rep) (h1 : r.start = b) (h2 : b ≤ r.stop) :
    Tiled a (rs ++ [r]) r.stop := by
  induction rs generalizing a with
  | nil => simp only [Tiled] at h; subst h; simp [Tiled, h1, h2]
  | cons x xs ih =>
    simp only [Tiled] at h
    exact ⟨h.1, h.2.1, ih h.2.2⟩

theorem hook_in {a : Nat} {st : St} (h : Btw a st) (w : When) (n : Nat) :
    In w a (callHook w n st).1 ∧ (callHook w n st).2 = makeReport w n (callHook w n st).1 := by
  refine ⟨⟨?_, ?_, ?_, ?_, ?_, ?_, ?_, ?_⟩, ?_⟩
  · have h1 := every_snoc h.every (.began w st.now st.clock) (by simp)
    have h2 := every_snoc h1 (.hooked (st.clock + n)) (by simp)
    simpa [callHook] using h2
  · exact ⟨st.clock, by simp [callHook, phase], by simp [callHook], by simp [callHook]⟩
  · simp [callHook, time]
  · simp [callHook, tick]
  · have := h.sch
    simpa only [callHook, allRuns, List.foldl_append, List.foldl_cons, List.foldl_nil] using this
  · simp [callHook, runs]
  · simp only [callHook, own, runs, List.foldl_append, List.foldl_cons, List.foldl_nil]
    simp
  · have := h.tl
    simpa [callHook, reports] using this
  · simp [callHook]

theorem start_in {w : When} {a : Nat} {st : St} (h : In w a st) (p : Part) : In w a (start p st) := by
  obtain ⟨u, h1, h2, h3⟩ := h.ph
  refine ⟨?_, ?_, ?_, ?_, ?_, ?_, ?_, ?_⟩
  · exact every_snoc h.every _ (by simp)
  · exact ⟨u, by simpa [start, phase] using h1, by simpa [start] using h2, by simp [start]; omega⟩
  · simp [start, time]
  · simp [start, tick]
  · simp [start, allRuns]
  · have := h.rs
    simpa [start, runs, allRuns] using this
  · have hl := h.len
    have hs := h.sch
    have hr := h.rs
    have e1 : own (start p st).trace = own st.trace + p.steps := by
      simp [start, own]
    have e2 : runs (start p st).trace = runs st.trace + 1 := by simp [start, runs]
    have e3 : allRuns (start p st).trace = allRuns st.trace + 1 := by simp [start, allRuns]
    rw [e1, e2, e3]
    show (if st.scheduled then st.now + 1 else st.now) + p.steps = st.simTimeStart + _ + _
    by_cases hz : allRuns st.trace = 0
    · have : runs st.trace = 0 := by omega
      rw [if_neg (by rw [hs]; omega)]
      simp [hz, this] at hl ⊢
      omega
    · rw [if_pos (hs.2 hz)]
      by_cases hq : allRuns st.trace = runs st.trace
      · rw [if_pos hq] at hl
        rw [if_pos (by omega)]
        omega
      · rw [if_neg hq] at hl
        rw [if_neg (by omega)]
        omega
  · have := h.tl
    simpa [start, reports] using this

theorem completed_in {w : When} {a : Nat} {st : St} (h : In w a st) (v : When) :
    (completed v st).1 = st ∧ ∃ u, st.callStart = some u ∧ (completed v st).2 = makeReport v (st.clock - u) st := by
  obtain ⟨u, h1, h2, h3⟩ := h.ph
  simp [completed, h2]

theorem log_btw {w : When} {a : Nat} {st : St} (h : In w a st) (d : Nat) (u : Nat) (hu : st.callStart = some u)
    (hd : d = st.clock - u) : Btw a (log (makeReport w d st) st) := by
  obtain ⟨u', h1, h2, h3⟩ := h.ph
  rw [hu] at h2
  cases h2
  have hl := h.len
  refine ⟨?_, ?_, ?_⟩
  · apply every_snoc h.every
    intro r hr
    cases hr
    refine ⟨⟨u, h1, ?_⟩, h.tm.symm, ?_, ?_, rfl⟩
    · show u + d = _
      rw [h.tk]; omega
    · show st.simTimeStart + (st.now - st.simTimeStart) = st.now
      omega
    · show st.now - st.simTimeStart = _
      omega
  · have := h.sch
    simpa only [log, allRuns, List.foldl_append, List.foldl_cons, List.foldl_nil] using this
  · have e : reports (log (makeReport w d st) st).trace = reports st.trace ++ [makeReport w d st] := by
      simp [log, reports]
    rw [e]
    exact tiled_snoc h.tl _ rfl (by show st.simTimeStart ≤ st.now; omega)

theorem hook_start {w : When} {n : Nat} {st : St} :
    ∃ u, (callHook w n st).1.callStart = some u ∧ n = (callHook w n st).1.clock - u :=
  ⟨st.clock, by simp [callHook], by simp [callHook]⟩

theorem setup_btw {a : Nat} (ps : List Part) : ∀ (ok : Bool) (st : St) (d u : Nat), In .setup a st →
    st.callStart = some u → d = st.clock - u → Btw a (setupLoop ps ok (makeReport .setup d st) st).1 := by
  induction ps with
  | nil =>
    intro ok st d u h hu hd
    cases ok <;> exact log_btw h d u hu hd
  | cons p ps ih =>
    intro ok st d u h hu hd
    cases ok with
    | false => exact log_btw h d u hu hd
    | true =>
      have h' := start_in h p
      obtain ⟨e, v, hv, e2⟩ := completed_in h' .setup
      simp only [setupLoop]
      rw [e, e2]
      exact ih p.ok _ _ v h' hv rfl

theorem teardown_btw {a : Nat} (ps : List Part) : ∀ (st : St) (d u : Nat), In .teardown a st →
    st.callStart = some u → d = st.clock - u → Btw a (teardownLoop ps (makeReport .teardown d st) st) := by
  induction ps with
  | nil => intro st d u h hu hd; exact log_btw h d u hu hd
  | cons p ps ih =>
    intro st d u h hu hd
    have h' := start_in h p
    obtain ⟨e, v, hv, e2⟩ := completed_in h' .teardown
    simp only [teardownLoop]
    rw [e, e2]
    exact ih _ _ v h' hv rfl

theorem call_btw {a : Nat} (i : Item) {st : St} (h : Btw a st) : Btw a (callPhase i st) := by
  obtain ⟨hi, e⟩ := hook_in h .call i.callTicks
  obtain ⟨u, hu, hd⟩ := hook_start (w := .call) (n := i.callTicks) (st := st)
  unfold callPhase
  cases i.call with
  | none => simp only; rw [e]; exact log_btw hi _ u hu hd
  | some p =>
    have h' := start_in hi p
    obtain ⟨e, v, hv, e2⟩ := completed_in h' .call
    simp only
    rw [e, e2]
    exact log_btw h' _ v hv rfl

theorem item_btw {a : Nat} (i : Item) {st : St} (h : Btw a st) : Btw a (runItem i st) := by
  obtain ⟨hi, e⟩ := hook_in h .setup i.setup.ticks
  obtain ⟨u, hu, hd⟩ := hook_start (w := .setup) (n := i.setup.ticks) (st := st)
  have hs := setup_btw i.setup.parts i.setup.ok _ _ u hi hu hd
  rw [← e] at hs
  simp only [runItem]
  have h1 : Btw a (if (setupLoop i.setup.parts i.setup.ok (callHook .setup i.setup.ticks st).2 (callHook .setup i.setup.ticks st).1).2
      then callPhase i (setupLoop i.setup.parts i.setup.ok (callHook .setup i.setup.ticks st).2 (callHook .setup i.setup.ticks st).1).1
      else (setupLoop i.setup.parts i.setup.ok (callHook .setup i.setup.ticks st).2 (callHook .setup i.setup.ticks st).1).1) := by
    split
    · exact call_btw i hs
    · exact hs
  obtain ⟨hi', e'⟩ := hook_in h1 .teardown i.teardown.ticks
  rw [e']
  obtain ⟨v, hv, hw⟩ := hook_start (w := .teardown) (n := i.teardown.ticks)
    (st := if (setupLoop i.setup.parts i.setup.ok (callHook .setup i.setup.ticks st).2 (callHook .setup i.setup.ticks st).1).2
      then callPhase i (setupLoop i.setup.parts i.setup.ok (callHook .setup i.setup.ticks st).2 (callHook .setup i.setup.ticks st).1).1
      else (setupLoop i.setup.parts i.setup.ok (callHook .setup i.setup.ticks st).2 (callHook .setup i.setup.ticks st).1).1)
  exact teardown_btw i.teardown.parts _ _ v hi' hv hw

theorem session_btw {a : Nat} (is : List Item) : ∀ (st : St), Btw a st → Btw a (session is st) := by
  induction is with
  | nil => intro st h; exact h
  | cons i is ih => intro st h; exact ih _ (item_btw i h)

theorem init_btw (t u : Nat) : Btw t (init t u) :=
  ⟨by intro pre r post h; simp [init] at h, by simp [init, allRuns], by simp [init, reports, Tiled]⟩

theorem right {is : List Item} {t u : Nat} {pre post : List Ev} {r : Rep}
    (h : (session is (init t u)).trace = pre ++ .report r :: post) : Right pre r :=
  (session_btw is _ (init_btw t u)).every pre r post h

theorem tiled_sum {a b : Nat} {rs : List Rep} (h : Tiled a rs b) : a + (rs.map fun r => r.stop - r.start).sum = b := by
  induction rs generalizing a with
  | nil => simpa [Tiled] using h
  | cons r rs ih =>
    simp only [Tiled] at h
    have := ih h.2.2
    simp only [List.map_cons, List.sum_cons]
    omega

end PytestTimesL
open PytestTimesL

/-- A session of two items: an asynchronous fixture with a teardown and a test of 7 steps, and a test that is skipped by
its fixture. -/
def exTimedItems : List Item :=
  [⟨⟨2, true, [⟨3, 1, true⟩]⟩, 1, some ⟨7, 2, true⟩, ⟨1, true, [⟨2, 1, true⟩]⟩⟩,
   ⟨⟨1, true, [⟨4, 1, false⟩, ⟨9, 9, true⟩]⟩, 1, some ⟨7, 2, true⟩, ⟨1, true, []⟩⟩]

/-- C172: every logged report says when its phase began and when the last coroutine of the phase ended, in simulation time;
its duration is the time on the clock in between; the duration in simulation time is the difference. -/
theorem C172_times (is : List Item) (t u : Nat) (pre post : List Ev) (r : Rep)
    (h : (session is (init t u)).trace = pre ++ .report r :: post) :
    (∃ c, phase pre = some (r.when_, r.start, c) ∧ c + r.duration = tick pre) ∧ r.stop = time pre ∧
      r.start + r.simDuration = r.stop :=
  let x := right h
  ⟨x.1, x.2.1, x.2.2.1⟩

example : (reports (session exTimedItems (init 0 100)).trace).map (fun r => (r.when_, r.start, r.stop, r.duration)) =
    [(.setup, 0, 3, 3), (.call, 3, 11, 3), (.teardown, 11, 14, 2), (.setup, 14, 19, 2), (.teardown, 19, 19, 1)] := by
  decide +kernel

/-- C172: the reports of a session leave out no simulation time and count none twice: each starts where the one before
stopped, from the start of the session to its end. -/
theorem C172_tiles (is : List Item) (t u : Nat) :
    Tiled t (reports (session is (init t u)).trace) (session is (init t u)).now :=
  (session_btw is _ (init_btw t u)).tl

/-- C172: the simulation times of all reports add up to what the session took. -/
theorem C172_total (is : List Item) (t u : Nat) :
    t + ((reports (session is (init t u)).trace).map fun r => r.stop - r.start).sum = (session is (init t u)).now :=
  tiled_sum (C172_tiles is t u)

example : (session exTimedItems (init 5 100)).now = 24 := by decide +kernel

/-- C172, in full: the simulation time of a report is what its coroutines took. -/
def C172_own_full : Prop := ∀ (is : List Item) (t u : Nat) (pre post : List Ev) (r : Rep),
  (session is (init t u)).trace = pre ++ .report r :: post → r.simDuration = own pre

/-- C172: it is not: before each coroutine but the first of the session the manager waits for a step, and the step counts.
The report of the test function after an asynchronous fixture says 8 steps for a test of 7. -/
theorem C172_own_counterexample : ¬ C172_own_full := by
  intro h
  have h1 := h exTimedItems 0 100 ((session exTimedItems (init 0 100)).trace.take 7)
    ((session exTimedItems (init 0 100)).trace.drop 8) ⟨.call, 3, 11, 8, 3, 3 / 8⟩ (by decide +kernel)
  exact absurd h1 (by decide +kernel)

/-- C172, partial (the full claim is false of the code): the simulation time of a report is what its coroutines took and one
step for each of them but the first of the session. -/
theorem C172_own_partial (is : List Item) (t u : Nat) (pre post : List Ev) (r : Rep)
    (h : (session is (init t u)).trace = pre ++ .report r :: post) :
    r.simDuration = own pre + (if allRuns pre = runs pre then runs pre - 1 else runs pre) :=
  (right h).2.2.2.1

/-- C172, in full: the ratio in a report, which is in the JUnit file, is the one in the summary for the same report. -/
def C172_ratio_full : Prop := ∀ (is : List Item) (t u : Nat) (r : Rep),
  r ∈ reports (session is (init t u)).trace → r.ratio = summaryRatio r

/-- C172: it is not. -/
theorem C172_ratio_counterexample : ¬ C172_ratio_full := by
  intro h
  have h1 := h exTimedItems 0 100 ⟨.call, 3, 11, 8, 3, 3 / 8⟩ (by decide +kernel)
  exact absurd h1 (by decide +kernel)

/-- C172, partial (the full claim is false of the code): one is the inverse of the other, if both durations are not zero;
if the simulation time is zero both ratios are. -/
theorem C172_ratio_partial (is : List Item) (t u : Nat) (r : Rep)
    (h : r ∈ reports (session is (init t u)).trace) :
    (r.simDuration ≠ 0 → r.duration ≠ 0 → r.ratio * summaryRatio r = 1) ∧
    (r.simDuration = 0 → r.ratio = 0 ∧ summaryRatio r = 0) := by
  obtain ⟨e, he, hr⟩ := List.mem_filterMap.1 h
  have : e = .report r := by
    cases e <;> simp at hr
    subst hr; rfl
  subst this
  obtain ⟨pre, post, hp⟩ := List.append_of_mem he
  have hq := (right hp).2.2.2.2
  constructor
  · intro h1 h2
    rw [hq, summaryRatio, if_neg h1, if_neg h2]
    have a1 : (r.simDuration : Rat) ≠ 0 := by exact_mod_cast h1
    have a2 : (r.duration : Rat) ≠ 0 := by exact_mod_cast h2
    grind
  · intro h1
    rw [hq, summaryRatio, if_pos h1]
    refine ⟨rfl, ?_⟩
    split
    · rfl
    · rw [h1]; grind

example : ∃ r ∈ reports (session exTimedItems (init 0 100)).trace, r.simDuration ≠ 0 ∧ r.duration ≠ 0 := by
  decide +kernel

end Verif
