import Verif.Spec.Pytest
/-!
# A session without interference runs as specified
-/
namespace Verif.Pytest

/-- `n` completions. -/
def dones (c : Cfg) : Nat → State → State
  | 0, s => s
  | n + 1, s => dones c n (onDone c s)

theorem dones_add (c : Cfg) (n m : Nat) (s : State) : dones c (n + m) s = dones c m (dones c n s) := by
  induction n generalizing s with
  | zero => simp [dones]
  | succ n ih => rw [Nat.succ_add]; exact ih _

theorem emit_clean {c : Cfg} (h : Clean c) (e : Event) (s : State) :
    emit c e s = ⟨{ s with trace := s.trace ++ [e] }, some ()⟩ := by
  simp [emit, h.1 e]

theorem after_nil (g : Rng) : g.after [] = g := by simp [Rng.after, drawnBy]

theorem after_cons (g : Rng) (st : Step) (sts : List Step) :
    g.after (st :: sts) = Rng.after { g with drawn := g.drawn + st.draws } sts := by
  simp [Rng.after, drawnBy, Nat.add_assoc]

theorem codeEvents_append (i : Nat) (w : When) (g : Rng) (a b : List Step) :
    codeEvents i w g (a ++ b) = codeEvents i w g a ++ codeEvents i w (g.after a) b := by
  induction a generalizing g with
  | nil => simp [codeEvents, after_nil]
  | cons st a ih => simp [codeEvents, ih, after_cons]

theorem after_append (g : Rng) (a b : List Step) : g.after (a ++ b) = (g.after a).after b := by
  simp [Rng.after, drawnBy, Nat.add_assoc]

theorem untilBad_append (a b : List Step) :
    untilBad (a ++ b) = if result a = .passed then untilBad a ++ untilBad b else untilBad a := by
  induction a with
  | nil => simp [untilBad, result]
  | cons st a ih =>
    by_cases h : st.outcome = .passed
    · by_cases h' : result a = .passed <;> simp [untilBad, result, h, ih, h']
    · simp [untilBad, result, h]

theorem result_append (a b : List Step) :
    result (a ++ b) = if result a = .passed then result b else result a := by
  induction a with
  | nil => simp [result]
  | cons st a ih =>
    by_cases h : st.outcome = .passed
    · simp [result, h, ih]
    · simp [result, h]

/-- The plain setup steps of fixtures. -/
def syncOf (fs : List Fixture) : List Step := (fs.filter (·.isSync)).map (·.setup)

/-- The asynchronous setup steps of fixtures. -/
def asyncOf (fs : List Fixture) : List Step := (fs.filter (fun f => !f.isSync)).map (·.setup)

theorem setupFixtures_clean {c : Cfg} (h : Clean c) (fs : List Fixture) (s : State) :
    setupFixtures c fs s =
      ⟨{ s with
          trace := s.trace ++ codeEvents s.index .setup s.rng (untilBad (syncOf fs)),
          rng := s.rng.after (untilBad (syncOf fs)),
          live := ((reached fs).filterMap (·.fin?)).reverse ++ s.live,
          setups := s.setups ++ asyncOf (reached fs) }, some (result (syncOf fs))⟩ := by
  induction fs generalizing s with
  | nil => simp [setupFixtures, syncOf, asyncOf, untilBad, result, codeEvents, after_nil, reached]
  | cons f fs ih =>
    cases f with
    | sync st td till =>
      by_cases hp : st.outcome = .passed
      · cases td with
        | none =>
          simp [setupFixtures, runCode, h.2.1, hp, ih, syncOf, asyncOf, Fixture.isSync, Fixture.setup, untilBad, result,
            codeEvents, after_cons, reached, Fixture.fin?, List.filter_cons]
        | some td =>
          simp [setupFixtures, runCode, h.2.1, hp, ih, syncOf, asyncOf, Fixture.isSync, Fixture.setup, untilBad, result,
            codeEvents, after_cons, reached, Fixture.fin?, List.filter_cons]
      · simp [setupFixtures, runCode, h.2.1, hp, syncOf, asyncOf, Fixture.isSync, Fixture.setup, untilBad, result,
          codeEvents, after_cons, after_nil, reached, List.filter_cons]
    | afun st =>
      simp [setupFixtures, ih, syncOf, asyncOf, Fixture.isSync, Fixture.setup, reached, Fixture.fin?, List.filter_cons]
    | agen st subs td till =>
      simp [setupFixtures, ih, syncOf, asyncOf, Fixture.isSync, Fixture.setup, reached, Fixture.fin?, List.filter_cons]

theorem reached_all (fs : List Fixture) (h : result (syncOf fs) = .passed) : reached fs = fs := by
  induction fs with
  | nil => rfl
  | cons f fs ih =>
    cases f with
    | sync st td till =>
      by_cases hp : st.outcome = .passed
      · simp only [syncOf, List.filter_cons, Fixture.isSync, if_true, List.map_cons, Fixture.setup, result, hp] at h
        simp [reached, hp, ih h]
      · simp only [syncOf, List.filter_cons, Fixture.isSync, if_true, List.map_cons, Fixture.setup, result, hp, if_false] at h
    | afun st => simp only [reached]; rw [ih]; simpa [syncOf, List.filter_cons, Fixture.isSync] using h
    | agen st subs td till => simp only [reached]; rw [ih]; simpa [syncOf, List.filter_cons, Fixture.isSync] using h


/-! ## Nothing raises -/

theorem bind_some {α β : Type} {r : R α} {a : α} (f : α → State → R β) (h : r.val = some a) : r.bind f = f a r.st := by
  simp [R.bind, h]

theorem runFinalizers_clean {c : Cfg} (h : Clean c) (fs : List Fin) (os : List Outcome) (s : State) :
    runFinalizers c fs os s =
      ⟨{ s with
          trace := s.trace ++ codeEvents s.index .teardown s.rng (syncTeardowns fs),
          rng := s.rng.after (syncTeardowns fs),
          teardowns := s.teardowns ++ asyncTeardowns fs }, some (combine (os ++ finOutcomes fs))⟩ := by
  induction fs generalizing os s with
  | nil => simp [runFinalizers, syncTeardowns, asyncTeardowns, finOutcomes, codeEvents, after_nil]
  | cons f fs ih =>
    by_cases ha : f.armed = true
    · by_cases hs : f.async = true
      · by_cases hf : Sub.finished ∈ f.subs
        · simp only [runFinalizers, ha, hs, finalizer, hf, ih]
          simp [syncTeardowns, asyncTeardowns, finOutcomes, ha, hs, hf]
        · simp only [runFinalizers, ha, hs, finalizer, hf, ih]
          simp [syncTeardowns, asyncTeardowns, finOutcomes, ha, hs, hf]
      · simp only [runFinalizers, ha, hs, ih, runCode, h.2.1]
        simp [syncTeardowns, asyncTeardowns, finOutcomes, ha, hs, List.filter_cons, codeEvents, after_cons]
    · simp only [runFinalizers, ha, ih]
      simp [syncTeardowns, asyncTeardowns, finOutcomes, ha, List.filter_cons]

theorem finishSession_ok {c : Cfg} (h : Clean c) (s : State) : (finishSession c s).val = some () := by
  unfold finishSession
  split
  · rfl
  · simp [emit_clean h, R.bind]

theorem teardownCont_ok {c : Cfg} (h : Clean c) {next : State → R Unit} (hn : ∀ s, (next s).val = some ()) (o : Outcome)
    (s : State) : (teardownCont c next o s).val = some () := by
  unfold teardownCont
  split
  · rfl
  · simp [emit_clean h, R.bind, hn]

theorem teardownStart_ok {c : Cfg} (h : Clean c) {next : State → R Unit} (hn : ∀ s, (next s).val = some ())
    (s : State) : (teardownStart c next s).val = some () := by
  simp only [teardownStart, teardownHook, runFinalizers_clean h, R.bind]
  exact teardownCont_ok h hn _ _

theorem setupCont_ok {c : Cfg} (h : Clean c) (it : Item) {next : State → R Unit} (hn : ∀ s, (next s).val = some ())
    (o : Outcome) (s : State) : (setupCont c it next o s).val = some () := by
  unfold setupCont
  split
  · simp [emit_clean h, R.bind, teardownStart_ok h hn]
  · split
    · rfl
    · simp only [emit_clean h, R.bind]
      split
      · rfl
      · exact teardownStart_ok h hn _

theorem advance_ok {c : Cfg} (h : Clean c) (its : List Item) (s : State) : (advance c its s).val = some () := by
  induction its generalizing s with
  | nil => exact finishSession_ok h s
  | cons it rest ih =>
    simp only [advance, emit_clean h, R.bind, setupHook, setupFixtures_clean h]
    exact setupCont_ok h it ih _ _

theorem onDone_setup {c : Cfg} (h : Clean c) {s : State} {st : Step} {it : Item} {rest : List Item}
    (hr : s.running = some (.setup, st)) (hi : s.items = it :: rest) :
    onDone c s = (setupCont c it (advance c rest) st.outcome
      { s with running := none, live := if st.outcome = .passed then arm st.id s.live else s.live }).st := by
  simp only [onDone, hr, hi, completed, h.2.1, R.bind]
  simp [finishOnException, setupCont_ok h it (advance_ok h rest)]

theorem onDone_call {c : Cfg} (h : Clean c) {s : State} {st : Step} {it : Item} {rest : List Item}
    (hr : s.running = some (.call, st)) (hi : s.items = it :: rest) :
    onDone c s = (teardownStart c (advance c rest)
      { s with running := none, trace := s.trace ++ [.report s.index .call st.outcome] }).st := by
  simp only [onDone, hr, hi, completed, h.2.1, R.bind, emit_clean h]
  simp [finishOnException, teardownStart_ok h (advance_ok h rest)]

theorem onDone_teardown {c : Cfg} (h : Clean c) {s : State} {st : Step} {it : Item} {rest : List Item}
    (hr : s.running = some (.teardown, st)) (hi : s.items = it :: rest) :
    onDone c s = (teardownCont c (advance c rest) st.outcome { s with running := none }).st := by
  simp only [onDone, hr, hi, completed, h.2.1, R.bind]
  simp [finishOnException, teardownCont_ok h (advance_ok h rest)]

/-! ## Running the coroutines of a phase -/

/-- The asynchronous setups run one after another. -/
theorem setups_run {c : Cfg} (h : Clean c) (it : Item) (rest : List Item) (js : List Step) (s : State)
    (hr : s.running = none) (hi : s.items = it :: rest) (hj : s.setups = js) :
    ∃ n, dones c n (setupCont c it (advance c rest) .passed s).st =
      (setupCont c it (advance c rest) (result js)
        { s with
          trace := s.trace ++ codeEvents s.index .setup s.rng (untilBad js),
          rng := s.rng.after (untilBad js),
          live := armAll ((untilBad js).filter (·.outcome = .passed)) s.live,
          setups := js.drop (untilBad js).length }).st := by
  induction js generalizing s with
  | nil =>
    refine ⟨0, ?_⟩
    simp [dones, untilBad, result, codeEvents, after_nil, armAll]
    rw [← hj]
  | cons j js ih =>
    have e1 : (setupCont c it (advance c rest) .passed s).st = start .setup j { s with setups := js } := by
      simp [setupCont, hj]
    have e2 := onDone_setup h (s := start .setup j { s with setups := js }) (st := j) (it := it) (rest := rest) rfl hi
    by_cases hp : j.outcome = .passed
    · obtain ⟨n, hn⟩ := ih
        { s with
          trace := s.trace ++ [.code s.index .setup j s.rng],
          rng := { s.rng with drawn := s.rng.drawn + j.draws },
          live := arm j.id s.live,
          setups := js } hr hi rfl
      refine ⟨n + 1, ?_⟩
      show dones c n (onDone c _) = _
      rw [e1, e2]
      simp only [start, runCode, hp, if_true]
      simp only [hr] at hn ⊢
      rw [hn]
      simp [untilBad, result, hp, codeEvents, after_cons, armAll]
    · refine ⟨1, ?_⟩
      show onDone c _ = _
      rw [e1, e2]
      simp only [start, runCode, hp, if_false]
      simp [untilBad, result, hp, codeEvents, after_cons, after_nil, armAll, hr]

/-- The outcome of the last step, if there is one. -/
def lastOutcome (o : Outcome) (ts : List Step) : Outcome :=
  match ts.getLast? with
  | some t => t.outcome
  | none => o

/-- The asynchronous teardowns run one after another. -/
theorem teardowns_run {c : Cfg} (h : Clean c) (it : Item) (rest : List Item) (ts : List Step) (o : Outcome) (s : State)
    (hr : s.running = none) (hi : s.items = it :: rest) (hj : s.teardowns = ts) :
    ∃ n, dones c n (teardownCont c (advance c rest) o s).st =
      (advance c rest
        { s with
          trace := s.trace ++ codeEvents s.index .teardown s.rng ts ++
            [.report s.index .teardown (lastOutcome o ts), .finish s.index],
          rng := s.rng.after ts,
          teardowns := [] }).st := by
  induction ts generalizing s o with
  | nil =>
    refine ⟨0, ?_⟩
    simp only [dones, teardownCont, hj, emit_clean h, R.bind]
    simp [codeEvents, after_nil, lastOutcome]
  | cons t ts ih =>
    have e1 : (teardownCont c (advance c rest) o s).st = start .teardown t { s with teardowns := ts } := by
      simp [teardownCont, hj]
    have e2 := onDone_teardown h (s := start .teardown t { s with teardowns := ts }) (st := t) (it := it) (rest := rest) rfl hi
    obtain ⟨n, hn⟩ := ih t.outcome
        { s with
          trace := s.trace ++ [.code s.index .teardown t s.rng],
          rng := { s.rng with drawn := s.rng.drawn + t.draws },
          teardowns := ts } hr hi rfl
    refine ⟨n + 1, ?_⟩
    show dones c n (onDone c _) = _
    rw [e1, e2]
    simp only [start, runCode]
    simp only [hr] at hn ⊢
    rw [hn]
    have : lastOutcome t.outcome ts = lastOutcome o (t :: ts) := by
      cases ts <;> simp [lastOutcome, List.getLast?_cons]
    simp [codeEvents, after_cons, this]

/-- The teardown phase. -/
theorem teardown_run {c : Cfg} (h : Clean c) (it : Item) (rest : List Item) (s : State)
    (hr : s.running = none) (hi : s.items = it :: rest) :
    ∃ n, dones c n (teardownStart c (advance c rest) s).st =
      (let due := s.live.filter fun f => decide (f.till ≤ s.index) || rest.isEmpty
       let td := syncTeardowns due ++ asyncTeardowns due
       advance c rest
        { s with
          trace := s.trace ++ codeEvents s.index .teardown s.saved td ++
            [.report s.index .teardown (teardownResult due), .finish s.index],
          rng := s.saved.after td,
          live := s.live.filter fun f => !(decide (f.till ≤ s.index) || rest.isEmpty),
          teardowns := [] }).st := by
  have hd : due { s with teardowns := [] } = fun f => decide (f.till ≤ s.index) || rest.isEmpty := by
    funext f; simp [due, hi]
  simp only [teardownStart, teardownHook, hd, runFinalizers_clean h, R.bind]
  obtain ⟨n, hn⟩ := teardowns_run h it rest _ (combine ([] ++ finOutcomes (List.filter (fun f => decide (f.till ≤ s.index) || rest.isEmpty) s.live)))
    { s with
      trace := s.trace ++ codeEvents s.index .teardown s.saved (syncTeardowns (List.filter (fun f => decide (f.till ≤ s.index) || rest.isEmpty) s.live)),
      rng := s.saved.after (syncTeardowns (List.filter (fun f => decide (f.till ≤ s.index) || rest.isEmpty) s.live)),
      live := s.live.filter fun f => !(decide (f.till ≤ s.index) || rest.isEmpty),
      teardowns := asyncTeardowns (List.filter (fun f => decide (f.till ≤ s.index) || rest.isEmpty) s.live) } hr hi rfl
  refine ⟨n, ?_⟩
  simp only [List.nil_append] at hn ⊢
  rw [hn]
  simp only [codeEvents_append, after_append, List.append_assoc]
  rfl

/-- What follows the setup phase. -/
theorem rest_run {c : Cfg} (h : Clean c) (it : Item) (rest : List Item) (o : Outcome) (s : State) (hr : s.running = none)
    (hi : s.items = it :: rest) (hj : o = .passed → s.setups = []) :
    ∃ n, dones c n (setupCont c it (advance c rest) o s).st =
      (let due := s.live.filter fun f => decide (f.till ≤ s.index) || rest.isEmpty
       let td := syncTeardowns due ++ asyncTeardowns due
       let body := if o = .passed then it.body.toList else []
       advance c rest
        { s with
          trace := s.trace ++ [.report s.index .setup o] ++
            (if o = .passed then
              codeEvents s.index .call s.rng body ++ [.report s.index .call it.callResult] else []) ++
            codeEvents s.index .teardown s.saved td ++
            [.report s.index .teardown (teardownResult due), .finish s.index],
          rng := s.saved.after td,
          live := s.live.filter fun f => !(decide (f.till ≤ s.index) || rest.isEmpty),
          teardowns := [] }).st := by
  by_cases ho : o = .passed
  · have hj' := hj ho
    subst ho
    cases hb : it.body with
    | none =>
      obtain ⟨n, hn⟩ := teardown_run h it rest
        { s with trace := s.trace ++ [.report s.index .setup .passed] ++ [.report s.index .call it.callHook] } hr hi
      refine ⟨n, ?_⟩
      simp only [setupCont, hj', hb, emit_clean h, R.bind, ne_eq, not_true, if_false]
      simp only [hj'] at hn
      rw [hn]
      simp [codeEvents, Item.callResult, hb]
    | some b =>
      obtain ⟨n, hn⟩ := teardown_run h it rest
        { s with
          trace := s.trace ++ [.report s.index .setup .passed] ++ [.code s.index .call b s.rng] ++
            [.report s.index .call b.outcome],
          rng := { s.rng with drawn := s.rng.drawn + b.draws } } hr hi
      refine ⟨n + 1, ?_⟩
      show dones c n (onDone c _) = _
      simp only [setupCont, hj', hb, emit_clean h, R.bind, ne_eq, not_true, if_false]
      rw [onDone_call h
        (s := start .call b { s with setups := [], trace := s.trace ++ [.report s.index .setup .passed] }) (st := b) (it := it) (rest := rest) rfl hi]
      simp only [start, runCode]
      simp only [hr, hj'] at hn
      rw [hn]
      simp [codeEvents, Item.callResult, hb, hr]
  · obtain ⟨n, hn⟩ := teardown_run h it rest { s with trace := s.trace ++ [.report s.index .setup o] } hr hi
    refine ⟨n, ?_⟩
    simp only [setupCont, ho, emit_clean h, R.bind, ne_eq, not_false_eq_true, if_true]
    simp only at hn
    simp [hn, ho]

theorem drop_untilBad (js : List Step) (h : result js = .passed) : js.drop (untilBad js).length = [] := by
  induction js with
  | nil => rfl
  | cons j js ih =>
    by_cases hp : j.outcome = .passed
    · simp only [result, hp, if_true] at h
      simpa [untilBad, hp] using ih h
    · simp only [result, hp, if_false] at h

/-- An item runs from its start to its end. -/
theorem item_run {c : Cfg} (h : Clean c) (it : Item) (rest : List Item) (s : State) (hr : s.running = none) :
    ∃ n s', dones c n (advance c (it :: rest) s).st = (advance c rest s').st ∧
      (let l := it.leaves c.seed (s.index + 1) rest.isEmpty s.live s.rng
       s'.trace = s.trace ++ l.events ∧ s'.live = l.live ∧ s'.rng = l.rng) ∧
      s'.index = s.index + 1 ∧ s'.running = none ∧ s'.finished = s.finished ∧ s'.error = s.error := by
  have horder : it.order.map (·.setup) = syncOf it.fixtures ++ asyncOf it.fixtures := by
    simp [Item.order, syncOf, asyncOf]
  simp only [advance, emit_clean h, R.bind, setupHook, setupFixtures_clean h, List.nil_append]
  by_cases hp : result (syncOf it.fixtures) = .passed
  · rw [hp, reached_all _ hp]
    obtain ⟨n, hn⟩ := setups_run h it rest (asyncOf it.fixtures)
      { s with
        items := it :: rest
        index := s.index + 1
        trace := s.trace ++ [.start (s.index + 1)] ++
          codeEvents (s.index + 1) .setup ⟨some (c.seed + it.nodeid), 0⟩ (untilBad (syncOf it.fixtures)),
        saved := s.rng,
        rng := Rng.after ⟨some (c.seed + it.nodeid), 0⟩ (untilBad (syncOf it.fixtures)),
        live := (it.fixtures.filterMap (·.fin?)).reverse ++ s.live,
        setups := asyncOf it.fixtures } hr rfl rfl
    obtain ⟨m, hm⟩ := rest_run h it rest (result (asyncOf it.fixtures)) 
      { s with
        items := it :: rest
        index := s.index + 1
        trace := s.trace ++ [.start (s.index + 1)] ++
          codeEvents (s.index + 1) .setup ⟨some (c.seed + it.nodeid), 0⟩ (untilBad (syncOf it.fixtures)) ++
          codeEvents (s.index + 1) .setup (Rng.after ⟨some (c.seed + it.nodeid), 0⟩ (untilBad (syncOf it.fixtures)))
            (untilBad (asyncOf it.fixtures)),
        saved := s.rng,
        rng := (Rng.after ⟨some (c.seed + it.nodeid), 0⟩ (untilBad (syncOf it.fixtures))).after
          (untilBad (asyncOf it.fixtures)),
        live := armAll ((untilBad (asyncOf it.fixtures)).filter (·.outcome = .passed))
          ((it.fixtures.filterMap (·.fin?)).reverse ++ s.live),
        setups := (asyncOf it.fixtures).drop (untilBad (asyncOf it.fixtures)).length } hr rfl
      (fun e => drop_untilBad _ e)
    refine ⟨n + m, _, (dones_add c n m _).trans ((congrArg (dones c m) hn).trans hm), ?_⟩
    · have hres : it.setupResult = result (asyncOf it.fixtures) := by
        simp [Item.setupResult, horder, result_append, hp]
      have hst : it.setupSteps = untilBad (syncOf it.fixtures) ++ untilBad (asyncOf it.fixtures) := by
        simp [Item.setupSteps, horder, untilBad_append, hp]
      have hpa : it.passedAsync = (untilBad (asyncOf it.fixtures)).filter (·.outcome = .passed) := by
        have hp' := hp
        simp only [syncOf] at hp'
        simp only [Item.passedAsync, hp', if_true, asyncOf]
      refine ⟨⟨?_, ?_, ?_⟩, rfl, hr, rfl, rfl⟩
      · simp only [Item.leaves, hres, hst, Item.fins, hpa, reached_all _ hp, codeEvents_append, after_append,
          List.append_assoc]
      · simp only [Item.leaves, Item.fins, hpa, reached_all _ hp]
      · simp only [Item.leaves, Item.fins, hpa, reached_all _ hp]
  · obtain ⟨m, hm⟩ := rest_run h it rest (result (syncOf it.fixtures)) 
      { s with
        items := it :: rest
        index := s.index + 1
        trace := s.trace ++ [.start (s.index + 1)] ++
          codeEvents (s.index + 1) .setup ⟨some (c.seed + it.nodeid), 0⟩ (untilBad (syncOf it.fixtures)),
        saved := s.rng,
        rng := Rng.after ⟨some (c.seed + it.nodeid), 0⟩ (untilBad (syncOf it.fixtures)),
        live := ((reached it.fixtures).filterMap (·.fin?)).reverse ++ s.live,
        setups := asyncOf (reached it.fixtures) } hr rfl (fun e => absurd e hp)
    refine ⟨m, _, hm, ?_⟩
    have hres : it.setupResult = result (syncOf it.fixtures) := by
      simp [Item.setupResult, horder, result_append, hp]
    have hst : it.setupSteps = untilBad (syncOf it.fixtures) := by
      simp [Item.setupSteps, horder, untilBad_append, hp]
    have hpa : it.passedAsync = [] := by
      have hp' := hp
      simp only [syncOf] at hp'
      simp only [Item.passedAsync, hp', if_false]
    refine ⟨⟨?_, ?_, ?_⟩, rfl, hr, rfl, rfl⟩
    · simp only [Item.leaves, hres, hst, Item.fins, hpa, List.append_assoc, hp, if_false, armAll, List.foldl]
    · simp only [Item.leaves, Item.fins, hpa, armAll, List.foldl]
    · simp only [Item.leaves, Item.fins, hpa, armAll, List.foldl]

/-- All items run. -/
theorem items_run {c : Cfg} (h : Clean c) (its : List Item) (s : State) (hr : s.running = none)
    (hf : s.finished = false) (he : s.error = false) :
    ∃ n, (dones c n (advance c its s).st).trace =
        s.trace ++ session c.seed (s.index + 1) its s.live s.rng ++ ending false ∧
      (dones c n (advance c its s).st).running = none ∧ (dones c n (advance c its s).st).finished = true := by
  induction its generalizing s with
  | nil =>
    refine ⟨0, ?_⟩
    simp [dones, advance, finishSession, hf, emit_clean h, R.bind, session, ending, he, hr]
  | cons it rest ih =>
    obtain ⟨n, s', e, ⟨ht, hl, hg⟩, hx, hr', hf', he'⟩ := item_run h it rest s hr
    obtain ⟨m, h1, h2, h3⟩ := ih s' hr' (hf'.trans hf) (he'.trans he)
    refine ⟨n + m, ?_⟩
    rw [dones_add, e]
    refine ⟨?_, h2, h3⟩
    rw [h1, ht, hl, hg, hx]
    simp [session]

/-- A session without interference: after enough completions everything specified has been observed, and nothing else. -/
theorem session_run {c : Cfg} (h : Clean c) (items : List Item) :
    ∃ n, (dones c n (startRegression c items)).trace = sessionTrace c.seed items ∧
      (dones c n (startRegression c items)).running = none ∧
      (dones c n (startRegression c items)).finished = true := by
  obtain ⟨n, h1, h2, h3⟩ := items_run h items
    { init with trace := [.sessionstart, .collection] } rfl rfl rfl
  have e : startRegression c items = (advance c items { init with trace := [.sessionstart, .collection] }).st := by
    simp only [startRegression, emit_clean h, R.bind, runtestloop, h.2.2.1, h.2.2.2]
    simp [finishOnException, advance_ok h, init]
  exact ⟨n, by rw [e, h1]; rfl, by rw [e]; exact h2, by rw [e]; exact h3⟩

end Verif.Pytest
