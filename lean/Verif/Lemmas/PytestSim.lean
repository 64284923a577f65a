import Verif.Lemmas.Pytest
/-!
# A session with interference is a part of the session without
-/
namespace Verif.Pytest

theorem clean_clean (c : Cfg) : Clean c.clean := ⟨fun _ => rfl, fun _ => rfl, rfl, rfl⟩

/-! ## Observations are never taken back -/

theorem emit_mono (c : Cfg) (e : Event) (s : State) : s.trace <+: (emit c e s).st.trace := ⟨[e], rfl⟩

theorem bind_mono {α β : Type} {s : State} {r : R α} {f : α → State → R β} (hr : s.trace <+: r.st.trace)
    (hf : ∀ a s, s.trace <+: (f a s).st.trace) : s.trace <+: (r.bind f).st.trace := by
  unfold R.bind
  split
  · exact hr
  · exact hr.trans (hf _ _)

theorem runCode_mono (w : When) (st : Step) (s : State) : s.trace <+: (runCode w st s).trace := ⟨_, rfl⟩

theorem start_mono (w : When) (st : Step) (s : State) : s.trace <+: (start w st s).trace := ⟨_, rfl⟩

theorem setupFixtures_mono (c : Cfg) (fs : List Fixture) (s : State) : s.trace <+: (setupFixtures c fs s).st.trace := by
  induction fs generalizing s with
  | nil => exact List.prefix_refl _
  | cons f fs ih =>
    cases f with
    | sync st td till =>
      simp only [setupFixtures]
      split
      · exact runCode_mono ..
      · split
        · split
          · exact (runCode_mono .setup st s).trans (ih _)
          · refine (runCode_mono .setup st s).trans (List.IsPrefix.trans ?_ (ih _))
            exact List.prefix_refl _
        · exact runCode_mono ..
    | afun st => exact ih { s with setups := s.setups ++ [st] }
    | agen st subs td till =>
      exact ih
        { s with
          setups := s.setups ++ [st],
          live := ⟨st.id, till, false, true, subs, td⟩ :: s.live }

theorem setupHook_mono (c : Cfg) (it : Item) (s : State) : s.trace <+: (setupHook c it s).st.trace :=
  setupFixtures_mono c it.fixtures { s with saved := s.rng, rng := ⟨some (c.seed + it.nodeid), 0⟩ }

theorem runFinalizers_mono (c : Cfg) (fs : List Fin) (os : List Outcome) (s : State) :
    s.trace <+: (runFinalizers c fs os s).st.trace := by
  induction fs generalizing os s with
  | nil => exact List.prefix_refl _
  | cons f fs ih =>
    simp only [runFinalizers]
    split
    · exact ih _ _
    · split
      · refine List.IsPrefix.trans ?_ (ih _ _)
        simp only [finalizer]
        split <;> exact List.prefix_refl _
      · split
        · exact runCode_mono ..
        · exact (runCode_mono .teardown f.step s).trans (ih _ _)

theorem teardownHook_mono (c : Cfg) (s : State) : s.trace <+: (teardownHook c s).st.trace :=
  runFinalizers_mono c _ [] { s with rng := s.saved, live := s.live.filter (fun f => !due s f) }

theorem finishSession_mono (c : Cfg) (s : State) : s.trace <+: (finishSession c s).st.trace := by
  unfold finishSession
  split
  · exact List.prefix_refl _
  · exact bind_mono (s := s) (emit_mono c _ { s with finished := true }) fun _ s =>
      bind_mono (emit_mono ..) fun _ s => emit_mono ..

theorem teardownCont_mono (c : Cfg) {next : State → R Unit} (hn : ∀ s, s.trace <+: (next s).st.trace) (o : Outcome)
    (s : State) : s.trace <+: (teardownCont c next o s).st.trace := by
  unfold teardownCont
  split
  · exact start_mono .teardown _ { s with teardowns := _ }
  · exact bind_mono (emit_mono ..) fun _ s => bind_mono (emit_mono ..) fun _ s => hn s

theorem teardownStart_mono (c : Cfg) {next : State → R Unit} (hn : ∀ s, s.trace <+: (next s).st.trace) (s : State) :
    s.trace <+: (teardownStart c next s).st.trace :=
  bind_mono (s := s) (teardownHook_mono c { s with teardowns := [] }) fun _ s => teardownCont_mono c hn _ s

theorem setupCont_mono (c : Cfg) (it : Item) {next : State → R Unit} (hn : ∀ s, s.trace <+: (next s).st.trace)
    (o : Outcome) (s : State) : s.trace <+: (setupCont c it next o s).st.trace := by
  unfold setupCont
  split
  · exact bind_mono (emit_mono ..) fun _ s => teardownStart_mono c hn s
  · split
    · exact start_mono .setup _ { s with setups := _ }
    · refine bind_mono (emit_mono ..) fun _ s => ?_
      split
      · exact start_mono ..
      · exact bind_mono (emit_mono ..) fun _ s => teardownStart_mono c hn s

theorem advance_mono (c : Cfg) (its : List Item) (s : State) : s.trace <+: (advance c its s).st.trace := by
  induction its generalizing s with
  | nil => exact finishSession_mono c s
  | cons it rest ih =>
    exact bind_mono (s := s) (emit_mono c _ { s with items := it :: rest, index := s.index + 1 }) fun _ s =>
      bind_mono (s := s) (setupHook_mono c it { s with setups := [] }) fun _ s => setupCont_mono c it ih _ s

theorem finishOnException_mono (c : Cfg) {s : State} {r : R Unit} (h : s.trace <+: r.st.trace) :
    s.trace <+: (finishOnException c r).trace := by
  unfold finishOnException
  split
  · exact h
  · exact h.trans (finishSession_mono c { r.st with error := true })

theorem completed_mono (c : Cfg) (w : When) (st : Step) (s : State) : s.trace <+: (completed c w st s).st.trace :=
  List.prefix_refl _

theorem onDone_mono (c : Cfg) (s : State) : s.trace <+: (onDone c s).trace := by
  unfold onDone
  split
  · exact finishOnException_mono c (bind_mono (completed_mono ..) fun _ s => setupCont_mono c _ (advance_mono c _) _ s)
  · exact finishOnException_mono c (bind_mono (completed_mono ..) fun _ s =>
      bind_mono (emit_mono ..) fun _ s => teardownStart_mono c (advance_mono c _) s)
  · exact finishOnException_mono c (bind_mono (completed_mono ..) fun _ s => teardownCont_mono c (advance_mono c _) _ s)
  · exact List.prefix_refl _

theorem dones_mono (c : Cfg) (n : Nat) (s : State) : s.trace <+: (dones c n s).trace := by
  induction n generalizing s with
  | zero => exact List.prefix_refl _
  | succ n ih => exact (onDone_mono c s).trans (ih _)

/-! ## Up to the first exception both sessions agree -/

/-- Either nothing was raised and the results agree, or something was raised after a part of the observations. -/
def Sim {α : Type} (r r' : R α) : Prop := r = r' ∨ (r.val = none ∧ r.st.trace <+: r'.st.trace)

theorem Sim.refl {α : Type} (r : R α) : Sim r r := .inl rfl

theorem bind_sim {α β : Type} {r r' : R α} {f f' : α → State → R β} (h : Sim r r') (hf : ∀ a s, Sim (f a s) (f' a s))
    (hm : ∀ a s, s.trace <+: (f' a s).st.trace) : Sim (r.bind f) (r'.bind f') := by
  rcases h with h | ⟨h, ht⟩
  · subst h
    unfold R.bind
    split
    · exact .inl rfl
    · exact hf _ _
  · refine .inr ⟨?_, ?_⟩
    · simp [R.bind, h]
    · refine List.IsPrefix.trans ?_ (bind_mono (s := r'.st) (List.prefix_refl _) hm)
      simpa [R.bind, h] using ht

theorem emit_sim (c : Cfg) (e : Event) (s : State) : Sim (emit c e s) (emit c.clean e s) := by
  by_cases h : c.raises e = true
  · exact .inr ⟨by simp [emit, h], List.prefix_refl _⟩
  · refine .inl ?_
    simp only [Bool.not_eq_true] at h
    simp [emit, h, Cfg.clean]

theorem setupFixtures_sim (c : Cfg) (fs : List Fixture) (s : State) :
    Sim (setupFixtures c fs s) (setupFixtures c.clean fs s) := by
  induction fs generalizing s with
  | nil => exact .inl rfl
  | cons f fs ih =>
    cases f with
    | sync st td till =>
      have hc : c.clean.exits st.id = false := rfl
      by_cases he : c.exits st.id = true
      · refine .inr ⟨by simp [setupFixtures, he], ?_⟩
        have : (setupFixtures c (.sync st td till :: fs) s).st = runCode .setup st s := by simp [setupFixtures, he]
        rw [this]
        simp only [setupFixtures, hc, Bool.false_eq_true, if_false]
        split
        · split
          · exact setupFixtures_mono ..
          · refine List.IsPrefix.trans ?_ (setupFixtures_mono ..)
            exact List.prefix_refl _
        · exact List.prefix_refl _
      · simp only [Bool.not_eq_true] at he
        simp only [setupFixtures, he, hc, Bool.false_eq_true, if_false]
        split
        · split
          · exact ih _
          · exact ih _
        · exact .inl rfl
    | afun st => exact ih _
    | agen st subs td till => exact ih _

theorem setupHook_sim (c : Cfg) (it : Item) (s : State) : Sim (setupHook c it s) (setupHook c.clean it s) :=
  setupFixtures_sim c _ _

theorem runFinalizers_sim (c : Cfg) (fs : List Fin) (os : List Outcome) (s : State) :
    Sim (runFinalizers c fs os s) (runFinalizers c.clean fs os s) := by
  induction fs generalizing os s with
  | nil => exact .inl rfl
  | cons f fs ih =>
    simp only [runFinalizers]
    split
    · exact ih _ _
    · split
      · exact ih _ _
      · by_cases he : c.exits f.step.id = true
        · refine .inr ⟨by simp [he], ?_⟩
          simp only [he, if_true, Cfg.clean]
          exact runFinalizers_mono c.clean fs _ (runCode .teardown f.step s)
        · simp only [Bool.not_eq_true] at he
          simp only [he, Cfg.clean]
          exact ih _ _

theorem teardownHook_sim (c : Cfg) (s : State) : Sim (teardownHook c s) (teardownHook c.clean s) :=
  runFinalizers_sim c _ _ _

theorem finishSession_sim (c : Cfg) (s : State) : Sim (finishSession c s) (finishSession c.clean s) := by
  unfold finishSession
  split
  · exact .inl rfl
  · exact bind_sim (emit_sim ..) (fun _ s => bind_sim (emit_sim ..) (fun _ s => emit_sim ..) fun _ s => emit_mono ..)
      fun _ s => bind_mono (emit_mono ..) fun _ s => emit_mono ..

theorem teardownCont_sim (c : Cfg) {next next' : State → R Unit} (h : ∀ s, Sim (next s) (next' s))
    (hn : ∀ s, s.trace <+: (next' s).st.trace) (o : Outcome) (s : State) :
    Sim (teardownCont c next o s) (teardownCont c.clean next' o s) := by
  unfold teardownCont
  split
  · exact .inl rfl
  · exact bind_sim (emit_sim ..) (fun _ s => bind_sim (emit_sim ..) (fun _ s => h s) fun _ s => hn s)
      fun _ s => bind_mono (emit_mono ..) fun _ s => hn s

theorem teardownStart_sim (c : Cfg) {next next' : State → R Unit} (h : ∀ s, Sim (next s) (next' s))
    (hn : ∀ s, s.trace <+: (next' s).st.trace) (s : State) :
    Sim (teardownStart c next s) (teardownStart c.clean next' s) :=
  bind_sim (teardownHook_sim ..) (fun _ s => teardownCont_sim c h hn _ s) fun _ s => teardownCont_mono _ hn _ s

theorem setupCont_sim (c : Cfg) (it : Item) {next next' : State → R Unit} (h : ∀ s, Sim (next s) (next' s))
    (hn : ∀ s, s.trace <+: (next' s).st.trace) (o : Outcome) (s : State) :
    Sim (setupCont c it next o s) (setupCont c.clean it next' o s) := by
  unfold setupCont
  split
  · exact bind_sim (emit_sim ..) (fun _ s => teardownStart_sim c h hn s) fun _ s => teardownStart_mono _ hn s
  · split
    · exact .inl rfl
    · refine bind_sim (emit_sim ..) (fun _ s => ?_) fun _ s => ?_
      · split
        · exact .inl rfl
        · exact bind_sim (emit_sim ..) (fun _ s => teardownStart_sim c h hn s) fun _ s => teardownStart_mono _ hn s
      · split
        · exact start_mono ..
        · exact bind_mono (emit_mono ..) fun _ s => teardownStart_mono _ hn s

theorem advance_sim (c : Cfg) (its : List Item) (s : State) : Sim (advance c its s) (advance c.clean its s) := by
  induction its generalizing s with
  | nil => exact finishSession_sim c s
  | cons it rest ih =>
    simp only [advance]
    refine bind_sim (emit_sim ..) (fun _ s => bind_sim (setupHook_sim ..)
      (fun _ s => setupCont_sim c it ih (advance_mono _ _) _ s) fun _ s => setupCont_mono _ it (advance_mono _ _) _ s)
      fun _ s => ?_
    exact bind_mono (s := s) (setupHook_mono _ it { s with setups := [] }) fun _ s =>
      setupCont_mono _ it (advance_mono _ _) _ s

theorem completed_sim (c : Cfg) (w : When) (st : Step) (s : State) :
    Sim (completed c w st s) (completed c.clean w st s) := by
  by_cases h : c.exits st.id = true
  · exact .inr ⟨by simp [completed, h], List.prefix_refl _⟩
  · simp only [Bool.not_eq_true] at h
    refine .inl ?_
    simp [completed, h, Cfg.clean]

/-! ## After an exception the session is over -/

/-- The simulator was stopped, or a hook at the end of the session raised. -/
def Stopped (c : Cfg) (s : State) : Prop :=
  .shutdown ∈ s.trace ∨ (∃ b, c.raises (.sessionfinish b) = true) ∨ c.raises .unconfigure = true

/-- The session was ended by an exception, after a part `t` of the observations `tr`. -/
def Cut (c : Cfg) (s : State) (tr : List Event) : Prop :=
  s.running = none ∧ s.finished = true ∧ Stopped c s ∧
    ∃ t e, s.trace = t ++ e ∧ t <+: tr ∧ e <+: ending true

/-- A call that may start a coroutine or end the session, from a state where neither has happened. -/
def Tail {α : Type} (c : Cfg) (r : R α) : Prop :=
  (r.st.finished = true → r.st.running = none ∧ Stopped c r.st) ∧ (r.val = none → r.st.running = none)

/-- Nothing runs and the session is not over. -/
def Idle (s : State) : Prop := s.running = none ∧ s.finished = false

theorem bind_tail {α β : Type} {c : Cfg} {r : R α} {f : α → State → R β} (h : Idle r.st)
    (hf : ∀ a s, Idle s → Tail c (f a s)) : Tail c (r.bind f) := by
  unfold R.bind
  split
  · exact ⟨fun e => absurd e (by simp [h.2]), fun _ => h.1⟩
  · exact hf _ _ h

theorem start_tail (c : Cfg) (w : When) (st : Step) {s : State} (h : Idle s) :
    Tail c (⟨start w st s, some ()⟩ : R Unit) :=
  ⟨fun e => absurd (show s.finished = true from e) (by simp [h.2]), fun e => by cases e⟩

theorem setupFixtures_idle (c : Cfg) (fs : List Fixture) {s : State} (h : Idle s) : Idle (setupFixtures c fs s).st := by
  induction fs generalizing s with
  | nil => exact h
  | cons f fs ih =>
    cases f with
    | sync st td till =>
      simp only [setupFixtures]
      split
      · exact h
      · split
        · split
          · exact ih h
          · exact ih h
        · exact h
    | afun st => exact ih h
    | agen st subs td till => exact ih h

theorem runFinalizers_idle (c : Cfg) (fs : List Fin) (os : List Outcome) {s : State} (h : Idle s) :
    Idle (runFinalizers c fs os s).st := by
  induction fs generalizing os s with
  | nil => exact h
  | cons f fs ih =>
    simp only [runFinalizers]
    split
    · exact ih _ h
    · split
      · refine ih _ ?_
        simp only [finalizer]
        split <;> exact h
      · split
        · exact h
        · exact ih _ h

theorem finishSession_tail (c : Cfg) {s : State} (h : s.running = none) (hf : s.finished = true → Stopped c s) :
    Tail c (finishSession c s) ∧ (finishSession c s).st.finished = true := by
  unfold finishSession
  split
  · next e => exact ⟨⟨fun _ => ⟨h, hf e⟩, fun _ => h⟩, e⟩
  · by_cases h1 : c.raises (.sessionfinish s.error) = true
    · have hs : ∀ s', Stopped c s' := fun _ => .inr (.inl ⟨_, h1⟩)
      simp [emit, h1, R.bind, Tail, h, hs]
    · by_cases h2 : c.raises .unconfigure = true
      · have hs : ∀ s', Stopped c s' := fun _ => .inr (.inr h2)
        simp [emit, h1, h2, R.bind, Tail, h, hs]
      · simp [emit, h1, h2, R.bind, Tail, h, Stopped]

theorem teardownCont_tail (c : Cfg) {next : State → R Unit} (hn : ∀ s, Idle s → Tail c (next s)) (o : Outcome)
    {s : State} (h : Idle s) : Tail c (teardownCont c next o s) := by
  unfold teardownCont
  split
  · exact start_tail c .teardown _ (s := { s with teardowns := _ }) h
  · exact bind_tail (r := emit ..) h fun _ s h => bind_tail (r := emit ..) h fun _ s h => hn s h

theorem teardownStart_tail (c : Cfg) {next : State → R Unit} (hn : ∀ s, Idle s → Tail c (next s)) {s : State}
    (h : Idle s) : Tail c (teardownStart c next s) :=
  bind_tail (runFinalizers_idle c _ _ h) fun _ _ h => teardownCont_tail c hn _ h

theorem setupCont_tail (c : Cfg) (it : Item) {next : State → R Unit} (hn : ∀ s, Idle s → Tail c (next s)) (o : Outcome)
    {s : State} (h : Idle s) : Tail c (setupCont c it next o s) := by
  unfold setupCont
  split
  · exact bind_tail (r := emit ..) h fun _ s h => teardownStart_tail c hn h
  · split
    · exact start_tail c .setup _ (s := { s with setups := _ }) h
    · refine bind_tail (r := emit ..) h fun _ s h => ?_
      split
      · exact start_tail c .call _ h
      · exact bind_tail (r := emit ..) h fun _ s h => teardownStart_tail c hn h

theorem advance_tail (c : Cfg) (its : List Item) {s : State} (h : Idle s) : Tail c (advance c its s) := by
  induction its generalizing s with
  | nil => exact (finishSession_tail c h.1 (fun e => absurd e (by simp [h.2]))).1
  | cons it rest ih =>
    exact bind_tail (r := emit ..) h fun _ s h =>
      bind_tail (setupFixtures_idle c _ h) fun _ _ h => setupCont_tail c it (fun _ h => ih h) _ h

theorem completed_idle (c : Cfg) (w : When) (st : Step) {s : State} (h : s.finished = false) :
    Idle (completed c w st s).st := ⟨rfl, h⟩

/-- The session is over only if nothing runs any more, and then the simulator was told. -/
def Inv (c : Cfg) (s : State) : Prop := s.finished = true → s.running = none ∧ Stopped c s

theorem finishOnException_cut {c : Cfg} {r r' : R Unit} (hs : Sim r r') (ht : Tail c r) (hv : r'.val = some ()) :
    Inv c (finishOnException c r) ∧
      (finishOnException c r = finishOnException c.clean r' ∨
        Cut c (finishOnException c r) (finishOnException c.clean r').trace) := by
  have e' : finishOnException c.clean r' = r'.st := by simp [finishOnException, hv]
  rw [e']
  rcases hs with hs | ⟨hn, hp⟩
  · subst hs
    have e : finishOnException c r = r.st := by simp [finishOnException, hv]
    rw [e]
    exact ⟨ht.1, .inl rfl⟩
  · have e : finishOnException c r = (finishSession c { r.st with error := true }).st := by
      simp [finishOnException, hn]
    rw [e]
    obtain ⟨⟨h1, h2⟩, h3⟩ := finishSession_tail c (s := { r.st with error := true }) (ht.2 hn) (fun e => (ht.1 e).2)
    refine ⟨h1, .inr ⟨(h1 h3).1, h3, (h1 h3).2, ?_⟩⟩
    refine ⟨r.st.trace, (finishSession c { r.st with error := true }).st.trace.drop r.st.trace.length, ?_, hp, ?_⟩
    · obtain ⟨x, hx⟩ := finishSession_mono c { r.st with error := true }
      rw [← hx]; simp
    · unfold finishSession
      split
      · simp
      · by_cases h1 : c.raises (.sessionfinish true) = true
        · simp [emit, h1, R.bind, ending]
        · by_cases h2 : c.raises .unconfigure = true
          · simp [emit, h1, h2, R.bind, ending]
          · simp [emit, h1, h2, R.bind, ending]

theorem onDone_cut (c : Cfg) {s : State} (h : Inv c s) :
    Inv c (onDone c s) ∧ (onDone c s = onDone c.clean s ∨ Cut c (onDone c s) (onDone c.clean s).trace) := by
  have hf : ∀ p, s.running = some p → s.finished = false := by
    intro p hp
    cases hb : s.finished with
    | false => rfl
    | true => rw [(h hb).1] at hp; cases hp
  have hc := clean_clean c
  unfold onDone
  split
  · next st it rest hr hi =>
    refine finishOnException_cut
      (bind_sim (completed_sim ..) (fun _ s => setupCont_sim c it (advance_sim c rest) (advance_mono _ _) _ s)
        fun _ s => setupCont_mono _ it (advance_mono _ _) _ s)
      (bind_tail (completed_idle c _ _ (hf _ hr)) fun _ _ h => setupCont_tail c it (fun _ h => advance_tail c rest h) _ h)
      ?_
    simp [completed, hc.2.1, R.bind, setupCont_ok hc it (advance_ok hc rest)]
  · next st it rest hr hi =>
    refine finishOnException_cut
      (bind_sim (completed_sim ..) (fun _ s => bind_sim (emit_sim ..)
          (fun _ s => teardownStart_sim c (advance_sim c rest) (advance_mono _ _) s)
          fun _ s => teardownStart_mono _ (advance_mono _ _) s)
        fun _ s => bind_mono (emit_mono ..) fun _ s => teardownStart_mono _ (advance_mono _ _) s)
      (bind_tail (completed_idle c _ _ (hf _ hr)) fun _ _ h => bind_tail (r := emit ..) h fun _ _ h =>
        teardownStart_tail c (fun _ h => advance_tail c rest h) h)
      ?_
    simp [completed, hc.2.1, R.bind, emit_clean hc, teardownStart_ok hc (advance_ok hc rest)]
  · next st it rest hr hi =>
    refine finishOnException_cut
      (bind_sim (completed_sim ..) (fun _ s => teardownCont_sim c (advance_sim c rest) (advance_mono _ _) _ s)
        fun _ s => teardownCont_mono _ (advance_mono _ _) _ s)
      (bind_tail (completed_idle c _ _ (hf _ hr)) fun _ _ h => teardownCont_tail c (fun _ h => advance_tail c rest h) _ h)
      ?_
    simp [completed, hc.2.1, R.bind, teardownCont_ok hc (advance_ok hc rest)]
  · exact ⟨h, .inl rfl⟩

theorem startRegression_cut (c : Cfg) (items : List Item) (ho : c.collectOnly = false) :
    Inv c (startRegression c items) ∧
      (startRegression c items = startRegression c.clean items ∨
        Cut c (startRegression c items) (startRegression c.clean items).trace) := by
  have hc := clean_clean c
  refine finishOnException_cut
    (bind_sim (emit_sim ..) (fun _ s => bind_sim (emit_sim ..) (fun _ s => ?_) fun _ s => ?_)
      fun _ s => bind_mono (emit_mono ..) fun _ s => ?_)
    (bind_tail (r := emit ..) ⟨rfl, rfl⟩ fun _ _ h => bind_tail (r := emit ..) h fun _ s h => ?_) ?_
  · simp only [runtestloop, ho, hc.2.2.1, hc.2.2.2, Bool.false_eq_true, if_false]
    split
    · exact .inr ⟨rfl, advance_mono ..⟩
    · exact advance_sim ..
  · simp only [runtestloop, hc.2.2.1, hc.2.2.2, Bool.false_eq_true, if_false]
    exact advance_mono ..
  · simp only [runtestloop, hc.2.2.1, hc.2.2.2, Bool.false_eq_true, if_false]
    exact advance_mono ..
  · simp only [runtestloop, ho, Bool.false_eq_true, if_false]
    split
    · exact ⟨fun e => absurd (show s.finished = true from e) (by simp [h.2]), fun _ => h.1⟩
    · exact advance_tail c items h
  · simp only [emit_clean hc, R.bind, runtestloop, hc.2.2.1, hc.2.2.2, Bool.false_eq_true, if_false]
    exact advance_ok hc _ _

/-- The completions among inputs, up to the end of the simulation. -/
def count : List Input → Nat
  | [] => 0
  | .done :: ins => count ins + 1
  | .simEnd :: _ => 0

theorem play_dones (c : Cfg) (ins : List Input) (s : State) : play c ins s = dones c (count ins) s := by
  induction ins generalizing s with
  | nil => rfl
  | cons i ins ih =>
    cases i with
    | done => exact ih _
    | simEnd => rfl

theorem dones_idle (c : Cfg) (n : Nat) {s : State} (h : s.running = none) : dones c n s = s := by
  induction n with
  | zero => rfl
  | succ n ih =>
    have : onDone c s = s := by simp [onDone, h]
    simpa [dones, this] using ih

theorem Cut.mono {c : Cfg} {s : State} {a b : List Event} (h : Cut c s a) (hab : a <+: b) : Cut c s b := by
  obtain ⟨h1, h2, h3, t, e, h4, h5, h6⟩ := h
  exact ⟨h1, h2, h3, t, e, h4, h5.trans hab, h6⟩

theorem dones_cut (c : Cfg) (n : Nat) {s s' : State} (h : Inv c s) (hs : s = s' ∨ Cut c s s'.trace) :
    Inv c (dones c n s) ∧ (dones c n s = dones c.clean n s' ∨ Cut c (dones c n s) (dones c.clean n s').trace) := by
  rcases hs with rfl | hs
  · induction n generalizing s with
    | zero => exact ⟨h, .inl rfl⟩
    | succ n ih =>
      obtain ⟨hi, hc⟩ := onDone_cut c h
      rcases hc with hc | hc
      · have := ih hi
        simp only [dones]
        rwa [← hc]
      · simp only [dones]
        rw [dones_idle c n hc.1]
        exact ⟨hi, .inr (hc.mono (dones_mono ..))⟩
  · rw [dones_idle c n hs.1]
    exact ⟨h, .inr (hs.mono (dones_mono ..))⟩

/-- Whatever interferes and whenever the simulation ends: what was observed is a part of the specified session, up to the end
of a session after an error. -/
theorem run_cut (c : Cfg) (items : List Item) (ins : List Input) (ho : c.collectOnly = false) :
    Inv c (run c items ins) ∧
      ∃ t e, (run c items ins).trace = t ++ e ∧ t <+: sessionTrace c.seed items ∧ e <+: ending true := by
  obtain ⟨h0, h1⟩ := startRegression_cut c items ho
  obtain ⟨h2, h3⟩ := dones_cut c (count ins) h0 h1
  simp only [run, play_dones]
  refine ⟨h2, ?_⟩
  obtain ⟨n, hn, hr, -⟩ := session_run (clean_clean c) items
  have hp : (dones c.clean (count ins) (startRegression c.clean items)).trace <+: sessionTrace c.seed items := by
    rcases Nat.le_total (count ins) n with hle | hle
    · obtain ⟨m, rfl⟩ := Nat.exists_eq_add_of_le hle
      rw [dones_add] at hn
      have := dones_mono c.clean m (dones c.clean (count ins) (startRegression c.clean items))
      rw [hn] at this
      exact this
    · obtain ⟨m, hm⟩ := Nat.exists_eq_add_of_le hle
      rw [hm, dones_add, dones_idle _ _ hr, hn]
      exact List.prefix_refl _
  rcases h3 with h3 | ⟨-, -, -, t, e, ht, hp', he⟩
  · rw [h3]
    exact ⟨_, [], (List.append_nil _).symm, hp, List.nil_prefix⟩
  · exact ⟨t, e, ht, hp'.trans hp, he⟩

/-- After enough completions the session is over. -/
theorem run_over (c : Cfg) (items : List Item) (ho : c.collectOnly = false) :
    ∃ n, ∀ m, n ≤ m →
      let s := run c items (List.replicate m .done)
      s.finished = true ∧ Inv c s ∧
        (s.trace = sessionTrace c.seed items ∨ Cut c s (sessionTrace c.seed items)) := by
  obtain ⟨h0, h1⟩ := startRegression_cut c items ho
  obtain ⟨n, hn, hr, hf⟩ := session_run (clean_clean c) items
  refine ⟨n, fun m hm => ?_⟩
  have hcount : count (List.replicate m .done) = m := by
    clear hm
    induction m with
    | zero => rfl
    | succ m ih => simp [List.replicate_succ, count, ih]
  obtain ⟨k, rfl⟩ := Nat.exists_eq_add_of_le hm
  obtain ⟨h2, h3⟩ := dones_cut c (n + k) h0 h1
  have e : dones c.clean (n + k) (startRegression c.clean items) = dones c.clean n (startRegression c.clean items) := by
    rw [dones_add, dones_idle _ _ hr]
  simp only [run, play_dones, hcount]
  rw [e] at h3
  rw [hn] at h3
  refine ⟨?_, h2, ?_⟩
  · rcases h3 with h3 | h3
    · rw [h3]; exact hf
    · exact h3.2.1
  · rcases h3 with h3 | h3
    · left; rw [h3, hn]; rfl
    · exact .inr h3

end Verif.Pytest
