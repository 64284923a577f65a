import Verif.Lemmas.PytestTrace
/-!
# Which teardown code runs in the specified session
-/
namespace Verif.Pytest

theorem passedAsync_ids {it : Item} {n : Nat} (h : n ∈ it.passedAsync.map (·.id)) :
    n ∈ it.fixtures.map (·.setup.id) := by
  obtain ⟨st, hs, rfl⟩ := List.mem_map.mp h
  rw [passedAsync_eq] at hs
  split at hs
  · obtain ⟨f, hf, -, rfl⟩ := mem_asyncOf.mp (mem_untilBad_sub (List.mem_filter.mp hs).1)
    exact List.mem_map.mpr ⟨f, hf, rfl⟩
  · cases hs

theorem reached_sub {fs : List Fixture} {f : Fixture} (h : f ∈ reached fs) : f ∈ fs := by
  induction fs with
  | nil => cases h
  | cons a fs ih =>
    cases a with
    | sync st td till =>
      simp only [reached] at h
      split at h
      · rcases List.mem_cons.mp h with rfl | h
        · exact List.mem_cons_self ..
        · exact List.mem_cons_of_mem _ (ih h)
      · cases h
    | afun st =>
      simp only [reached] at h
      rcases List.mem_cons.mp h with rfl | h
      · exact List.mem_cons_self ..
      · exact List.mem_cons_of_mem _ (ih h)
    | agen st subs td till =>
      simp only [reached] at h
      rcases List.mem_cons.mp h with rfl | h
      · exact List.mem_cons_self ..
      · exact List.mem_cons_of_mem _ (ih h)

theorem fin?_fields {f : Fixture} {x : Fin} (h : f.fin? = some x) :
    x.key = f.setup.id ∧ x.subs = f.subs ∧ x.till = f.till ∧ x.async = !f.isSync := by
  cases f with
  | sync st td till =>
    cases td with
    | none => cases h
    | some td => cases h; exact ⟨rfl, rfl, rfl, rfl⟩
  | afun st => cases h
  | agen st subs td till => cases h; exact ⟨rfl, rfl, rfl, rfl⟩

/-- The finalizers an item adds, in the order of its fixtures. -/
def Item.own (it : Item) : List Fin := armAll it.passedAsync ((reached it.fixtures).filterMap (·.fin?))

theorem mem_own {it : Item} {x : Fin} (h : x ∈ it.own) :
    ∃ f ∈ it.fixtures, x.key = f.setup.id ∧ x.subs = f.subs ∧ x.till = f.till ∧ x.async = !f.isSync := by
  rw [Item.own, armAll_eq] at h
  obtain ⟨y, hy, rfl⟩ := List.mem_map.mp h
  obtain ⟨f, hf, hfy⟩ := List.mem_filterMap.mp hy
  refine ⟨f, reached_sub hf, ?_⟩
  have := fin?_fields hfy
  split <;> exact this

theorem fins_eq {it : Item} {live : List Fin} (h : ∀ f ∈ live, f.key ∉ it.fixtures.map (·.setup.id)) :
    it.fins live = it.own.reverse ++ live := by
  rw [Item.fins, armAll_append, armAll_reverse, armAll_other fun f hf hm => h f hf (passedAsync_ids hm)]
  rfl

theorem armed_own (it : Item) (hd : (it.fixtures.map (·.setup.id)).Nodup) :
    (it.own.filter (·.armed)).map (·.step) = it.setUp.filterMap (·.teardown?) := armed_item it hd

theorem teardowns_append (a b : List Event) : teardowns (a ++ b) = teardowns a ++ teardowns b := by simp [teardowns]

theorem teardowns_codeEvents (i : Nat) (w : When) (g : Rng) (sts : List Step) :
    teardowns (codeEvents i w g sts) = if w = .teardown then sts else [] := by
  induction sts generalizing g with
  | nil => simp [codeEvents, teardowns]
  | cons st sts ih =>
    have := ih { g with drawn := g.drawn + st.draws }
    simp only [teardowns, codeEvents] at this ⊢
    cases w <;> simp at this ⊢ <;> exact this

theorem teardowns_leaves (seed i : Nat) (last : Bool) (it : Item) (live : List Fin) (g : Rng) :
    let due := (it.fins live).filter fun f => decide (f.till ≤ i) || last
    teardowns (it.leaves seed i last live g).events = syncTeardowns due ++ asyncTeardowns due := by
  have h1 : teardowns [.start i] = [] := rfl
  have h2 : ∀ w o, teardowns [.report i w o] = [] := fun _ _ => rfl
  have h3 : ∀ w o, teardowns [.report i w o, .finish i] = [] := fun _ _ => rfl
  simp only [Item.leaves, teardowns_append, teardowns_codeEvents, h1, h2, h3]
  by_cases hp : it.setupResult = .passed
  · simp [hp, teardowns_append, teardowns_codeEvents, h2]
  · simp [hp]
    try rfl

/-- Without finished tasks, what runs are the armed finalizers. -/
theorem teardowns_perm {fs : List Fin} (h : ∀ f ∈ fs, Sub.finished ∉ f.subs) :
    (syncTeardowns fs ++ asyncTeardowns fs).Perm ((fs.filter (·.armed)).map (·.step)) := by
  induction fs with
  | nil => exact .refl _
  | cons f fs ih =>
    have ih := ih fun x hx => h x (List.mem_cons_of_mem _ hx)
    have hf := h f (List.mem_cons_self ..)
    simp only [syncTeardowns, asyncTeardowns] at ih ⊢
    cases ha : f.armed with
    | false => simpa [List.filter_cons, ha] using ih
    | true =>
      cases hs : f.async with
      | false => simpa [List.filter_cons, ha, hs] using ih
      | true =>
        simp only [List.filter_cons, ha, hs, hf]
        simp only [Bool.not_true, Bool.and_false, Bool.false_eq_true, if_false, not_false_eq_true, decide_true,
          Bool.and_true, if_true, List.map_cons]
        exact List.perm_middle.trans (ih.cons _)

theorem leaves_live_sub {seed i : Nat} {last : Bool} {it : Item} {live : List Fin} {g : Rng} {f : Fin}
    (h : f ∈ (it.leaves seed i last live g).live) : f ∈ it.fins live := (List.mem_filter.mp h).1

theorem filter_filter_perm {α : Type} (l : List α) (p q : α → Bool) :
    ((l.filter p).filter q ++ (l.filter (fun a => !p a)).filter q).Perm (l.filter q) := by
  rw [List.filter_filter, List.filter_filter]
  have := List.filter_append_perm p (l.filter q)
  rw [List.filter_filter, List.filter_filter] at this
  have e : ∀ r : α → Bool, (fun a => q a && r a) = fun a => r a && q a := fun r => funext fun a => Bool.and_comm ..
  rw [e p, e (fun a => !p a)]
  exact this

/-- Every armed finalizer runs once. -/
theorem session_teardowns (seed i : Nat) (its : List Item) (live : List Fin) (g : Rng) (hne : its ≠ [])
    (hd : (setupIds its).Nodup) (hl : ∀ f ∈ live, f.key ∉ setupIds its) (hf : ∀ f ∈ live, Sub.finished ∉ f.subs)
    (hn : NoneFinished its) :
    (teardowns (session seed i its live g)).Perm
      ((live.filter (·.armed)).map (·.step) ++ its.flatMap fun it => it.setUp.filterMap (·.teardown?)) := by
  induction its generalizing i live g with
  | nil => exact absurd rfl hne
  | cons it its ih =>
    have hd' := hd
    simp only [setupIds, List.flatMap_cons, List.nodup_append] at hd'
    obtain ⟨d1, d2, d3⟩ := hd'
    have hfins : it.fins live = it.own.reverse ++ live := fins_eq fun f hm hk => hl f hm (by
      simp only [setupIds, List.flatMap_cons, List.mem_append]; exact .inl hk)
    have hsub : ∀ f ∈ it.fins live, Sub.finished ∉ f.subs := by
      intro f hm
      rw [hfins] at hm
      rcases List.mem_append.mp hm with hm | hm
      · obtain ⟨x, hx, -, e, -⟩ := mem_own (List.mem_reverse.mp hm)
        rw [e]; exact hn it (List.mem_cons_self ..) x hx
      · exact hf f hm
    have harmed : (((it.fins live).filter (·.armed)).map (·.step)).Perm
        ((live.filter (·.armed)).map (·.step) ++ it.setUp.filterMap (·.teardown?)) := by
      rw [hfins, List.filter_append, List.map_append, List.filter_reverse, List.map_reverse, armed_own it d1]
      exact List.perm_append_comm.trans ((List.Perm.refl _).append (List.reverse_perm _))
    have htd := teardowns_leaves seed i its.isEmpty it live g
    simp only [session, teardowns_append]
    rw [htd]
    cases its with
    | nil =>
      simp only [session, List.isEmpty_nil, Bool.or_true, List.flatMap_cons, List.flatMap_nil, List.append_nil]
      rw [List.filter_eq_self.mpr (by simp), show teardowns [] = [] from rfl, List.append_nil]
      exact (teardowns_perm hsub).trans harmed
    | cons it' its =>
      have hlive : ∀ f ∈ (it.leaves seed i (it' :: its).isEmpty live g).live, f.key ∉ setupIds (it' :: its) := by
        intro f hm hk
        have hm := leaves_live_sub hm
        rw [hfins] at hm
        rcases List.mem_append.mp hm with hm | hm
        · obtain ⟨x, hx, e, -⟩ := mem_own (List.mem_reverse.mp hm)
          rw [e] at hk
          exact d3 _ (List.mem_map.mpr ⟨x, hx, rfl⟩) _ hk rfl
        · refine hl f hm ?_
          simp only [setupIds, List.flatMap_cons, List.mem_append]
          simp only [setupIds, List.flatMap_cons, List.mem_append] at hk
          exact .inr hk
      have IH := ih (i + 1) (it.leaves seed i (it' :: its).isEmpty live g).live
        (it.leaves seed i (it' :: its).isEmpty live g).rng (by simp) d2 hlive
        (fun f hm => hsub f (leaves_live_sub hm)) (fun x hx => hn x (List.mem_cons_of_mem _ hx))
      refine (List.Perm.append (teardowns_perm fun f hm => hsub f (List.mem_filter.mp hm).1) IH).trans ?_
      rw [← List.append_assoc, ← List.map_append]
      rw [show (it.leaves seed i (it' :: its).isEmpty live g).live =
        (it.fins live).filter (fun f => !(decide (f.till ≤ i) || (it' :: its).isEmpty)) from rfl]
      refine (List.Perm.append ((filter_filter_perm (it.fins live) _ _).map _) (.refl _)).trans ?_
      refine (List.Perm.append harmed (.refl _)).trans ?_
      simp [List.flatMap_cons]

/-! ## Function scope -/

theorem functionScoped_live {items : List Item} (h : FunctionScoped items) {it : Item} (hm : it ∈ items) (seed i : Nat)
    (last : Bool) (live : List Fin) (g : Rng) (hl : live = []) : (it.leaves seed i last live g).live = [] := by
  subst hl
  show List.filter _ _ = []
  rw [List.filter_eq_nil_iff]
  intro f hf
  rw [fins_eq (by simp), List.append_nil] at hf
  obtain ⟨x, hx, -, -, e, -⟩ := mem_own (List.mem_reverse.mp hf)
  rw [e, h it hm x hx]
  simp

/-- The teardown code of an item if all fixtures are function-scoped. -/
theorem over_teardown {c : Cfg} (h : Clean c) {items : List Item} {ins : List Input}
    (ho : Over (run c items ins).trace) (hs : FunctionScoped items) {k : Nat} {it : Item} (hk : items[k]? = some it) :
    codes (k + 1) .teardown (run c items ins).trace = syncTeardowns it.own.reverse ++ asyncTeardowns it.own.reverse := by
  obtain ⟨A, B, live, g, last, h1, h2, h3, -, h4⟩ := over_item' h ho hk (fun l => l = []) rfl
    fun it hm i last live g hl => functionScoped_live hs hm _ _ _ _ _ hl
  have hm : it ∈ items := List.mem_of_getElem? hk
  have := (codes_leaves c.seed (k + 1) last it live g).2.2
  rw [h1]
  simp only [codes_append, codes_other h2, codes_other h3, List.nil_append, List.append_nil]
  rw [this]
  subst h4
  rw [fins_eq (by simp), List.append_nil, List.filter_eq_self.mpr]
  intro f hf
  obtain ⟨x, hx, -, -, e, -⟩ := mem_own (List.mem_reverse.mp hf)
  rw [e, hs it hm x hx]
  simp

theorem own_sync {it : Item} (h : ∀ f ∈ it.fixtures, f.isSync = true) :
    syncTeardowns it.own.reverse ++ asyncTeardowns it.own.reverse = ((it.own.filter (·.armed)).map (·.step)).reverse := by
  have ha : ∀ f ∈ it.own.reverse, f.async = false := by
    intro f hf
    obtain ⟨x, hx, -, -, -, e⟩ := mem_own (List.mem_reverse.mp hf)
    rw [e, h x hx]; rfl
  have h1 : asyncTeardowns it.own.reverse = [] := by
    rw [asyncTeardowns, List.map_eq_nil_iff, List.filter_eq_nil_iff]
    intro f hf
    simp [ha f hf]
  rw [h1, List.append_nil, syncTeardowns, ← List.map_reverse, ← List.filter_reverse]
  congr 1
  refine List.filter_congr fun f hf => ?_
  simp [ha f hf]

theorem own_async {it : Item} (h : ∀ f ∈ it.fixtures, f.isSync = false) (hn : ∀ f ∈ it.fixtures, Sub.finished ∉ f.subs) :
    syncTeardowns it.own.reverse ++ asyncTeardowns it.own.reverse = ((it.own.filter (·.armed)).map (·.step)).reverse := by
  have ha : ∀ f ∈ it.own.reverse, f.async = true ∧ Sub.finished ∉ f.subs := by
    intro f hf
    obtain ⟨x, hx, -, e', -, e⟩ := mem_own (List.mem_reverse.mp hf)
    rw [e, e', h x hx]; exact ⟨rfl, hn x hx⟩
  have h1 : syncTeardowns it.own.reverse = [] := by
    rw [syncTeardowns, List.map_eq_nil_iff, List.filter_eq_nil_iff]
    intro f hf
    simp [ha f hf]
  rw [h1, List.nil_append, asyncTeardowns, ← List.map_reverse, ← List.filter_reverse]
  congr 1
  refine List.filter_congr fun f hf => ?_
  simp [ha f hf]

/-! ## The end of a session comes once -/

/-- The events of the end of a session. -/
def Event.isEnd : Event → Bool
  | .sessionfinish _ | .unconfigure | .shutdown => true
  | _ => false

/-- Nothing of the end of the session was seen before it ends, and its parts are seen once and in order. -/
def Once (s : State) : Prop :=
  (s.finished = false → s.trace.filter (·.isEnd) = []) ∧ ∃ b, s.trace.filter (·.isEnd) <+: ending b

theorem Once.add {s s' : State} {e : Event} (h : Once s) (he : e.isEnd = false) (ht : s'.trace = s.trace ++ [e])
    (hf : s'.finished = s.finished) : Once s' := by
  have : s'.trace.filter (·.isEnd) = s.trace.filter (·.isEnd) := by rw [ht]; simp [he]
  unfold Once
  rw [this, hf]
  exact h

theorem Once.same {s s' : State} (h : Once s) (ht : s'.trace = s.trace) (hf : s'.finished = s.finished) : Once s' := by
  unfold Once
  rw [ht, hf]
  exact h

theorem bind_once {α β : Type} {r : R α} {f : α → State → R β} (h : Once r.st) (hf : ∀ a s, Once s → Once (f a s).st) :
    Once (r.bind f).st := by
  unfold R.bind
  split
  · exact h
  · exact hf _ _ h

theorem emit_once (c : Cfg) {e : Event} {s : State} (h : Once s) (he : e.isEnd = false) : Once (emit c e s).st :=
  h.add he rfl rfl

theorem runCode_once (w : When) (st : Step) {s : State} (h : Once s) : Once (runCode w st s) := h.add rfl rfl rfl

theorem setupFixtures_once (c : Cfg) (fs : List Fixture) {s : State} (h : Once s) : Once (setupFixtures c fs s).st := by
  induction fs generalizing s with
  | nil => exact h
  | cons f fs ih =>
    cases f with
    | sync st td till =>
      have h' := runCode_once .setup st h
      simp only [setupFixtures]
      split
      · exact h'
      · split
        · split
          · exact ih h'
          · exact ih (h'.same rfl rfl)
        · exact h'
    | afun st => exact ih (h.same rfl rfl)
    | agen st subs td till => exact ih (h.same rfl rfl)

theorem runFinalizers_once (c : Cfg) (fs : List Fin) (os : List Outcome) {s : State} (h : Once s) :
    Once (runFinalizers c fs os s).st := by
  induction fs generalizing os s with
  | nil => exact h
  | cons f fs ih =>
    simp only [runFinalizers]
    split
    · exact ih _ h
    · split
      · refine ih _ ?_
        unfold finalizer
        split
        · exact h
        · exact h.same rfl rfl
      · split
        · exact runCode_once _ _ h
        · exact ih _ (runCode_once _ _ h)

theorem finishSession_once (c : Cfg) {s : State} (h : Once s) : Once (finishSession c s).st := by
  unfold finishSession
  split
  · exact h
  · next hf =>
    have h0 := h.1 (by simpa using hf)
    have key : ∀ (tr : List Event), tr <+: ending s.error → tr.filter (·.isEnd) = tr → ∀ s' : State,
        s'.trace = s.trace ++ tr → s'.finished = true → Once s' := by
      intro tr h1 h2 s' h3 h4
      refine ⟨fun hc => (by rw [h4] at hc; cases hc), s.error, ?_⟩
      rw [h3, List.filter_append, h0, h2]
      exact h1
    simp only [emit, R.bind]
    by_cases h1 : c.raises (.sessionfinish s.error) = true
    · simp only [h1, if_true]
      exact key [.sessionfinish s.error] ⟨[.unconfigure, .shutdown], rfl⟩ rfl _ rfl rfl
    · by_cases h2 : c.raises .unconfigure = true
      · simp only [h1, h2, if_true, if_false]
        exact key [.sessionfinish s.error, .unconfigure] ⟨[.shutdown], rfl⟩ rfl _ (by simp) rfl
      · simp only [h1, h2, if_false]
        exact key [.sessionfinish s.error, .unconfigure, .shutdown] ⟨[], rfl⟩ rfl _ (by simp) rfl

theorem start_once (w : When) (st : Step) {s : State} (h : Once s) : Once (start w st s) := h.add rfl rfl rfl

theorem teardownCont_once (c : Cfg) {next : State → R Unit} (hn : ∀ s, Once s → Once (next s).st) (o : Outcome)
    {s : State} (h : Once s) : Once (teardownCont c next o s).st := by
  unfold teardownCont
  split
  · exact start_once _ _ (h.same rfl rfl)
  · exact bind_once (emit_once c h rfl) fun _ s h => bind_once (emit_once c h rfl) fun _ s h => hn s h

theorem teardownStart_once (c : Cfg) {next : State → R Unit} (hn : ∀ s, Once s → Once (next s).st) {s : State}
    (h : Once s) : Once (teardownStart c next s).st :=
  bind_once (runFinalizers_once c _ _ (h.same rfl rfl)) fun _ _ h => teardownCont_once c hn _ h

theorem setupCont_once (c : Cfg) (it : Item) {next : State → R Unit} (hn : ∀ s, Once s → Once (next s).st) (o : Outcome)
    {s : State} (h : Once s) : Once (setupCont c it next o s).st := by
  unfold setupCont
  split
  · exact bind_once (emit_once c h rfl) fun _ s h => teardownStart_once c hn h
  · split
    · exact start_once _ _ (h.same rfl rfl)
    · refine bind_once (emit_once c h rfl) fun _ s h => ?_
      split
      · exact start_once _ _ h
      · exact bind_once (emit_once c h rfl) fun _ s h => teardownStart_once c hn h

theorem advance_once (c : Cfg) (its : List Item) {s : State} (h : Once s) : Once (advance c its s).st := by
  induction its generalizing s with
  | nil => exact finishSession_once c h
  | cons it rest ih =>
    exact bind_once (emit_once c (h.same rfl rfl) rfl) fun _ s h =>
      bind_once (setupFixtures_once c _ (h.same rfl rfl)) fun _ _ h => setupCont_once c it (fun _ h => ih h) _ h

theorem finishOnException_once (c : Cfg) {r : R Unit} (h : Once r.st) : Once (finishOnException c r) := by
  unfold finishOnException
  split
  · exact h
  · exact finishSession_once c (h.same rfl rfl)

theorem onDone_once (c : Cfg) {s : State} (h : Once s) : Once (onDone c s) := by
  have hc : ∀ w st, Once (completed c w st s).st := fun w st => h.same rfl rfl
  unfold onDone
  split
  · exact finishOnException_once c (bind_once (hc ..) fun _ _ h => setupCont_once c _ (fun _ h => advance_once c _ h) _ h)
  · exact finishOnException_once c (bind_once (hc ..) fun _ _ h =>
      bind_once (emit_once c h rfl) fun _ _ h => teardownStart_once c (fun _ h => advance_once c _ h) h)
  · exact finishOnException_once c (bind_once (hc ..) fun _ _ h => teardownCont_once c (fun _ h => advance_once c _ h) _ h)
  · exact h

theorem run_once (c : Cfg) (items : List Item) (ins : List Input) : Once (run c items ins) := by
  have h0 : Once (startRegression c items) := by
    refine finishOnException_once c (bind_once (emit_once c ⟨fun _ => rfl, true, List.nil_prefix⟩ rfl) fun _ _ h =>
      bind_once (emit_once c h rfl) fun _ _ h => ?_)
    unfold runtestloop
    split
    · exact h
    · split
      · exact finishSession_once c h
      · exact advance_once c _ h
  unfold run
  generalize startRegression c items = s at h0
  induction ins generalizing s with
  | nil => exact h0
  | cons i ins ih =>
    cases i with
    | done => exact ih _ (onDone_once c h0)
    | simEnd => exact h0

/-! ## Random numbers -/

theorem rngs_append (i : Nat) (w : When) (a b : List Event) : rngs i w (a ++ b) = rngs i w a ++ rngs i w b := by
  simp [rngs]

theorem rngs_other {i : Nat} {w : When} {a : List Event} (h : ∀ e ∈ a, e.item? ≠ some i) : rngs i w a = [] := by
  simp only [rngs, List.filterMap_eq_nil_iff]
  intro e he
  split
  · next j w' st g =>
    rw [if_neg]
    rintro ⟨rfl, -⟩
    exact h _ he rfl
  · rfl

theorem rngs_codeEvents (i j : Nat) (w w' : When) (g : Rng) (sts : List Step) :
    rngs i w (codeEvents i w' g sts) = rngs j w (codeEvents j w' g sts) := by
  induction sts generalizing g with
  | nil => rfl
  | cons st sts ih =>
    have := ih { g with drawn := g.drawn + st.draws }
    simp only [rngs, codeEvents] at this ⊢
    by_cases h : w' = w
    · simp [h] at this ⊢; exact this
    · simp [h] at this ⊢; exact this

theorem rngs_codeEvents_ne (i : Nat) {w w' : When} (h : w' ≠ w) (g : Rng) (sts : List Step) :
    rngs i w (codeEvents i w' g sts) = [] := by
  induction sts generalizing g with
  | nil => rfl
  | cons st sts ih =>
    have := ih { g with drawn := g.drawn + st.draws }
    simp only [rngs, codeEvents] at this ⊢
    simp [h] at this ⊢; exact this

/-- What the setup and the call of an item see does not depend on its number, on what runs before it, or on which
fixtures are alive. -/
theorem rngs_leaves (seed i j : Nat) (last last' : Bool) (it : Item) (live live' : List Fin) (g g' : Rng) {w : When}
    (hw : w ≠ .teardown) :
    rngs i w (it.leaves seed i last live g).events = rngs j w (it.leaves seed j last' live' g').events := by
  have h1 : ∀ i, rngs i w [.start i] = [] := fun _ => rfl
  have h2 : ∀ i w' o, rngs i w [.report i w' o] = [] := fun _ _ _ => rfl
  have h3 : ∀ i w' o, rngs i w [.report i w' o, .finish i] = [] := fun _ _ _ => rfl
  simp only [Item.leaves, rngs_append, h1, h2, h3, rngs_codeEvents_ne _ (Ne.symm hw)]
  rw [rngs_codeEvents i j]
  by_cases hp : it.setupResult = .passed
  · simp only [hp, if_true, rngs_append, h2]
    rw [rngs_codeEvents i j]
  · simp only [hp, if_false]
    rfl

theorem sessionfinish_logs (f : Nat → Outcome) (items : List Item) (i : Nat) :
    Event.sessionfinish false ∉ logs f i items := by
  induction items generalizing i with
  | nil => simp [logs]
  | cons it its ih =>
    intro hx
    simp only [logs, List.mem_append] at hx
    rcases hx with hx | hx
    · simp only [Item.log, List.mem_append, List.mem_cons, List.not_mem_nil, or_false] at hx
      rcases hx with ((hx | hx) | hx) | hx | hx
      · cases hx
      · cases hx
      · split at hx
        · simp at hx
        · cases hx
      · cases hx
      · cases hx
    · exact ih (i + 1) hx

theorem result_bad {l : List Step} (h : result l ≠ .passed) : ∃ st ∈ untilBad l, st.outcome ≠ .passed := by
  induction l with
  | nil => exact absurd rfl h
  | cons a l ih =>
    by_cases ha : a.outcome = .passed
    · simp only [result, ha, if_true] at h
      obtain ⟨st, hs, hb⟩ := ih h
      exact ⟨st, by simp [untilBad, ha, hs], hb⟩
    · exact ⟨a, by simp [untilBad, ha], ha⟩

theorem combine_bad {os : List Outcome} (h : combine os ≠ .passed) : ∃ o ∈ os, o ≠ .passed := by
  cases hf : os.filter (· ≠ .passed) with
  | nil => unfold combine at h; rw [hf] at h; exact absurd rfl h
  | cons o l =>
    have : o ∈ os.filter (· ≠ .passed) := by rw [hf]; exact List.mem_cons_self ..
    simpa using ⟨o, (List.mem_filter.mp this).1, by simpa using (List.mem_filter.mp this).2⟩

end Verif.Pytest
