import Verif.Lemmas.SchedPriv
import Verif.Props.SchedCurrent

/-!
The part of the state a construct with private tasks `O`, a private event `e` and a calling task `p`
relies on, and its preservation by arbitrary other code and by the construct's own calls.
-/

namespace Verif.Sched

/-- `A`: the tasks of `O` whose end has been announced; `aw`: the caller is suspended on the private
event; `dr`: the caller is suspended on a `NullTrigger`. -/
structure Live (e : Nat) (O A : List Nat) (p : Nat) (aw dr : Bool) (w : World) : Prop where
  calm : Calm w
  tidy : Tidy w
  reg : ∀ t h, (w.task t).state = .pending → (w.task t).tcb = some (.event e, h) → t = p ∧ aw = true
  onE : aw = true → OnEvent e w p
  onN : dr = true → OnNull w p
  own : Owned O A w

variable {e : Nat} {O A : List Nat} {p : Nat} {aw dr : Bool}

/-- One step. -/
theorem Live.act {w w' : World} {a : Act} {r : Res} (h : Live e O A p aw dr w)
    (he : exec w a = some (w', r)) (ho : off e a = true)
    (hp : aw = true ∨ dr = true → (w.task p).state = .running → coroAct a = false)
    (hq : quiet w = true ∨ a = .cbStep) (hs : spares O a = true)
    (hcn : ∀ t, a = .cancelNow t → ∀ u, Frame.running u ∉ w.stack) :
    (∃ t how, t ∈ O ∧ a = .cbStep ∧ w.stack = [.finishing t 0 how] ∧
      w'.stack = [.finishing t 1 how] ∧ t ∉ A ∧ Live e O (A ++ [t]) p aw dr w') ∨
    ((∀ t how rest, w.stack = .finishing t 0 how :: rest → t ∉ O) ∧ Live e O A p aw dr w') := by
  obtain ⟨D, hg⟩ := h.calm.reach.good
  have h1 : Calm w' := h.calm.step he hcn
  have h2 : Tidy w' := h.tidy.step hg hq he
  have h3 : ∀ t k, (w'.task t).state = .pending → (w'.task t).tcb = some (.event e, k) →
      t = p ∧ aw = true := by
    intro t k ht hk
    rcases pend_new hg he ht hk with ⟨h4, h5⟩ | ⟨-, f, rfl⟩
    · exact h.reg t k h4 h5
    · simp [off] at ho
  have h4 : aw = true → OnEvent e w' p := fun ha => (h.onE ha).step hg he ho (hp (Or.inl ha))
  have h5 : dr = true → OnNull w' p := fun ha => (h.onN ha).step hg he (hp (Or.inr ha))
  rcases h.own.step hg h.tidy hq hs he with ⟨t, how, a1, a2, a3, a4, a5, a6⟩ | ⟨a1, a2⟩
  · exact Or.inl ⟨t, how, a1, a2, a3, a4, a5, h1, h2, h3, h4, h5, a6⟩
  · exact Or.inr ⟨a1, h1, h2, h3, h4, h5, a2⟩

/-- API calls that neither end nor enter a task. -/
def simple : Act → Bool
  | .cancel _ | .uncancel _ | .addCb _ | .startNext _ | .startSoon _ | .setE _ | .clearE _ => true
  | _ => false

theorem simple_frame {w w' : World} {a : Act} {r : Res} (hs : simple a = true)
    (he : exec w a = some (w', r)) :
    w'.stack = w.stack ∧ w'.inside = w.inside ∧ w'.halted = w.halted ∧ w'.current = w.current := by
  unfold exec at he
  split at he
  · cases he
  cases hi : w.inside
  · cases a <;> simp [hi, simple] at he hs
  have hset : ∀ e, (setEvent w e).stack = w.stack ∧ (setEvent w e).inside = w.inside ∧
      (setEvent w e).halted = w.halted ∧ (setEvent w e).current = w.current := by
    intro e
    have hx := (react_aux (({ w with fired := upd w.fired e true } : World).addLog (.setE e))
      (.event e)).1
    exact ⟨hx.stack, hx.inside, hx.halted, hx.current⟩
  cases a <;> simp only [hi, simple, Bool.false_eq_true, Option.some.injEq] at he hs
  case cancel t =>
    unfold cancel at he
    repeat' split at he
    all_goals cases he
    any_goals exact ⟨rfl, hi, rfl, rfl⟩
    rename_i hd
    have := deregister_task hd
    exact ⟨this.2.1, by simp [bumpCancel, World.setTask, scheduleResume, this.2.2.2.1, hi], this.2.2.2.2.1,
      this.2.2.2.2.2.2.2.1⟩
  case startNext t =>
    unfold startNext at he
    split at he <;> cases he <;> exact ⟨rfl, hi, rfl, rfl⟩
  case startSoon t =>
    unfold startSoon at he
    split at he <;> cases he <;> exact ⟨rfl, hi, rfl, rfl⟩
  case setE e => cases he; rw [← hi]; exact hset e
  case addCb t =>
    cases he
    unfold addDoneCb
    dsimp only
    split <;> exact ⟨rfl, hi, rfl, rfl⟩
  case uncancel t => cases he; exact ⟨rfl, hi, rfl, rfl⟩
  case clearE t => cases he; exact ⟨rfl, hi, rfl, rfl⟩

theorem api_cases (w : World) (a : Act) :
    (∃ r, exec w a = some (api w a, r)) ∨ (exec w a = none ∧ api w a = w) := by
  unfold api
  cases h : exec w a with
  | none => right; exact ⟨rfl, rfl⟩
  | some x => left; exact ⟨x.2, rfl⟩

theorem api_frame {w : World} {a : Act} (hs : simple a = true) :
    (api w a).stack = w.stack ∧ (api w a).inside = w.inside ∧ (api w a).halted = w.halted ∧
      (api w a).current = w.current := by
  rcases api_cases w a with ⟨r, h⟩ | ⟨-, h⟩
  · exact simple_frame hs h
  · rw [h]; exact ⟨rfl, rfl, rfl, rfl⟩

theorem simple_coro {a : Act} (hs : simple a = true) : coroAct a = false := by
  cases a <;> simp_all [simple, coroAct]

theorem simple_spares {a : Act} (hs : simple a = true) : spares O a = true := by
  cases a <;> simp_all [simple, spares]

theorem Live.simple {w : World} {a : Act} (h : Live e O A p aw dr w)
    (hs : simple a = true) (ho : off e a = true) (hq : quiet w = true) :
    Live e O A p aw dr (api w a) := by
  rcases api_cases w a with ⟨r, he⟩ | ⟨-, he⟩
  · rcases h.act he ho (fun _ _ => simple_coro hs) (Or.inl hq) (simple_spares hs)
      (by rintro t rfl; simp [Sched.simple] at hs) with ⟨t, how, -, ha, -⟩ | ⟨-, h'⟩
    · rw [ha] at hs; simp [Sched.simple] at hs
    · exact h'
  · rw [he]; exact h

/-- The construct sets its event. -/
theorem Live.set {w : World} (h : Live e O A p aw dr w) (hq : quiet w = true)
    (hi : w.inside = true) (hh : w.halted = false) :
    Live e O A p aw dr (api w (.setE e)) ∧ (api w (.setE e)).fired e = true := by
  obtain ⟨D, hg⟩ := h.calm.reach.good
  have he : exec w (.setE e) = some (setEvent w e, .ok) := by simp [exec, hi, hh]
  have ha : api w (.setE e) = setEvent w e := by unfold api; rw [he]
  rw [ha]
  refine ⟨⟨h.calm.step he (by simp), h.tidy.step hg (Or.inl hq) he, ?_, fun hx => (h.onE hx).set hg,
    fun hx => (h.onN hx).step hg he (by simp [coroAct]), ?_⟩, ?_⟩
  · intro t k ht hk
    rcases pend_new hg he ht hk with ⟨h4, h5⟩ | ⟨-, f, hf⟩
    · exact h.reg t k h4 h5
    · cases hf
  · rcases h.own.step hg h.tidy (Or.inl hq) (by simp [spares]) he with ⟨t, how, -, hx, -⟩ | ⟨-, h'⟩
    · cases hx
    · exact h'
  · unfold setEvent
    rw [(react_aux _ _).1.fired]
    simp [World.addLog, upd_self]

theorem api_fired {w : World} {a : Act} (hr : Reach w) (ho : off e a = true) :
    (api w a).fired e = w.fired e := by
  obtain ⟨D, hg⟩ := hr.good
  rcases api_cases w a with ⟨r, he⟩ | ⟨-, he⟩
  · refine Queue.fired_step hg (exec_step he).2 ?_ ?_
    · rintro rfl; simp [off] at ho
    · rintro rfl; simp [off] at ho
  · rw [he]

/-- A done task stays as it is. -/
theorem done_keeps {w w' : World} {a : Act} {r : Res} (hr : Reach w) (he : exec w a = some (w', r))
    {t : Nat} (hd : (w.task t).state.isDone = true) :
    (w'.task t).state = (w.task t).state ∧ (w'.task t).outcome = (w.task t).outcome := by
  obtain ⟨D, hg⟩ := hr.good
  obtain ⟨new, -, hts⟩ := hg.tstep (exec_step he).2
  have := (hts t).done_same hd
  exact ⟨this.1, this.2⟩

theorem api_done {w : World} {a : Act} (hr : Reach w)
    {t : Nat} (hd : (w.task t).state.isDone = true) :
    ((api w a).task t).state = (w.task t).state ∧
    ((api w a).task t).outcome = (w.task t).outcome := by
  rcases api_cases w a with ⟨r, he⟩ | ⟨-, he⟩
  · exact done_keeps hr he hd
  · rw [he]; exact ⟨rfl, rfl⟩

/-- The calling task suspends on the private event. -/
theorem Live.await {w w' : World} {r : Res} {rest : List Frame} (h : Live e O A p false false w)
    (hst : w.stack = .running p :: rest) (hf : w.fired e = false)
    (he : exec w (.await (.event e) false) = some (w', r)) :
    w'.fired = w.fired ∧ (w'.task p).state ≠ .running ∧
    ((w'.done p = true ∧ Live e O A p false false w') ∨
      (w'.done p = false ∧ Live e O A p true false w')) := by
  obtain ⟨D, hg⟩ := h.calm.reach.good
  have hq : quiet w = true := by unfold quiet; rw [hst]
  have hc : w.cbs (.event e) = [] := by
    rw [List.eq_nil_iff_forall_not_mem]
    rintro ⟨hh, u⟩ hm
    obtain ⟨e1, e2⟩ := (hg.inv.ok u (by simp)).reg _ _ hm (hg.inv.gpiDead (by simp))
    exact absurd (h.reg u hh e1 e2).2 (by simp)
  obtain ⟨h1, h2, h3⟩ := Queue.await_fresh hst hc hf he
  have hown : Owned O A w' := by
    rcases h.own.step hg h.tidy (Or.inl hq) (by simp [spares]) he with ⟨t, how, -, hx, -⟩ | ⟨-, h'⟩
    · cases hx
    · exact h'
  have hcalm : Calm w' := h.calm.step he (by simp)
  have htidy := h.tidy.step hg (Or.inl hq) he
  have hreg : ∀ t k, (w'.task t).state = .pending → (w'.task t).tcb = some (.event e, k) → t = p := by
    intro t k ht hk
    by_cases hne : t = p
    · exact hne
    · rw [h1 t hne] at ht hk
      exact absurd (h.reg t k ht hk).2 (by simp)
  refine ⟨h2, ?_, ?_⟩
  · intro hr
    rcases h3 with h3 | ⟨h3, -⟩
    · unfold World.done at h3; rw [hr] at h3; cases h3
    · rw [hr] at h3; cases h3
  rcases h3 with h3 | ⟨h3, hh, h4⟩
  · refine Or.inl ⟨h3, hcalm, htidy, ?_, by simp, by simp, hown⟩
    intro t k ht hk
    rw [hreg t k ht hk] at ht
    unfold World.done at h3
    rw [ht] at h3; cases h3
  · refine Or.inr ⟨by unfold World.done; rw [h3]; rfl, hcalm, htidy, ?_, ?_, by simp, hown⟩
    · intro t k ht hk; exact ⟨hreg t k ht hk, rfl⟩
    · intro _
      exact Or.inr (Or.inl ⟨h3, ⟨hh, h4⟩, by rw [h2]; exact hf⟩)

/-- Awaiting a `NullTrigger`. -/
theorem await_null {D : Trig → Prop} {w w' : World} {r : Res} {p n : Nat} {rest : List Frame}
    (hg : Good D w) (hst : w.stack = .running p :: rest)
    (he : exec w (.await (.null n) false) = some (w', r)) :
    w'.done p = true ∨ (w'.done p = false ∧ (w'.task p).state ≠ .running ∧ OnNull w' p) := by
  have hc : w.cbs (.null n) = [] := hg.trg.trig (.null n)
  unfold exec at he
  split at he
  · cases he
  cases hi : w.inside
  · simp [hi] at he
  simp only [hi, hst, execCoro, awaitRefused, Bool.false_eq_true, if_false, Option.some.injEq,
    Prod.mk.injEq] at he
  obtain ⟨he, -⟩ := he
  subst he
  unfold suspendOn
  split
  · left; simp [World.done, setOutcome, upd_self, TState.isDone]
  · right
    simp only [register, World.addLog, World.setTask, hc, List.isEmpty_nil, if_true, prime, react,
      upd_self, List.nil_append, wakeAll, scheduleResume]
    refine ⟨by simp [World.done, upd_self, TState.isDone], ?_, Or.inr ⟨Or.inl ?_, Or.inl ?_⟩⟩ <;>
      simp [upd_self]

theorem Live.awaitNull {w w' : World} {r : Res} {rest : List Frame} {n : Nat}
    (h : Live e O A p false false w) (hst : w.stack = .running p :: rest)
    (he : exec w (.await (.null n) false) = some (w', r)) :
    w'.fired e = w.fired e ∧ (w'.task p).state ≠ .running ∧
    ((w'.done p = true ∧ Live e O A p false false w') ∨
      (w'.done p = false ∧ Live e O A p false true w')) := by
  obtain ⟨D, hg⟩ := h.calm.reach.good
  have hq : quiet w = true := by unfold quiet; rw [hst]
  refine ⟨Queue.fired_step hg (exec_step he).2 (by simp) (by simp), ?_⟩
  rcases h.act he (by simp [off]) (by simp) (Or.inl hq) (by simp [spares]) (by simp) with
    ⟨t, how, -, hx, -⟩ | ⟨-, h'⟩
  · cases hx
  rcases await_null hg hst he with h1 | ⟨h1, h3, h2⟩
  · refine ⟨fun hr => ?_, Or.inl ⟨h1, h'⟩⟩
    unfold World.done at h1; rw [hr] at h1; cases h1
  · exact ⟨h3, Or.inr ⟨h1, h'.calm, h'.tidy, h'.reg, h'.onE, fun _ => h2, h'.own⟩⟩

/-- The caller leaves the suspension. -/
theorem Live.resumed {w : World} (h : Live e O A p aw dr w) (hr : (w.task p).state ≠ .pending) :
    Live e O A p false false w := by
  refine ⟨h.calm, h.tidy, ?_, by simp, by simp, h.own⟩
  intro t k ht hk
  rw [(h.reg t k ht hk).1] at ht
  exact absurd ht hr

/-- What simple API calls leave alone. -/
structure Keeps (e : Nat) (w w' : World) : Prop where
  stack : w'.stack = w.stack
  inside : w'.inside = w.inside
  halted : w'.halted = w.halted
  current : w'.current = w.current
  fired : w'.fired e = w.fired e
  done : ∀ t, (w.task t).state.isDone = true → (w'.task t).state = (w.task t).state ∧
      (w'.task t).outcome = (w.task t).outcome
  running : ∀ t, (w'.task t).state = .running ↔ (w.task t).state = .running

theorem Keeps.refl (e : Nat) (w : World) : Keeps e w w :=
  ⟨rfl, rfl, rfl, rfl, rfl, fun _ _ => ⟨rfl, rfl⟩, fun _ => Iff.rfl⟩

theorem Keeps.trans {e : Nat} {w w' w'' : World} (h : Keeps e w w') (h' : Keeps e w' w'') :
    Keeps e w w'' := by
  refine ⟨h'.stack.trans h.stack, h'.inside.trans h.inside, h'.halted.trans h.halted,
    h'.current.trans h.current, h'.fired.trans h.fired, fun t ht => ?_,
    fun t => (h'.running t).trans (h.running t)⟩
  have h1 := h.done t ht
  have h2 := h'.done t (by rw [h1.1]; exact ht)
  exact ⟨h2.1.trans h1.1, h2.2.trans h1.2⟩

theorem Keeps.quiet {e : Nat} {w w' : World} (h : Keeps e w w') : quiet w' = quiet w :=
  quiet_stack h.stack

theorem keeps_api {w : World} {a : Act} (hr : Reach w) (hs : Sched.simple a = true)
    (ho : off e a = true) : Keeps e w (api w a) := by
  obtain ⟨f1, f2, f3, f4⟩ := api_frame (w := w) hs
  refine ⟨f1, f2, f3, f4, api_fired hr ho, fun t ht => api_done hr ht, fun t => ?_⟩
  have hr' : Reach (api w a) := by
    rcases api_cases w a with ⟨r, he⟩ | ⟨-, he⟩
    · exact hr.exec he
    · rw [he]; exact hr
  obtain ⟨D, hg⟩ := hr.good
  obtain ⟨D', hg'⟩ := hr'.good
  rw [← hg'.stk.run, f1, hg.stk.run]

/-- `for task in …: task.cancel()`. -/
theorem Live.cancels (l : List Nat) : ∀ {w : World},
    Live e O A p aw dr w → Sched.quiet w = true →
    Live e O A p aw dr (l.foldl (fun w t => api w (.cancel t)) w) ∧
    Keeps e w (l.foldl (fun w t => api w (.cancel t)) w) := by
  induction l with
  | nil => intro w h _; exact ⟨h, Keeps.refl e w⟩
  | cons x l ih =>
    intro w h hq
    have h1 := h.simple (a := .cancel x) rfl rfl hq
    have k1 : Keeps e w _ := keeps_api (a := .cancel x) h.calm.reach rfl rfl
    obtain ⟨h2, k2⟩ := ih h1 (by rw [k1.quiet]; exact hq)
    exact ⟨h2, k1.trans k2⟩

end Verif.Sched
