import Verif.Lemmas.SchedStack

namespace Verif.Sched

/-- Consistency of one trigger with the object behind it. -/
def TrigOk (D : Trig → Prop) (w : World) : Trig → Prop
  | .gpi n => w.primed n = true ↔ w.cbs (.gpi n) ≠ [] ∧ ¬ D (.gpi n)
  | .event e => w.fired e = true → w.cbs (.event e) = []
  | .null n => w.cbs (.null n) = []
  | .complete t => w.cbs (.complete t) ≠ [] → (w.task t).state.isDone = true →
      ∃ i how, .finishing t i how ∈ w.stack
  | .join t => w.cbs (.join t) ≠ [] → (w.task t).state.isDone = true →
      ∃ i how, .finishing t i how ∈ w.stack
  | .lock l n => (n ∈ (w.lock l).pending ↔ w.cbs (.lock l n) ≠ []) ∧
      (w.cbs (.lock l n)).length ≤ 1

structure LockOk (r : LockRec) : Prop where
  nd : r.pending.Nodup
  cur : ∀ m, r.current = some m → m ∉ r.pending
  free : r.current = none → r.pending = []

structure GInv (D : Trig → Prop) (w : World) : Prop where
  trig : ∀ g, TrigOk D w g
  lock : ∀ l, LockOk (w.lock l)

variable {D : Trig → Prop}

/-- Nothing a trigger depends on changes, except that tasks may stop being done-or-finishing. -/
structure SameTrig (w w' : World) : Prop where
  cbs : w'.cbs = w.cbs
  primed : w'.primed = w.primed
  fired : w'.fired = w.fired
  lock : w'.lock = w.lock
  done : ∀ t, (w'.task t).state.isDone = true →
    (∃ i how, .finishing t i how ∈ w'.stack) ∨
    ((w.task t).state.isDone = true ∧ ¬ ∃ i how, .finishing t i how ∈ w.stack)

theorem TrigOk.same {w w' : World} {g : Trig} (h : TrigOk D w g) (hc : w'.cbs g = w.cbs g)
    (hp : w'.primed = w.primed) (hf : w'.fired = w.fired) (hl : w'.lock = w.lock)
    (hd : ∀ t, (w'.task t).state.isDone = true →
      (∃ i how, .finishing t i how ∈ w'.stack) ∨
      ((w.task t).state.isDone = true ∧ ¬ ∃ i how, .finishing t i how ∈ w.stack)) :
    TrigOk D w' g := by
  cases g <;> simp only [TrigOk] at h ⊢ <;> simp only [hc, hp, hf, hl]
  case gpi => exact h
  case event => exact h
  case null => exact h
  case lock => exact h
  all_goals
    intro h1 h2
    rcases hd _ h2 with h3 | ⟨h3, h4⟩
    · exact h3
    · exact absurd (h h1 h3) h4

theorem GInv.same {w w' : World} (h : GInv D w) (hs : SameTrig w w') : GInv D w' := by
  refine ⟨fun g => (h.trig g).same (by rw [hs.cbs]) hs.primed hs.fired hs.lock hs.done,
    fun l => ?_⟩
  rw [hs.lock]; exact h.lock l

/-- The `done` condition when the stack does not change and no task becomes done. -/
theorem done_of {w w' : World} (hst : w'.stack = w.stack)
    (h : ∀ t, (w'.task t).state.isDone = true → (w.task t).state.isDone = true) :
    ∀ t, (w'.task t).state.isDone = true →
    (∃ i how, .finishing t i how ∈ w'.stack) ∨
    ((w.task t).state.isDone = true ∧ ¬ ∃ i how, .finishing t i how ∈ w.stack) := by
  intro t ht
  by_cases hc : ∃ i how, .finishing t i how ∈ w.stack
  · left; rw [hst]; exact hc
  · right; exact ⟨h t ht, hc⟩

theorem StateRel.done {w w' : World} (h : StateRel w w') :
    ∀ t, (w'.task t).state.isDone = true → (w.task t).state.isDone = true := by
  intro t ht
  rcases h t with h1 | ⟨h1, h2⟩
  · rw [← h1]; exact ht
  · rw [h2] at ht; cases ht

/-- A trigger with no waiters is consistent, if it is not armed and not in a pending list. -/
theorem TrigOk.empty {w : World} {g : Trig} (hc : w.cbs g = [])
    (hp : ∀ n, g = .gpi n → w.primed n = false)
    (hl : ∀ l n, g = .lock l n → n ∉ (w.lock l).pending) : TrigOk D w g := by
  cases g <;> simp only [TrigOk, hc]
  case gpi n => simp [hp n rfl]
  case lock l n => simp [hl l n rfl]
  all_goals simp

/-- Firing `g` in a world consistent except for `g`. -/
theorem GInv.react {w : World} {g : Trig} (hi : Inv D w []) (hD : ¬ D g)
    (ht : ∀ g', g' ≠ g → TrigOk D w g') (hl : ∀ l, LockOk (w.lock l))
    (hp : ∀ n, g = .gpi n → w.primed n = false)
    (hl' : ∀ l n, g = .lock l n → n ∉ (w.lock l).pending) : GInv D (react w g) := by
  obtain ⟨hx, hc, -⟩ := react_aux w g
  refine ⟨fun g' => ?_, fun l => by rw [hx.lock]; exact hl l⟩
  by_cases he : g' = g
  · subst he
    refine TrigOk.empty (by rw [hc, upd_self]) ?_ ?_
    · rw [hx.primed]; exact hp
    · rw [hx.lock]; exact hl'
  · refine (ht g' he).same (by rw [hc, upd_ne _ _ he]) hx.primed hx.fired hx.lock ?_
    exact done_of hx.stack (StateRel.done (.react hi hD rfl rfl))

theorem GInv.acquireAndFire {w : World} {l n : Nat} (hi : Inv D w [])
    (ht : ∀ g', g' ≠ .lock l n → TrigOk D w g') (hl : ∀ l', l' ≠ l → LockOk (w.lock l'))
    (hnd : (w.lock l).pending.Nodup) (hn : n ∉ (w.lock l).pending) : GInv D (acquireAndFire w l n) := by
  unfold Sched.acquireAndFire
  refine GInv.react (hi.congr rfl rfl rfl rfl rfl) (hi.gpiDead (by simp)) ?_ ?_ ?_ ?_
  · intro g' he
    have h := ht g' he
    cases g' <;> simp only [TrigOk, World.addLog, World.setLock] at h ⊢ <;> try exact h
    rename_i l' n'
    by_cases hl' : l' = l
    · subst hl'; simpa [upd_self] using h
    · simpa [upd_ne _ _ hl'] using h
  · intro l'
    by_cases hl' : l' = l
    · subst hl'
      simp only [World.addLog, World.setLock, upd_self]
      refine ⟨hnd, ?_, by simp⟩
      intro m hm; simp at hm; subst hm; exact hn
    · simp only [World.addLog, World.setLock, upd_ne _ _ hl']; exact hl l' hl'
  · intro n' h; cases h
  · intro l' n' h; cases h
    simpa [World.addLog, World.setLock, upd_self] using hn

theorem deregister_cases {w w' : World} {g : Trig} {hh : Nat}
    (hd : deregister w (some (g, hh)) = some w') :
    (w.cbs g).any (·.1 == hh) = true ∧ w'.cbs = upd w.cbs g ((w.cbs g).filter (·.1 != hh)) ∧
    ((w.cbs g).filter (·.1 != hh) = [] ∧
      unprime { w with cbs := upd w.cbs g ((w.cbs g).filter (·.1 != hh)) } g = some w' ∨
     (w.cbs g).filter (·.1 != hh) ≠ [] ∧
      w' = { w with cbs := upd w.cbs g ((w.cbs g).filter (·.1 != hh)) }) := by
  simp only [deregister] at hd
  split at hd
  · rename_i h1
    refine ⟨h1, ?_⟩
    split at hd
    · rename_i h2
      rw [upd_self] at h2
      have := unprime_core hd
      exact ⟨this.2.1, Or.inl ⟨by simpa using h2, hd⟩⟩
    · rename_i h2
      rw [upd_self] at h2
      simp only [Option.some.injEq] at hd
      subst hd
      exact ⟨rfl, Or.inr ⟨by simpa using h2, rfl⟩⟩
  · cases hd

theorem GInv.deregister {w w' : World} {g : Trig} {hh t : Nat} (hi : Inv D w []) (h : GInv D w)
    (hs : (w.task t).state = .pending) (hcb : (w.task t).tcb = some (g, hh))
    (hd : deregister w (some (g, hh)) = some w') : GInv D w' := by
  obtain ⟨h1, h2, h3⟩ := deregister_cases hd
  have hne : w.cbs g ≠ [] := by intro hc; simp [hc] at h1
  obtain ⟨d1, d2, -, -, -, -, d7, -⟩ := deregister_task hd
  have hdone := done_of (w := w) (w' := w') d2 (by rw [d1]; exact fun _ h => h)
  have hother : ∀ g', g' ≠ g → w'.primed = w.primed → w'.lock = w.lock → TrigOk D w' g' := by
    intro g' he hp hl
    exact (h.trig g').same (by rw [h2, upd_ne _ _ he]) hp d7 hl hdone
  rcases h3 with ⟨h3, h4⟩ | ⟨h3, h4⟩
  · -- last waiter removed
    rw [h3] at h2
    cases g with
    | gpi n =>
      have hnD : ¬ D (.gpi n) := by
        intro hD
        obtain ⟨-, k, u, d2, d3⟩ := hi.dead _ hD
        have : (k, u) ∈ (w.cbs (.gpi n)).filter (·.1 != hh) := by
          rw [List.mem_filter]
          refine ⟨d2, ?_⟩
          simp only [bne_iff_ne, ne_eq]
          rintro rfl
          exact d3 t (by simp) hs hcb
        rw [h3] at this; simp at this
      simp only [unprime] at h4
      split at h4
      · simp only [Option.some.injEq] at h4
        subst h4
        refine ⟨fun g' => ?_, h.lock⟩
        by_cases he : g' = .gpi n
        · subst he; simp [TrigOk, upd_self, h3]
        · have hg := h.trig g'
          cases g' <;> simp only [TrigOk, upd_ne _ _ he] at hg ⊢ <;> try exact hg
          rename_i n'
          have : n' ≠ n := fun hh => he (by rw [hh])
          simpa [upd_ne _ _ this] using hg
      · cases h4
    | lock l n =>
      simp only [unprime, Option.some.injEq] at h4
      have hmem : n ∈ (w.lock l).pending := (h.trig (.lock l n)).1.2 hne
      unfold unprimeLock at h4
      rw [if_pos hmem] at h4
      subst h4
      have hnd := (h.lock l).nd
      refine ⟨fun g' => ?_, fun l' => ?_⟩
      · by_cases he : g' = .lock l n
        · subst he
          simp [TrigOk, World.addLog, World.setLock, upd_self, h3, hnd.mem_erase_iff]
        · have hg := h.trig g'
          cases g' <;>
            simp only [TrigOk, World.addLog, World.setLock, upd_ne _ _ he] at hg ⊢ <;> try exact hg
          rename_i l' n'
          by_cases hl : l' = l
          · subst hl
            have : n' ≠ n := fun hh => he (by rw [hh])
            simp only [upd_self, hnd.mem_erase_iff]
            simpa [this] using hg
          · simpa [upd_ne _ _ hl] using hg
      · by_cases hl : l' = l
        · subst hl
          simp only [World.addLog, World.setLock, upd_self]
          refine ⟨hnd.erase _, fun m hm hc => (h.lock l').cur m hm (List.mem_of_mem_erase hc), ?_⟩
          intro hf
          simp [(h.lock l').free hf] at hmem
        · simp only [World.addLog, World.setLock, upd_ne _ _ hl]; exact h.lock l'
    | event e =>
      simp only [unprime, Option.some.injEq] at h4; subst h4
      refine ⟨fun g' => ?_, h.lock⟩
      by_cases he : g' = .event e
      · subst he; exact TrigOk.empty (by simp [upd_self, h3]) (by simp) (by simp)
      · exact hother g' he rfl rfl
    | null e =>
      simp only [unprime, Option.some.injEq] at h4; subst h4
      refine ⟨fun g' => ?_, h.lock⟩
      by_cases he : g' = .null e
      · subst he; exact TrigOk.empty (by simp [upd_self, h3]) (by simp) (by simp)
      · exact hother g' he rfl rfl
    | complete e =>
      simp only [unprime, Option.some.injEq] at h4; subst h4
      refine ⟨fun g' => ?_, h.lock⟩
      by_cases he : g' = .complete e
      · subst he; exact TrigOk.empty (by simp [upd_self, h3]) (by simp) (by simp)
      · exact hother g' he rfl rfl
    | join e =>
      simp only [unprime, Option.some.injEq] at h4; subst h4
      refine ⟨fun g' => ?_, h.lock⟩
      by_cases he : g' = .join e
      · subst he; exact TrigOk.empty (by simp [upd_self, h3]) (by simp) (by simp)
      · exact hother g' he rfl rfl
  · subst h4
    refine ⟨fun g' => ?_, h.lock⟩
    by_cases he : g' = g
    · subst he
      have hg := h.trig g'
      cases g' <;> simp only [TrigOk, upd_self] at hg ⊢
      case gpi => rw [hg]; simp [hne, h3]
      case event => intro h'; exact absurd (hg h') hne
      case null => exact absurd hg hne
      case complete => intro _; exact hg hne
      case join => intro _; exact hg hne
      case lock =>
        refine ⟨by simp [hg.1.2 hne, h3], Nat.le_trans (List.length_filter_le ..) hg.2⟩
    · exact hother g' he rfl rfl

/-- Under the invariants `_deregister` of a pending task never fails. -/
theorem deregister_ok {w : World} {t : Nat} (hi : Inv D w []) (h : GInv D w)
    (hs : (w.task t).state = .pending) : ∃ w', deregister w (w.task t).tcb = some w' := by
  obtain ⟨g, hh, hc, hm⟩ := (hi.ok t (by simp)).pend hs
  rw [hc]
  simp only [deregister]
  have hany : (w.cbs g).any (·.1 == hh) = true := by
    rw [List.any_eq_true]; exact ⟨_, hm, by simp⟩
  rw [if_pos hany]
  split
  · cases g with
    | gpi n =>
      have hnD : ¬ D (.gpi n) := by
        intro hD
        obtain ⟨-, k, u, d2, d3⟩ := hi.dead _ hD
        rename_i hemp
        have : (k, u) ∈ (w.cbs (.gpi n)).filter (·.1 != hh) := by
          rw [List.mem_filter]
          refine ⟨d2, ?_⟩
          simp only [bne_iff_ne, ne_eq]
          rintro rfl
          exact d3 t (by simp) hs hc
        simp only [upd_self, List.isEmpty_iff] at hemp
        rw [hemp] at this; simp at this
      have : w.primed n = true := (h.trig (.gpi n)).2 ⟨List.ne_nil_of_mem hm, hnD⟩
      simp [unprime, this]
    | _ => simp [unprime]
  · simp

theorem GInv.detach {w w' : World} {t : Nat} (hi : Inv D w []) (h : GInv D w)
    (hd : detach w t = some w') : GInv D w' := by
  unfold Sched.detach at hd
  split at hd
  · rename_i hs
    obtain ⟨g, hh, hc, hm⟩ := (hi.ok t (by simp)).pend hs
    rw [hc] at hd
    exact h.deregister hi hs hc hd
  · simp only [Option.some.injEq] at hd; subst hd
    exact h.same ⟨rfl, rfl, rfl, rfl, done_of rfl fun _ h => h⟩
  · simp only [Option.some.injEq] at hd; subst hd
    exact h

theorem detach_ok {w : World} {t : Nat} (hi : Inv D w []) (h : GInv D w) : ∃ w', detach w t = some w' := by
  unfold Sched.detach
  split
  · rename_i hs; exact deregister_ok hi h hs
  · simp
  · simp

/-- Registration and `_prime`. -/
theorem GInv.register {w : World} {t g} (hi : Inv D w [t]) (hs : (w.task t).state = .pending)
    (h : GInv D w) (hr : awaitRefused w g = false) : GInv D (register w g t false) := by
  have h1 := hi.addCb (X := []) (g := g) (r := { w.task t with tcb := some (g, w.nHandle) })
    (by simp) hs rfl
  have hdone : ∀ u, (upd w.task t { w.task t with tcb := some (g, w.nHandle) } u).state =
      (w.task u).state := by
    intro u; by_cases hu : u = t
    · subst hu; simp [upd_self]
    · simp [upd_ne _ _ hu]
  unfold Sched.register
  dsimp only
  have hrest : ∀ g', g' ≠ g → TrigOk D { w with
      cbs := upd w.cbs g (w.cbs g ++ [(w.nHandle, t)]), nHandle := w.nHandle + 1,
      task := upd w.task t { w.task t with tcb := some (g, w.nHandle) } } g' := by
    intro g' he
    refine (h.trig g').same (by simp [upd_ne _ _ he]) rfl rfl rfl (done_of rfl ?_)
    intro u hu; dsimp only at hu; rw [hdone] at hu; exact hu
  split
  · rename_i hemp
    have hemp : w.cbs g = [] := by simpa using hemp
    have hcb : ∀ g', (upd w.cbs g (w.cbs g ++ [(w.nHandle, t)])) g' =
        if g' = g then [(w.nHandle, t)] else w.cbs g' := by
      intro g'; by_cases he : g' = g
      · subst he; simp [upd_self, hemp]
      · simp [upd_ne _ _ he, he]
    cases g with
    | gpi n =>
      simp only [prime, Bool.false_eq_true, if_false]
      refine ⟨fun g' => ?_, h.lock⟩
      by_cases he : g' = .gpi n
      · subst he
        have hnD : ¬ D (.gpi n) := by
          intro hD; obtain ⟨-, k, u, h2, -⟩ := hi.dead _ hD; simp [hemp] at h2
        simp [TrigOk, upd_self, hemp, hnD]
      · have hg := hrest g' he
        cases g' <;> simp only [TrigOk] at hg ⊢ <;> try exact hg
        rename_i n'
        have : n' ≠ n := fun hh => he (by rw [hh])
        simpa [upd_ne _ _ this] using hg
    | event e =>
      simp only [prime]
      split
      · exact GInv.react h1 (h1.gpiDead (by simp)) hrest h.lock (by simp) (by simp)
      · rename_i hf
        refine ⟨fun g' => ?_, h.lock⟩
        by_cases he : g' = .event e
        · subst he; simp only [TrigOk]; intro h'; exact absurd h' hf
        · exact hrest g' he
    | null n => exact GInv.react h1 (h1.gpiDead (by simp)) hrest h.lock (by simp) (by simp)
    | complete u =>
      simp only [prime]
      split
      · exact GInv.react h1 (h1.gpiDead (by simp)) hrest h.lock (by simp) (by simp)
      · rename_i hf
        refine ⟨fun g' => ?_, h.lock⟩
        by_cases he : g' = .complete u
        · subst he; simp only [TrigOk]; intro _ h'; exact absurd h' hf
        · exact hrest g' he
    | join u =>
      simp only [prime]
      split
      · exact GInv.react h1 (h1.gpiDead (by simp)) hrest h.lock (by simp) (by simp)
      · rename_i hf
        refine ⟨fun g' => ?_, h.lock⟩
        by_cases he : g' = .join u
        · subst he; simp only [TrigOk]; intro _ h'; exact absurd h' hf
        · exact hrest g' he
    | lock l n =>
      have hn : n ∉ (w.lock l).pending := fun hc => (h.trig (.lock l n)).1.1 hc hemp
      simp only [awaitRefused, Bool.or_eq_false_iff, decide_eq_false_iff_not] at hr
      simp only [prime]
      unfold primeLock
      split
      · refine GInv.acquireAndFire (h1.congr rfl rfl rfl rfl rfl) ?_ (fun l' _ => h.lock l') (h.lock l).nd hn
        intro g' he
        have hg := hrest g' he
        cases g' <;> exact hg
      · rename_i hcur
        refine ⟨fun g' => ?_, fun l' => ?_⟩
        · by_cases he : g' = .lock l n
          · subst he
            simp [TrigOk, World.setLock, World.addLog, upd_self, hemp]
          · have hg := hrest g' he
            cases g' <;> simp only [TrigOk, World.setLock, World.addLog] at hg ⊢ <;> try exact hg
            rename_i l' n'
            by_cases hl : l' = l
            · subst hl
              have : n' ≠ n := fun hh => he (by rw [hh])
              simpa [upd_self, this] using hg
            · simpa [upd_ne _ _ hl] using hg
        · by_cases hl : l' = l
          · subst hl
            simp only [World.setLock, World.addLog, upd_self]
            refine ⟨?_, ?_, ?_⟩
            · rw [List.nodup_append]
              refine ⟨(h.lock l').nd, by simp, ?_⟩
              intro a ha b hb hab
              simp only [List.mem_singleton] at hb
              subst hb; subst hab; exact hn ha
            · intro m hm hc
              simp only [List.mem_append, List.mem_singleton] at hc
              rcases hc with hc | rfl
              · exact (h.lock l').cur m hm hc
              · exact hr.1 hm
            · intro hf; exact absurd hf hcur
          · simp only [World.setLock, World.addLog, upd_ne _ _ hl]; exact h.lock l'
  · rename_i hemp
    have hemp : w.cbs g ≠ [] := by simpa using hemp
    refine ⟨fun g' => ?_, h.lock⟩
    by_cases he : g' = g
    · subst he
      have hg := h.trig g'
      cases g' <;> simp only [TrigOk, upd_self, hdone] at hg ⊢
      case gpi => rw [hg]; simp [hemp]
      case event => intro h'; exact absurd (hg h') hemp
      case null => exact absurd hg hemp
      case complete => intro _; exact hg hemp
      case join => intro _; exact hg hemp
      case lock l n =>
        simp only [awaitRefused, Bool.or_eq_false_iff, decide_eq_false_iff_not] at hr
        exact absurd (hg.1.2 hemp) hr.2
    · exact hrest g' he

theorem GInv.step {w w' : World} {a : Act} {r : Res} (hi : Inv D w []) (hS : SInv w) (h : GInv D w)
    (he : Step w a w' r) : GInv D w' := by
  have hX : ∀ t rest, w.stack = .running t :: rest → Inv D { w with stack := rest } [t] := by
    intro t rest hst
    have hs := (hS.run t).1 (by simp [hst])
    exact (hi.addX (t := t) (by rw [hs]; exact not_waiting_running)).congr rfl rfl rfl rfl rfl
  have htrig : ∀ {v : World}, v.cbs = w.cbs → v.primed = w.primed → v.fired = w.fired →
      v.lock = w.lock → v.task = w.task → v.stack = w.stack → GInv D v := by
    intro v h1 h2 h3 h4 h5 h6
    exact h.same ⟨h1, h2, h3, h4, done_of h6 (by rw [h5]; exact fun _ h => h)⟩
  cases he with
  | enter => exact htrig rfl rfl rfl rfl rfl rfl
  | fire n hi' hp =>
    refine GInv.react (hi.congr rfl rfl rfl rfl rfl) (((h.trig (.gpi n)).1 hp).2) ?_ h.lock ?_
      (by simp)
    · intro g' he
      have hg := h.trig g'
      cases g' <;> simp only [TrigOk] at hg ⊢ <;> try exact hg
      rename_i n'
      have : n' ≠ n := fun hh => he (by rw [hh])
      simpa [World.addLog, upd_ne _ _ this] using hg
    · intro n' hn; cases hn; simp [World.addLog, upd_self]
  | popCancelled e rest hi hst hq hc => exact htrig rfl rfl rfl rfl rfl rfl
  | popRun e rest hi' hst hq hc =>
    refine h.same ⟨rfl, rfl, rfl, rfl, fun t ht => ?_⟩
    by_cases hu : t = e.task
    · subst hu; simp [resume, upd_self, TState.isDone] at ht
    · simp only [resume, upd_ne _ _ hu] at ht
      right; exact ⟨ht, by rw [hst]; simp⟩
  | exit => exact htrig rfl rfl rfl rfl rfl rfl
  | nop => exact h
  | startSoon t hi' hs =>
    refine h.same ⟨rfl, rfl, rfl, rfl, done_of rfl fun u hu => ?_⟩
    by_cases he : u = t
    · subst he; simp [scheduleResume, World.addLog, upd_self, TState.isDone] at hu
    · simpa [scheduleResume, World.addLog, upd_ne _ _ he] using hu
  | startNext t hi' hs =>
    refine h.same ⟨rfl, rfl, rfl, rfl, done_of rfl fun u hu => ?_⟩
    by_cases he : u = t
    · subst he; simp [scheduleLeft, World.addLog, upd_self, TState.isDone] at hu
    · simpa [scheduleLeft, World.addLog, upd_ne _ _ he] using hu
  | cancelPending t w1 hi' hs hd =>
    obtain ⟨g, hh, hc, hm⟩ := (hi.ok t (by simp)).pend hs
    rw [hc] at hd
    refine (h.deregister hi hs hc hd).same ⟨rfl, rfl, rfl, rfl, done_of rfl fun u hu => ?_⟩
    by_cases he : u = t
    · subst he; simp [scheduleResume, bumpCancel, World.setTask, upd_self, TState.isDone] at hu
    · simpa [scheduleResume, bumpCancel, World.setTask, upd_ne _ _ he] using hu
  | cancelScheduled t hi' hs =>
    refine h.same ⟨rfl, rfl, rfl, rfl, done_of rfl fun u hu => ?_⟩
    by_cases he : u = t
    · subst he; simpa [bumpCancel, World.setTask, upd_self] using hu
    · simpa [bumpCancel, World.setTask, upd_ne _ _ he] using hu
  | cancelUnstarted t hi' hs =>
    refine h.same ⟨rfl, rfl, rfl, rfl, done_of rfl fun u hu => ?_⟩
    by_cases he : u = t
    · subst he
      simp [scheduleResume, bumpCancel, World.addLog, World.setTask, upd_self, TState.isDone] at hu
    · simpa [scheduleResume, bumpCancel, World.addLog, World.setTask, upd_ne _ _ he] using hu
  | kill t w1 hi' hnd hnr hd =>
    refine (h.detach hi hd).same ⟨rfl, rfl, rfl, rfl, fun u hu => ?_⟩
    by_cases he : u = t
    · subst he; left; exact ⟨0, .kill, by simp [setOutcome]⟩
    · simp only [setOutcome, upd_ne _ _ he] at hu ⊢
      by_cases hc : ∃ i how, .finishing u i how ∈ w1.stack
      · left; obtain ⟨i, how, hm⟩ := hc; exact ⟨i, how, by simp [hm]⟩
      · right; exact ⟨hu, hc⟩
  | cancelNow t w1 hi' hnd hnr hd =>
    have h1 : GInv D w1 := by
      split at hd
      · refine GInv.detach (w := w.addLog (.start t)) (hi.log _) ?_ hd
        exact htrig rfl rfl rfl rfl rfl rfl
      · exact h.detach hi hd
    refine h1.same ⟨rfl, rfl, rfl, rfl, fun u hu => ?_⟩
    by_cases he : u = t
    · subst he; simp [resume, upd_self, TState.isDone] at hu
    · simp only [resume, bumpCancel, World.setTask, upd_ne _ _ he] at hu ⊢
      by_cases hc : ∃ i how, .finishing u i how ∈ w1.stack
      · left; obtain ⟨i, how, hm⟩ := hc; exact ⟨i, how, by simp [hm]⟩
      · right; exact ⟨hu, hc⟩
  | uncancel t =>
    refine h.same ⟨rfl, rfl, rfl, rfl, done_of rfl fun u hu => ?_⟩
    by_cases he : u = t
    · subst he; simpa [Sched.uncancel, World.setTask, upd_self] using hu
    · simpa [Sched.uncancel, World.setTask, upd_ne _ _ he] using hu
  | addCbDone t =>
    refine h.same ⟨rfl, rfl, rfl, rfl, done_of rfl fun u hu => ?_⟩
    by_cases he : u = t
    · subst he; simpa [upd_self] using hu
    · simpa [upd_ne _ _ he] using hu
  | addCb t =>
    refine h.same ⟨rfl, rfl, rfl, rfl, done_of rfl fun u hu => ?_⟩
    by_cases he : u = t
    · subst he; simpa [upd_self] using hu
    · simpa [upd_ne _ _ he] using hu
  | setE e =>
    refine GInv.react (hi.congr rfl rfl rfl rfl rfl) (hi.gpiDead (by simp)) ?_ h.lock (by simp)
      (by simp)
    intro g' he
    have hg := h.trig g'
    cases g' <;> simp only [TrigOk, World.addLog] at hg ⊢ <;> try exact hg
    rename_i e'
    have : e' ≠ e := fun hh => he (by rw [hh])
    simpa [upd_ne _ _ this] using hg
  | clearE e =>
    refine ⟨fun g' => ?_, h.lock⟩
    have hg := h.trig g'
    cases g' <;> simp only [TrigOk, clearEvent, World.addLog] at hg ⊢ <;> try exact hg
    rename_i e'
    by_cases he : e' = e
    · subst he; simp [upd_self]
    · simpa [upd_ne _ _ he] using hg
  | release l m hi' hc hp =>
    refine ⟨fun g' => ?_, fun l' => ?_⟩
    · have hg := h.trig g'
      cases g' <;> simp only [TrigOk, World.addLog, World.setLock] at hg ⊢ <;> try exact hg
      rename_i l' n'
      by_cases hl : l' = l
      · subst hl; simpa [upd_self] using hg
      · simpa [upd_ne _ _ hl] using hg
    · by_cases hl : l' = l
      · subst hl
        simp only [World.addLog, World.setLock, upd_self, hp]
        exact ⟨by simp, by simp, by simp⟩
      · simp only [World.addLog, World.setLock, upd_ne _ _ hl]; exact h.lock l'
  | releaseGrant l m n ns hi' hc hp =>
    have hnd := (h.lock l).nd
    rw [hp] at hnd
    simp only [List.nodup_cons] at hnd
    refine GInv.acquireAndFire (hi.congr rfl rfl rfl rfl rfl) ?_ ?_ ?_ ?_
    · intro g' he
      have hg := h.trig g'
      cases g' <;> simp only [TrigOk, World.addLog, World.setLock] at hg ⊢ <;> try exact hg
      rename_i l' n'
      by_cases hl : l' = l
      · subst hl
        have : n' ≠ n := fun hh => he (by rw [hh])
        simpa [upd_self, hp, this] using hg
      · simpa [upd_ne _ _ hl] using hg
    · intro l' hl
      simp only [World.addLog, World.setLock, upd_ne _ _ hl]; exact h.lock l'
    · simp only [World.addLog, World.setLock, upd_self]; exact hnd.2
    · simp only [World.addLog, World.setLock, upd_self]; exact hnd.1
  | await t rest g fails hi' hst hr hm =>
    have hs := (hS.run t).1 (by simp [hst])
    have h1 : GInv D ((World.setTask { w with stack := rest } t
          { w.task t with state := .pending }).addLog (.suspend t g)) := by
      refine h.same ⟨rfl, rfl, rfl, rfl, fun u hu => ?_⟩
      by_cases he : u = t
      · subst he; simp [World.addLog, World.setTask, upd_self, TState.isDone] at hu
      · simp only [World.addLog, World.setTask, upd_ne _ _ he] at hu ⊢
        by_cases hc : ∃ i how, .finishing u i how ∈ w.stack
        · left; obtain ⟨i, how, hm⟩ := hc; rw [hst] at hm; simp at hm; exact ⟨i, how, hm⟩
        · right; exact ⟨hu, hc⟩
    have h2 := GInv.register (t := t) (g := g)
      (Inv.log ((hX t rest hst).setTaskX (r := { w.task t with state := .pending }) (by simp))
        (.suspend t g))
      (by simp [World.addLog, World.setTask, upd_self]) h1
      (by cases g <;> exact hr)
    exact h2.same ⟨rfl, rfl, rfl, rfl, done_of rfl fun _ h => h⟩
  | yieldBad t rest hi' hst hm =>
    refine h.same ⟨rfl, rfl, rfl, rfl, fun u hu => ?_⟩
    by_cases he : u = t
    · subst he; simp [scheduleResume, World.addLog, upd_self, TState.isDone] at hu
    · simp only [scheduleResume, World.addLog, upd_ne _ _ he] at hu ⊢
      by_cases hc : ∃ i how, .finishing u i how ∈ w.stack
      · left; obtain ⟨i, how, hm⟩ := hc; rw [hst] at hm; simp at hm; exact ⟨i, how, hm⟩
      · right; exact ⟨hu, hc⟩
  | finish _ t rest s o how hi' hst he =>
    refine h.same ⟨rfl, rfl, rfl, rfl, fun u hu => ?_⟩
    by_cases he : u = t
    · subst he; left; exact ⟨0, how, by simp [setOutcome]⟩
    · simp only [setOutcome, upd_ne _ _ he] at hu ⊢
      by_cases hc : ∃ i how, .finishing u i how ∈ w.stack
      · left; obtain ⟨i, how, hm⟩ := hc; rw [hst] at hm; simp at hm; exact ⟨i, how, by simp [hm]⟩
      · right; exact ⟨hu, hc⟩
  | cbNext t i how rest c hi' hst hc =>
    refine h.same ⟨rfl, rfl, rfl, rfl, fun u hu => ?_⟩
    by_cases hc : ∃ i how, .finishing u i how ∈ w.stack
    · left; obtain ⟨j, how', hm⟩ := hc; rw [hst] at hm
      simp only [List.mem_cons, Frame.finishing.injEq] at hm
      rcases hm with ⟨rfl, rfl, rfl⟩ | hm
      · exact ⟨j + 1, how', by simp [World.addLog]⟩
      · exact ⟨j, how', by simp [World.addLog, hm]⟩
    · right; exact ⟨hu, hc⟩
  | cbEnd t i how rest hi' hst hc =>
    have hi0 : Inv D { w with stack := rest } [] := hi.congr rfl rfl rfl rfl rfl
    have h0 : ∀ g', g' ≠ .complete t → g' ≠ .join t → TrigOk D { w with stack := rest } g' := by
      intro g' h1 h2
      have hg := h.trig g'
      cases g' <;> simp only [TrigOk] at hg ⊢ <;> try exact hg
      all_goals
        rename_i u
        intro a1 a2
        obtain ⟨j, how', hm⟩ := hg a1 a2
        rw [hst] at hm
        simp only [List.mem_cons, Frame.finishing.injEq] at hm
        rcases hm with ⟨rfl, -, -⟩ | hm
        · exact absurd rfl (by first | exact h1 | exact h2)
        · exact ⟨j, how', hm⟩
    obtain ⟨hx, hcb, -⟩ := react_aux { w with stack := rest } (.complete t)
    have h1 : ∀ g', g' ≠ .join t → TrigOk D (Sched.react { w with stack := rest } (.complete t)) g' := by
      intro g' hne
      by_cases he : g' = .complete t
      · subst he
        exact TrigOk.empty (by rw [hcb, upd_self]) (by simp) (by simp)
      · refine (h0 g' he hne).same (by rw [hcb, upd_ne _ _ he]) hx.primed hx.fired hx.lock ?_
        exact done_of hx.stack (StateRel.done (.react hi0 (hi.gpiDead (by simp)) rfl rfl))
    have h2 : GInv D (Sched.react (Sched.react { w with stack := rest } (.complete t)) (.join t)) :=
      GInv.react (hi0.react (by simp) (hi.gpiDead (by simp))) (hi.gpiDead (by simp)) h1 (by rw [hx.lock]; exact h.lock) (by simp) (by simp)
    unfold finishEnd
    cases how <;> exact ⟨h2.trig, h2.lock⟩

theorem GInv.failStep {w : World} {t rest n} (h : GInv D w)
    (hs : (w.task t).state = .running) (hst : w.stack = .running t :: rest)
    (hc : w.cbs (.gpi n) = []) :
    GInv (fun g => D g ∨ g = .gpi n) (failWorld w t rest n) := by
  have hdone : ∀ u, ((failWorld w t rest n).task u).state.isDone = true →
      (∃ i how, .finishing u i how ∈ (failWorld w t rest n).stack) ∨
      ((w.task u).state.isDone = true ∧ ¬ ∃ i how, .finishing u i how ∈ w.stack) := by
    intro u hu
    by_cases he : u = t
    · subst he; simp [failWorld, scheduleResume, upd_self, TState.isDone] at hu
    · simp only [failWorld, scheduleResume, upd_ne _ _ he] at hu ⊢
      by_cases hc : ∃ i how, .finishing u i how ∈ w.stack
      · left; obtain ⟨i, how, hm⟩ := hc; rw [hst] at hm; simp at hm; exact ⟨i, how, hm⟩
      · right; exact ⟨hu, hc⟩
  refine ⟨fun g => ?_, h.lock⟩
  by_cases he : g = .gpi n
  · subst he
    have := (h.trig (.gpi n)).1
    simp only [hc, ne_eq, not_true_eq_false, false_and, imp_false, Bool.not_eq_true] at this
    simp [TrigOk, failWorld, scheduleResume, this]
  · have h1 := (h.trig g).same (w' := failWorld w t rest n)
      (by simp [failWorld, scheduleResume, upd_ne _ _ he]) rfl rfl rfl hdone
    cases g <;> simp only [TrigOk] at h1 ⊢ <;> try exact h1
    rename_i n'
    simpa [he] using h1

/-- All invariants of the scheduler, with the dead triggers `D`. -/
structure Good (D : Trig → Prop) (w : World) : Prop where
  inv : Inv D w []
  stk : SInv w
  trg : GInv D w

theorem Good.primed {w : World} (h : Good D w) : ∀ n, w.primed n = true → ¬ D (.gpi n) :=
  fun n hp => ((h.trg.trig (.gpi n)).1 hp).2

theorem Good.step {w w' : World} {a : Act} {r : Res} (h : Good D w) (he : Step w a w' r) :
    Good D w' :=
  ⟨h.inv.step (fun t ht => (h.stk.run t).1 ht) h.primed he, h.stk.step h.inv h.primed he,
    h.trg.step h.inv h.stk he⟩

theorem Good.failStep {w w' : World} {a : Act} {r : Res} (h : Good D w) (he : FailStep w a w' r) :
    ∃ n, a = .await (.gpi n) true ∧ Good (fun g => D g ∨ g = .gpi n) w' := by
  have h2 := h.stk.failStep he
  cases he with
  | mk t rest n hi hst hm hc =>
    have hs := (h.stk.run t).1 (by simp [hst])
    exact ⟨n, rfl, h.inv.failStep hs hst hc, h2, h.trg.failStep hs hst hc⟩

theorem good_init : Good (fun _ => False) init := by
  refine ⟨inv_init, sinv_init, fun g => ?_, fun l => ?_⟩
  · cases g <;> simp [TrigOk, init]
  · refine ⟨?_, ?_, ?_⟩ <;> simp [init]

/-- The invariants are preserved by every action; the set of dead triggers only grows, and only by
an `await` the simulator refuses. -/
theorem Good.exec {w w' : World} {a : Act} {r : Res} (h : Good D w)
    (he : exec w a = some (w', r)) :
    ∃ D', Good D' w' ∧ (∀ g, D g → D' g) ∧ (a.noFail = true → D' = D) := by
  rcases (exec_step he).2 with hs | hs
  · exact ⟨D, h.step hs, fun _ h => h, fun _ => rfl⟩
  · obtain ⟨n, rfl, h2⟩ := h.failStep hs
    exact ⟨_, h2, fun _ h => Or.inl h, fun h => by cases h⟩

/-- Every state a run passes through. -/
theorem run_append {as bs : List Act} : ∀ {w : World},
    run w (as ++ bs) = (run w as).bind (fun w' => run w' bs) := by
  induction as with
  | nil => intro w; rfl
  | cons a as ih =>
    intro w
    simp only [List.cons_append, run]
    cases exec w a with
    | none => rfl
    | some p => obtain ⟨w', r⟩ := p; simp only; rw [ih]

/-- Induction over runs: a relation between the start and the current state that holds at the start
and is preserved by every action holds at the end. -/
theorem run_induct {w0 : World} {P : World → Prop} (h0 : ∃ D, Good D w0) (hP : P w0)
    (hstep : ∀ D w w' a r, Good D w → P w → exec w a = some (w', r) →
      (Step w a w' r ∨ FailStep w a w' r) → P w') :
    ∀ {as : List Act} {w : World}, run w0 as = some w → P w ∧ ∃ D, Good D w := by
  intro as
  induction as generalizing w0 with
  | nil => intro w h; cases h; exact ⟨hP, h0⟩
  | cons a as ih =>
    intro w h
    simp only [run] at h
    split at h
    · rename_i w1 r he
      obtain ⟨D, hg⟩ := h0
      obtain ⟨D', hg', -⟩ := hg.exec he
      exact ih ⟨D', hg'⟩ (hstep D _ _ a r hg hP he (exec_step he).2) h
    · cases h

theorem Reach.good {w : World} (h : Reach w) : ∃ D, Good D w := by
  obtain ⟨as, h⟩ := h
  exact (run_induct (P := fun _ => True) ⟨_, good_init⟩ trivial
    (fun _ _ _ _ _ _ _ _ _ => trivial) h).2

theorem Reach.induct {P : World → Prop} (h0 : P init)
    (hstep : ∀ D w w' a r, Good D w → P w → exec w a = some (w', r) →
      (Step w a w' r ∨ FailStep w a w' r) → P w') {w : World} (h : Reach w) : P w := by
  obtain ⟨as, h⟩ := h
  exact (run_induct ⟨_, good_init⟩ h0 hstep h).1

theorem ReachOk.good {w : World} (h : ReachOk w) : Good (fun _ => False) w := by
  obtain ⟨as, hf, h⟩ := h
  have key : ∀ (as : List Act) (w0 : World), Good (fun _ => False) w0 →
      (∀ a ∈ as, a.noFail = true) → run w0 as = some w → Good (fun _ => False) w := by
    intro as
    induction as with
    | nil => intro w0 h0 _ h; cases h; exact h0
    | cons a as ih =>
      intro w0 h0 hf h
      simp only [run] at h
      split at h
      · rename_i w1 r he
        obtain ⟨D', hg, -, hD⟩ := h0.exec he
        rw [hD (hf a (by simp))] at hg
        exact ih w1 hg (fun b hb => hf b (by simp [hb])) h
      · cases h
  exact key as init good_init hf h

theorem ReachOk.reach {w : World} (h : ReachOk w) : Reach w := by
  obtain ⟨as, -, h⟩ := h; exact ⟨as, h⟩

theorem Reach.run {w w' : World} {as : List Act} (h : Reach w) (hr : run w as = some w') :
    Reach w' := by
  obtain ⟨bs, h⟩ := h
  exact ⟨bs ++ as, by rw [run_append, h]; exact hr⟩

theorem Reach.exec {w w' : World} {a : Act} {r : Res} (h : Reach w)
    (he : exec w a = some (w', r)) : Reach w' :=
  h.run (as := [a]) (by simp [Sched.run, he])

/-- What one action does to one task. -/
theorem Good.tstep {w w' : World} {a : Act} {r : Res} (h : Good D w)
    (he : Step w a w' r ∨ FailStep w a w' r) :
    ∃ new, w'.log = w.log ++ new ∧
      ∀ t, TStep a t (w.task t) (w'.task t) (new.filter (·.about t)) := by
  rcases he with he | he
  · exact Step.tstep h.inv (fun t ht => (h.stk.run t).1 ht) h.stk.fin h.primed he
  · exact FailStep.tstep (fun t ht => (h.stk.run t).1 ht) he

end Verif.Sched
