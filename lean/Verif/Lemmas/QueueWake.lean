import Verif.Lemmas.Queue
import Verif.Props.Queue
import Verif.Props.SchedCurrent

/-! The wait invariant of queues: nobody who could go on is left without a wake-up. -/

namespace Verif.Queue

open Sched

variable {α : Type} {lt : α → α → Bool}

theorem fired_step {D : Trig → Prop} {w w' : World} {a : Act} {r : Res} (hg : Good D w)
    (he : Step w a w' r ∨ FailStep w a w' r) {e : Nat} (h1 : a ≠ .setE e) (h2 : a ≠ .clearE e) :
    w'.fired e = w.fired e := by
  rcases he with he | he
  case inr => cases he; rfl
  cases he with
  | fire m hi hp =>
    exact congrFun (react_aux _ (.gpi m)).1.fired e
  | cancelPending u w1 hi hu hd =>
    obtain ⟨-, -, -, -, -, -, d7, -⟩ := deregister_task hd
    simp only [bumpCancel, World.setTask, scheduleResume, d7]
  | kill u w1 hi hnd hnr hd =>
    obtain ⟨-, -, -, -, -, d7, -⟩ := detach_task hd
    simp only [setOutcome, d7]
  | cancelNow u w1 hi hnd hnr hd =>
    obtain ⟨-, -, -, -, -, d7, -⟩ := detach_task hd
    simp only [resume, bumpCancel, World.setTask, d7]
    split <;> rfl
  | setE e' hi =>
    have hx := (react_aux (World.addLog { w with fired := upd w.fired e' true } (.setE e'))
      (.event e')).1
    unfold setEvent
    rw [hx.fired]
    simp only [World.addLog]
    rw [upd_ne _ _ (by rintro rfl; exact h1 rfl)]
  | clearE e' hi =>
    simp only [clearEvent, World.addLog]
    rw [upd_ne _ _ (by rintro rfl; exact h2 rfl)]
  | releaseGrant l m n ns hi hc hpd =>
    simp [acquireAndFire, (react_aux _ _).1.fired, World.addLog, World.setLock]
  | await u rest g fails hi hst hr hm =>
    have hs := (hg.stk.run u).1 (by simp [hst])
    have hX : Inv D { w with stack := rest } [u] :=
      (hg.inv.addX (t := u) (by rw [hs]; exact not_waiting_running)).congr rfl rfl rfl rfl rfl
    obtain ⟨-, -, -, -, -, e5, -⟩ := register_task (t := u) (g := g)
      (w := (World.setTask { w with stack := rest } u
          { w.task u with state := .pending }).addLog (.suspend u g))
      (Inv.log (hX.setTaskX (by simp)) _)
      (by simp [World.addLog, World.setTask, upd_self])
    dsimp only
    rw [e5]; rfl
  | cbEnd u i how rest hi hst hc =>
    have hx1 := (react_aux { w with stack := rest } (.complete u)).1
    have hx2 := (react_aux (react { w with stack := rest } (.complete u)) (.join u)).1
    unfold finishEnd; cases how <;> simp [hx2.fired, hx1.fired]
  | _ => rfl

/-- The waiting line of a side. -/
def line (s : QW α) : Bool → List (Nat × Nat)
  | true => s.getters
  | false => s.putters

def setLine (s : QW α) (b : Bool) (l : List (Nat × Nat)) : QW α :=
  match b with
  | true => { s with getters := l }
  | false => { s with putters := l }

theorem line_setLine (s : QW α) (b : Bool) (l : List (Nat × Nat)) : line (setLine s b l) b = l := by
  cases b <;> rfl

theorem line_setLine_other (s : QW α) (b c : Bool) (l : List (Nat × Nat)) (h : c ≠ b) :
    line (setLine s b l) c = line s c := by
  cases b <;> cases c <;> first | rfl | exact absurd rfl h

/-- How many calls of a side could go on: as many `get`s as there are items, as many `put`s as
there are free slots. -/
def need (s : QW α) : Bool → Int
  | true => s.items.length
  | false => s.maxsize - s.items.length

/-- Task `t` is in a call of side `b` and is about to go on normally. -/
def Woken (s : QW α) (b : Bool) (t : Nat) : Prop :=
  ∃ o, s.op t = some o ∧ side o = b ∧ (s.w.task t).state = .scheduled ∧ (s.w.task t).exc = none

/-- Task `t` waits in a call of side `b` for the private event `e`. -/
def Blocked (s : QW α) (b : Bool) (t e : Nat) : Prop :=
  (s.w.task t).state = .pending ∧ (∃ h, (s.w.task t).tcb = some (.event e, h)) ∧
  ∃ o, s.op t = some o ∧ side o = b

structure QI (sl : Bool → Int) (s : QW α) : Prop where
  calm : Calm s.w
  known : ∀ t k h, (s.w.task t).state = .pending →
    (s.w.task t).tcb = some (.event (2 * k + 1), h) → ∃ b, (2 * k + 1, t) ∈ line s b
  fresh : ∀ k, s.nEv ≤ k → s.w.fired (2 * k + 1) = false
  lineOk : ∀ b, ∀ p ∈ line s b, (∃ k, k < s.nEv ∧ p.1 = 2 * k + 1) ∧ s.w.fired p.1 = false ∧
    (s.w.done p.2 = true ∨ Blocked s b p.2 p.1)
  nodup : ((line s true ++ line s false).map Prod.fst).Nodup
  opOk : ∀ t o, s.op t = some o → s.w.done t = true ∨ Woken s (side o) t ∨
    ∃ e, Blocked s (side o) t e ∧ (e, t) ∈ line s (side o)
  cnt : ∀ b, (∃ p ∈ line s b, s.w.done p.2 = false) →
    ∃ W : List Nat, W.Nodup ∧ need s b ≤ W.length + sl b ∧ ∀ t ∈ W, Woken s b t

theorem nodup_side {s : QW α} (h : ((line s true ++ line s false).map Prod.fst).Nodup) (b : Bool) :
    ((line s b).map Prod.fst).Nodup ∧
    ∀ p ∈ line s b, ∀ q ∈ line s (!b), p.1 ≠ q.1 := by
  rw [List.map_append, List.nodup_append] at h
  obtain ⟨h1, h2, h3⟩ := h
  cases b
  · refine ⟨h2, fun p hp q hq he => ?_⟩
    exact h3 q.1 (List.mem_map_of_mem hq) p.1 (List.mem_map_of_mem hp) he.symm
  · exact ⟨h1, fun p hp q hq he =>
      h3 p.1 (List.mem_map_of_mem hp) q.1 (List.mem_map_of_mem hq) he⟩

theorem side_nodup {s : QW α} {b : Bool} (h1 : ((line s b).map Prod.fst).Nodup)
    (h2 : ((line s (!b)).map Prod.fst).Nodup)
    (h3 : ∀ p ∈ line s b, ∀ q ∈ line s (!b), p.1 ≠ q.1) :
    ((line s true ++ line s false).map Prod.fst).Nodup := by
  rw [List.map_append, List.nodup_append]
  cases b
  · refine ⟨h2, h1, ?_⟩
    intro x hx y hy
    obtain ⟨p, hp, rfl⟩ := List.mem_map.1 hx
    obtain ⟨q, hq, rfl⟩ := List.mem_map.1 hy
    exact fun he => h3 q hq p hp he.symm
  · refine ⟨h1, h2, ?_⟩
    intro x hx y hy
    obtain ⟨p, hp, rfl⟩ := List.mem_map.1 hx
    obtain ⟨q, hq, rfl⟩ := List.mem_map.1 hy
    exact h3 p hp q hq

/-- More slack, other items, other log. -/
theorem QI.data {sl sl' : Bool → Int} {s s' : QW α} (h : QI sl s) (hw : s'.w = s.w)
    (hg : s'.getters = s.getters) (hp : s'.putters = s.putters) (hn : s'.nEv = s.nEv)
    (ho : s'.op = s.op) (hneed : ∀ b, need s' b - sl' b ≤ need s b - sl b) : QI sl' s' := by
  have hline : ∀ b, line s' b = line s b := by intro b; cases b <;> simp [line, hg, hp]
  have hW : ∀ b t, Woken s b t → Woken s' b t := by
    intro b t; unfold Woken; rw [ho, hw]; exact id
  have hB : ∀ b t e, Blocked s b t e → Blocked s' b t e := by
    intro b t e; unfold Blocked; rw [ho, hw]; exact id
  refine ⟨hw ▸ h.calm, ?_, ?_, ?_, ?_, ?_, ?_⟩
  · intro t k hh; rw [hw]; simp only [hline]; exact h.known t k hh
  · intro k; rw [hn, hw]; exact h.fresh k
  · intro b p hm
    rw [hline] at hm
    obtain ⟨h1, h2, h3⟩ := h.lineOk b p hm
    rw [hn, hw]
    exact ⟨h1, h2, h3.imp id (hB _ _ _)⟩
  · simp only [hline]; exact h.nodup
  · intro t o
    rw [ho, hw]
    intro hop
    rcases h.opOk t o hop with h1 | h1 | ⟨e, h1, h2⟩
    · exact Or.inl h1
    · exact Or.inr (Or.inl (hW _ _ h1))
    · exact Or.inr (Or.inr ⟨e, hB _ _ _ h1, by rw [hline]; exact h2⟩)
  · intro b
    rw [hline, hw]
    intro hl
    obtain ⟨W, h1, h2, h3⟩ := h.cnt b hl
    have := hneed b
    exact ⟨W, h1, by omega, fun t ht => hW _ _ (h3 t ht)⟩

/-- Forget the call of a task that is about to go on. -/
theorem QI.dropOp {sl : Bool → Int} {s : QW α} (h : QI sl s) {t : Nat} {o : Op α}
    (hop : s.op t = some o) (hs : (s.w.task t).state = .scheduled) :
    QI (fun b => sl b + if b = side o then 1 else 0) { s with op := upd s.op t none } := by
  have hne : ∀ u o', upd s.op t none u = some o' → u ≠ t ∧ s.op u = some o' := by
    intro u o' h'
    by_cases hu : u = t
    · subst hu; rw [upd_self] at h'; cases h'
    · rw [upd_ne _ _ hu] at h'; exact ⟨hu, h'⟩
  have hline : ∀ b, line { s with op := upd s.op t none } b = line s b := by intro b; cases b <;> rfl
  have hW : ∀ b u, u ≠ t → Woken s b u → Woken { s with op := upd s.op t none } b u := by
    rintro b u hu ⟨o', h1, h2⟩
    exact ⟨o', by simp only; rw [upd_ne _ _ hu]; exact h1, h2⟩
  have hB : ∀ b u e, Blocked s b u e → Blocked { s with op := upd s.op t none } b u e := by
    rintro b u e ⟨h1, h2, o', h3, h4⟩
    refine ⟨h1, h2, o', ?_, h4⟩
    have : u ≠ t := by rintro rfl; rw [hs] at h1; cases h1
    simp only; rw [upd_ne _ _ this]; exact h3
  refine ⟨h.calm, ?_, h.fresh, ?_, h.nodup, ?_, ?_⟩
  · intro u k hh; simp only [hline]; exact h.known u k hh
  · intro b p hm
    rw [hline] at hm
    obtain ⟨h1, h2, h3⟩ := h.lineOk b p hm
    exact ⟨h1, h2, h3.imp id (hB _ _ _)⟩
  · intro u o' h'
    obtain ⟨hu, h'⟩ := hne u o' h'
    rcases h.opOk u o' h' with h1 | h1 | ⟨e, h1, h2⟩
    · exact Or.inl h1
    · exact Or.inr (Or.inl (hW _ _ hu h1))
    · exact Or.inr (Or.inr ⟨e, hB _ _ _ h1, by rw [hline]; exact h2⟩)
  · intro b
    rw [hline]
    intro hl
    obtain ⟨W, h1, h2, h3⟩ := h.cnt b hl
    have hn : need { s with op := upd s.op t none } b = need s b := by cases b <;> rfl
    refine ⟨W.erase t, h1.erase t, ?_, ?_⟩
    · rw [hn]
      by_cases hm : t ∈ W
      · obtain ⟨o', e1, e2, -⟩ := h3 t hm
        rw [hop] at e1; cases e1
        have := List.length_erase_of_mem hm
        have hpos : 0 < W.length := List.length_pos_of_mem hm
        rw [if_pos e2.symm]
        omega
      · rw [List.erase_of_not_mem hm]
        split <;> omega
    · intro u hu
      have hut : u ≠ t := by rintro rfl; exact (List.Nodup.mem_erase_iff h1).1 hu |>.1 rfl
      exact hW _ _ hut (h3 u (List.mem_of_mem_erase hu))

/-- A step of the scheduler that leaves the waiting calls alone, or ends some of those that have not
been woken. -/
theorem QI.frame {sl : Bool → Int} {s : QW α} (h : QI sl s) {w' : World} (hc : Calm w')
    (hf : ∀ k, w'.fired (2 * k + 1) = s.w.fired (2 * k + 1))
    (hd : ∀ t, s.w.done t = true → w'.done t = true)
    (hk : ∀ t k hh, (w'.task t).state = .pending → (w'.task t).tcb = some (.event (2 * k + 1), hh) →
      (s.w.task t).state = .pending ∧ (s.w.task t).tcb = some (.event (2 * k + 1), hh))
    (ho : ∀ t, s.op t ≠ none →
      ((w'.task t).state = (s.w.task t).state ∧ (w'.task t).exc = (s.w.task t).exc ∧
        (w'.task t).tcb = (s.w.task t).tcb) ∨
      (w'.done t = true ∧ (s.w.task t).state ≠ .scheduled)) : QI sl { s with w := w' } := by
  have hline : ∀ b, line { s with w := w' } b = line s b := by intro b; cases b <;> rfl
  have hW : ∀ b u, Woken s b u → Woken { s with w := w' } b u := by
    rintro b u ⟨o', h1, h2, h3, h4⟩
    rcases ho u (by rw [h1]; simp) with ⟨e1, e2, -⟩ | ⟨-, e2⟩
    · exact ⟨o', h1, h2, e1.trans h3, e2.trans h4⟩
    · exact absurd h3 e2
  have hB : ∀ b u e, Blocked s b u e → w'.done u = true ∨ Blocked { s with w := w' } b u e := by
    rintro b u e ⟨h1, ⟨hh, h2⟩, o', h3, h4⟩
    rcases ho u (by rw [h3]; simp) with ⟨e1, -, e3⟩ | ⟨e1, -⟩
    · exact Or.inr ⟨e1.trans h1, ⟨hh, e3.trans h2⟩, o', h3, h4⟩
    · exact Or.inl e1
  refine ⟨hc, ?_, ?_, ?_, h.nodup, ?_, ?_⟩
  · intro t k hh h1 h2
    obtain ⟨e1, e2⟩ := hk t k hh h1 h2
    simp only [hline]; exact h.known t k hh e1 e2
  · intro k hk'; simp only [hf]; exact h.fresh k hk'
  · intro b p hm
    rw [hline] at hm
    obtain ⟨⟨k, h1, h1'⟩, h2, h3⟩ := h.lineOk b p hm
    refine ⟨⟨k, h1, h1'⟩, ?_, ?_⟩
    · rw [h1'] at h2 ⊢; simp only [hf]; exact h2
    · rcases h3 with h3 | h3
      · exact Or.inl (hd _ h3)
      · exact hB _ _ _ h3
  · intro t o hop
    rcases h.opOk t o hop with h1 | h1 | ⟨e, h1, h2⟩
    · exact Or.inl (hd _ h1)
    · exact Or.inr (Or.inl (hW _ _ h1))
    · rcases hB _ _ _ h1 with h3 | h3
      · exact Or.inl h3
      · exact Or.inr (Or.inr ⟨e, h3, by rw [hline]; exact h2⟩)
  · intro b
    rw [hline]
    rintro ⟨p, hp, hpd⟩
    have hpd' : s.w.done p.2 = false := by
      cases hx : s.w.done p.2
      · rfl
      · simp only at hpd; rw [hd _ hx] at hpd; cases hpd
    obtain ⟨W, h1, h2, h3⟩ := h.cnt b ⟨p, hp, hpd'⟩
    have hn : need { s with w := w' } b = need s b := by cases b <;> rfl
    exact ⟨W, h1, by rw [hn]; exact h2, fun t ht => hW _ _ (h3 t ht)⟩

theorem foreign_fires {a : Act} (hfa : foreign a = true) (w : World) (k : Nat) :
    .event (2 * k + 1) ∉ firesOn w a := by
  intro h
  unfold firesOn at h
  split at h
  · simp at h
  · rename_i e
    simp at h
    subst h
    simp [foreign] at hfa
  · split at h <;> simp at h
  · split at h
    · split at h <;> simp at h
    · simp at h
  · simp at h

theorem kill_task {w w' : World} {t : Nat} {r : Res} (he : Sched.exec w (.kill t) = some (w', r)) :
    w'.task t = w.task t ∨ w'.done t = true := by
  unfold Sched.exec at he
  split at he
  · cases he
  cases hi : w.inside
  · simp [hi] at he
  simp only [hi, Option.some.injEq] at he
  unfold Sched.kill at he
  split at he
  · simp only [Prod.mk.injEq] at he; rw [he.1]; exact Or.inl rfl
  split at he
  · simp only [Prod.mk.injEq] at he; rw [he.1]; exact Or.inl rfl
  split at he
  · simp only [Prod.mk.injEq] at he; rw [he.1]; exact Or.inl rfl
  · simp only [Prod.mk.injEq] at he
    rw [← he.1]
    right
    simp [World.done, setOutcome, upd_self, TState.isDone]

/-- Other code's steps, except those that resume a waiting call. -/
theorem QI.foreign {sl : Bool → Int} {s : QW α} (h : QI sl s) {a : Act} {w' : World} {r : Res}
    (hfa : foreign a = true) (he : Sched.exec s.w a = some (w', r))
    (h1 : ∀ t, a ≠ .cancelNow t) (h2 : ∀ t, a = .cancel t → s.op t = none)
    (h3 : ∀ t, a = .kill t → s.op t = none ∨ (s.w.task t).state ≠ .scheduled)
    (h4 : ∀ t, s.op t ≠ none → a = .pop → (w'.task t).state ≠ .running) :
    QI sl { s with w := w' } := by
  have hcalm : Calm w' := h.calm.step he (fun t ht => absurd ht (h1 t))
  obtain ⟨D, hg⟩ := h.calm.reach.good
  have hs := (exec_step he).2
  obtain ⟨new, -, hts⟩ := hg.tstep hs
  refine h.frame hcalm ?_ ?_ ?_ ?_
  · intro k
    refine fired_step hg hs ?_ ?_
    · rintro rfl; simp [Queue.foreign] at hfa
    · rintro rfl; simp [Queue.foreign] at hfa
  · intro t hd
    unfold World.done at *
    exact (Sched.TStep.done_same (hts t) hd).1 ▸ hd
  · intro t k hh hp ht
    have hT := hts t
    generalize hr' : w'.task t = r' at hT hp ht
    generalize hr : s.w.task t = r0 at hT
    generalize new.filter (·.about t) = obs at hT
    cases hT with
    | suspend g h' ha hs hm =>
      obtain ⟨f, ha⟩ := ha
      simp only [Option.some.injEq, Prod.mk.injEq] at ht
      obtain ⟨rfl, -⟩ := ht
      subst ha
      simp [Queue.foreign] at hfa
    | finish s' o' how hs' hce =>
      exfalso
      have := coroEnd_done hce
      simp only at hp; rw [hp] at this; cases this
    | wake => cases hp
    | start => cases hp
    | cancelP => cases hp
    | cancelS ha hs => simp only at hp; rw [hs] at hp; cases hp
    | cancelU => cases hp
    | kill => cases hp
    | cancelNow => cases hp
    | run => cases hp
    | suspendWoken => cases hp
    | suspendFail => cases hp
    | yieldBad => cases hp
    | same => exact ⟨hp, ht⟩
    | uncancel => exact ⟨hp, ht⟩
    | addCb => exact ⟨hp, ht⟩
    | addCbDone => exact ⟨hp, ht⟩
    | cb => exact ⟨hp, ht⟩
  · intro t hop
    have hst : s.w.done t = true ∨ (s.w.task t).state = .scheduled ∨
        (s.w.task t).state = .pending ∧ ∃ e hh, (s.w.task t).tcb = some (.event e, hh) ∧
          ∃ k, e = 2 * k + 1 := by
      obtain ⟨o, ho⟩ := Option.ne_none_iff_exists'.1 hop
      rcases h.opOk t o ho with h' | ⟨_, _, _, h', _⟩ | ⟨e, ⟨h', ⟨hh, h''⟩, _⟩, hm⟩
      · exact Or.inl h'
      · exact Or.inr (Or.inl h')
      · obtain ⟨⟨k, -, hk⟩, -⟩ := h.lineOk _ _ hm
        exact Or.inr (Or.inr ⟨h', e, hh, h'', k, hk⟩)
    have hnr : (s.w.task t).state ≠ .running ∧ (s.w.task t).state ≠ .unstarted := by
      unfold World.done at hst
      rcases hst with h' | h' | ⟨h', -⟩
      · constructor <;> intro h'' <;> rw [h''] at h' <;> cases h'
      · rw [h']; simp
      · rw [h']; simp
    have hnw : (s.w.task t).state = .pending → (w'.task t).state = .scheduled → False := by
      intro hp hp'
      rcases hst with h' | h' | ⟨-, e, hh, htcb, k, rfl⟩
      · unfold World.done at h'; rw [hp] at h'; cases h'
      · rw [hp] at h'; cases h'
      · rcases hg.woken hs (t := t) hp with h' | h' | ⟨g, hgm, hgt⟩
        · rw [hp'] at h'; cases h'.1
        · rcases h' with h' | h' | h'
          · exact hop (h2 t h')
          · subst h'
            rcases kill_task he with h'' | h''
            · rw [h'', hp] at hp'; cases hp'
            · unfold World.done at h''; rw [hp'] at h''; cases h''
          · exact h1 t h'
        · obtain ⟨⟨k', u⟩, hm, hu⟩ := List.mem_map.1 hgt
          simp only at hu; subst hu
          have hgD : ¬ D g := by
            intro hD
            obtain ⟨⟨n, rfl⟩, -⟩ := hg.inv.dead g hD
            cases a <;> simp only [firesOn, List.mem_singleton, List.not_mem_nil] at hgm
            · cases hgm; exact hg.primed n (exec_fire he).1 hD
            · cases hgm
            · split at hgm <;> simp at hgm
            · split at hgm
              · split at hgm <;> simp at hgm
              · simp at hgm
          have := ((hg.inv.ok u (by simp)).reg g k' hm hgD).2
          rw [htcb] at this
          simp only [Option.some.injEq, Prod.mk.injEq] at this
          rw [← this.1] at hgm
          exact foreign_fires hfa _ _ hgm
    have hT := hts t
    have h4' := h4 t hop
    generalize hr' : w'.task t = r' at hT hnw h4' ⊢
    generalize hr : s.w.task t = r0 at hT hnr hnw ⊢
    generalize new.filter (·.about t) = obs at hT
    cases hT with
    | same => exact Or.inl ⟨rfl, rfl, rfl⟩
    | wake k hs => exact (hnw hs rfl).elim
    | start k ha hs => exact absurd hs hnr.2
    | cancelP k ha hs => exact absurd (h2 t ha) hop
    | cancelS ha hs => exact absurd (h2 t ha) hop
    | cancelU k ha hs => exact absurd (h2 t ha) hop
    | kill ha hnd hnr' =>
      refine Or.inr ⟨by unfold World.done; rw [hr']; rfl, ?_⟩
      rcases h3 t ha with h' | h'
      · exact absurd h' hop
      · rw [hr] at h'; exact h'
    | cancelNow ha => exact absurd ha (h1 t)
    | run ha hs => exact absurd rfl (h4' ha)
    | uncancel => exact Or.inl ⟨rfl, rfl, rfl⟩
    | addCb => exact Or.inl ⟨rfl, rfl, rfl⟩
    | addCbDone => exact Or.inl ⟨rfl, rfl, rfl⟩
    | suspend g h ha hs => exact absurd hs hnr.1
    | suspendWoken g h k ha hs => exact absurd hs hnr.1
    | suspendFail n h k ha hs => exact absurd hs hnr.1
    | yieldBad k ha hs => exact absurd hs hnr.1
    | finish s' o' how hs => exact absurd hs hnr.1
    | cb => exact Or.inl ⟨rfl, rfl, rfl⟩

/-- `wakeupNext` skips finished tasks and sets the event of the first other one. -/
theorem wakeupNext_cases (w : World) (l : List (Nat × Nat)) :
    ((∀ p ∈ l, w.done p.2 = true) ∧ wakeupNext w l = (w, [])) ∨
    ∃ pre e t rest, l = pre ++ (e, t) :: rest ∧ (∀ p ∈ pre, w.done p.2 = true) ∧
      w.done t = false ∧ wakeupNext w l = (setEvent w e, rest) := by
  induction l with
  | nil => exact Or.inl ⟨by simp, rfl⟩
  | cons p l ih =>
    obtain ⟨e, t⟩ := p
    cases hd : w.done t with
    | false =>
      exact Or.inr ⟨[], e, t, l, rfl, by simp, hd, by simp [wakeupNext, hd]⟩
    | true =>
      rcases ih with ⟨h1, h2⟩ | ⟨pre, e', t', rest, h1, h2, h3, h4⟩
      · exact Or.inl ⟨by simpa [hd] using h1, by simp [wakeupNext, hd, h2]⟩
      · exact Or.inr ⟨(e, t) :: pre, e', t', rest, by simp [h1], by simpa [hd] using h2, h3,
          by simp [wakeupNext, hd, h4]⟩

/-- `_wakeup_next`: the slack of the side shrinks by one. -/
theorem QI.wake {sl : Bool → Int} {s : QW α} (h : QI sl s) (hact : active s.w = true) (b : Bool) :
    QI (fun c => sl c - if c = b then 1 else 0)
      (setLine { s with w := (wakeupNext s.w (line s b)).1 } b (wakeupNext s.w (line s b)).2) := by
  have hn : ∀ (w : World) l c, need (setLine { s with w := w } b l) c = need s c := by
    intro w l c; cases b <;> cases c <;> rfl
  have hop : ∀ (w : World) l, (setLine { s with w := w } b l).op = s.op := by
    intro w l; cases b <;> rfl
  have hww : ∀ (w : World) l, (setLine { s with w := w } b l).w = w := by
    intro w l; cases b <;> rfl
  have hnev : ∀ (w : World) l, (setLine { s with w := w } b l).nEv = s.nEv := by
    intro w l; cases b <;> rfl
  have hoth : ∀ (w : World) l c, c ≠ b → line (setLine { s with w := w } b l) c = line s c := by
    intro w l c hc; rw [line_setLine_other _ _ _ _ hc]; cases c <;> rfl
  rcases wakeupNext_cases s.w (line s b) with ⟨h1, h2⟩ | ⟨pre, e, t, rest, h1, h2, h3, h4⟩
  · rw [h2]
    dsimp only
    have hW : ∀ c u, Woken s c u → Woken (setLine { s with w := s.w } b []) c u := by
      intro c u; unfold Woken; rw [hop, hww]; exact id
    have hB : ∀ c u e, Blocked s c u e → Blocked (setLine { s with w := s.w } b []) c u e := by
      intro c u e; unfold Blocked; rw [hop, hww]; exact id
    have hsub : ∀ c, ∀ p ∈ line s c, s.w.done p.2 = false →
        p ∈ line (setLine { s with w := s.w } b []) c := by
      intro c p hp hd
      by_cases hc : c = b
      · subst hc; rw [h1 p hp] at hd; cases hd
      · rw [hoth _ _ _ hc]; exact hp
    have hsup : ∀ c, ∀ p ∈ line (setLine { s with w := s.w } b []) c, p ∈ line s c ∧ c ≠ b := by
      intro c p hp
      by_cases hc : c = b
      · subst hc; rw [line_setLine] at hp; cases hp
      · rw [hoth _ _ _ hc] at hp; exact ⟨hp, hc⟩
    refine ⟨by rw [hww]; exact h.calm, ?_, ?_, ?_, ?_, ?_, ?_⟩
    · rw [hww]
      intro u k hh hp ht
      obtain ⟨c, hc⟩ := h.known u k hh hp ht
      exact ⟨c, hsub c _ hc (by unfold World.done; simp only; rw [hp]; rfl)⟩
    · rw [hww, hnev]; exact h.fresh
    · intro c p hp
      obtain ⟨hp, hcb⟩ := hsup c p hp
      obtain ⟨e1, e2, e3⟩ := h.lineOk c p hp
      rw [hww, hnev]
      exact ⟨e1, e2, e3.imp id (hB _ _ _)⟩
    · refine side_nodup (b := b) ?_ ?_ ?_
      · rw [line_setLine]; simp
      · rw [hoth _ _ _ (by cases b <;> simp)]; exact (nodup_side h.nodup (!b)).1
      · intro p hp; rw [line_setLine] at hp; cases hp
    · intro u o ho
      rw [hop] at ho
      rw [hww]
      rcases h.opOk u o ho with e1 | e1 | ⟨e, e1, e2⟩
      · exact Or.inl e1
      · exact Or.inr (Or.inl (hW _ _ e1))
      · refine Or.inr (Or.inr ⟨e, hB _ _ _ e1, hsub _ _ e2 ?_⟩)
        unfold World.done; simp only; rw [e1.1]; rfl
    · rintro c ⟨p, hp, hpd⟩
      rw [hww] at hpd
      obtain ⟨hp, hcb⟩ := hsup c p hp
      obtain ⟨W, e1, e2, e3⟩ := h.cnt c ⟨p, hp, hpd⟩
      refine ⟨W, e1, ?_, fun u hu => hW _ _ (e3 u hu)⟩
      rw [hn, if_neg hcb]; omega
  · rw [h4]
    dsimp only
    have hm : (e, t) ∈ line s b := by rw [h1]; simp
    obtain ⟨⟨k, hk, hek⟩, hfe, hbl⟩ := h.lineOk b _ hm
    simp only at hek hfe hbl
    have hbl : Blocked s b t e := by
      rcases hbl with h' | h'
      · rw [h3] at h'; cases h'
      · exact h'
    have hina : s.w.halted = false ∧ s.w.inside = true := by
      unfold active at hact; simpa [and_comm] using hact
    have hex : Sched.exec s.w (.setE e) = some (setEvent s.w e, .ok) := by
      unfold Sched.exec; simp [hina.1, hina.2]
    have hcalm : Calm (setEvent s.w e) := h.calm.step hex (by simp)
    obtain ⟨D, hg⟩ := h.calm.reach.good
    -- only `t` waits for the event
    obtain ⟨hnb, hnx⟩ := nodup_side h.nodup b
    have honly : ∀ c u, (e, u) ∈ line s c → c = b ∧ u = t := by
      intro c u hu
      by_cases hc : c = b
      · subst hc
        exact ⟨rfl, by have := eq_of_nodup_map hnb hu hm rfl; cases this; rfl⟩
      · have : c = !b := by cases b <;> cases c <;> simp_all
        subst this
        exact absurd rfl (hnx (e, t) hm (e, u) hu)
    have hwait : ∀ u, u ∈ waiters s.w (.event e) → u = t := by
      intro u hu
      obtain ⟨⟨k', u'⟩, hmm, hu'⟩ := List.mem_map.1 hu
      simp only at hu'; subst hu'
      obtain ⟨e1, e2⟩ := (hg.inv.ok u' (by simp)).reg _ _ hmm (hg.inv.gpiDead (by simp))
      rw [hek] at e2
      obtain ⟨c, hc⟩ := h.known u' k k' e1 e2
      rw [← hek] at hc
      exact (honly c u' hc).2
    have ht : t ∈ waiters s.w (.event e) := by
      obtain ⟨e1, ⟨hh, e2⟩, -⟩ := hbl
      obtain ⟨g, h', e3, e4⟩ := (hg.inv.ok t (by simp)).pend e1
      rw [e2] at e3
      simp only [Option.some.injEq, Prod.mk.injEq] at e3
      obtain ⟨rfl, rfl⟩ := e3
      exact List.mem_map.2 ⟨_, e4, rfl⟩
    obtain ⟨-, -, -, hset, hrest⟩ := C33_set_wakes_all hex
    have hT := hset t ht
    have hoT : ∀ u, u ≠ t → (setEvent s.w e).task u = s.w.task u :=
      fun u hu => hrest u (fun h' => hu (hwait u h'))
    have hdone : ∀ u, (setEvent s.w e).done u = s.w.done u := by
      intro u
      by_cases hu : u = t
      · subst hu; rw [h3]; unfold World.done; rw [hT.1]; rfl
      · unfold World.done; rw [hoT u hu]
    have hfired : ∀ e', e' ≠ e → (setEvent s.w e).fired e' = s.w.fired e' := by
      intro e' he'
      refine fired_step hg (exec_step hex).2 ?_ (by simp)
      intro h'; cases h'; exact he' rfl
    -- who waits for another event
    have hB : ∀ c u e', e' ≠ e → Blocked s c u e' →
        Blocked (setLine { s with w := setEvent s.w e } b rest) c u e' := by
      rintro c u e' he' ⟨b1, ⟨hh, b2⟩, b3⟩
      have hu : u ≠ t := by
        rintro rfl
        obtain ⟨-, ⟨h', b2'⟩, -⟩ := hbl
        rw [b2'] at b2; cases b2; exact he' rfl
      unfold Blocked
      rw [hww, hop, hoT u hu]
      exact ⟨b1, ⟨hh, b2⟩, b3⟩
    have hW : ∀ c u, Woken s c u → Woken (setLine { s with w := setEvent s.w e } b rest) c u := by
      rintro c u ⟨o, w1, w2, w3, w4⟩
      have hu : u ≠ t := by rintro rfl; rw [hbl.1] at w3; cases w3
      unfold Woken
      rw [hww, hop, hoT u hu]
      exact ⟨o, w1, w2, w3, w4⟩
    have hWt : Woken (setLine { s with w := setEvent s.w e } b rest) b t := by
      obtain ⟨-, -, o, b3, b4⟩ := hbl
      unfold Woken
      rw [hww, hop]
      exact ⟨o, b3, b4, hT.1, hT.2⟩
    have hsup : ∀ c, ∀ p ∈ line (setLine { s with w := setEvent s.w e } b rest) c,
        p ∈ line s c ∧ p.1 ≠ e := by
      intro c p hp
      by_cases hc : c = b
      · subst hc
        rw [line_setLine] at hp
        refine ⟨by rw [h1]; simp [hp], ?_⟩
        intro he
        rw [h1] at hnb
        simp only [List.map_append, List.map_cons] at hnb
        have := (List.nodup_append.1 hnb).2.1
        rw [List.nodup_cons] at this
        exact this.1 (List.mem_map.2 ⟨p, hp, he⟩)
      · rw [hoth _ _ _ hc] at hp
        refine ⟨hp, fun he => ?_⟩
        obtain ⟨p1, p2⟩ := p
        simp only at he; subst he
        exact hc (honly c p2 hp).1
    have hsub : ∀ c, ∀ p ∈ line s c, s.w.done p.2 = false → p.1 ≠ e →
        p ∈ line (setLine { s with w := setEvent s.w e } b rest) c := by
      intro c p hp hd hne
      by_cases hc : c = b
      · subst hc
        rw [line_setLine]
        rw [h1] at hp
        rcases List.mem_append.1 hp with hp | hp
        · rw [h2 p hp] at hd; cases hd
        · rcases List.mem_cons.1 hp with rfl | hp
          · exact absurd rfl hne
          · exact hp
      · rw [hoth _ _ _ hc]; exact hp
    refine ⟨by rw [hww]; exact hcalm, ?_, ?_, ?_, ?_, ?_, ?_⟩
    · rw [hww]
      intro u k' hh hp htc
      have hu : u ≠ t := by rintro rfl; rw [hT.1] at hp; cases hp
      rw [hoT u hu] at hp htc
      obtain ⟨c, hc⟩ := h.known u k' hh hp htc
      refine ⟨c, hsub c _ hc (by unfold World.done; simp only; rw [hp]; rfl) ?_⟩
      intro he
      simp only at he
      rw [he] at hc
      exact hu (honly c u hc).2
    · rw [hww, hnev]
      intro k' hk'
      rw [hfired _ (by omega)]
      exact h.fresh k' hk'
    · intro c p hp
      obtain ⟨hp, hne⟩ := hsup c p hp
      obtain ⟨e1, e2, e3⟩ := h.lineOk c p hp
      rw [hww, hnev, hfired _ hne, hdone]
      exact ⟨e1, e2, e3.imp id (hB _ _ _ hne)⟩
    · refine side_nodup (b := b) ?_ ?_ ?_
      · rw [line_setLine]
        rw [h1] at hnb
        simp only [List.map_append, List.map_cons] at hnb
        have := (List.nodup_append.1 hnb).2.1
        rw [List.nodup_cons] at this
        exact this.2
      · rw [hoth _ _ _ (by cases b <;> simp)]; exact (nodup_side h.nodup (!b)).1
      · intro p hp q hq
        exact hnx p (hsup b p hp).1 q (hsup (!b) q hq).1
    · intro u o ho
      rw [hop] at ho
      rw [hww, hdone]
      rcases h.opOk u o ho with e1 | e1 | ⟨e', e1, e2⟩
      · exact Or.inl e1
      · exact Or.inr (Or.inl (hW _ _ e1))
      · by_cases he : e' = e
        · subst he
          obtain ⟨h5, h6⟩ := honly _ u e2
          subst h6
          refine Or.inr (Or.inl ?_)
          rw [h5]; exact hWt
        · refine Or.inr (Or.inr ⟨e', hB _ _ _ he e1, hsub _ _ e2 ?_ he⟩)
          unfold World.done; simp only; rw [e1.1]; rfl
    · rintro c ⟨p, hp, hpd⟩
      rw [hww, hdone] at hpd
      obtain ⟨hp, hne⟩ := hsup c p hp
      obtain ⟨W, e1, e2, e3⟩ := h.cnt c ⟨p, hp, hpd⟩
      by_cases hc : c = b
      · subst hc
        refine ⟨t :: W, List.nodup_cons.2 ⟨?_, e1⟩, ?_, ?_⟩
        · intro htW
          obtain ⟨o, -, -, w3, -⟩ := e3 t htW
          rw [hbl.1] at w3; cases w3
        · rw [hn, if_pos rfl]
          simp only [List.length_cons]
          omega
        · intro u hu
          rcases List.mem_cons.1 hu with rfl | hu
          · exact hWt
          · exact hW _ _ (e3 u hu)
      · refine ⟨W, e1, ?_, fun u hu => hW _ _ (e3 u hu)⟩
        rw [hn, if_neg hc]; omega

/-- Waiting for a private event nobody knows yet. -/
theorem await_fresh {w w' : World} {r : Res} {t e : Nat} {rest : List Frame}
    (hst : w.stack = .running t :: rest) (hc : w.cbs (.event e) = []) (hf : w.fired e = false)
    (he : Sched.exec w (.await (.event e) false) = some (w', r)) :
    (∀ u, u ≠ t → w'.task u = w.task u) ∧ w'.fired = w.fired ∧
    (w'.done t = true ∨
      (w'.task t).state = .pending ∧ ∃ h, (w'.task t).tcb = some (.event e, h)) := by
  unfold Sched.exec at he
  split at he
  · cases he
  cases hi : w.inside
  · simp [hi] at he
  simp only [hi, hst, execCoro, awaitRefused, Bool.false_eq_true, if_false, Option.some.injEq,
    Prod.mk.injEq] at he
  obtain ⟨he, -⟩ := he
  subst he
  unfold suspendOn
  split
  · refine ⟨fun u hu => by simp [setOutcome, upd_ne _ _ hu], rfl, Or.inl ?_⟩
    simp [World.done, setOutcome, upd_self, TState.isDone]
  · simp only [register, World.addLog, World.setTask, hc, List.isEmpty_nil, if_true, prime, hf,
      Bool.false_eq_true, if_false]
    exact ⟨fun u hu => by simp [upd_ne _ _ hu], trivial,
      Or.inr ⟨by simp [upd_self], w.nHandle, by simp [upd_self]⟩⟩

/-- The running task `t` joins the line of its call and waits. -/
theorem QI.block {sl : Bool → Int} {s s' : QW α} (h : QI sl s) {t : Nat} {o : Op α}
    {rest : List Frame} (hst : s.w.stack = .running t :: rest) (hop : s.op t = none)
    (hneed : need s (side o) ≤ 0) (hsl : sl (!side o) ≤ 0)
    (hb : block (setLine s (side o) (line s (side o) ++ [(2 * s.nEv + 1, t)])) t o = some s') :
    QI (fun _ => 0) s' := by
  generalize hside : side o = b at *
  have hww : (setLine s b (line s b ++ [(2 * s.nEv + 1, t)])).w = s.w := by cases b <;> rfl
  have hnev : (setLine s b (line s b ++ [(2 * s.nEv + 1, t)])).nEv = s.nEv := by cases b <;> rfl
  have hops : (setLine s b (line s b ++ [(2 * s.nEv + 1, t)])).op = s.op := by cases b <;> rfl
  unfold Queue.block at hb
  rw [hww, hnev, hops] at hb
  split at hb
  · cases hb
  rename_i w' r he
  simp only [Option.some.injEq] at hb
  obtain ⟨D, hg⟩ := h.calm.reach.good
  have hcalm : Calm w' := h.calm.step he (by simp)
  have hlt : ∀ c p, p ∈ line s c → p.1 ≠ 2 * s.nEv + 1 := by
    intro c p hp
    obtain ⟨⟨k, h1, h2⟩, -⟩ := h.lineOk c p hp
    omega
  have hcbs : s.w.cbs (.event (2 * s.nEv + 1)) = [] := by
    rw [List.eq_nil_iff_forall_not_mem]
    rintro ⟨hh, u⟩ hm
    obtain ⟨e1, e2⟩ := (hg.inv.ok u (by simp)).reg _ _ hm (hg.inv.gpiDead (by simp))
    obtain ⟨c, hc⟩ := h.known u s.nEv hh e1 e2
    exact hlt c _ hc rfl
  obtain ⟨hoT, hfired, hT⟩ := await_fresh hst hcbs (h.fresh _ (Nat.le_refl _)) he
  have hrun : (s.w.task t).state = .running := (hg.stk.run t).1 (by simp [hst])
  -- the new state
  have ew : s'.w = w' := by rw [← hb]
  have en : s'.nEv = s.nEv + 1 := by rw [← hb]
  have eo : s'.op = upd s.op t (if (w'.task t).state = .pending then some o else none) := by
    rw [← hb]
  have el : ∀ c, line s' c = if c = b then line s b ++ [(2 * s.nEv + 1, t)] else line s c := by
    intro c; rw [← hb]; cases b <;> cases c <;> rfl
  have eneed : ∀ c, need s' c = need s c := by
    intro c; rw [← hb]; cases b <;> cases c <;> rfl
  have hdone : ∀ u, u ≠ t → w'.done u = s.w.done u := by
    intro u hu; unfold World.done; rw [hoT u hu]
  have hW : ∀ c u, Woken s c u → Woken s' c u := by
    rintro c u ⟨o', w1, w2, w3, w4⟩
    have hu : u ≠ t := by rintro rfl; rw [hrun] at w3; cases w3
    unfold Woken
    rw [ew, eo, hoT u hu, upd_ne _ _ hu]
    exact ⟨o', w1, w2, w3, w4⟩
  have hB : ∀ c u e, Blocked s c u e → Blocked s' c u e := by
    rintro c u e ⟨b1, b2, b3⟩
    have hu : u ≠ t := by rintro rfl; rw [hrun] at b1; cases b1
    unfold Blocked
    rw [ew, eo, hoT u hu, upd_ne _ _ hu]
    exact ⟨b1, b2, b3⟩
  have hBt : w'.done t = true ∨ Blocked s' b t (2 * s.nEv + 1) := by
    rcases hT with hT | ⟨h1, hh, h2⟩
    · exact Or.inl hT
    · refine Or.inr ⟨by rw [ew]; exact h1, ⟨hh, by rw [ew]; exact h2⟩, o, ?_, hside⟩
      rw [eo, upd_self, if_pos h1]
  have hdt : ∀ c p, p ∈ line s c → p.2 = t → s.w.done p.2 = true := by
    intro c p hp hpt
    rcases (h.lineOk c p hp).2.2 with h' | ⟨h', -⟩
    · exact h'
    · rw [hpt, hrun] at h'; cases h'
  have hnotdone : s.w.done t = false := by unfold World.done; rw [hrun]; rfl
  have hnt : ∀ c p, p ∈ line s c → p.2 ≠ t := by
    intro c p hp hpt
    have := hdt c p hp hpt
    rw [hpt, hnotdone] at this; cases this
  have hsup : ∀ c, ∀ p ∈ line s' c, p ∈ line s c ∨ (c = b ∧ p = (2 * s.nEv + 1, t)) := by
    intro c p hp
    rw [el] at hp
    split at hp
    · rename_i hc
      subst hc
      rcases List.mem_append.1 hp with hp | hp
      · exact Or.inl hp
      · exact Or.inr ⟨rfl, by simpa using hp⟩
    · exact Or.inl hp
  have hsub : ∀ c, ∀ p ∈ line s c, p ∈ line s' c := by
    intro c p hp
    rw [el]
    split
    · rename_i hc; subst hc; simp [hp]
    · exact hp
  have hnew : (2 * s.nEv + 1, t) ∈ line s' b := by rw [el, if_pos rfl]; simp
  refine ⟨ew ▸ hcalm, ?_, ?_, ?_, ?_, ?_, ?_⟩
  · rw [ew]
    intro u k hh hp htc
    by_cases hu : u = t
    · subst hu
      rcases hT with hT | ⟨-, h', h2⟩
      · unfold World.done at hT; rw [hp] at hT; cases hT
      · rw [h2] at htc
        simp only [Option.some.injEq, Prod.mk.injEq, Trig.event.injEq] at htc
        rw [← htc.1]
        exact ⟨b, hnew⟩
    · rw [hoT u hu] at hp htc
      obtain ⟨c, hc⟩ := h.known u k hh hp htc
      exact ⟨c, hsub c _ hc⟩
  · rw [ew, en, hfired]
    intro k hk
    exact h.fresh k (by omega)
  · intro c p hp
    rw [ew, en, hfired]
    rcases hsup c p hp with hp | ⟨rfl, rfl⟩
    · obtain ⟨⟨k, k1, k2⟩, e2, e3⟩ := h.lineOk c p hp
      refine ⟨⟨k, by omega, k2⟩, e2, ?_⟩
      rw [hdone _ (hnt c p hp)]
      exact e3.imp id (hB _ _ _)
    · exact ⟨⟨s.nEv, by omega, rfl⟩, h.fresh _ (Nat.le_refl _), hBt⟩
  · have hnb := nodup_side h.nodup b
    refine side_nodup (b := b) ?_ ?_ ?_
    · rw [el, if_pos rfl, List.map_append, List.nodup_append]
      refine ⟨hnb.1, by simp, ?_⟩
      intro x hx y hy hxy
      obtain ⟨p, hp, rfl⟩ := List.mem_map.1 hx
      simp at hy
      exact hlt b p hp (by omega)
    · rw [el, if_neg (by cases b <;> simp)]; exact (nodup_side h.nodup (!b)).1
    · intro p hp q hq
      have hq : q ∈ line s (!b) := by rwa [el, if_neg (by cases b <;> simp)] at hq
      rcases hsup b p hp with hp | ⟨-, rfl⟩
      · exact hnb.2 p hp q hq
      · exact fun h' => hlt _ q hq h'.symm
  · intro u o' ho
    rw [eo] at ho
    by_cases hu : u = t
    · subst hu
      rw [upd_self] at ho
      split at ho
      · cases ho
        rcases hBt with h' | h'
        · exact Or.inl (ew ▸ h')
        · exact Or.inr (Or.inr ⟨_, by rw [hside]; exact h', by rw [hside]; exact hnew⟩)
      · cases ho
    · rw [upd_ne _ _ hu] at ho
      rw [ew, hdone u hu]
      rcases h.opOk u o' ho with e1 | e1 | ⟨e, e1, e2⟩
      · exact Or.inl e1
      · exact Or.inr (Or.inl (hW _ _ e1))
      · exact Or.inr (Or.inr ⟨e, hB _ _ _ e1, hsub _ _ e2⟩)
  · rintro c ⟨p, hp, hpd⟩
    rw [eneed]
    by_cases hc : c = b
    · subst hc
      exact ⟨[], by simp, by simpa using hneed, by simp⟩
    · rcases hsup c p hp with hp | ⟨h', -⟩
      · rw [ew, hdone _ (hnt c p hp)] at hpd
        obtain ⟨W, e1, e2, e3⟩ := h.cnt c ⟨p, hp, hpd⟩
        have : c = !b := by cases b <;> cases c <;> simp_all
        subst this
        exact ⟨W, e1, by omega, fun u hu => hW _ _ (e3 u hu)⟩
      · exact absurd h' hc

theorem putItem_length (k : Kind) (items : List α) (x : α) :
    (putItem lt k items x).length = items.length + 1 := by
  rw [(putItem_perm k items x).length_eq]; simp

theorem QI.putNowait {sl : Bool → Int} {s s' : QW α} (h : QI sl s) (hact : active s.w = true)
    {c : Nat} {x : α} (he : putNowait lt s c x = some s') :
    QI (fun b => sl b - if b = false then 1 else 0) s' := by
  unfold Queue.putNowait at he
  split at he
  · cases he
  · simp only [Option.some.injEq] at he
    have h1 : QI (fun b => sl b + if b then 1 else -1)
        { s with items := putItem lt s.kind s.items x, log := s.log ++ [.put c x] } := by
      refine h.data rfl rfl rfl rfl rfl ?_
      intro b
      cases b <;> simp only [need, putItem_length] <;> simp <;> omega
    have h2 := h1.wake hact true
    have h3 : setLine { s with
        items := putItem lt s.kind s.items x
        log := s.log ++ [.put c x]
        w := (wakeupNext s.w s.getters).1 } true (wakeupNext s.w s.getters).2 = s' := by
      rw [← he]; rfl
    rw [← h3]
    refine QI.data h2 rfl rfl rfl rfl rfl ?_
    intro b
    cases b <;> simp [need, setLine] <;> omega

theorem QI.getNowait {sl : Bool → Int} {s s' : QW α} (h : QI sl s) (hact : active s.w = true)
    {c : Nat} {x : α} (he : getNowait lt s c = some (x, s')) :
    QI (fun b => sl b - if b = true then 1 else 0) s' := by
  unfold Queue.getNowait at he
  split at he
  · cases he
  · split at he
    · cases he
    rename_i y rest hi
    simp only [Option.some.injEq, Prod.mk.injEq] at he
    obtain ⟨-, he⟩ := he
    have hlen := (getItem_perm hi).length_eq
    simp only [List.length_cons] at hlen
    have h1 : QI (fun b => sl b + if b then -1 else 1)
        { s with items := rest, log := s.log ++ [.got c y] } := by
      refine h.data rfl rfl rfl rfl rfl ?_
      intro b
      cases b <;> simp only [need, hlen] <;> simp <;> omega
    have h2 := h1.wake hact false
    have h3 : setLine { s with
        items := rest
        log := s.log ++ [.got c y]
        w := (wakeupNext s.w s.putters).1 } false (wakeupNext s.w s.putters).2 = s' := by
      rw [← he]; rfl
    rw [← h3]
    refine QI.data h2 rfl rfl rfl rfl rfl ?_
    intro b
    cases b <;> simp [need, setLine] <;> omega

theorem upd_same {β γ : Type} [DecidableEq β] (f : β → γ) (a : β) : upd f a (f a) = f := by
  funext x; unfold upd; split <;> simp_all

/-- The loops of `put` and `get`. -/
theorem QI.loop {s s' : QW α} {t : Nat} {o : Op α}
    (h : QI (fun b => if b = side o then 1 else 0) s) (hact : active s.w = true)
    {rest : List Frame} (hst : s.w.stack = .running t :: rest) (hop : s.op t = none)
    (he : loop lt s t o = some s') : QI (fun _ => 0) s' := by
  have hcur : s.w.current = some t := by
    have := h.calm.ok
    rw [hst] at this
    exact this.1
  have hsame : upd s.op t none = s.op := by
    have := upd_same s.op t
    rw [hop] at this; exact this
  cases o with
  | put c x =>
    simp only [Queue.loop] at he
    split at he
    · rename_i hf
      rw [hcur] at he
      dsimp only at he
      refine QI.block (o := .put c x) h hst hop ?_ (by simp [side]) he
      unfold full at hf
      simp only [side, need]
      split at hf
      · cases hf
      · simp at hf; omega
    · rw [hsame] at he
      have := QI.putNowait (s := s) h hact he
      refine this.data rfl rfl rfl rfl rfl ?_
      intro b; cases b <;> simp [side]
  | get c =>
    simp only [Queue.loop] at he
    split at he
    · rename_i hf
      rw [hcur] at he
      dsimp only at he
      refine QI.block (o := .get c) h hst hop ?_ (by simp [side]) he
      unfold empty at hf
      simp only [decide_eq_true_eq] at hf
      simp [side, need, hf]
    · rw [hsame] at he
      simp only [Option.map_eq_some_iff] at he
      obtain ⟨⟨x, s1⟩, he, rfl⟩ := he
      have := QI.getNowait (s := s) h hact he
      refine this.data rfl rfl rfl rfl rfl ?_
      intro b; cases b <;> simp [side]

/-- What a history may not do for its tasks to be sure not to lose a wake-up: cancel a task that is
in a queue operation, kill one that has already been woken, or use the immediate form of
cancellation. -/
def gentle (s : QW α) : QAct α → Prop
  | .sched (.cancelNow _) => False
  | .sched (.cancel t) => s.op t = none
  | .sched (.kill t) => s.op t = none ∨ (s.w.task t).state ≠ .scheduled
  | _ => True

theorem loop_op (s : QW α) (t : Nat) (o : Op α) :
    loop lt { s with op := upd s.op t none } t o = loop lt s t o := by
  have h2 : ∀ v : Option (Op α), upd (upd s.op t none) t v = upd s.op t v := by
    intro v; funext x; unfold upd; split <;> rfl
  cases o with
  | put c x =>
    simp only [Queue.loop, raiseOut, Queue.block, h2]
    rfl
  | get c =>
    simp only [Queue.loop, raiseOut, Queue.block, h2]
    rfl

theorem continueOp_idle {s : QW α} (h : s.w.stack = []) : continueOp lt s = some s := by
  unfold continueOp; rw [h]

theorem QI.exec {s s' : QW α} {a : QAct α} (h : QI (fun _ => 0) s) (hgen : gentle s a)
    (he : Queue.exec lt s a = some s') : QI (fun _ => 0) s' := by
  have hrunOp : ∀ {t rest}, s.w.stack = .running t :: rest → s.op t = none := by
    intro t rest hst
    cases ho : s.op t with
    | none => rfl
    | some o =>
      exfalso
      obtain ⟨D, hg⟩ := h.calm.reach.good
      have hrun : (s.w.task t).state = .running := (hg.stk.run t).1 (by simp [hst])
      rcases h.opOk t o ho with h1 | ⟨_, _, _, h1, _⟩ | ⟨e, ⟨h1, _⟩, _⟩
      · unfold World.done at h1; rw [hrun] at h1; cases h1
      · rw [hrun] at h1; cases h1
      · rw [hrun] at h1; cases h1
  have hbegin : ∀ (ob : Obs α) (b : Bool),
      QI (fun c => if c = b then 1 else 0) (begin s ob) := by
    intro ob b
    refine h.data rfl rfl rfl rfl rfl ?_
    intro c
    have : need (begin s ob) c = need s c := by cases c <;> rfl
    rw [this]; split <;> omega
  cases a with
  | sched a =>
    simp only [Queue.exec] at he
    by_cases hfa : Queue.foreign a = true
    case neg => rw [if_neg hfa] at he; cases he
    rw [if_pos hfa] at he
    split at he
    · cases he
    rename_i w' r hex
    have hf : (∀ t, s.op t ≠ none → a = .pop → (w'.task t).state ≠ .running) →
        QI (fun _ => 0) { s with w := w' } := by
      intro h4
      refine h.foreign hfa hex ?_ ?_ ?_ h4
      · rintro t rfl; exact hgen
      · rintro t rfl; exact hgen
      · rintro t rfl; exact hgen
    split at he
    · rename_i hres
      cases a <;> simp only [resumes, Bool.false_eq_true] at hres
      case cancelNow => exact hgen.elim
      obtain ⟨D, hg⟩ := h.calm.reach.good
      obtain ⟨hhalt, hstep⟩ := exec_step hex
      rcases hstep with hstep | hstep
      case inr => cases hstep
      cases hstep with
      | popCancelled e rest hi hst hq hc =>
        have h1 : QI (fun _ => 0) { s with w := { s.w with queue := rest } } := by
          apply hf
          intro t ht _ hrun
          have := (hg.stk.run t).2 hrun
          simp [hst] at this
        rw [continueOp_idle (by exact hst), Option.some.injEq] at he
        rw [← he]; exact h1
      | popRun e rest hi hst hq hc =>
        have hsch := ((hg.inv.ok e.task (by simp)).live e (by simp [hq]) rfl hc).1
        have hst' : (resume { s.w with queue := rest } e.task).stack = [.running e.task] := by
          simp [resume, hst]
        simp only [continueOp, hst'] at he
        have hothers : ∀ u, u ≠ e.task →
            ((resume { s.w with queue := rest } e.task).task u).state ≠ .running := by
          intro u hu hrun
          simp only [resume, upd_ne _ _ hu] at hrun
          have := (hg.stk.run u).2 hrun
          simp [hst] at this
        cases ho : s.op e.task with
        | none =>
          rw [ho] at he
          simp only [Option.some.injEq] at he
          rw [← he]
          apply hf
          intro t ht _
          refine hothers t ?_
          rintro rfl; exact ht ho
        | some o =>
          rw [ho] at he
          dsimp only at he
          have hexc : (s.w.task e.task).exc = none := by
            rcases h.opOk _ o ho with h1 | ⟨_, _, _, _, h1⟩ | ⟨_, ⟨h1, _⟩, _⟩
            · unfold World.done at h1; rw [hsch] at h1; cases h1
            · exact h1
            · rw [hsch] at h1; cases h1
          rw [if_pos (by simp [resume, upd_self, hexc])] at he
          rw [← loop_op] at he
          have h1 := h.dropOp ho hsch
          have h2 := h1.foreign (a := .pop) hfa hex (by simp) (by simp) (by simp) (by
            intro t ht _
            refine hothers t ?_
            rintro rfl
            exact ht (upd_self ..))
          have h3 : QI (fun b => if b = side o then 1 else 0)
              ({ s with w := resume { s.w with queue := rest } e.task,
                        op := upd s.op e.task none } : QW α) := by
            refine QI.data h2 rfl rfl rfl rfl rfl ?_
            intro b
            cases b <;> simp [need]
          refine QI.loop (o := o) h3 ?_ hst' (upd_self ..) he
          simp [active, resume, hi, hhalt]
      | nop _ _ hi hr =>
        -- a `pop` always does something
        unfold Sched.exec at hex
        rw [if_neg (by simp [hhalt])] at hex
        simp only [hi] at hex
        split at hex
        · rename_i e rest hst hq
          split at hex
          · simp only [Option.some.injEq, Prod.mk.injEq] at hex
            have := congrArg World.queue hex.1
            simp only [hq] at this
            exact absurd (congrArg List.length this) (by simp)
          · simp only [Option.some.injEq, Prod.mk.injEq] at hex
            have := congrArg World.stack hex.1
            simp [resume, hst] at this
        · cases hex
      | finish _ t rest s0 o0 how hi hst hce => simp [coroEnd] at hce
    · rename_i hres
      simp only [Option.some.injEq] at he
      rw [← he]
      apply hf
      rintro t ht rfl
      simp [resumes] at hres
  | put x =>
    simp only [Queue.exec] at he
    split at he
    · rename_i hact
      split at he
      · rename_i t rest hst
        exact QI.loop (hbegin _ _) hact hst (hrunOp hst) he
      · cases he
    · cases he
  | get =>
    simp only [Queue.exec] at he
    split at he
    · rename_i hact
      split at he
      · rename_i t rest hst
        exact QI.loop (hbegin _ _) hact hst (hrunOp hst) he
      · cases he
    · cases he
  | putNowait x =>
    simp only [Queue.exec] at he
    split at he
    · rename_i hact
      split at he
      · simp only [Option.some.injEq] at he
        rw [← he]
        refine h.data rfl rfl rfl rfl rfl ?_
        intro c; cases c <;> simp [need, refuse, begin]
      · rename_i s1 hp
        simp only [Option.some.injEq] at he
        rw [← he]
        have h1 : QI (fun _ => 0) (begin s (.startPut s.nCall x)) := by
          refine h.data rfl rfl rfl rfl rfl ?_
          intro c; cases c <;> simp [need, begin]
        refine (h1.putNowait hact hp).data rfl rfl rfl rfl rfl ?_
        intro c; cases c <;> simp; omega
    · cases he
  | getNowait =>
    simp only [Queue.exec] at he
    split at he
    · rename_i hact
      split at he
      · simp only [Option.some.injEq] at he
        rw [← he]
        refine h.data rfl rfl rfl rfl rfl ?_
        intro c; cases c <;> simp [need, refuse, begin]
      · rename_i x s1 hp
        simp only [Option.some.injEq] at he
        rw [← he]
        have h1 : QI (fun _ => 0) (begin s (.startGet s.nCall)) := by
          refine h.data rfl rfl rfl rfl rfl ?_
          intro c; cases c <;> simp [need, begin]
        refine (h1.getNowait hact hp).data rfl rfl rfl rfl rfl ?_
        intro c; cases c <;> simp; omega
    · cases he

/-- Histories all of whose steps are gentle. -/
inductive Gentle (lt : α → α → Bool) (k : Kind) (m : Int) : QW α → Prop
  | new : Gentle lt k m (Queue.new k m)
  | step {s s' : QW α} {a : QAct α} : Gentle lt k m s → gentle s a → Queue.exec lt s a = some s' →
    Gentle lt k m s'

theorem Gentle.qi {k : Kind} {m : Int} {s : QW α} (h : Gentle lt k m s) : QI (fun _ => 0) s := by
  induction h with
  | new =>
    refine ⟨.init, ?_, ?_, ?_, ?_, ?_, ?_⟩
    · intro t k hh h; simp [Queue.new] at h
    · intro k _; rfl
    · intro b p hp; cases b <;> simp [line, Queue.new] at hp
    · simp [line, Queue.new]
    · intro t o h; simp [Queue.new] at h
    · rintro b ⟨p, hp, -⟩; cases b <;> simp [line, Queue.new] at hp
  | step _ hg he ih => exact ih.exec hg he

end Verif.Queue
