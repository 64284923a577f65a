import Verif.Lemmas.Owned
import Verif.Lemmas.QueueWake

/-! Private events: an event that other code does not set, clear or await. -/

namespace Verif.Sched

variable {D : Trig → Prop}

/-- The action does not involve event `e`. -/
def off (e : Nat) : Act → Bool
  | .setE e' => e' != e
  | .clearE e' => e' != e
  | .await (.event e') _ => e' != e
  | _ => true

/-- Actions by which a running coroutine gives up control. -/
def coroAct : Act → Bool
  | .await _ _ | .yieldBad | .ret _ | .raise _ => true
  | _ => false

theorem coroAct_end {m a x} (h : coroEnd m a = some x) : coroAct a = true := by
  rcases coroEnd_act h with ⟨g, f, rfl⟩ | rfl | ⟨v, rfl⟩ | ⟨e, rfl⟩ <;> rfl

theorem fires_live {w w' : World} {a : Act} {r : Res} (hg : Good D w)
    (he : exec w a = some (w', r)) {g : Trig} (hm : g ∈ firesOn w a) : ¬ D g := by
  intro hD
  obtain ⟨⟨n, rfl⟩, -⟩ := hg.inv.dead g hD
  cases a <;> simp only [firesOn, List.mem_singleton, List.not_mem_nil] at hm
  · cases hm; exact hg.primed n (exec_fire he).1 hD
  · cases hm
  · split at hm <;> simp at hm
  · split at hm
    · split at hm <;> simp at hm
    · simp at hm

theorem fires_event {w : World} {a : Act} {e : Nat} (h : .event e ∈ firesOn w a) : a = .setE e := by
  unfold firesOn at h
  split at h
  · simp at h
  · simp at h; rw [h]
  · split at h <;> simp at h
  · split at h
    · split at h <;> simp at h
    · simp at h
  · simp at h

/-- Who waits for an event goes on waiting unless the event is set or the task is cancelled. -/
theorem pend_step {w w' : World} {a : Act} {r : Res} (hg : Good D w)
    (he : exec w a = some (w', r)) {t e h : Nat} (hs : (w.task t).state = .pending)
    (ht : (w.task t).tcb = some (.event e, h)) (ha : a ≠ .setE e) :
    ((w'.task t).state = .pending ∧ (w'.task t).tcb = (w.task t).tcb) ∨
    a = .cancel t ∨ a = .kill t ∨ a = .cancelNow t := by
  rcases hg.woken (exec_step he).2 hs with h1 | h1 | ⟨g, hgm, hgt⟩
  · exact Or.inl h1
  · exact Or.inr h1
  · exfalso
    obtain ⟨⟨k, u⟩, hm, hu⟩ := List.mem_map.1 hgt
    simp only at hu; subst hu
    have := ((hg.inv.ok u (by simp)).reg g k hm (fires_live hg he hgm)).2
    rw [ht] at this
    simp only [Option.some.injEq, Prod.mk.injEq] at this
    rw [← this.1] at hgm
    exact ha (fires_event hgm)

/-- A task starts waiting for an event only by awaiting it. -/
theorem pend_new {w w' : World} {a : Act} {r : Res} (hg : Good D w)
    (he : exec w a = some (w', r)) {t e h : Nat} (hs : (w'.task t).state = .pending)
    (ht : (w'.task t).tcb = some (.event e, h)) :
    ((w.task t).state = .pending ∧ (w.task t).tcb = some (.event e, h)) ∨
    (w.task t).state = .running ∧ ∃ f, a = .await (.event e) f := by
  obtain ⟨new, -, hts⟩ := hg.tstep (exec_step he).2
  have hT := hts t
  generalize hr' : w'.task t = r' at hT hs ht
  generalize hr : w.task t = r0 at hT
  generalize new.filter (·.about t) = obs at hT
  cases hT with
  | suspend g h' ha hs' hm =>
    obtain ⟨f, ha⟩ := ha
    simp only [Option.some.injEq, Prod.mk.injEq] at ht
    obtain ⟨rfl, -⟩ := ht
    exact Or.inr ⟨hs', f, ha⟩
  | finish s' o' how hs' hce =>
    exfalso
    have := coroEnd_done hce
    simp only at hs; rw [hs] at this; cases this
  | wake => cases hs
  | start => cases hs
  | cancelP => cases hs
  | cancelS ha hs' => simp only at hs; rw [hs'] at hs; cases hs
  | cancelU => cases hs
  | kill => cases hs
  | cancelNow => cases hs
  | run => cases hs
  | suspendWoken => cases hs
  | suspendFail => cases hs
  | yieldBad => cases hs
  | same => exact Or.inl ⟨hs, ht⟩
  | uncancel => exact Or.inl ⟨hs, ht⟩
  | addCb => exact Or.inl ⟨hs, ht⟩
  | addCbDone => exact Or.inl ⟨hs, ht⟩
  | cb => exact Or.inl ⟨hs, ht⟩

/-- Task `p` was suspended on event `e` and has not gone on from there. -/
def OnEvent (e : Nat) (w : World) (p : Nat) : Prop :=
  (w.task p).state.isDone = true ∨
  ((w.task p).state = .pending ∧ (∃ h, (w.task p).tcb = some (.event e, h)) ∧ w.fired e = false) ∨
  (((w.task p).state = .scheduled ∨ (w.task p).state = .running) ∧
    ((w.task p).exc = none ∧ w.fired e = true ∨ (w.task p).exc = some .cancelled))

/-- Task `p` was suspended on a trigger that fires at once and has not gone on from there. -/
def OnNull (w : World) (p : Nat) : Prop :=
  (w.task p).state.isDone = true ∨
  (((w.task p).state = .scheduled ∨ (w.task p).state = .running) ∧
    ((w.task p).exc = none ∨ (w.task p).exc = some .cancelled))

theorem exec_cancel {w w' : World} {p : Nat} {r : Res} (hg : Good D w)
    (he : exec w (.cancel p) = some (w', r)) :
    ((w.task p).state.isDone = true ∧ w' = w ∧ r = .bool false) ∨
    ((w.task p).state = .running ∧ w' = w ∧ r = .raisedRuntime) ∨
    ((w.task p).state.isDone = false ∧ (w.task p).state ≠ .running ∧ r = .bool true ∧
      (w'.task p).state = .scheduled ∧ (w'.task p).exc = some .cancelled ∧
      (w'.task p).mustCancel = (w.task p).mustCancel + 1 ∧
      ∀ u, u ≠ p → w'.task u = w.task u) := by
  unfold exec at he
  split at he
  · cases he
  cases hi : w.inside
  · simp [hi] at he
  simp only [hi, Option.some.injEq] at he
  unfold cancel at he
  split at he
  · cases he; exact Or.inl ⟨by assumption, rfl, rfl⟩
  rename_i hnd
  split at he
  · cases he; exact Or.inr (Or.inl ⟨by assumption, rfl, rfl⟩)
  rename_i hnr
  refine Or.inr (Or.inr ⟨by simpa using hnd, hnr, ?_⟩)
  split at he
  · rename_i hp
    obtain ⟨w1, hd⟩ := deregister_ok hg.inv hg.trg hp
    rw [hd] at he
    cases he
    have ht := (deregister_task hd).1
    refine ⟨rfl, ?_, ?_, ?_, ?_⟩ <;>
      simp +contextual [bumpCancel, World.setTask, scheduleResume, upd_self, ht, upd_ne]
  · split at he
    · rename_i hp
      cases he
      refine ⟨rfl, ?_, ?_, ?_, ?_⟩ <;>
        simp +contextual [bumpCancel, World.setTask, upd_self, upd_ne, hp]
    · cases he
      refine ⟨rfl, ?_, ?_, ?_, ?_⟩ <;>
        simp +contextual [bumpCancel, World.setTask, scheduleResume, upd_self, upd_ne,
          World.addLog]

theorem exec_cancelNow {w w' : World} {p : Nat} {r : Res} (hg : Good D w)
    (he : exec w (.cancelNow p) = some (w', r)) :
    (((w.task p).state.isDone = true ∨ (w.task p).state = .running) ∧ w' = w) ∨
    ((w.task p).state.isDone = false ∧ (w.task p).state ≠ .running ∧
      (w'.task p).state = .running ∧ (w'.task p).exc = some .cancelled) := by
  unfold exec at he
  split at he
  · cases he
  cases hi : w.inside
  · simp [hi] at he
  simp only [hi, Option.some.injEq] at he
  unfold cancelNow at he
  split at he
  · cases he; exact Or.inl ⟨Or.inl (by assumption), rfl⟩
  rename_i hnd
  split at he
  · cases he; exact Or.inl ⟨Or.inr (by assumption), rfl⟩
  rename_i hnr
  split at he
  · rename_i hd
    exfalso
    by_cases hu : (w.task p).state = .unstarted
    · rw [if_pos hu] at hd
      simp [detach, World.addLog, hu] at hd
    · rw [if_neg hu] at hd
      obtain ⟨w1, h1⟩ := detach_ok (t := p) hg.inv hg.trg
      rw [h1] at hd; cases hd
  · cases he
    exact Or.inr ⟨by simpa using hnd, hnr,
      by simp [resume, World.setTask, upd_self], by simp [resume, World.setTask, upd_self]⟩

/-- How the caller of a construct that is suspended in `await` may change. -/
theorem wait_rec {w w' : World} {a : Act} {r : Res} {p : Nat} (hg : Good D w)
    (he : exec w a = some (w', r)) (hu : (w.task p).state ≠ .unstarted)
    (hp : (w.task p).state = .running → coroAct a = false) :
    ((w'.task p).state = (w.task p).state ∧ (w'.task p).exc = (w.task p).exc ∧
      (w'.task p).tcb = (w.task p).tcb) ∨
    ((w.task p).state = .pending ∧ (w'.task p).state = .scheduled ∧ (w'.task p).exc = none ∧
      a ≠ .cancel p ∧ a ≠ .kill p ∧ a ≠ .cancelNow p) ∨
    (((w'.task p).state = .scheduled ∨ (w'.task p).state = .running) ∧
      (w'.task p).exc = some .cancelled ∧ (a = .cancel p ∨ a = .cancelNow p)) ∨
    ((w'.task p).state.isDone = true ∧ a = .kill p) ∨
    (a = .pop ∧ (w.task p).state = .scheduled ∧ (w'.task p).state = .running ∧
      (w'.task p).exc = (w.task p).exc) := by
  by_cases h1 : a = .cancel p
  · subst h1
    rcases exec_cancel hg he with ⟨-, rfl, -⟩ | ⟨-, rfl, -⟩ | ⟨-, -, -, h2, h3, -⟩
    · exact Or.inl ⟨rfl, rfl, rfl⟩
    · exact Or.inl ⟨rfl, rfl, rfl⟩
    · exact Or.inr (Or.inr (Or.inl ⟨Or.inl h2, h3, Or.inl rfl⟩))
  by_cases h2 : a = .cancelNow p
  · subst h2
    rcases exec_cancelNow hg he with ⟨-, rfl⟩ | ⟨-, -, h2, h3⟩
    · exact Or.inl ⟨rfl, rfl, rfl⟩
    · exact Or.inr (Or.inr (Or.inl ⟨Or.inr h2, h3, Or.inr rfl⟩))
  by_cases h3 : a = .kill p
  · subst h3
    rcases Queue.kill_task he with h | h
    · rw [h]; exact Or.inl ⟨rfl, rfl, rfl⟩
    · exact Or.inr (Or.inr (Or.inr (Or.inl ⟨h, rfl⟩)))
  obtain ⟨new, -, hts⟩ := hg.tstep (exec_step he).2
  have hT := hts p
  generalize w'.task p = r' at hT ⊢
  generalize w.task p = r0 at hT hu hp ⊢
  generalize new.filter (·.about p) = obs at hT
  cases hT with
  | same => exact Or.inl ⟨rfl, rfl, rfl⟩
  | wake k hs => exact Or.inr (Or.inl ⟨hs, rfl, rfl, h1, h3, h2⟩)
  | start k ha hs => exact absurd hs hu
  | cancelP k ha => exact absurd ha h1
  | cancelS ha => exact absurd ha h1
  | cancelU k ha => exact absurd ha h1
  | kill ha => exact absurd ha h3
  | cancelNow ha => exact absurd ha h2
  | run ha hs => exact Or.inr (Or.inr (Or.inr (Or.inr ⟨ha, hs, rfl, rfl⟩)))
  | uncancel => exact Or.inl ⟨rfl, rfl, rfl⟩
  | addCb => exact Or.inl ⟨rfl, rfl, rfl⟩
  | addCbDone => exact Or.inl ⟨rfl, rfl, rfl⟩
  | cb => exact Or.inl ⟨rfl, rfl, rfl⟩
  | suspend g h ha hs => obtain ⟨f, rfl⟩ := ha; exact absurd (hp hs) (by simp [coroAct])
  | suspendWoken g h k ha hs => obtain ⟨f, rfl⟩ := ha; exact absurd (hp hs) (by simp [coroAct])
  | suspendFail n h k ha hs => subst ha; exact absurd (hp hs) (by simp [coroAct])
  | yieldBad k ha hs => subst ha; exact absurd (hp hs) (by simp [coroAct])
  | finish s' o' how hs hce => rw [coroAct_end hce] at hp; exact absurd (hp hs) (by simp)

theorem OnEvent.step {w w' : World} {a : Act} {r : Res} {e p : Nat} (hg : Good D w)
    (he : exec w a = some (w', r)) (h : OnEvent e w p) (ho : off e a = true)
    (hp : (w.task p).state = .running → coroAct a = false) : OnEvent e w' p := by
  have hf : w'.fired e = w.fired e := by
    refine Queue.fired_step hg (exec_step he).2 ?_ ?_
    · rintro rfl; simp [off] at ho
    · rintro rfl; simp [off] at ho
  have hu : (w.task p).state ≠ .unstarted := by
    intro hu; rcases h with h | ⟨h, -⟩ | ⟨h | h, -⟩ <;> rw [hu] at h <;> cases h
  rcases wait_rec hg he hu hp with ⟨h1, h2, h3⟩ | ⟨h1, h2, h3, h4, h5, h6⟩ | ⟨h1, h2, -⟩ | ⟨h1, -⟩ |
      ⟨-, h1, h2, h3⟩
  · unfold OnEvent; rw [h1, h2, h3, hf]; exact h
  · exfalso
    rcases h with h | ⟨-, ⟨hh, h7⟩, -⟩ | ⟨h, -⟩
    · rw [h1] at h; cases h
    · rcases pend_step hg he h1 h7 (by rintro rfl; simp [off] at ho) with h8 | rfl | rfl | rfl
      · rw [h2] at h8; cases h8.1
      · exact h4 rfl
      · exact h5 rfl
      · exact h6 rfl
    · rcases h with h | h <;> rw [h1] at h <;> cases h
  · exact Or.inr (Or.inr ⟨h1, Or.inr h2⟩)
  · exact Or.inl h1
  · rcases h with h | ⟨h, -⟩ | ⟨-, h⟩
    · rw [h1] at h; cases h
    · rw [h1] at h; cases h
    · exact Or.inr (Or.inr ⟨Or.inr h2, by rw [h3, hf]; exact h⟩)

theorem OnNull.step {w w' : World} {a : Act} {r : Res} {p : Nat} (hg : Good D w)
    (he : exec w a = some (w', r)) (h : OnNull w p)
    (hp : (w.task p).state = .running → coroAct a = false) : OnNull w' p := by
  have hu : (w.task p).state ≠ .unstarted := by
    intro hu; rcases h with h | ⟨h | h, -⟩ <;> rw [hu] at h <;> cases h
  rcases wait_rec hg he hu hp with ⟨h1, h2, h3⟩ | ⟨h1, h2, h3, h4, h5, h6⟩ | ⟨h1, h2, -⟩ | ⟨h1, -⟩ |
      ⟨-, h1, h2, h3⟩
  · unfold OnNull; rw [h1, h2]; exact h
  · exact Or.inr ⟨Or.inl h2, Or.inl h3⟩
  · exact Or.inr ⟨h1, Or.inr h2⟩
  · exact Or.inl h1
  · rcases h with h | ⟨-, h⟩
    · rw [h1] at h; cases h
    · exact Or.inr ⟨Or.inr h2, by rw [h3]; exact h⟩

/-- Setting the event wakes whoever waits for it. -/
theorem OnEvent.set {w : World} {e p : Nat} (hg : Good D w) (h : OnEvent e w p) :
    OnEvent e (setEvent w e) p := by
  have hfi : (setEvent w e).fired e = true := by
    unfold setEvent
    rw [(react_aux _ _).1.fired]
    simp [World.addLog, upd_self]
  generalize hv : ({ w with fired := upd w.fired e true } : World).addLog (.setE e) = v
  have hvt : v.task = w.task := by subst hv; rfl
  have hvc : v.cbs = w.cbs := by subst hv; rfl
  have hse : setEvent w e = react v (.event e) := by subst hv; rfl
  rw [hse] at hfi ⊢
  have hreg : On v (.event e) p → (w.task p).state = .pending := by
    intro hon
    obtain ⟨⟨k, u⟩, hm, hu⟩ := List.mem_map.1 hon
    simp only at hu; subst hu
    rw [hvc] at hm
    exact ((hg.inv.ok u (by simp)).reg _ k hm (hg.inv.gpiDead (by simp))).1
  by_cases hon : On v (.event e) p
  · obtain ⟨k, hk⟩ := react_task_on v (.event e) p hon
    refine Or.inr (Or.inr ⟨Or.inl ?_, Or.inl ⟨?_, hfi⟩⟩) <;> rw [hk]
  · have ht : (react v (.event e)).task p = w.task p := by
      rw [react_task_off v (.event e) p hon, hvt]
    unfold OnEvent
    rw [ht, hfi]
    rcases h with h | ⟨h, ⟨hh, h2⟩, -⟩ | ⟨h, h2⟩
    · exact Or.inl h
    · exfalso
      obtain ⟨g, hh', hc, hm⟩ := (hg.inv.ok p (by simp)).pend h
      rw [h2] at hc
      simp only [Option.some.injEq, Prod.mk.injEq] at hc
      rw [← hc.1, ← hvc] at hm
      exact hon (List.mem_map.2 ⟨_, hm, rfl⟩)
    · refine Or.inr (Or.inr ⟨h, ?_⟩)
      rcases h2 with ⟨h2, -⟩ | h2
      · exact Or.inl ⟨h2, rfl⟩
      · exact Or.inr h2

end Verif.Sched
