import Verif.Lemmas.Race
import Verif.Props.Wait

/-!
The tasks of one call of `wait` form pairs in the sense of Lemmas/Race.lean.
-/

namespace Verif.Wait

open Sched SchedSpec ExtSpec Ext

/-- Acts that do not kill and do not cancel on the spot. -/
def Mild (ts : List Nat) (a : Act) : Prop := ∀ t ∈ ts, a ≠ .kill t ∧ a ≠ .cancelNow t

/-- Later worlds, by mild acts. -/
inductive Later (ts : List Nat) (w : World) : World → Prop
  | refl : Later ts w w
  | step {v v' : World} {a : Act} {r : Res} : Later ts w v → Sched.exec v a = some (v', r) →
    Mild ts a → Later ts w v'

theorem Later.api {ts : List Nat} {w v : World} {a : Act} (h : Later ts w v) (ha : Mild ts a) :
    Later ts w (Sched.api v a) := by
  unfold Sched.api
  split
  · rename_i w' r he
    exact h.step he ha
  · exact h

theorem Later.trans {ts : List Nat} {w v u : World} (h : Later ts w v) (h' : Later ts v u) :
    Later ts w u := by
  induction h' with
  | refl => exact h
  | step _ he ha ih => exact ih.step he ha

theorem Later.pair {ts : List Nat} {w v : World} {t u : Nat} (h : Later ts w v) (ht : t ∈ ts)
    (hu : u ∈ ts) (hp : Pair t u w) : Pair t u v := by
  induction h with
  | refl => exact hp
  | step _ he ha ih => exact ih.step he ⟨(ha t ht).1, (ha t ht).2, (ha u hu).1, (ha u hu).2⟩

theorem mild_cancel {ts : List Nat} (t : Nat) : Mild ts (.cancel t) := by intro x _; simp
theorem mild_uncancel {ts : List Nat} (t : Nat) : Mild ts (.uncancel t) := by intro x _; simp
theorem mild_setE {ts : List Nat} (t : Nat) : Mild ts (.setE t) := by intro x _; simp
theorem mild_await {ts : List Nat} (g : Trig) (f : Bool) : Mild ts (.await g f) := by intro x _; simp

theorem later_cancel {ts : List Nat} (l : List Nat) : ∀ w : World,
    Later ts w (l.foldl (fun w t => Sched.api w (.cancel t)) w) := by
  induction l with
  | nil => intro w; exact .refl
  | cons x l ih =>
    intro w
    exact ((Later.refl (w := w)).api (mild_cancel x)).trans (ih _)

theorem later_cancelRemaining (s : WS) : Later s.waiters s.w (cancelRemaining s).w ∧
    (cancelRemaining s).waiters = s.waiters := by
  unfold cancelRemaining
  split
  · exact ⟨.refl, rfl⟩
  · exact ⟨later_cancel _ _, rfl⟩

theorem later_doneCallback (s : WS) (t : Nat) : Later s.waiters s.w (doneCallback s t).w ∧
    (doneCallback s t).waiters = s.waiters ∧ (doneCallback s t).phase = s.phase := by
  have key : ∀ s2 : WS, Later s.waiters s.w s2.w → s2.waiters = s.waiters → s2.phase = s.phase →
      Later s.waiters s.w (if s2.first = none ∧ decides s2.mode s2.w t = true then
        cancelRemaining { s2 with first := some t } else s2).w ∧
      (if s2.first = none ∧ decides s2.mode s2.w t = true then
        cancelRemaining { s2 with first := some t } else s2).waiters = s.waiters ∧
      (if s2.first = none ∧ decides s2.mode s2.w t = true then
        cancelRemaining { s2 with first := some t } else s2).phase = s.phase := by
    intro s2 h1 h2 h3
    split
    · obtain ⟨h4, h5⟩ := later_cancelRemaining { s2 with first := some t }
      refine ⟨?_, h5.trans h2, ?_⟩
      · rw [← h2] at h1 ⊢
        exact h1.trans h4
      · rw [← h3]; unfold cancelRemaining; split <;> rfl
    · exact ⟨h1, h2, h3⟩
  unfold doneCallback
  dsimp only
  split
  · exact key _ (Later.refl.api (mild_setE _)) rfl rfl
  · exact key _ .refl rfl rfl

theorem later_drain {s s' : WS} (h : drain s = some s') :
    Later s.waiters s.w s'.w ∧ s'.waiters = s.waiters ∧ s'.phase ≠ .idle := by
  unfold drain at h
  split at h
  · cases h; exact ⟨.refl, rfl, by simp⟩
  · split at h
    · cases h
    · rename_i w' r he
      cases h
      refine ⟨Later.refl.step he (mild_await _ _), rfl, ?_⟩
      unfold suspended
      dsimp only
      split <;> simp

theorem later_uncancel {s s' : WS} (h : uncancelAndDrain s = some s') :
    Later s.waiters s.w s'.w ∧ s'.waiters = s.waiters ∧ s'.phase ≠ .idle := by
  unfold uncancelAndDrain at h
  split at h
  · cases h; exact ⟨.refl, rfl, by simp⟩
  · obtain ⟨h1, h2, h3⟩ := later_drain h
    exact ⟨(Later.refl.api (mild_uncancel _)).trans h1, h2, h3⟩

theorem later_goOn {s s' : WS} (h : goOn s = some s') :
    Later s.waiters s.w s'.w ∧ s'.waiters = s.waiters ∧ (s.phase ≠ .idle → s'.phase ≠ .idle) := by
  unfold goOn at h
  split at h
  · cases h; exact ⟨.refl, rfl, by simp⟩
  · obtain ⟨h1, h2, h3⟩ := later_uncancel h
    obtain ⟨h4, h5⟩ := later_cancelRemaining { s with log := s.log ++ [.thrown (some .cancelled)] }
    rw [h5] at h1 h2
    exact ⟨h4.trans h1, h2, fun _ => h3⟩
  · cases h
    obtain ⟨h4, h5⟩ := later_cancelRemaining { s with log := s.log ++ [.thrown (some _)] }
    exact ⟨h4, h5, by simp⟩
  · obtain ⟨h1, h2, h3⟩ := later_drain h
    exact ⟨h1, h2, fun _ => h3⟩
  · obtain ⟨h1, h2, h3⟩ := later_uncancel h
    exact ⟨h1, h2, fun _ => h3⟩
  · cases h; exact ⟨.refl, rfl, by simp⟩
  · cases h; exact ⟨.refl, rfl, id⟩

theorem later_hook {old : World} {s s' : WS} {a : Act} (h : hook old s a = some s') :
    Later s.waiters s.w s'.w ∧ s'.waiters = s.waiters ∧ (s.phase ≠ .idle ↔ s'.phase ≠ .idle) := by
  unfold hook at h
  have hgo : ∀ t, (if t = s.parent ∧ s.phase.inside then goOn s else some s) = some s' →
      Later s.waiters s.w s'.w ∧ s'.waiters = s.waiters ∧ (s.phase ≠ .idle ↔ s'.phase ≠ .idle) := by
    intro t h
    split at h
    · rename_i hc
      obtain ⟨h1, h2, h3⟩ := later_goOn h
      have : s.phase ≠ .idle := by
        intro hp; rw [hp] at hc; simp [Phase.inside] at hc
      exact ⟨h1, h2, fun h => h3 h, fun _ => this⟩
    · cases h; exact ⟨.refl, rfl, Iff.rfl⟩
  split at h
  · split at h
    · cases h
      obtain ⟨h1, h2, h3⟩ := later_doneCallback s _
      exact ⟨h1, h2, by rw [h3]⟩
    · cases h; exact ⟨.refl, rfl, Iff.rfl⟩
  · exact hgo _ h
  · exact hgo _ h
  · cases h; exact ⟨.refl, rfl, Iff.rfl⟩

/-- Nothing has been run of `t`. -/
structure Fresh (t : Nat) (w : World) : Prop where
  none : execOf t w.log = []
  alive : (w.task t).state.isDone = false

theorem fresh_unstarted {w : World} (hr : Sched.Reach w) {t : Nat} (h : (w.task t).state = .unstarted) :
    Fresh t w := by
  refine ⟨?_, by rw [h]; rfl⟩
  rcases last_exec hr t with ⟨-, h1⟩ | ⟨h1, -⟩ | ⟨h1, -⟩ | ⟨h1, -⟩ | h1
  · exact h1
  all_goals (rw [h] at h1; cases h1)

theorem fresh_step {w w' : World} {a : Act} {r : Res} (hr : Sched.Reach w)
    (he : Sched.exec w a = some (w', r)) {x : Nat} (ha : a = .addCb x ∨ a = .startNext x) :
    (∀ t, Fresh t w → Fresh t w') ∧
    ∀ t, (w.task t).state ≠ .unstarted → (w'.task t).state ≠ .unstarted := by
  obtain ⟨D, hg⟩ := hr.good
  obtain ⟨new, hlog, hTs⟩ := hg.tstep (exec_step he).2
  constructor
  · rintro t ⟨h1, h2⟩
    have hT := hTs t
    have : execOf t (new.filter (·.about t)) = [] ∧ (w'.task t).state.isDone = false := by
      generalize List.filter _ _ = obs at hT ⊢
      generalize w'.task t = r' at hT ⊢
      generalize w.task t = r0 at hT h2
      cases hT with
      | finish s o how hs hce => rcases ha with rfl | rfl <;> simp [coroEnd] at hce
      | cancelNow h => rcases ha with rfl | rfl <;> cases h
      | suspend _ _ h => rcases ha with rfl | rfl <;> obtain ⟨_, h⟩ := h <;> cases h
      | suspendWoken _ _ _ h => rcases ha with rfl | rfl <;> obtain ⟨_, h⟩ := h <;> cases h
      | _ => rcases ha with rfl | rfl <;> simp_all [execOf, TState.isDone]
    refine ⟨?_, this.2⟩
    rw [hlog, execOf_append, h1, execOf_about, this.1]; rfl
  · intro t h1
    have hT := hTs t
    generalize List.filter _ _ = obs at hT
    generalize w'.task t = r' at hT ⊢
    generalize w.task t = r0 at hT h1
    cases hT with
    | finish s o how hs hce => rcases ha with rfl | rfl <;> simp [coroEnd] at hce
    | _ => simp_all

theorem enrolled (l : List Nat) : ∀ w : World, Sched.Reach w → w.inside = true → w.halted = false →
    let w' := l.foldl (fun w t => Sched.api (Sched.api w (.addCb t)) (.startNext t)) w
    Sched.Reach w' ∧ w'.inside = true ∧ w'.halted = false ∧ (∀ t, Fresh t w → Fresh t w') ∧
      (∀ t, (w.task t).state ≠ .unstarted → (w'.task t).state ≠ .unstarted) ∧
      ∀ t ∈ l, (w'.task t).state ≠ .unstarted := by
  induction l with
  | nil => intro w hr hi hh; exact ⟨hr, hi, hh, fun _ h => h, fun _ h => h, by simp⟩
  | cons x l ih =>
    intro w hr hi hh
    have h1 : Sched.exec w (.addCb x) = some (addDoneCb w x, .ok) := by
      unfold Sched.exec; simp [hi, hh]
    have e1 : Sched.api w (.addCb x) = addDoneCb w x := by unfold Sched.api; rw [h1]
    have hi1 : (addDoneCb w x).inside = true := by
      unfold addDoneCb; dsimp only; split <;> exact hi
    have hh1 : (addDoneCb w x).halted = false := by
      unfold addDoneCb; dsimp only; split <;> exact hh
    have hr1 := hr.exec h1
    have h2 : Sched.exec (addDoneCb w x) (.startNext x) = some (startNext (addDoneCb w x) x) := by
      unfold Sched.exec; simp [hi1, hh1]
    have e2 : Sched.api (addDoneCb w x) (.startNext x) = (startNext (addDoneCb w x) x).1 := by
      unfold Sched.api; rw [h2]
    have hr2 := hr1.exec (w' := (startNext (addDoneCb w x) x).1) h2
    have hi2 : (startNext (addDoneCb w x) x).1.inside = true := by
      unfold startNext; split <;> exact hi1
    have hh2 : (startNext (addDoneCb w x) x).1.halted = false := by
      unfold startNext; split <;> exact hh1
    obtain ⟨f1, u1⟩ := fresh_step hr h1 (Or.inl rfl)
    obtain ⟨f2, u2⟩ := fresh_step hr1 (w' := (startNext (addDoneCb w x) x).1) h2 (Or.inr rfl)
    obtain ⟨i1, i2, i3, i4, i5, i6⟩ := ih _ hr2 hi2 hh2
    rw [List.foldl_cons, e1, e2]
    refine ⟨i1, i2, i3, fun t h => i4 t (f2 t (f1 t h)), fun t h => i5 t (u2 t (u1 t h)), ?_⟩
    intro t ht
    rcases List.mem_cons.1 ht with rfl | ht
    · apply i5
      unfold startNext
      split
      · rename_i h; exact h
      · simp [scheduleLeft, World.addLog, upd_self]
    · exact i6 t ht

theorem start_pair {s s' : WS} {p : Nat} {ts : List Nat} {m : Mode} (hr : Sched.Reach s.w)
    (hi : s.w.inside = true) (hh : s.w.halted = false) (hfresh : ∀ t ∈ ts, s.w.task t = {})
    (he : start s p ts m = some s') : s'.waiters = ts ∧
    ∀ t ∈ ts, ∀ u ∈ ts, Pair t u s'.w := by
  obtain ⟨h1, h2, h3, h4, h5, h6⟩ := enrolled ts.reverse s.w hr hi hh
  unfold start at he
  dsimp only at he
  have hbase : ∀ t ∈ ts, ∀ u ∈ ts, Pair t u (enroll s p ts m).w := by
    intro t ht u hu
    have hf := h4 t (fresh_unstarted hr (by rw [hfresh t ht]))
    exact .base h1 (resumes_still hf.none) hf.alive (h6 u (by simpa using hu))
  have hl : ∀ (s2 : WS), Later ts (enroll s p ts m).w s2.w → s2.waiters = ts →
      (match Sched.exec s2.w (.await (.event complete) false) with
        | none => none
        | some (w', _) => some (suspended { s2 with w := w' } .awaiting)) = some s' →
      s'.waiters = ts ∧ Later ts (enroll s p ts m).w s'.w := by
    intro s2 g1 g2 g3
    split at g3
    · cases g3
    · rename_i w' r hx
      cases g3
      exact ⟨g2, g1.step hx (mild_await _ _)⟩
  have : s'.waiters = ts ∧ Later ts (enroll s p ts m).w s'.w := by
    by_cases hm : ((enroll s p ts m).w.task p).mustCancel > 0
    · rw [if_pos hm] at he
      obtain ⟨g1, g2⟩ := later_cancelRemaining { enroll s p ts m with
        log := (enroll s p ts m).log ++ [.thrown none] }
      exact hl _ g1 g2 he
    · rw [if_neg hm] at he
      exact hl _ .refl rfl he
  exact ⟨this.1, fun t ht u hu => this.2.pair ht hu (hbase t ht u hu)⟩

/-- Any two tasks of a call. -/
theorem Reach.pair {s : WS} (h : Wait.Reach s) (hp : s.phase ≠ .idle) :
    ∀ t ∈ s.waiters, ∀ u ∈ s.waiters, Pair t u s.w := by
  obtain ⟨as, h⟩ := h
  have key : ∀ (as : List WAct) (s s' : WS), WInv s →
      (s.phase ≠ .idle → ∀ t ∈ s.waiters, ∀ u ∈ s.waiters, Pair t u s.w) → run s as = some s' →
      (s'.phase ≠ .idle → ∀ t ∈ s'.waiters, ∀ u ∈ s'.waiters, Pair t u s'.w) := by
    intro as
    induction as with
    | nil => intro s s' _ h he; cases he; exact h
    | cons a as ih =>
      intro s s' hr h he
      rw [run] at he
      split at he
      case h_2 => cases he
      rename_i s1 hx
      refine ih s1 s' (exec_inv hr hx) ?_ he
      cases a with
      | sched a =>
        simp only [exec] at hx
        split at hx
        case isFalse => cases hx
        rename_i hal
        split at hx
        · cases hx
        rename_i w' r hx'
        obtain ⟨h1, h2, h3⟩ := later_hook hx
        intro hp
        have hmild : Mild s.waiters a := by
          intro t ht
          constructor
          · rintro rfl
            simp [allowed, ht] at hal
          · rintro rfl
            simp [allowed, ht] at hal
        rw [h2]
        intro t ht u hu
        exact h1.pair ht hu ((Later.refl.step hx' hmild).pair ht hu (h (h3.2 hp) t ht u hu))
      | wait ts m =>
        simp only [exec] at hx
        split at hx
        · split at hx
          · rename_i p rest hst hcc
            obtain ⟨h1, h2, h3, h4, h5, h6⟩ := hcc
            obtain ⟨g1, g2⟩ := start_pair hr.live.calm.reach h3 h2 h6 hx
            intro _
            rw [g1]; exact g2
          · cases hx
        · cases hx
  exact key as _ s (Reach.inv ⟨[], rfl⟩) (by simp) h hp

end Verif.Wait
