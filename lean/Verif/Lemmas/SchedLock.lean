import Verif.Spec.Sched
import Verif.Lemmas.SchedTrig

namespace Verif.Sched

open SchedSpec

variable {D : Trig → Prop}

/-- The lock as the specification sees it. -/
def mx (w : World) (l : Nat) : Mutex := ⟨(w.lock l).current, (w.lock l).pending⟩

def MInv (l : Nat) (w : World) : Prop := mutex l w.log = some (mx w l)

theorem mutex_append (l : Nat) (a b : List Obs) :
    mutex l (a ++ b) = (mutex l a).bind fun m => b.foldlM (mutexStep l) m := by
  simp [mutex, List.foldlM_append]

theorem fold_quiet {l : Nat} {new : List Obs} (h : ∀ o ∈ new, o.lockish = false) (m : Mutex) :
    new.foldlM (mutexStep l) m = some m := by
  induction new with
  | nil => rfl
  | cons o new ih =>
    have ho := h o (by simp)
    have : mutexStep l m o = some m := by cases o <;> simp_all [mutexStep, Obs.lockish]
    rw [List.foldlM_cons, this]
    exact ih (fun o ho => h o (by simp [ho]))

theorem MInv.congr {l : Nat} {w w' : World} {new : List Obs} (h : MInv l w)
    (hlog : w'.log = w.log ++ new) (hq : ∀ o ∈ new, o.lockish = false) (hl : w'.lock = w.lock) :
    MInv l w' := by
  unfold MInv at *
  rw [hlog, mutex_append, h, Option.bind_some, fold_quiet hq]
  simp [mx, hl]

theorem MInv.react {l : Nat} {w : World} {g : Trig} (h : MInv l w) : MInv l (react w g) := by
  have := (react_aux w g).1
  exact h.congr (new := []) (by rw [this.log]; simp) (by simp) this.lock

theorem MInv.unprimeLock {l l' n : Nat} {w : World} (h : MInv l w) :
    MInv l (unprimeLock w l' n) := by
  unfold Sched.unprimeLock
  split
  · rename_i hn
    unfold MInv at *
    simp only [World.addLog, World.setLock]
    rw [mutex_append, h, Option.bind_some]
    by_cases hl : l' = l
    · subst hl
      simp [mutexStep, mx, hn, upd_self]
    · simp [mutexStep, mx, hl, upd_ne _ _ (Ne.symm hl)]
  · exact h

theorem MInv.deregister {l : Nat} {w w' : World} {cb} (h : MInv l w)
    (hd : deregister w cb = some w') : MInv l w' := by
  cases cb with
  | none => simp [Sched.deregister] at hd
  | some p =>
    obtain ⟨g, hh⟩ := p
    obtain ⟨h1, h2, h3⟩ := deregister_cases hd
    rcases h3 with ⟨h3, h4⟩ | ⟨h3, h4⟩
    · have h0 : MInv l { w with cbs := upd w.cbs g ((w.cbs g).filter (·.1 != hh)) } := h
      cases g <;> simp only [unprime] at h4
      case gpi n =>
        split at h4
        · simp only [Option.some.injEq] at h4; subst h4; exact h
        · cases h4
      case lock l' n =>
        simp only [Option.some.injEq] at h4; subst h4; exact h0.unprimeLock
      all_goals simp only [Option.some.injEq] at h4; subst h4; exact h
    · subst h4; exact h

theorem MInv.detach {l : Nat} {w w' : World} {t} (h : MInv l w)
    (hd : detach w t = some w') : MInv l w' := by
  unfold Sched.detach at hd
  split at hd
  · exact h.deregister hd
  · simp only [Option.some.injEq] at hd; subst hd; exact h
  · simp only [Option.some.injEq] at hd; subst hd; exact h

theorem MInv.register {l : Nat} {w : World} {g t} (h : MInv l w)
    (hl : ∀ l, LockOk (w.lock l)) (hr : awaitRefused w g = false) : MInv l (register w g t false) := by
  unfold Sched.register
  dsimp only
  split
  · rename_i hemp
    clear hemp
    generalize hw : (World.mk _ _ _ _ _ _ _ _ _ _ _ _ _ _) = w1
    have h1 : MInv l w1 := by subst hw; exact h
    have h2 : w1.lock = w.lock := by subst hw; rfl
    cases g <;> simp only [prime, Bool.false_eq_true, if_false]
    case gpi => exact h1
    case null => exact h1.react
    case lock l' n =>
      simp only [awaitRefused, Bool.or_eq_false_iff, decide_eq_false_iff_not] at hr
      have hsplit : ∀ (P : World → Prop) (v : World),
          (((v.lock l').current = none) → P (acquireAndFire v l' n)) →
          (¬ ((v.lock l').current = none) → P (v.setLock l'
            { v.lock l' with pending := (v.lock l').pending ++ [n] })) → P (primeLock v l' n) := by
        intro P v h1 h2
        unfold primeLock
        split
        · exact h1 ‹_›
        · exact h2 ‹_›
      by_cases hll : l' = l
      · subst hll
        refine hsplit _ _ (fun hc => ?_) (fun hc => ?_)
        · refine MInv.react ?_
          simp only [World.addLog] at hc
          rw [h2] at hc
          have hp := (hl l').free hc
          have h1' := h1
          unfold MInv mx at h1'
          rw [h2, hc, hp] at h1'
          unfold MInv
          simp only [World.setLock, World.addLog]
          rw [List.append_assoc, mutex_append, h1', Option.bind_some]
          simp [mutexStep, mx, h2, hp, upd_self]
        · have h1' := h1
          unfold MInv mx at h1'
          unfold MInv
          simp only [World.setLock, World.addLog]
          rw [mutex_append, h1', Option.bind_some]
          rw [← h2] at hr
          simp [mutexStep, mx, upd_self, hr]
      · refine hsplit _ _ (fun hc => ?_) (fun hc => ?_)
        · refine MInv.react ?_
          unfold MInv at h1 ⊢
          simp only [World.setLock, World.addLog]
          rw [List.append_assoc, mutex_append, h1, Option.bind_some]
          simp [mutexStep, mx, hll, upd_ne _ _ (Ne.symm hll)]
        · unfold MInv at h1 ⊢
          simp only [World.setLock, World.addLog]
          rw [mutex_append, h1, Option.bind_some]
          simp [mutexStep, mx, hll, upd_ne _ _ (Ne.symm hll)]
    all_goals
      split
      · exact h1.react
      · exact h1
  · exact h

theorem MInv.step {l : Nat} {w w' : World} {a : Act} {r : Res} (h : MInv l w) (hg : Good D w)
    (he : Step w a w' r) : MInv l w' := by
  cases he with
  | enter => exact h
  | fire n hi hp =>
    exact MInv.react (w := ({ w with primed := upd w.primed n false, inside := true }.addLog (.fire n)))
      (h.congr (new := [.fire n]) rfl (by simp [Obs.lockish]) rfl)
  | popCancelled => exact h
  | popRun e rest hi hst hq hc =>
    exact h.congr (new := [.resume e.task (w.task e.task).exc]) rfl (by simp [Obs.lockish]) rfl
  | exit => exact h
  | nop => exact h
  | startSoon u hi hu => exact h.congr (new := [.start u]) rfl (by simp [Obs.lockish]) rfl
  | startNext u hi hu => exact h.congr (new := [.start u]) rfl (by simp [Obs.lockish]) rfl
  | cancelPending u w1 hi hu hd =>
    have h1 : MInv l w1 := h.deregister hd
    exact h1
  | cancelScheduled u hi hu => exact h
  | cancelUnstarted u hi hu => exact h.congr (new := [.start u]) rfl (by simp [Obs.lockish]) rfl
  | kill u w1 hi hnd hnr hd =>
    exact (h.detach hd).congr (new := [.done u .finished .noneKilled]) rfl (by simp [Obs.lockish]) rfl
  | cancelNow u w1 hi hnd hnr hd =>
    have h0 : MInv l (if (w.task u).state = .unstarted then w.addLog (.start u) else w) := by
      split
      · exact h.congr (new := [.start u]) rfl (by simp [Obs.lockish]) rfl
      · exact h
    refine (h0.detach hd).congr (new := [.resume u (some .cancelled)]) ?_ (by simp [Obs.lockish]) rfl
    simp [resume, bumpCancel, World.setTask, upd_self]
  | uncancel u => exact h
  | addCbDone u =>
    exact h.congr (new := [.regCb u w.nCb, .doneCb u w.nCb]) rfl (by simp [Obs.lockish]) rfl
  | addCb u => exact h.congr (new := [.regCb u w.nCb]) rfl (by simp [Obs.lockish]) rfl
  | setE e hi =>
    exact MInv.react (h.congr (new := [.setE e]) rfl (by simp [Obs.lockish]) rfl)
  | clearE e => exact h.congr (new := [.clearE e]) rfl (by simp [Obs.lockish]) rfl
  | release l' m hi hc hp =>
    unfold MInv mx at h
    unfold MInv
    simp only [World.addLog, World.setLock]
    rw [mutex_append, h, Option.bind_some]
    by_cases hl : l' = l
    · subst hl
      simp [mutexStep, mx, hc, upd_self]
    · simp [mutexStep, mx, hl, upd_ne _ _ (Ne.symm hl)]
  | releaseGrant l' m n ns hi hc hp =>
    unfold acquireAndFire
    refine MInv.react ?_
    unfold MInv mx at h
    unfold MInv
    simp only [World.addLog, World.setLock]
    rw [List.append_assoc, mutex_append, h, Option.bind_some]
    by_cases hl : l' = l
    · subst hl
      simp [mutexStep, mx, hc, hp, upd_self]
    · simp [mutexStep, mx, hl, upd_ne _ _ (Ne.symm hl)]
  | await u rest g fails hi hst hr hm =>
    have h0 : MInv l ((World.setTask { w with stack := rest } u
          { w.task u with state := .pending }).addLog (.suspend u g)) :=
      h.congr (new := [.suspend u g]) rfl (by simp [Obs.lockish]) rfl
    refine MInv.register h0 hg.trg.lock ?_
    cases g <;> simp_all [awaitRefused, World.addLog, World.setTask]
  | yieldBad u rest hi hst hm =>
    exact h.congr (new := [.suspendBad u]) rfl (by simp [Obs.lockish]) rfl
  | finish _ u rest s o how hi hst hce =>
    exact h.congr (new := [.done u s o]) rfl (by simp [Obs.lockish]) rfl
  | cbNext u i how rest c hi hst hc =>
    exact h.congr (new := [.doneCb u c]) rfl (by simp [Obs.lockish]) rfl
  | cbEnd u i how rest hi hst hc =>
    have h0 : MInv l { w with stack := rest } := h
    have := (h0.react (g := .complete u)).react (g := .join u)
    unfold finishEnd
    cases how <;> exact this

theorem minv {w : World} (h : Reach w) (l : Nat) : MInv l w := by
  refine h.induct (P := MInv l) rfl ?_
  intro D w w' a r hg hp _ he
  rcases he with he | he
  · exact hp.step hg he
  · cases he with
    | mk u rest n hi hst hm hc =>
      exact hp.congr (new := [.suspend u (.gpi n)]) rfl (by simp [Obs.lockish]) rfl

/-- Acquire object `n` neither holds lock `l` nor waits for it. -/
def NoReq (l n : Nat) (w : World) : Prop := (w.lock l).current ≠ some n ∧ n ∉ (w.lock l).pending

theorem NoReq.congr {l n : Nat} {w w' : World} (h : NoReq l n w) (hl : w'.lock = w.lock) :
    NoReq l n w' := by
  unfold NoReq at *; rw [hl]; exact h

theorem NoReq.react {l n : Nat} {w : World} {g : Trig} (h : NoReq l n w) : NoReq l n (react w g) :=
  h.congr (react_aux w g).1.lock

theorem NoReq.unprimeLock {l n l' n' : Nat} {w : World} (h : NoReq l n w) :
    NoReq l n (unprimeLock w l' n') := by
  unfold Sched.unprimeLock
  split
  · unfold NoReq at *
    simp only [World.addLog, World.setLock]
    by_cases hl : l' = l
    · subst hl
      simp only [upd_self]
      exact ⟨h.1, fun hm => h.2 (List.mem_of_mem_erase hm)⟩
    · simpa [upd_ne _ _ (Ne.symm hl)] using h
  · exact h

theorem NoReq.deregister {l n : Nat} {w w' : World} {cb} (h : NoReq l n w)
    (hd : deregister w cb = some w') : NoReq l n w' := by
  cases cb with
  | none => simp [Sched.deregister] at hd
  | some p =>
    obtain ⟨g, hh⟩ := p
    obtain ⟨h1, h2, h3⟩ := deregister_cases hd
    rcases h3 with ⟨h3, h4⟩ | ⟨h3, h4⟩
    · have h0 : NoReq l n { w with cbs := upd w.cbs g ((w.cbs g).filter (·.1 != hh)) } := h
      cases g <;> simp only [unprime] at h4
      case gpi n =>
        split at h4
        · simp only [Option.some.injEq] at h4; subst h4; exact h
        · cases h4
      case lock l' n =>
        simp only [Option.some.injEq] at h4; subst h4; exact h0.unprimeLock
      all_goals simp only [Option.some.injEq] at h4; subst h4; exact h
    · subst h4; exact h

theorem NoReq.detach {l n : Nat} {w w' : World} {t} (h : NoReq l n w)
    (hd : detach w t = some w') : NoReq l n w' := by
  unfold Sched.detach at hd
  split at hd
  · exact h.deregister hd
  · simp only [Option.some.injEq] at hd; subst hd; exact h
  · simp only [Option.some.injEq] at hd; subst hd; exact h

theorem NoReq.register {l n : Nat} {w : World} {g t} (h : NoReq l n w) (hne : g ≠ .lock l n) :
    NoReq l n (register w g t false) := by
  unfold Sched.register
  dsimp only
  split
  · rename_i hemp
    clear hemp
    generalize hw : (World.mk _ _ _ _ _ _ _ _ _ _ _ _ _ _) = w1
    have h1 : NoReq l n w1 := by subst hw; exact h
    cases g <;> simp only [prime, Bool.false_eq_true, if_false]
    case gpi => exact h1
    case null => exact h1.react
    case lock l' n' =>
      have hsplit : ∀ (P : World → Prop) (v : World),
          (((v.lock l').current = none) → P (acquireAndFire v l' n')) →
          (¬ ((v.lock l').current = none) → P (v.setLock l'
            { v.lock l' with pending := (v.lock l').pending ++ [n'] })) → P (primeLock v l' n') := by
        intro P v h1 h2
        unfold primeLock
        split
        · exact h1 ‹_›
        · exact h2 ‹_›
      refine hsplit _ _ (fun hc => NoReq.react ?_) (fun hc => ?_)
      · unfold NoReq at *
        by_cases hll : l' = l
        · subst hll
          simp only [World.addLog, World.setLock, upd_self]
          refine ⟨fun h => ?_, h1.2⟩
          simp only [Option.some.injEq] at h; subst h; exact hne rfl
        · simpa [World.addLog, World.setLock, upd_ne _ _ (Ne.symm hll)] using h1
      · unfold NoReq at *
        by_cases hll : l' = l
        · subst hll
          simp only [World.addLog, World.setLock, upd_self]
          refine ⟨h1.1, fun h => ?_⟩
          rcases List.mem_append.1 h with h | h
          · exact h1.2 h
          · simp only [List.mem_singleton] at h; subst h; exact hne rfl
        · simpa [World.addLog, World.setLock, upd_ne _ _ (Ne.symm hll)] using h1
    all_goals
      split
      · exact h1.react
      · exact h1
  · exact h

theorem NoReq.step {l n : Nat} {w w' : World} {a : Act} {r : Res} (h : NoReq l n w)
    (ha : ∀ f, a ≠ .await (.lock l n) f) (he : Step w a w' r ∨ FailStep w a w' r) :
    NoReq l n w' := by
  rcases he with he | he
  case inr => cases he with | mk u rest n hi hst hm hc => exact h
  cases he with
  | fire m hi hp =>
    exact NoReq.react (w := ({ w with primed := upd w.primed m false, inside := true }.addLog (.fire m))) h
  | cancelPending u w1 hi hu hd =>
    have h1 : NoReq l n w1 := h.deregister hd
    exact h1
  | kill u w1 hi hnd hnr hd => exact (h.detach hd).congr rfl
  | cancelNow u w1 hi hnd hnr hd =>
    have h0 : NoReq l n (if (w.task u).state = .unstarted then w.addLog (.start u) else w) := by
      split
      · exact h
      · exact h
    exact (h0.detach hd).congr rfl
  | setE e hi => exact NoReq.react (w := World.addLog { w with fired := _ } _) h
  | release l' m hi hc hp =>
    unfold NoReq at *
    simp only [World.addLog, World.setLock]
    by_cases hl : l' = l
    · subst hl; simpa [upd_self] using h.2
    · simpa [upd_ne _ _ (Ne.symm hl)] using h
  | releaseGrant l' m n' ns hi hc hp =>
    unfold acquireAndFire
    refine NoReq.react ?_
    unfold NoReq at *
    simp only [World.addLog, World.setLock]
    by_cases hl : l' = l
    · subst hl
      rw [hp] at h
      simp only [List.mem_cons, not_or] at h
      simp [upd_self, h.2.2, Ne.symm h.2.1]
    · simpa [upd_ne _ _ (Ne.symm hl)] using h
  | await u rest g fails hi hst hr hm =>
    exact NoReq.register (w := (World.setTask { w with stack := rest } u
          { w.task u with state := .pending }).addLog (.suspend u g)) h
      (fun hg => ha fails (by rw [hg]))
  | cbEnd u i how rest hi hst hc =>
    have h0 : NoReq l n { w with stack := rest } := h
    have := (h0.react (g := .complete u)).react (g := .join u)
    unfold finishEnd
    cases how <;> exact this
  | _ => exact h

end Verif.Sched
