import Verif.Lemmas.WaitGentle
import Verif.Model.TaskManager
import Mathlib.Data.List.Nodup

namespace Verif.Sched

/-- The current task has been started. -/
theorem current_started {w : World} (h : Reach w) :
    ∀ p, w.current = some p → (w.task p).state ≠ .unstarted := by
  refine Reach.induct (P := fun w => ∀ p, w.current = some p → (w.task p).state ≠ .unstarted) ?_ ?_ h
  · intro p hp; cases hp
  · intro D w w' a r hg ih _ he p hp
    obtain ⟨new, -, hts⟩ := hg.tstep he
    have keep : (w.task p).state ≠ .unstarted → (w'.task p).state ≠ .unstarted := by
      intro h0
      have := hts p
      generalize new.filter (·.about p) = obs at this
      generalize w.task p = r0 at this h0
      generalize w'.task p = r1 at this
      cases this <;> simp_all
      rename_i he
      unfold coroEnd at he
      repeat' split at he
      all_goals cases he
      all_goals simp
    have same : w'.current = w.current → (w'.task p).state ≠ .unstarted :=
      fun hc => keep (ih p (by rw [← hc]; exact hp))
    rcases he with he | he
    case inr =>
      cases he with
      | mk u rest n hi hst hm hc => cases hp
    cases he with
    | fire m hi hpr =>
      exact same (react_aux ({ w with primed := upd w.primed m false, inside := true }.addLog (.fire m)) (.gpi m)).1.current
    | popRun e rest hi hst hq hc =>
      simp only [resume, Option.some.injEq] at hp
      subst hp
      simp [resume, upd_self]
    | cancelPending u w1 hi hu hd =>
      obtain ⟨-, d2, -, -, -, -, -, d8, -⟩ := deregister_task hd
      exact same (by simp only [bumpCancel, World.setTask, scheduleResume, d8])
    | kill u w1 hi hnd hnr hd =>
      obtain ⟨-, d2, -, -, -, -, d8, -⟩ := detach_task hd
      exact same (by simp only [setOutcome, d8])
    | cancelNow u w1 hi hnd hnr hd =>
      simp only [resume, Option.some.injEq] at hp
      subst hp
      simp [resume, upd_self]
    | setE e hi =>
      exact same (react_aux (World.addLog { w with fired := upd w.fired e true } (.setE e)) (.event e)).1.current
    | releaseGrant l' m n' ns hi hc hpd =>
      exact same (by simp only [acquireAndFire, (react_aux _ _).1.current]; rfl)
    | cbEnd u i how rest hi hst hc =>
      have hx1 := (react_aux { w with stack := rest } (.complete u)).1
      have hx2 := (react_aux (react { w with stack := rest } (.complete u)) (.join u)).1
      unfold finishEnd at hp
      cases how
      · cases hp
      · refine same ?_
        unfold finishEnd
        simp only [hx2.current, hx1.current]
      · cases hp
    | await => cases hp
    | yieldBad => cases hp
    | _ => exact same rfl

/-- Clearing the private event. -/
theorem Live.clear {e : Nat} {O A : List Nat} {p : Nat} {dr : Bool} {w : World}
    (h : Live e O A p false dr w) (hq : quiet w = true)
    (hi : w.inside = true) (hh : w.halted = false) :
    Live e O A p false dr (api w (.clearE e)) ∧ (api w (.clearE e)).fired e = false := by
  obtain ⟨D, hg⟩ := h.calm.reach.good
  have he : exec w (.clearE e) = some (clearEvent w e, .ok) := by simp [exec, hi, hh]
  have ha : api w (.clearE e) = clearEvent w e := by unfold api; rw [he]
  rw [ha]
  refine ⟨⟨h.calm.step he (by simp), h.tidy.step hg (Or.inl hq) he, ?_, by simp,
    fun hx => (h.onN hx).step hg he (by simp [coroAct]), ?_⟩, ?_⟩
  · intro t k ht hk
    rcases pend_new hg he ht hk with ⟨h4, h5⟩ | ⟨-, f, hf⟩
    · exact h.reg t k h4 h5
    · cases hf
  · rcases h.own.step hg h.tidy (Or.inl hq) (by simp [spares]) he with ⟨t, how, -, hx, -⟩ | ⟨-, h'⟩
    · cases hx
    · exact h'
  · simp [clearEvent, World.addLog, upd_self]

end Verif.Sched

namespace Verif.TM

open Sched

/-- The children whose end has been announced, in order. -/
def announced (log : List Obs) : List Nat :=
  log.filterMap fun
    | .ended t => some t
    | _ => none

def ids (log : List Obs) : List Nat := (kids log).map (·.1)

/-- `__aexit__` has begun. -/
def finished (log : List Obs) : Bool :=
  log.any fun
    | .block _ => true
    | .closed => true
    | .interrupted => true
    | _ => false

/-- How the block ended. -/
def blockOf (log : List Obs) : Option (Option Exc) :=
  log.findSome? fun
    | .block e => some e
    | _ => none

def remOf (log : List Obs) : List (Nat × Bool) := (kids log).filter (fun x => decide (x.1 ∉ announced log))

def excsOf (w : World) (A : List Nat) : List (Option Nat × Exc) :=
  A.filterMap fun t => (failure w t).map fun e => (some t, e)

/-- The observation makes the manager cancel. -/
def meets (ctx : Bool) (w : World) (K : List (Nat × Bool)) : Obs → Bool
  | .ended t => (failure w t).isSome && K.contains (t, false)
  | .block (some (.fatal _)) => true
  | .block (some .cancelled) => true
  | .block (some _) => !ctx
  | .interrupted => true
  | .closed => true
  | _ => false

def met (ctx : Bool) (w : World) (K : List (Nat × Bool)) (log : List Obs) : Bool :=
  log.any (meets ctx w K)

/-- A cancellation by the manager. -/
def Obs.isCancel : Obs → Bool
  | .cancel _ | .cancelParent => true
  | _ => false

def noCancel (log : List Obs) : Prop := ∀ o ∈ log, o.isCancel = false

@[simp] theorem announced_append (l l' : List Obs) : announced (l ++ l') = announced l ++ announced l' := by
  simp [announced]
@[simp] theorem kids_append (l l' : List Obs) : kids (l ++ l') = kids l ++ kids l' := by simp [kids]
@[simp] theorem finished_append (l l' : List Obs) : finished (l ++ l') = (finished l || finished l') := by
  simp [finished]
@[simp] theorem met_append (ctx : Bool) (w : World) (K : List (Nat × Bool)) (l l' : List Obs) :
    met ctx w K (l ++ l') = (met ctx w K l || met ctx w K l') := by simp [met]
theorem blockOf_append (l l' : List Obs) : blockOf (l ++ l') = (blockOf l).or (blockOf l') := by
  simp [blockOf, List.findSome?_append]
theorem noCancel_append {l l' : List Obs} : noCancel (l ++ l') ↔ noCancel l ∧ noCancel l' := by
  simp only [noCancel, List.mem_append]
  exact ⟨fun h => ⟨fun o ho => h o (Or.inl ho), fun o ho => h o (Or.inr ho)⟩,
    fun h o ho => ho.elim (h.1 o) (h.2 o)⟩

/-- The cancellations `_cancel` makes. -/
def cancels (fin : Bool) (rem : List (Nat × Bool)) : List Obs :=
  (if fin then [] else [.cancelParent]) ++ rem.map fun x => .cancel x.1

@[simp] theorem announced_cancels (f : Bool) (l : List (Nat × Bool)) : announced (cancels f l) = [] := by
  unfold cancels announced
  rw [List.filterMap_eq_nil_iff]
  intro o ho
  cases f <;> simp at ho <;> grind
@[simp] theorem kids_cancels (f : Bool) (l : List (Nat × Bool)) : kids (cancels f l) = [] := by
  unfold cancels kids
  rw [List.filterMap_eq_nil_iff]
  intro o ho
  cases f <;> simp at ho <;> grind
@[simp] theorem finished_cancels (f : Bool) (l : List (Nat × Bool)) : finished (cancels f l) = false := by
  unfold cancels finished
  cases f <;> simp
@[simp] theorem blockOf_cancels (f : Bool) (l : List (Nat × Bool)) : blockOf (cancels f l) = none := by
  unfold cancels blockOf
  rw [List.findSome?_eq_none_iff]
  intro o ho
  cases f <;> simp at ho <;> grind

/-- What the log says about cancellations. -/
structure CancelOk (ctx : Bool) (w : World) (log : List Obs) (c : Bool) : Prop where
  no : c = false → met ctx w (kids log) log = false ∧ noCancel log
  yes : c = true → ∃ pre x post,
    log = pre ++ [x] ++ cancels (finished (pre ++ [x])) (remOf (pre ++ [x])) ++ post ∧
    met ctx w (kids log) pre = false ∧ meets ctx w (kids log) x = true ∧
    noCancel pre ∧ noCancel [x] ∧ noCancel post ∧ kids post = []

theorem failure_congr {w w' : World} {t : Nat}
    (h : (w'.task t).state = (w.task t).state ∧ (w'.task t).outcome = (w.task t).outcome) :
    failure w' t = failure w t := by
  unfold failure World.cancelled World.exception
  rw [h.1, h.2]

theorem met_congr {ctx : Bool} {w w' : World} {K K' : List (Nat × Bool)} {log : List Obs}
    (h : ∀ t ∈ announced log, failure w' t = failure w t ∧ ((t, false) ∈ K' ↔ (t, false) ∈ K)) :
    met ctx w' K' log = met ctx w K log := by
  unfold met
  induction log with
  | nil => rfl
  | cons o l ih =>
    have e0 : announced (o :: l) = announced [o] ++ announced l := announced_append [o] l
    rw [List.any_cons, List.any_cons, ih (fun t ht => h t (by rw [e0]; simp [ht]))]
    congr 1
    cases o with
    | ended t =>
      have := h t (by simp [announced])
      simp [meets, this.1, this.2]
    | block e =>
      rcases e with _ | e
      · rfl
      · cases e <;> rfl
    | _ => rfl

theorem excs_congr {w w' : World} {A : List Nat} (h : ∀ t ∈ A, failure w' t = failure w t) :
    excsOf w' A = excsOf w A := by
  unfold excsOf
  induction A with
  | nil => rfl
  | cons t A ih =>
    rw [List.filterMap_cons, List.filterMap_cons, h t (by simp), ih (fun u hu => h u (by simp [hu]))]

theorem meets_met {ctx : Bool} {w : World} {K : List (Nat × Bool)} {x : Obs} :
    met ctx w K [x] = meets ctx w K x := by simp [met]

theorem CancelOk.congr {ctx : Bool} {w w' : World} {log : List Obs} {c : Bool}
    (h : CancelOk ctx w log c) (hk : ∀ t ∈ announced log, failure w' t = failure w t) :
    CancelOk ctx w' log c := by
  refine ⟨fun hc => ?_, fun hc => ?_⟩
  · rw [met_congr (fun t ht => ⟨hk t ht, Iff.rfl⟩)]; exact h.no hc
  · obtain ⟨pre, x, post, h1, h2, h3, h4⟩ := h.yes hc
    refine ⟨pre, x, post, h1, ?_, ?_, h4⟩
    · rw [met_congr (fun t ht => ⟨hk t (by rw [h1]; simp [ht]), Iff.rfl⟩)]; exact h2
    · rw [← meets_met] at h3 ⊢
      rw [met_congr (fun t ht => ⟨hk t (by rw [h1]; simp only [announced_append]; simp [ht]), Iff.rfl⟩)]
      exact h3

/-- An observation that does not add a child. -/
theorem CancelOk.push {ctx : Bool} {w : World} {log : List Obs} {x : Obs} {c : Bool}
    (h : CancelOk ctx w log c) (hn : x.isCancel = false) (hkid : kids [x] = [])
    (hx : meets ctx w (kids log) x = true → c = true) :
    CancelOk ctx w (log ++ [x]) c := by
  have hkk : kids (log ++ [x]) = kids log := by simp [hkid]
  have hnx : noCancel [x] := by simpa [noCancel] using hn
  refine ⟨fun hc => ?_, fun hc => ?_⟩
  · obtain ⟨h1, h2⟩ := h.no hc
    rw [hkk, met_append, h1, meets_met, noCancel_append]
    refine ⟨?_, h2, hnx⟩
    cases hm : meets ctx w (kids log) x
    · rfl
    · rw [hx hm] at hc; cases hc
  · obtain ⟨pre, y, post, h1, h2, h3, h4, h5, h6, h7⟩ := h.yes hc
    refine ⟨pre, y, post ++ [x], ?_, by rw [hkk]; exact h2, by rw [hkk]; exact h3, h4, h5,
      noCancel_append.2 ⟨h6, hnx⟩, by simp [h7, hkid]⟩
    rw [← List.append_assoc, ← h1]

/-- An observation that makes the manager cancel. -/
theorem CancelOk.fire {ctx : Bool} {w : World} {log : List Obs} {x : Obs} {c : Bool}
    (h : CancelOk ctx w log c) (hn : x.isCancel = false) (hkid : kids [x] = [])
    (hx : meets ctx w (kids log) x = true) :
    CancelOk ctx w (log ++ [x] ++ if c then [] else
      cancels (finished (log ++ [x])) (remOf (log ++ [x]))) true := by
  cases c with
  | true => simpa using h.push hn hkid (fun _ => rfl)
  | false =>
    obtain ⟨h1, h2⟩ := h.no rfl
    have hkk : kids (log ++ [x] ++ cancels (finished (log ++ [x])) (remOf (log ++ [x]))) = kids log := by
      rw [kids_append, kids_append, hkid, kids_cancels]; simp
    refine ⟨by simp, fun _ => ⟨log, x, [], by simp, ?_, ?_, h2, by simpa [noCancel] using hn,
      by simp [noCancel], rfl⟩⟩
    · simp only [Bool.false_eq_true, if_false]; rw [hkk]; exact h1
    · simp only [Bool.false_eq_true, if_false]; rw [hkk]; exact hx

structure Core (s : TS) : Prop where
  nd : (ids s.log).Nodup
  rem : s.remaining = remOf s.log
  fin : s.finishing = finished s.log
  excs : s.excs = excsOf s.w (announced s.log)
  canc : CancelOk s.ctx s.w s.log s.cancelled

abbrev LiveS (s : TS) (aw dr : Bool) : Prop :=
  Live noneRemaining (ids s.log) (announced s.log) s.parent aw dr s.w

/-- Before the manager cancels: the observation `x` has been noted. -/
structure Pre (s : TS) (log : List Obs) (x : Obs) : Prop where
  eq : s.log = log ++ [x]
  nd : (ids s.log).Nodup
  rem : s.remaining = remOf s.log
  fin : s.finishing = finished s.log
  excs : s.excs = excsOf s.w (announced s.log)
  canc : CancelOk s.ctx s.w log s.cancelled
  plain : x.isCancel = false
  kid : kids [x] = []
  meets : meets s.ctx s.w (kids log) x = true

/-- The part of the state `_cancel` leaves alone. -/
structure Rest (s s' : TS) : Prop where
  ctx : s'.ctx = s.ctx
  dflt : s'.dflt = s.dflt
  parent : s'.parent = s.parent
  entered : s'.entered = s.entered
  finishing : s'.finishing = s.finishing
  remaining : s'.remaining = s.remaining
  excs : s'.excs = s.excs
  phase : s'.phase = s.phase
  ann : announced s'.log = announced s.log
  kids : kids s'.log = kids s.log
  block : blockOf s'.log = blockOf s.log
  finl : finished s'.log = finished s.log
  sub : ∀ o ∈ s.log, o ∈ s'.log
  ent : (.entered ∈ s'.log) ↔ (.entered ∈ s.log)
  keeps : Keeps noneRemaining s.w s'.w

theorem cancelAll_eq (s : TS) : ∃ w', cancelAll s = { s with
    w := w', cancelled := true
    log := s.log ++ if s.cancelled then [] else cancels s.finishing s.remaining } ∧
    (s.cancelled = true → w' = s.w) ∧
    (s.cancelled = false → w' = s.remaining.foldl (fun w x => api w (.cancel x.1))
      (if s.finishing then s.w else api s.w (.cancel s.parent))) := by
  unfold cancelAll cancels
  cases hc : s.cancelled <;> cases hf : s.finishing
  · exact ⟨_, by simp, by simp, fun _ => rfl⟩
  · exact ⟨_, by simp, by simp, fun _ => rfl⟩
  · refine ⟨s.w, ?_, by simp, by simp⟩
    cases s; simp_all
  · refine ⟨s.w, ?_, by simp, by simp⟩
    cases s; simp_all

theorem foldl_ids (l : List (Nat × Bool)) (w : World) :
    l.foldl (fun w x => api w (.cancel x.1)) w = (l.map (·.1)).foldl (fun w t => api w (.cancel t)) w := by
  rw [List.foldl_map]

theorem cancelAll_live {s : TS} {O A : List Nat} {p : Nat} {aw dr : Bool}
    (h : Live noneRemaining O A p aw dr s.w) (hq : quiet s.w = true) :
    Live noneRemaining O A p aw dr (cancelAll s).w ∧ Keeps noneRemaining s.w (cancelAll s).w := by
  obtain ⟨w', he, h1, h2⟩ := cancelAll_eq s
  rw [he]
  dsimp only
  cases hc : s.cancelled with
  | true => rw [h1 hc]; exact ⟨h, Keeps.refl _ _⟩
  | false =>
    rw [h2 hc, foldl_ids]
    split
    · exact h.cancels _ hq
    · have k1 : Keeps noneRemaining s.w (api s.w (.cancel s.parent)) := keeps_api h.calm.reach rfl rfl
      obtain ⟨h3, k3⟩ := (h.simple (a := .cancel s.parent) rfl rfl hq).cancels (s.remaining.map (·.1))
        (by rw [k1.quiet]; exact hq)
      exact ⟨h3, k1.trans k3⟩

theorem cancelAll_rest {s : TS} {O A : List Nat} {p : Nat} {aw dr : Bool}
    (h : Live noneRemaining O A p aw dr s.w) (hq : quiet s.w = true) : Rest s (cancelAll s) := by
  have hk := (cancelAll_live h hq).2
  obtain ⟨w', he, -, -⟩ := cancelAll_eq s
  have hl : (cancelAll s).log = s.log ++ if s.cancelled then [] else cancels s.finishing s.remaining := by
    rw [he]
  refine ⟨by rw [he], by rw [he], by rw [he], by rw [he], by rw [he], by rw [he], by rw [he], by rw [he],
    ?_, ?_, ?_, ?_, ?_, ?_, hk⟩ <;> rw [hl]
  · split <;> simp
  · split <;> simp
  · rw [blockOf_append]; split
    · simp [blockOf]
    · simp
  · split <;> simp
  · intro o ho; simp [ho]
  · split
    · simp
    · unfold cancels; split <;> simp

theorem cancelAll_core {s : TS} {log : List Obs} {x : Obs} {aw dr : Bool} (hp : Pre s log x)
    (h : LiveS s aw dr) (hq : quiet s.w = true) :
    Core (cancelAll s) ∧ LiveS (cancelAll s) aw dr ∧ Rest s (cancelAll s) ∧
      (cancelAll s).cancelled = true := by
  have hr := cancelAll_rest h hq
  have hl := (cancelAll_live h hq).1
  obtain ⟨w', he, -, -⟩ := cancelAll_eq s
  have hlog : (cancelAll s).log = s.log ++ if s.cancelled then [] else cancels s.finishing s.remaining := by
    rw [he]
  have hcc : (cancelAll s).cancelled = true := by rw [he]
  have hids : ids (cancelAll s).log = ids s.log := by unfold ids; rw [hr.kids]
  have hf : ∀ t ∈ announced s.log, failure (cancelAll s).w t = failure s.w t := fun t ht =>
    failure_congr (hr.keeps.done t ((h.own.done t (h.own.sub t ht)).2 (Or.inl ht)))
  refine ⟨⟨by rw [hids]; exact hp.nd, ?_, ?_, ?_, ?_⟩, ?_, hr, hcc⟩
  · rw [hr.remaining, hp.rem]; unfold remOf; rw [hr.kids, hr.ann]
  · rw [hr.finishing, hp.fin, hr.finl]
  · rw [hr.excs, hp.excs, hr.ann, excs_congr hf]
  · rw [hr.ctx, hcc, hlog]
    have := (hp.canc.fire hp.plain hp.kid hp.meets)
    rw [← hp.eq, ← hp.fin, ← hp.rem] at this
    refine this.congr ?_
    intro t ht
    apply hf
    rw [← hlog, hr.ann] at ht
    exact ht
  · show Live _ (ids _) (announced _) _ _ _ _
    rw [hids, hr.ann, hr.parent]
    exact hl

theorem annDone {s : TS} {aw dr : Bool} (h : LiveS s aw dr) :
    ∀ t ∈ announced s.log, (s.w.task t).state.isDone = true :=
  fun t ht => (h.own.done t (h.own.sub t ht)).2 (Or.inl ht)

/-- What a step of the scheduler does to the bookkeeping. -/
theorem Core.frame {s : TS} (h : Core s) {w' : World}
    (hk : ∀ t ∈ announced s.log, (w'.task t).state = (s.w.task t).state ∧
      (w'.task t).outcome = (s.w.task t).outcome) : Core { s with w := w' } := by
  have hf := fun t ht => failure_congr (hk t ht)
  exact ⟨h.nd, h.rem, h.fin, by rw [h.excs]; exact (excs_congr hf).symm, h.canc.congr hf⟩

def Phase.aw : Phase → Bool
  | .waiting _ | .ext => true
  | _ => false

def Phase.dr : Phase → Bool
  | .killing => true
  | _ => false

/-- The exception of the block as it appears in the group. -/
def blockExc : Option (Option Exc) → List (Option Nat × Exc)
  | some (some .cancelled) => []
  | some (some e) => [(none, e)]
  | _ => []

/-- What is known in each phase. -/
def PhaseOk (s : TS) : Phase → Prop
  | .fresh => s.log = [] ∧ s.entered = false
  | .created => s.log = [] ∧ s.entered = false
  | .body => finished s.log = false
  | .killing => s.cancelled = true ∧ ∃ b, blockOf s.log = some b ∧ b ≠ some .cancelled
  | .waiting e => (blockOf s.log = some e ∧ e ≠ some .cancelled) ∨
      (e = none ∧ blockOf s.log = some (some .cancelled) ∧ s.excs ≠ [])
  | .ext => s.cancelled = true
  | .left .normal => s.remaining = [] ∧ s.excs = [] ∧ blockOf s.log = some none
  | .left (.group l) => s.remaining = [] ∧ l ≠ [] ∧ l = s.excs ++ blockExc (blockOf s.log)
  | .left (.raises e) => s.cancelled = true ∧
      ((∃ n, e = .fatal n ∧ blockOf s.log = some (some e)) ∨ (e = .cancelled ∧ s.remaining = []) ∨
      ((e = .runtimeError ∨ e = .cancelled) ∧ ∃ b, blockOf s.log = some b ∧ b ≠ some .cancelled))
  | .left .closed => s.cancelled = true ∧ .closed ∈ s.log

structure TInv (s : TS) : Prop where
  live : LiveS s s.phase.aw s.phase.dr
  nr : s.phase.inside = true → (s.w.task s.parent).state ≠ .running
  core : Core s
  ph : PhaseOk s s.phase
  fired : s.phase ≠ .fresh → (s.w.fired noneRemaining = true ↔ s.remaining = [])
  ent : s.phase ≠ .fresh → s.phase ≠ .created →
    s.entered = true ∧ .entered ∈ s.log ∧ s.parent ∉ ids s.log
  finl : s.phase ≠ .fresh → s.phase ≠ .created → s.phase ≠ .body → finished s.log = true

theorem PhaseOk.congr {s s' : TS} {ph : Phase} (h : PhaseOk s ph) (h1 : s'.log = s.log)
    (h2 : s'.cancelled = s.cancelled) (h3 : s'.remaining = s.remaining) (h4 : s'.excs = s.excs)
    (h5 : s'.entered = s.entered) : PhaseOk s' ph := by
  unfold PhaseOk at h ⊢
  rw [h1, h2, h3, h4, h5]
  exact h

/-- Awaiting an event that is set. -/
theorem await_set {w w' : World} {r : Res} {p e : Nat} {rest : List Frame}
    (hst : w.stack = .running p :: rest) (hc : w.cbs (.event e) = []) (hf : w.fired e = true)
    (he : Sched.exec w (.await (.event e) false) = some (w', r)) :
    (∀ u, u ≠ p → w'.task u = w.task u) ∧ w'.fired = w.fired ∧
    (w'.done p = true ∨ ((w'.task p).state = .scheduled ∧ (w'.task p).exc = none)) := by
  unfold Sched.exec at he
  split at he
  · cases he
  cases hi : w.inside
  · simp [hi] at he
  simp only [hi, hst, execCoro, awaitRefused, Bool.false_eq_true, if_false, Option.some.injEq,
    Prod.mk.injEq] at he
  obtain ⟨he, -⟩ := he
  subst he
  unfold suspendOn
  split
  · refine ⟨fun u hu => by simp [setOutcome, upd_ne _ _ hu], rfl, Or.inl ?_⟩
    simp [World.done, setOutcome, upd_self, TState.isDone]
  · simp only [register, World.addLog, World.setTask, hc, List.isEmpty_nil, if_true, prime, hf, react,
      upd_self, List.nil_append, wakeAll, scheduleResume]
    refine ⟨fun u hu => by simp [upd_ne _ _ hu], by trivial, Or.inr ?_⟩
    constructor <;> simp [upd_self]

/-- The caller awaits the private event, which may be set. -/
theorem awaitE {e : Nat} {O A : List Nat} {p : Nat} {w w' : World} {r : Res} {rest : List Frame}
    (h : Live e O A p false false w) (hst : w.stack = .running p :: rest)
    (he : Sched.exec w (.await (.event e) false) = some (w', r)) :
    w'.fired = w.fired ∧ (w'.task p).state ≠ .running ∧
    ((w'.done p = true ∧ Live e O A p false false w') ∨
      (w'.done p = false ∧ Live e O A p true false w')) := by
  cases hf : w.fired e with
  | false => exact h.await hst hf he
  | true =>
    obtain ⟨D, hg⟩ := h.calm.reach.good
    have hq : quiet w = true := by unfold quiet; rw [hst]
    have hc : w.cbs (.event e) = [] := by
      rw [List.eq_nil_iff_forall_not_mem]
      rintro ⟨hh, u⟩ hm
      obtain ⟨e1, e2⟩ := (hg.inv.ok u (by simp)).reg _ _ hm (hg.inv.gpiDead (by simp))
      exact absurd (h.reg u hh e1 e2).2 (by simp)
    obtain ⟨h1, h2, h3⟩ := await_set hst hc hf he
    have hown : Owned O A w' := by
      rcases h.own.step hg h.tidy (Or.inl hq) (by simp [spares]) he with ⟨t, how, -, hx, -⟩ | ⟨-, h'⟩
      · cases hx
      · exact h'
    have hcalm : Calm w' := h.calm.step he (by simp)
    have htidy := h.tidy.step hg (Or.inl hq) he
    have hnp : (w'.task p).state ≠ .pending := by
      rcases h3 with h3 | ⟨h3, -⟩
      · intro hx; unfold World.done at h3; rw [hx] at h3; cases h3
      · rw [h3]; simp
    have hreg : ∀ t k, (w'.task t).state = .pending → (w'.task t).tcb = some (.event e, k) → False := by
      intro t k ht hk
      by_cases hne : t = p
      · subst hne; exact hnp ht
      · rw [h1 t hne] at ht hk
        exact absurd (h.reg t k ht hk).2 (by simp)
    refine ⟨h2, ?_, ?_⟩
    · intro hr
      rcases h3 with h3 | ⟨h3, -⟩
      · unfold World.done at h3; rw [hr] at h3; cases h3
      · rw [hr] at h3; cases h3
    rcases h3 with h3 | ⟨h3, h4⟩
    · exact Or.inl ⟨h3, hcalm, htidy, fun t k a b => (hreg t k a b).elim, by simp, by simp, hown⟩
    · refine Or.inr ⟨by unfold World.done; rw [h3]; rfl, hcalm, htidy,
        fun t k a b => (hreg t k a b).elim, ?_, by simp, hown⟩
      intro _
      exact Or.inr (Or.inr ⟨Or.inl h3, Or.inl ⟨h4, by rw [h2]; exact hf⟩⟩)

/-- A task that ignores its cancellation is ended. -/
theorem await_must {w w' : World} {r : Res} {p : Nat} {g : Trig} {rest : List Frame}
    (hst : w.stack = .running p :: rest) (hm : (w.task p).mustCancel > 0)
    (hg : awaitRefused w g = false)
    (he : Sched.exec w (.await g false) = some (w', r)) : w'.done p = true := by
  unfold Sched.exec at he
  split at he
  · cases he
  cases hi : w.inside
  · simp [hi] at he
  simp only [hi, hst, execCoro, hg, Bool.false_eq_true, if_false, Option.some.injEq,
    Prod.mk.injEq] at he
  obtain ⟨he, -⟩ := he
  subst he
  unfold suspendOn
  rw [if_pos hm]
  simp [World.done, setOutcome, upd_self, TState.isDone]

/-- The parent is running inside `__aexit__`. -/
structure Mid (s : TS) : Prop where
  live : LiveS s false false
  st : ∃ rest, s.w.stack = .running s.parent :: rest
  core : Core s
  fired : s.w.fired noneRemaining = true ↔ s.remaining = []
  ent : s.entered = true ∧ .entered ∈ s.log ∧ s.parent ∉ ids s.log
  finl : finished s.log = true

theorem Mid.quiet {s : TS} (h : Mid s) : quiet s.w = true := by
  obtain ⟨rest, hst⟩ := h.st
  unfold Sched.quiet; rw [hst]

theorem Mid.running {s : TS} (h : Mid s) : (s.w.task s.parent).state = .running := by
  obtain ⟨rest, hst⟩ := h.st
  obtain ⟨D, hg⟩ := h.live.calm.reach.good
  exact (hg.stk.run _).1 (by simp [hst])

/-- The manager notes `x` and cancels. -/
theorem Mid.cancelAll {s : TS} {log : List Obs} {x : Obs} (hp : Pre s log x) (hl : LiveS s false false)
    (hst : ∃ rest, s.w.stack = .running s.parent :: rest)
    (hf : s.w.fired noneRemaining = true ↔ s.remaining = [])
    (he : s.entered = true ∧ .entered ∈ s.log ∧ s.parent ∉ ids s.log)
    (hfin : finished s.log = true) :
    Mid (cancelAll s) ∧ Rest s (TM.cancelAll s) ∧ (TM.cancelAll s).cancelled = true := by
  have hq : Sched.quiet s.w = true := by
    obtain ⟨rest, hst⟩ := hst
    unfold Sched.quiet; rw [hst]
  obtain ⟨h1, h2, h3, h4⟩ := cancelAll_core hp hl hq
  refine ⟨⟨h2, ?_, h1, ?_, ?_, ?_⟩, h3, h4⟩
  · rw [h3.keeps.stack, h3.parent]; exact hst
  · rw [h3.keeps.fired, h3.remaining]; exact hf
  · rw [h3.entered, h3.ent, h3.parent]
    unfold ids; rw [h3.kids]; exact he
  · rw [h3.finl]; exact hfin

theorem Mid.uncancel {s : TS} (h : Mid s) : Mid (TM.uncancel s) := by
  have k : Keeps noneRemaining s.w (api s.w (.uncancel s.parent)) := keeps_api h.live.calm.reach rfl rfl
  refine ⟨h.live.simple rfl rfl h.quiet, ?_, h.core.frame fun t ht => k.done t (annDone h.live t ht), ?_,
    h.ent, h.finl⟩
  · obtain ⟨rest, hst⟩ := h.st
    exact ⟨rest, k.stack.trans hst⟩
  · show (api s.w (.uncancel s.parent)).fired noneRemaining = true ↔ _
    rw [k.fired]; exact h.fired

/-- `__aexit__` awaits something. -/
theorem Mid.suspend {s s' : TS} {g : Trig} {ph : Phase} (h : Mid s) (hph : PhaseOk s ph)
    (hg : (g = .event noneRemaining ∧ ph.aw = true ∧ ph.dr = false) ∨
      (g = .null 0 ∧ ph.aw = false ∧ ph.dr = true))
    (he : suspend s g ph = some s') : TInv s' := by
  unfold TM.suspend at he
  dsimp only at he
  have hbody : ph ≠ .fresh ∧ ph ≠ .created ∧ ph ≠ .body := by
    rcases hg with ⟨-, h1, -⟩ | ⟨-, -, h1⟩ <;> cases ph <;> simp_all [Phase.aw, Phase.dr]
  -- what the await does
  have key : ∀ (s1 : TS) (w' : World) (r : Res), Mid s1 →
      Sched.exec s1.w (.await g false) = some (w', r) →
      w'.fired noneRemaining = s1.w.fired noneRemaining ∧ (w'.task s1.parent).state ≠ .running ∧
      ((w'.done s1.parent = true ∧ LiveS { s1 with w := w' } false false) ∨
       (w'.done s1.parent = false ∧ LiveS { s1 with w := w' } ph.aw ph.dr)) ∧
      Core { s1 with w := w' } := by
    intro s1 w' r h1 hx
    obtain ⟨rest, hst⟩ := h1.st
    have hc : Core { s1 with w := w' } := h1.core.frame fun t ht =>
      done_keeps h1.live.calm.reach hx (annDone h1.live t ht)
    rcases hg with ⟨rfl, e1, e2⟩ | ⟨rfl, e1, e2⟩
    · obtain ⟨a1, a2, a3⟩ := awaitE h1.live hst hx
      rw [e1, e2]
      exact ⟨by rw [a1], a2, a3, hc⟩
    · obtain ⟨a1, a2, a3⟩ := h1.live.awaitNull hst hx
      rw [e1, e2]
      exact ⟨a1, a2, a3, hc⟩
  by_cases hm : (s.w.task s.parent).mustCancel > 0
  · rw [if_pos hm] at he
    split at he
    · cases he
    rename_i w' r hx
    cases he
    have hp : Pre { s with finishing := true, log := s.log ++ [.closed] } s.log .closed := by
      refine ⟨rfl, ?_, ?_, ?_, ?_, h.core.canc, rfl, rfl, rfl⟩
      · simpa [ids, kids] using h.core.nd
      · show s.remaining = _
        rw [h.core.rem]; simp [remOf, kids, announced]
      · simp [finished]
      · show s.excs = _
        rw [h.core.excs]; simp [announced]
    have hk0 : kids (s.log ++ [Obs.closed]) = kids s.log := by simp [kids]
    have ha0 : announced (s.log ++ [Obs.closed]) = announced s.log := by simp [announced]
    obtain ⟨h1, h2, h3⟩ := Mid.cancelAll hp
      (by show Live _ (ids _) (announced _) _ _ _ _; unfold ids; rw [hk0, ha0]; exact h.live) h.st h.fired
      (by unfold ids; rw [hk0]; exact ⟨h.ent.1, by simp [h.ent.2.1], h.ent.2.2⟩) (by simp [finished])
    have hgu : giveUp s = TM.cancelAll { s with finishing := true, log := s.log ++ [.closed] } := rfl
    rw [← hgu] at h1 h2 h3
    have hpar : (giveUp s).parent = s.parent := h2.parent
    have hmust : w'.done (giveUp s).parent = true := by
      obtain ⟨rest, hst⟩ := h1.st
      refine await_must hst ?_ ?_ hx
      · rw [hpar]
        have hd0 := h.running
        have : ((giveUp s).w.task s.parent).mustCancel = (s.w.task s.parent).mustCancel := by
          obtain ⟨w1, e1, e2, e3⟩ := cancelAll_eq { s with finishing := true, log := s.log ++ [.closed] }
          rw [hgu, e1]
          dsimp only at e2 e3 ⊢
          cases hc : s.cancelled with
          | true => rw [e2 hc]
          | false =>
            rw [e3 hc, foldl_ids]
            simp only [if_true]
            rw [cancels_other _ h.live.calm.reach]
            rw [h.core.rem]
            intro hmem
            apply h.ent.2.2
            simp only [remOf, List.mem_map, List.mem_filter] at hmem
            obtain ⟨y, hy, hy2⟩ := hmem
            exact List.mem_map.2 ⟨y, hy.1, hy2⟩
        omega
      · rcases hg with ⟨rfl, -⟩ | ⟨rfl, -⟩ <;> rfl
    obtain ⟨k1, k2, k3, k4⟩ := key _ w' r h1 hx
    rw [if_pos hmust]
    rcases k3 with ⟨-, k3⟩ | ⟨k3, -⟩
    · refine ⟨k3, by simp [Phase.inside], ⟨k4.nd, k4.rem, k4.fin, k4.excs, k4.canc⟩, ?_, ?_, ?_, ?_⟩
      · exact ⟨h3, h2.sub .closed (by simp)⟩
      · intro _
        show w'.fired noneRemaining = true ↔ _
        rw [k1]; exact h1.fired
      · intro _ _; exact h1.ent
      · intro _ _ _; exact h1.finl
    · rw [hmust] at k3; cases k3
  · rw [if_neg hm] at he
    split at he
    · cases he
    rename_i w' r hx
    cases he
    have hd := (Wait.await_keeps h.live.calm.reach h.running (by omega) hx).1
    have hd' : w'.done s.parent = false := hd
    obtain ⟨k1, k2, k3, k4⟩ := key _ w' r h hx
    simp only [hd', Bool.false_eq_true, if_false]
    rcases k3 with ⟨k3, -⟩ | ⟨-, k3⟩
    · rw [hd'] at k3; cases k3
    · refine ⟨k3, fun _ => k2, ⟨k4.nd, k4.rem, k4.fin, k4.excs, k4.canc⟩, ?_, ?_, ?_, ?_⟩
      · exact hph.congr rfl rfl rfl rfl rfl
      · intro _
        show w'.fired noneRemaining = true ↔ _
        rw [k1]; exact h.fired
      · intro _ _; exact h.ent
      · intro _ _ _; exact h.finl

theorem Mid.loop {s s' : TS} (h : Mid s) (hc : s.cancelled = true) (he : TM.loop s = some s') : TInv s' := by
  unfold TM.loop at he
  split at he
  · rename_i hf
    cases he
    refine ⟨h.live, by simp [Phase.inside], ⟨h.core.nd, h.core.rem, h.core.fin, h.core.excs, h.core.canc⟩,
      ?_, fun _ => h.fired, fun _ _ => h.ent, fun _ _ _ => h.finl⟩
    exact ⟨hc, Or.inr (Or.inl ⟨rfl, h.fired.1 hf⟩)⟩
  · exact h.suspend (ph := .ext) hc (Or.inl ⟨rfl, rfl, rfl⟩) he

/-- The block ended: `x = .block exc` is noted. -/
theorem noted {s : TS} {exc : Option Exc} (h : TInv s) (hb : s.phase = .body)
    (hst : ∃ rest, s.w.stack = .running s.parent :: rest) :
    let s1 : TS := begin_ s exc
    LiveS s1 false false ∧ (ids s1.log).Nodup ∧ s1.remaining = remOf s1.log ∧
    s1.finishing = finished s1.log ∧ s1.excs = excsOf s1.w (announced s1.log) ∧
    kids s1.log = kids s.log ∧ blockOf s1.log = some exc ∧ finished s1.log = true ∧
    (s1.entered = true ∧ .entered ∈ s1.log ∧ s1.parent ∉ ids s1.log) := by
  have hk0 : kids (s.log ++ [Obs.block exc]) = kids s.log := by simp [kids]
  have ha0 : announced (s.log ++ [Obs.block exc]) = announced s.log := by simp [announced]
  have hl := h.live
  rw [hb] at hl
  dsimp only [begin_]
  have hf : finished s.log = false := by have := h.ph; rw [hb] at this; exact this
  have hbl : blockOf s.log = none := by
    unfold blockOf
    rw [List.findSome?_eq_none_iff]
    intro o ho
    unfold finished at hf
    rw [List.any_eq_false] at hf
    have := hf o ho
    cases o <;> simp_all
  obtain ⟨e1, e2, e3⟩ := h.ent (by rw [hb]; simp) (by rw [hb]; simp)
  refine ⟨?_, ?_, ?_, ?_, ?_, hk0, ?_, ?_, e1, by simp [e2], ?_⟩
  · show Live _ (ids _) (announced _) _ _ _ _
    unfold ids; rw [hk0, ha0]; exact hl
  · unfold ids; rw [hk0]; exact h.core.nd
  · rw [h.core.rem]; unfold remOf; rw [hk0, ha0]
  · simp [finished]
  · rw [h.core.excs, ha0]
  · rw [blockOf_append, hbl]; rfl
  · simp [finished]
  · unfold ids; rw [hk0]; exact e3

/-- If the manager cancelled while the block was running, a child had failed. -/
theorem body_failed {s : TS} (h : TInv s) (hb : s.phase = .body) (hc : s.cancelled = true) :
    s.excs ≠ [] := by
  obtain ⟨pre, x, post, h1, h2, h3, -⟩ := h.core.canc.yes hc
  have hf : finished s.log = false := by have := h.ph; rw [hb] at this; exact this
  have hfx : finished [x] = false := by
    rw [h1] at hf
    simp only [finished_append, Bool.or_eq_false_iff] at hf
    exact hf.1.1.2
  cases x with
  | ended t =>
    have ht : t ∈ announced s.log := by rw [h1]; simp only [announced_append]; simp [announced]
    simp only [meets, Bool.and_eq_true] at h3
    obtain ⟨e, he⟩ := Option.isSome_iff_exists.1 h3.1
    rw [h.core.excs]
    intro hx
    unfold excsOf at hx
    rw [List.filterMap_eq_nil_iff] at hx
    have := hx t ht
    rw [he] at this; cases this
  | interrupted => simp [finished] at hfx
  | block e => simp [finished] at hfx
  | closed => simp [finished] at hfx
  | _ => simp [meets] at h3

/-- The block ends. -/
theorem exit_inv {s s' : TS} {exc : Option Exc} (h : TInv s) (hb : s.phase = .body)
    (hst : ∃ rest, s.w.stack = .running s.parent :: rest) (he : exit s exc = some s') : TInv s' := by
  have hn := noted (exc := exc) h hb hst
  unfold exit at he
  dsimp only at he hn
  generalize hs1 : begin_ s exc = s1 at he hn
  obtain ⟨n1, n2, n3, n4, n5, n6, n7, n8, n9⟩ := hn
  have hst1 : ∃ rest, s1.w.stack = .running s1.parent :: rest := by subst hs1; exact hst
  have hf1 : s1.w.fired noneRemaining = true ↔ s1.remaining = [] := by
    subst hs1; exact h.fired (by rw [hb]; simp)
  have hc1 : s1.cancelled = s.cancelled := by subst hs1; rfl
  have hlog : s1.log = s.log ++ [.block exc] := by subst hs1; rfl
  have hcanc : CancelOk s1.ctx s1.w s.log s1.cancelled := by subst hs1; exact h.core.canc
  have hexcs : s1.excs = s.excs := by subst hs1; rfl
  -- with the observation noted and nothing to cancel
  have hmid : (meets s1.ctx s1.w (kids s.log) (.block exc) = true → s1.cancelled = true) → Mid s1 := by
    intro hm
    refine ⟨n1, hst1, ⟨n2, n3, n4, n5, ?_⟩, hf1, n9, n8⟩
    rw [hlog]
    exact hcanc.push rfl rfl hm
  -- with the cancellation it causes
  have hcan : meets s1.ctx s1.w (kids s.log) (.block exc) = true →
      Mid (cancelAll s1) ∧ Rest s1 (cancelAll s1) ∧ (cancelAll s1).cancelled = true :=
    fun hm => Mid.cancelAll ⟨hlog, n2, n3, n4, n5, hcanc, rfl, rfl, hm⟩ n1 hst1 hf1 n9 n8
  have hkill : ∀ s', exc ≠ some .cancelled → s1.cancelled = true →
      suspend s1 (.null 0) .killing = some s' → TInv s' := by
    intro s' hne hc hx
    exact (hmid (fun _ => hc)).suspend (ph := .killing) ⟨hc, exc, n7, hne⟩ (Or.inr ⟨rfl, rfl, rfl⟩) hx
  have hwait : ∀ s2 s' : TS, Mid s2 → blockOf s2.log = some exc → exc ≠ some .cancelled →
      waitAll s2 exc = some s' → TInv s' := by
    intro s2 s' h2 hbl hne hx
    exact h2.suspend (ph := .waiting exc) (Or.inl ⟨hbl, hne⟩) (Or.inl ⟨rfl, rfl, rfl⟩) hx
  have hother : ∀ s', (∀ n, exc ≠ some (.fatal n)) → exc ≠ some .cancelled →
      (if s1.cancelled then suspend s1 (.null 0) .killing
        else if s1.ctx then waitAll s1 exc else waitAll (cancelAll s1) exc) = some s' →
      exc ≠ none → TInv s' := by
    intro s' hnf hnc hx hnn
    split at hx
    · rename_i hc; exact hkill s' hnc hc hx
    · split at hx
      · rename_i hctx
        refine hwait s1 s' (hmid ?_) n7 hnc hx
        intro hm
        rcases exc with _ | e
        · exact absurd rfl hnn
        · exfalso
          cases e <;> simp_all [meets]
      · rename_i hctx
        obtain ⟨a1, a2, a3⟩ := hcan (by
          rcases exc with _ | e
          · exact absurd rfl hnn
          · cases e <;> simp_all [meets])
        exact hwait _ s' a1 (by rw [a2.block]; exact n7) hnc hx
  split at he
  · -- special exception
    rename_i n
    cases he
    obtain ⟨a1, a2, a3⟩ := hcan rfl
    refine ⟨a1.live, by simp [Phase.inside], ⟨a1.core.nd, a1.core.rem, a1.core.fin, a1.core.excs,
      a1.core.canc⟩, ?_, fun _ => a1.fired, fun _ _ => a1.ent, fun _ _ _ => a1.finl⟩
    exact ⟨a3, Or.inl ⟨n, rfl, by show blockOf (cancelAll s1).log = _; rw [a2.block]; exact n7⟩⟩
  · -- the block was cancelled
    split at he
    · rename_i hc
      have hfail := body_failed h hb (by rw [← hc1]; exact hc)
      exact ((hmid (fun _ => hc)).uncancel).suspend (ph := .waiting none)
        (Or.inr ⟨rfl, n7, by show s1.excs ≠ []; rw [hexcs]; exact hfail⟩) (Or.inl ⟨rfl, rfl, rfl⟩) he
    · obtain ⟨a1, a2, a3⟩ := hcan rfl
      exact a1.uncancel.loop a3 he
  · split at he
    · rename_i hc; exact hkill s' (by simp) hc he
    · exact hwait s1 s' (hmid (by simp [meets])) n7 (by simp) he
  · rename_i e h1 h2
    exact hother s' (fun n hn => by cases hn; exact h1 n rfl) (fun hn => by cases hn; exact h2 rfl) he (by simp)

/-- The parent is resumed inside `__aexit__`. -/
theorem goOn_inv {s s' : TS} (hl : LiveS s s.phase.aw s.phase.dr)
    (hst : ∃ rest, s.w.stack = .running s.parent :: rest) (hc : Core s) (hph : PhaseOk s s.phase)
    (hin : s.phase.inside = true) (hf : s.w.fired noneRemaining = true ↔ s.remaining = [])
    (hent : s.entered = true ∧ .entered ∈ s.log ∧ s.parent ∉ ids s.log) (hfin : finished s.log = true)
    (he : goOn s = some s') : TInv s' := by
  obtain ⟨D, hg⟩ := hl.calm.reach.good
  have hrun : (s.w.task s.parent).state = .running := by
    obtain ⟨rest, hst⟩ := hst
    exact (hg.stk.run _).1 (by simp [hst])
  have hl0 : LiveS s false false := hl.resumed (by rw [hrun]; simp)
  have hmid : Mid s := ⟨hl0, hst, hc, hf, hent, hfin⟩
  have hE : s.phase.aw = true → ((s.w.task s.parent).exc = none ∧ s.w.fired noneRemaining = true) ∨
      (s.w.task s.parent).exc = some .cancelled := by
    intro ha
    have := hl.onE ha
    unfold OnEvent at this
    rw [hrun] at this
    simpa [TState.isDone] using this
  have hN : s.phase.dr = true → (s.w.task s.parent).exc = none ∨
      (s.w.task s.parent).exc = some .cancelled := by
    intro ha
    have := hl.onN ha
    unfold OnNull at this
    rw [hrun] at this
    simpa [TState.isDone] using this
  have mk : ∀ r : Leave, PhaseOk s (.left r) → TInv { s with phase := .left r } := by
    intro r hr
    exact ⟨hl0, by simp [Phase.inside], ⟨hc.nd, hc.rem, hc.fin, hc.excs, hc.canc⟩,
      hr.congr rfl rfl rfl rfl rfl, fun _ => hf, fun _ _ => hent, fun _ _ _ => hfin⟩
  unfold goOn at he
  cases hp : s.phase with
  | killing =>
    rw [hp] at hph
    rcases hN (by rw [hp]; rfl) with h1 | h1
    · simp only [hp, h1, Option.some.injEq] at he
      rw [← he]
      exact mk _ ⟨hph.1, Or.inr (Or.inr ⟨Or.inl rfl, hph.2⟩)⟩
    · simp only [hp, h1, Option.some.injEq] at he
      rw [← he]
      exact mk _ ⟨hph.1, Or.inr (Or.inr ⟨Or.inr rfl, hph.2⟩)⟩
  | ext =>
    rw [hp] at hph
    rcases hE (by rw [hp]; rfl) with ⟨h1, h2⟩ | h1
    · simp only [hp, h1] at he
      exact hmid.loop hph he
    · simp only [hp, h1] at he
      exact hmid.uncancel.loop hph he
  | waiting exc =>
    rw [hp] at hph
    rcases hE (by rw [hp]; rfl) with ⟨h1, h2⟩ | h1
    · simp only [hp, h1, Option.some.injEq] at he
      rw [← he]
      unfold finish
      dsimp only
      have hrem := hf.1 h2
      apply mk
      split
      · rename_i hnil
        simp only [List.append_eq_nil_iff] at hnil
        refine ⟨hrem, hnil.1, ?_⟩
        rcases hph with ⟨e1, e2⟩ | ⟨e1, e2, e3⟩
        · rcases exc with _ | e
          · exact e1
          · simp at hnil
        · exact absurd hnil.1 e3
      · rename_i hne
        refine ⟨hrem, hne, ?_⟩
        rcases hph with ⟨e1, e2⟩ | ⟨e1, e2, e3⟩
        · rw [e1]
          rcases exc with _ | e
          · rfl
          · cases e <;> simp_all [blockExc]
        · rw [e2, e1]; rfl
    · simp only [hp, h1] at he
      have hk0 : kids (s.log ++ [Obs.interrupted]) = kids s.log := by simp [kids]
      have ha0 : announced (s.log ++ [Obs.interrupted]) = announced s.log := by simp [announced]
      have hpre : Pre { s with log := s.log ++ [.interrupted] } s.log .interrupted := by
        refine ⟨rfl, ?_, ?_, ?_, ?_, hc.canc, rfl, rfl, rfl⟩
        · unfold ids; rw [hk0]; exact hc.nd
        · show s.remaining = _
          rw [hc.rem]; unfold remOf; rw [hk0, ha0]
        · show s.finishing = _
          rw [hc.fin, hfin]; simp [finished]
        · show s.excs = _
          rw [hc.excs, ha0]
      obtain ⟨a1, a2, a3⟩ := Mid.cancelAll hpre
        (by show Live _ (ids _) (announced _) _ _ _ _; unfold ids; rw [hk0, ha0]; exact hl0) hst hf
        (by unfold ids; rw [hk0]; exact ⟨hent.1, by simp [hent.2.1], hent.2.2⟩) (by simp [finished])
      rw [hp] at a1 a2 a3
      exact a1.uncancel.loop a3 he
  | _ => rw [hp] at hin; cases hin

theorem PhaseOk.mono {s s' : TS} {ph : Phase} (h : PhaseOk s ph) (hr : s.remaining ≠ [])
    (hlog : s.log ≠ []) (h1 : finished s'.log = finished s.log) (h2 : blockOf s'.log = blockOf s.log)
    (h3 : s.cancelled = true → s'.cancelled = true) (h4 : s.excs ≠ [] → s'.excs ≠ [])
    (h5 : ∀ o ∈ s.log, o ∈ s'.log) : PhaseOk s' ph := by
  cases ph with
  | fresh => exact absurd h.1 hlog
  | created => exact absurd h.1 hlog
  | body => show finished s'.log = false; rw [h1]; exact h
  | killing => exact ⟨h3 h.1, by rw [h2]; exact h.2⟩
  | waiting e =>
    rcases h with h | ⟨a, b, c⟩
    · left; rw [h2]; exact h
    · right; rw [h2]; exact ⟨a, b, h4 c⟩
  | ext => exact h3 h
  | left r =>
    cases r with
    | normal => exact absurd h.1 hr
    | group l => exact absurd h.1 hr
    | closed => exact ⟨h3 h.1, h5 _ h.2⟩
    | raises e =>
      obtain ⟨a, b | ⟨-, b⟩ | b⟩ := h
      · exact ⟨h3 a, Or.inl (by rw [h2]; exact b)⟩
      · exact absurd b hr
      · exact ⟨h3 a, Or.inr (Or.inr (by rw [h2]; exact b))⟩

theorem kids_ne {s : TS} {t : Nat} (h : t ∈ ids s.log) : s.log ≠ [] := by
  rintro hl; rw [hl] at h; cases h

/-- The setting of `continue_on_error` of a child that is left. -/
theorem coe_of {log : List Obs} {t : Nat} (hn : (ids log).Nodup) (ht : t ∈ ids log)
    (hA : t ∉ announced log) :
    ((remOf log).find? (·.1 == t)).map (·.2) = some false ↔ (kids log).contains (t, false) = true := by
  have huniq : ∀ x ∈ kids log, ∀ y ∈ kids log, x.1 = y.1 → x = y := by
    intro x hx y hy hxy
    exact List.inj_on_of_nodup_map hn hx hy hxy
  constructor
  · intro h
    rw [Option.map_eq_some_iff] at h
    obtain ⟨x, h1, h2⟩ := h
    have h3 := List.mem_of_find?_eq_some h1
    have h4 := List.find?_some h1
    simp only [remOf, List.mem_filter] at h3
    simp only [beq_iff_eq] at h4
    have : x = (t, false) := by rw [← h4, ← h2]
    rw [List.contains_iff_mem, ← this]
    exact h3.1
  · intro h
    rw [List.contains_iff_mem] at h
    have hm : (t, false) ∈ remOf log := by simp [remOf, h, hA]
    cases hx : (remOf log).find? (·.1 == t) with
    | none =>
      have := List.find?_eq_none.1 hx _ hm
      simp at this
    | some x =>
      have h3 := List.mem_of_find?_eq_some hx
      have h4 := List.find?_some hx
      simp only [beq_iff_eq] at h4
      simp only [remOf, List.mem_filter] at h3
      have := huniq x h3.1 _ h h4
      simp [this]

/-- The state after the bookkeeping of a child's end, before a possible cancellation. -/
def noteEnd (s : TS) (t : Nat) : TS :=
  let s2 := childLeft s t
  { s2 with excs := s2.excs ++ ((failure s2.w t).map fun e => (some t, e)).toList }

theorem doneCallback_eq (s : TS) (t : Nat) : doneCallback s t =
    if (failure (noteEnd s t).w t).isSome = true ∧ (s.remaining.find? (·.1 == t)).map (·.2) = some false then
      cancelAll (noteEnd s t) else noteEnd s t := by
  unfold doneCallback noteEnd
  dsimp only
  generalize childLeft s t = s2
  cases hf : failure s2.w t with
  | none => simp
  | some e =>
    simp only [Option.isSome_some, true_and, Option.map_some, Option.toList_some]

/-- The end of a child is announced. -/
theorem doneCallback_inv {s : TS} {t : Nat}
    (hl : Live noneRemaining (ids s.log) (announced s.log ++ [t]) s.parent s.phase.aw s.phase.dr s.w)
    (hnr : s.phase.inside = true → (s.w.task s.parent).state ≠ .running)
    (hq : quiet s.w = true) (hi : s.w.inside = true) (hh : s.w.halted = false)
    (hc : Core s) (hph : PhaseOk s s.phase)
    (hf : s.phase ≠ .fresh → (s.w.fired noneRemaining = true ↔ s.remaining = []))
    (hent : s.phase ≠ .fresh → s.phase ≠ .created →
      s.entered = true ∧ .entered ∈ s.log ∧ s.parent ∉ ids s.log)
    (hfin : s.phase ≠ .fresh → s.phase ≠ .created → s.phase ≠ .body → finished s.log = true)
    (hm : t ∈ ids s.log) (hA : t ∉ announced s.log) : TInv (doneCallback s t) := by
  have hlne := kids_ne hm
  have hph1 : s.phase ≠ .fresh := by intro hx; rw [hx] at hph; exact hlne hph.1
  have hph2 : s.phase ≠ .created := by intro hx; rw [hx] at hph; exact hlne hph.1
  have htr : ∃ c, (t, c) ∈ s.remaining := by
    obtain ⟨x, hx1, hx2⟩ := List.mem_map.1 hm
    refine ⟨x.2, ?_⟩
    rw [hc.rem, ← hx2]
    simp only [remOf, List.mem_filter, decide_eq_true_eq]
    exact ⟨hx1, by rw [hx2]; exact hA⟩
  have hrne : s.remaining ≠ [] := by
    obtain ⟨c, hcc⟩ := htr; intro hx; rw [hx] at hcc; cases hcc
  have hf0 : s.w.fired noneRemaining = false := by
    cases hx : s.w.fired noneRemaining
    · rfl
    · exact absurd ((hf hph1).1 hx) hrne
  have hdone : ∀ u ∈ announced s.log ++ [t], (s.w.task u).state.isDone = true :=
    fun u hu => (hl.own.done u (hl.own.sub u hu)).2 (Or.inl hu)
  have hk0 : kids (s.log ++ [Obs.ended t]) = kids s.log := by simp [kids]
  have ha0 : announced (s.log ++ [Obs.ended t]) = announced s.log ++ [t] := by simp [announced]
  have hrem : s.remaining.filter (·.1 != t) = remOf (s.log ++ [.ended t]) := by
    rw [hc.rem]
    unfold remOf
    rw [hk0, ha0, List.filter_filter]
    apply List.filter_congr
    intro x _
    by_cases h1 : x.1 = t <;> by_cases h2 : x.1 ∈ announced s.log <;> simp [h1, h2]
  -- setting the event
  obtain ⟨w2, hw2, hl2, hst2, hkeep2, hrun2, hf2⟩ : ∃ w2,
      (if s.remaining.filter (·.1 != t) = [] then api s.w (.setE noneRemaining) else s.w) = w2 ∧
      Live noneRemaining (ids s.log) (announced s.log ++ [t]) s.parent s.phase.aw s.phase.dr w2 ∧
      w2.stack = s.w.stack ∧
      (∀ t, (s.w.task t).state.isDone = true → (w2.task t).state = (s.w.task t).state ∧
        (w2.task t).outcome = (s.w.task t).outcome) ∧
      (∀ t, (w2.task t).state = .running ↔ (s.w.task t).state = .running) ∧
      (w2.fired noneRemaining = true ↔ s.remaining.filter (·.1 != t) = []) := by
    refine ⟨_, rfl, ?_⟩
    split
    · rename_i hr
      obtain ⟨h1, h2⟩ := hl.set hq hi hh
      have f1 := (api_frame (w := s.w) (a := .setE noneRemaining) rfl).1
      refine ⟨h1, f1, fun t ht => api_done hl.calm.reach ht, fun t => ?_, by simp [h2, hr]⟩
      obtain ⟨D, hg⟩ := hl.calm.reach.good
      obtain ⟨D', hg'⟩ := h1.calm.reach.good
      rw [← hg'.stk.run, f1, hg.stk.run]
    · rename_i hr
      exact ⟨hl, rfl, fun _ _ => ⟨rfl, rfl⟩, fun _ => Iff.rfl, by simp only [hf0, hr]; simp⟩
  have hfail : ∀ u ∈ announced s.log, failure w2 u = failure s.w u := fun u hu =>
    failure_congr (hkeep2 u (hdone u (by simp [hu])))
  have hne : noteEnd s t = { s with
      w := w2
      remaining := s.remaining.filter (·.1 != t)
      log := s.log ++ [.ended t]
      excs := s.excs ++ ((failure w2 t).map fun e => (some t, e)).toList } := by
    rw [← hw2]
    unfold noteEnd childLeft
    dsimp only
    split <;> rfl
  rw [doneCallback_eq]
  generalize hs3 : noteEnd s t = s3 at hne ⊢
  have e1 : s3.w = w2 := by rw [hne]
  have e2 : s3.log = s.log ++ [.ended t] := by rw [hne]
  have e3 : s3.phase = s.phase := by rw [hne]
  have e4 : s3.parent = s.parent := by rw [hne]
  have e5 : s3.remaining = remOf s3.log := by rw [e2, ← hrem, hne]
  have e6 : s3.excs = excsOf s3.w (announced s3.log) := by
    rw [e2, e1, ha0]
    unfold excsOf
    rw [List.filterMap_append]
    have := hc.excs
    rw [← excs_congr (w' := w2) hfail] at this
    unfold excsOf at this
    rw [← this, hne]
    dsimp only
    cases hx : failure w2 t <;> simp [hx]
  have e7 : s3.cancelled = s.cancelled := by rw [hne]
  have e8 : s3.ctx = s.ctx := by rw [hne]
  have e9 : s3.finishing = finished s3.log := by rw [e2, hne]; simp [hc.fin, finished]
  have e10 : s3.entered = s.entered := by rw [hne]
  have e11 : ids s3.log = ids s.log := by unfold ids; rw [e2, hk0]
  have e12 : announced s3.log = announced s.log ++ [t] := by rw [e2, ha0]
  have hl3 : LiveS s3 s.phase.aw s.phase.dr := by
    show Live _ (ids _) (announced _) _ _ _ _
    rw [e11, e12, e4, e1]; exact hl2
  have hq3 : quiet s3.w = true := by rw [e1, quiet_stack hst2]; exact hq
  have hca : CancelOk s3.ctx s3.w s.log s3.cancelled := by
    rw [e8, e1, e7]; exact hc.canc.congr hfail
  have hcoe := coe_of hc.nd hm hA
  rw [← hc.rem] at hcoe
  have hmeets : meets s3.ctx s3.w (kids s.log) (.ended t) = true ↔
      ((failure s3.w t).isSome = true ∧ (s.remaining.find? (·.1 == t)).map (·.2) = some false) := by
    rw [hcoe]; simp [meets]
  have hblk : blockOf s3.log = blockOf s.log := by
    rw [e2, blockOf_append]
    have : blockOf [Obs.ended t] = none := rfl
    rw [this]; simp
  have hfnl : finished s3.log = finished s.log := by rw [e2]; simp [finished]
  have hnr3 : s.phase.inside = true → (w2.task s.parent).state ≠ .running :=
    fun h1 h2 => hnr h1 ((hrun2 _).1 h2)
  have hf3 : w2.fired noneRemaining = true ↔ s3.remaining = [] := by rw [hf2, e5, e2, hrem]
  have hex3 : s.excs ≠ [] → s3.excs ≠ [] := by
    intro h1 h2
    rw [hne] at h2
    simp only [List.append_eq_nil_iff] at h2
    exact h1 h2.1
  by_cases hcond : (failure s3.w t).isSome = true ∧ (s.remaining.find? (·.1 == t)).map (·.2) = some false
  · rw [if_pos hcond]
    obtain ⟨a1, a2, a3, a4⟩ := cancelAll_core (s := s3) (log := s.log) (x := .ended t)
      ⟨e2, by rw [e11]; exact hc.nd, e5, e9, e6, hca, rfl, rfl, hmeets.2 hcond⟩ hl3 hq3
    have hp4 : (cancelAll s3).phase = s.phase := by rw [a3.phase, e3]
    refine ⟨by rw [hp4]; exact a2, ?_, a1, ?_, ?_, ?_, ?_⟩ <;> rw [hp4]
    · intro h1 h2
      rw [a3.parent, e4] at h2
      rw [a3.keeps.running, e1] at h2
      exact hnr3 h1 h2
    · refine hph.mono hrne hlne ?_ ?_ (fun _ => a4) ?_ ?_
      · rw [a3.finl, hfnl]
      · rw [a3.block, hblk]
      · rw [a3.excs]; exact hex3
      · intro o ho; exact a3.sub o (by rw [e2]; simp [ho])
    · intro _; rw [a3.keeps.fired, e1, a3.remaining]; exact hf3
    · intro h1 h2
      obtain ⟨b1, b2, b3⟩ := hent h1 h2
      rw [a3.entered, a3.ent, a3.parent, e10, e4, e2]
      unfold ids; rw [a3.kids, e2, hk0]
      exact ⟨b1, by simp [b2], b3⟩
    · intro h1 h2 h3
      rw [a3.finl, hfnl]; exact hfin h1 h2 h3
  · rw [if_neg hcond]
    refine ⟨by rw [e3]; exact hl3, ?_, ⟨by rw [e11]; exact hc.nd, e5, e9, e6, ?_⟩, ?_, ?_, ?_, ?_⟩
    · rw [e3, e4, e1]; exact hnr3
    · rw [e2]
      exact hca.push rfl rfl (fun h => absurd (hmeets.1 h) hcond)
    · rw [e3]
      refine hph.mono hrne hlne hfnl hblk (fun h => by rw [e7]; exact h) hex3 ?_
      intro o ho; rw [e2]; simp [ho]
    · intro _; rw [e1]; exact hf3
    · rw [e3]
      intro h1 h2
      obtain ⟨b1, b2, b3⟩ := hent h1 h2
      rw [e10, e2, e4]
      unfold ids; rw [hk0]
      exact ⟨b1, by simp [b2], b3⟩
    · rw [e3]
      intro h1 h2 h3
      rw [hfnl]; exact hfin h1 h2 h3

theorem new_inv {s : TS} {d : Bool} {c : Option Bool} (h : TInv s) (hp : s.phase = .fresh)
    (ha : active s.w = true) : TInv (new s d c) := by
  unfold active at ha
  simp only [Bool.and_eq_true, Bool.not_eq_true'] at ha
  obtain ⟨⟨hi, hh⟩, hq⟩ := ha
  have hl := h.live
  rw [hp] at hl
  obtain ⟨h1, h2⟩ := hl.set hq hi hh
  have hph := h.ph
  rw [hp] at hph
  have hlog : s.log = [] := hph.1
  have hA : announced s.log = [] := by rw [hlog]; rfl
  have hc := h.core.frame (w' := api s.w (.setE noneRemaining)) (by rw [hA]; intro t ht; cases ht)
  have hr : s.remaining = [] := by rw [h.core.rem, hlog]; rfl
  refine ⟨h1, by simp [new, Phase.inside], ⟨hc.nd, hc.rem, hc.fin, hc.excs, ?_⟩, hph, ?_,
    by simp [new], by simp [new]⟩
  · have := hc.canc
    dsimp only at this
    show CancelOk (c.getD d) _ s.log s.cancelled
    rw [hlog] at this ⊢
    refine ⟨fun hf => ⟨rfl, by simp [noCancel]⟩, fun hf => ?_⟩
    obtain ⟨pre, x, post, hx, -⟩ := this.yes hf
    simp at hx
  · intro _
    show (api s.w (.setE noneRemaining)).fired noneRemaining = true ↔ s.remaining = []
    simp [h2, hr]

theorem enter_inv {s : TS} {p : Nat} (h : TInv s) (hp : s.phase = .created) : TInv (enter s p) := by
  have hl := h.live
  rw [hp] at hl
  have hph := h.ph
  rw [hp] at hph
  have hlog : s.log = [] := hph.1
  have hk : kids (s.log ++ [Obs.entered]) = kids s.log := by simp [kids]
  have hA : announced (s.log ++ [Obs.entered]) = announced s.log := by simp [announced]
  refine ⟨?_, by simp [enter, Phase.inside], ⟨?_, ?_, ?_, ?_, ?_⟩, ?_, ?_, ?_, by simp [enter]⟩
  · show Live _ (ids (s.log ++ [.entered])) (announced (s.log ++ [.entered])) p false false s.w
    unfold ids; rw [hk, hA]
    exact ⟨hl.calm, hl.tidy, fun t k a b => absurd (hl.reg t k a b).2 (by simp [Phase.aw]), by simp,
      by simp, hl.own⟩
  · show (ids (s.log ++ [.entered])).Nodup
    unfold ids; rw [hk]; exact h.core.nd
  · show s.remaining = remOf (s.log ++ [.entered])
    unfold remOf; rw [hk, hA]; exact h.core.rem
  · show s.finishing = finished (s.log ++ [.entered])
    rw [h.core.fin]; simp [finished]
  · show s.excs = excsOf s.w (announced (s.log ++ [.entered]))
    rw [hA]; exact h.core.excs
  · exact h.core.canc.push rfl rfl (by simp [meets])
  · show finished (s.log ++ [.entered]) = false
    rw [hlog]; rfl
  · intro _; exact h.fired (by rw [hp]; simp)
  · intro _ _
    refine ⟨rfl, by simp [enter], ?_⟩
    show p ∉ ids (s.log ++ [.entered])
    rw [hlog]; simp [ids, kids]

/-- A task is added. -/
theorem startSoon_inv {s : TS} {t : Nat} {coe : Option Bool} (h : TInv s) (ha : active s.w = true)
    (hf : s.w.task t = {}) : TInv (startSoon s t coe) := by
  unfold active at ha
  simp only [Bool.and_eq_true, Bool.not_eq_true'] at ha
  obtain ⟨⟨hi, hh⟩, hq⟩ := ha
  unfold startSoon
  cases hr : refusal s with
  | some e => exact h
  | none =>
    dsimp only
    unfold refusal at hr
    split at hr
    · cases hr
    rename_i h1
    split at hr
    · cases hr
    rename_i h2
    split at hr
    · cases hr
    rename_i h3
    split at hr
    · cases hr
    rename_i h4
    simp only [Bool.not_eq_true] at h1 h2
    simp only [Bool.not_eq_true', Bool.not_eq_false] at h3
    simp only [ne_eq, Decidable.not_not] at h4
    have hfl : finished s.log = false := by rw [← h.core.fin]; exact h2
    have hb : s.phase = .body := by
      have q1 : s.phase ≠ .fresh := by
        intro hx; have := h.ph; rw [hx] at this; have := this.2; rw [h3] at this; cases this
      have q2 : s.phase ≠ .created := by
        intro hx; have := h.ph; rw [hx] at this; have := this.2; rw [h3] at this; cases this
      cases hx : s.phase with
      | body => rfl
      | fresh => exact absurd hx q1
      | created => exact absurd hx q2
      | _ => exact absurd (h.finl q1 q2 (by rw [hx]; simp)) (by rw [hfl]; simp)
    obtain ⟨n1, n2, n3⟩ := h.ent (by rw [hb]; simp) (by rw [hb]; simp)
    have hl : Live noneRemaining (ids s.log) (announced s.log) s.parent false false s.w := by
      have := h.live; rw [hb] at this; exact this
    have htO : t ∉ ids s.log := by
      intro hx; exact hl.own.cbs t hx (by rw [hf])
    have htp : t ≠ s.parent := by
      rintro rfl
      exact current_started hl.calm.reach _ h4 (by rw [hf])
    -- `_add_done_callback`
    have l1 := hl.simple (a := .addCb t) rfl rfl hq
    have k1 : Keeps noneRemaining s.w (api s.w (.addCb t)) := keeps_api hl.calm.reach rfl rfl
    have e1 : api s.w (.addCb t) = addDoneCb s.w t := by simp [api, Sched.exec, hi, hh]
    have er : (api s.w (.addCb t)).task = upd s.w.task t { doneCbs := [s.w.nCb] } := by
      rw [e1]
      unfold addDoneCb
      rw [hf]
      simp [TState.isDone, World.addLog, hf]
    have hids : ids (s.log ++ [Obs.child t (coe.getD s.dflt)]) = ids s.log ++ [t] := by simp [ids, kids]
    have hann : announced (s.log ++ [Obs.child t (coe.getD s.dflt)]) = announced s.log := by simp [announced]
    have l2 : Live noneRemaining (ids s.log ++ [t]) (announced s.log) s.parent false false (api s.w (.addCb t)) := by
      refine ⟨l1.calm, l1.tidy, l1.reg, l1.onE, l1.onN, ?_⟩
      refine Owned.perm (O := t :: ids s.log) (l1.own.add l1.calm.reach ?_ ?_ ?_) ?_
      · rw [er]; simp [upd_self, TState.isDone]
      · rw [er]; simp [upd_self]
      · rw [er]; simp [upd_self]
      · intro u; simp [or_comm]
    obtain ⟨l3, f3⟩ := l2.clear (by rw [k1.quiet]; exact hq) (by rw [k1.inside]; exact hi)
      (by rw [k1.halted]; exact hh)
    obtain ⟨g1, g2, g3, -⟩ := api_frame (w := api s.w (.addCb t)) (a := .clearE noneRemaining) rfl
    have hq3 : quiet (api (api s.w (.addCb t)) (.clearE noneRemaining)) = true := by
      rw [quiet_stack g1, k1.quiet]; exact hq
    have l4 := l3.simple (a := .startSoon t) rfl rfl hq3
    have k4 : Keeps noneRemaining _ (api (api (api s.w (.addCb t)) (.clearE noneRemaining)) (.startSoon t)) :=
      keeps_api l3.calm.reach rfl rfl
    have hdone : ∀ u ∈ announced s.log,
        ((api (api (api s.w (.addCb t)) (.clearE noneRemaining)) (.startSoon t)).task u).state =
          (s.w.task u).state ∧
        ((api (api (api s.w (.addCb t)) (.clearE noneRemaining)) (.startSoon t)).task u).outcome =
          (s.w.task u).outcome := by
      intro u hu
      have d0 := annDone h.live u hu
      obtain ⟨a1, a2⟩ := k1.done u d0
      obtain ⟨b1, b2⟩ := api_done (a := .clearE noneRemaining) l2.calm.reach (by rw [a1]; exact d0)
      obtain ⟨c1, c2⟩ := k4.done u (by rw [b1, a1]; exact d0)
      exact ⟨by rw [c1, b1, a1], by rw [c2, b2, a2]⟩
    generalize hw' : api (api (api s.w (.addCb t)) (.clearE noneRemaining)) (.startSoon t) = w' at l4 hdone k4 ⊢
    have hfail : ∀ u ∈ announced s.log, failure w' u = failure s.w u := fun u hu => failure_congr (hdone u hu)
    have hfl2 : finished (s.log ++ [Obs.child t (coe.getD s.dflt)]) = finished s.log := by simp [finished]
    refine ⟨?_, ?_, ⟨?_, ?_, ?_, ?_, ?_⟩, ?_, ?_, ?_, ?_⟩
    · show Live _ (ids (s.log ++ [.child t (coe.getD s.dflt)])) (announced (s.log ++ [.child t (coe.getD s.dflt)])) _ s.phase.aw s.phase.dr w'
      rw [hids, hann, hb]; exact l4
    · dsimp only; rw [hb]; simp [Phase.inside]
    · show (ids (s.log ++ [.child t (coe.getD s.dflt)])).Nodup
      rw [hids]
      exact List.nodup_append.2 ⟨h.core.nd, by simp, by rintro a ha b hb' rfl; simp at hb'; subst hb'; exact htO ha⟩
    · show s.remaining ++ [(t, coe.getD s.dflt)] = remOf (s.log ++ [.child t (coe.getD s.dflt)])
      have : t ∉ announced s.log := fun hx => htO (hl.own.sub t hx)
      unfold remOf
      rw [hann]
      simp only [kids, List.filterMap_append, List.filter_append]
      rw [h.core.rem]
      unfold remOf kids
      simp [this]
    · show s.finishing = finished (s.log ++ [.child t (coe.getD s.dflt)])
      rw [hfl2]; exact h.core.fin
    · show s.excs = excsOf w' (announced (s.log ++ [.child t (coe.getD s.dflt)]))
      rw [hann, excs_congr hfail]; exact h.core.excs
    · show CancelOk s.ctx w' (s.log ++ [.child t (coe.getD s.dflt)]) s.cancelled
      obtain ⟨c1, c2⟩ := h.core.canc.no h1
      refine ⟨fun _ => ⟨?_, by rw [noCancel_append]; exact ⟨c2, by simp [noCancel, Obs.isCancel]⟩⟩,
        fun hc => by rw [h1] at hc; cases hc⟩
      rw [met_append]
      have m2 : met s.ctx w' (kids (s.log ++ [Obs.child t (coe.getD s.dflt)]))
          [Obs.child t (coe.getD s.dflt)] = false := by simp [met, meets]
      rw [m2, Bool.or_false, ← c1]
      refine met_congr fun u hu => ⟨hfail u hu, ?_⟩
      have hut : u ≠ t := by rintro rfl; exact htO (hl.own.sub _ hu)
      simp [kids, hut]
    · dsimp only
      rw [hb]
      show finished (s.log ++ [.child t (coe.getD s.dflt)]) = false
      rw [hfl2]; exact hfl
    · intro _
      show w'.fired noneRemaining = true ↔ s.remaining ++ [(t, coe.getD s.dflt)] = []
      rw [k4.fired, f3]; simp
    · intro _ _
      refine ⟨h3, by simp [n2], ?_⟩
      show s.parent ∉ ids (s.log ++ [.child t (coe.getD s.dflt)])
      rw [hids]
      simp only [List.mem_append, List.mem_singleton, not_or]
      exact ⟨n3, fun hx => htp hx.symm⟩
    · dsimp only; intro _ _ hx; exact absurd hb hx

/-- The block is closed. -/
theorem giveUp_mid {s : TS} (hl : LiveS s false false) (hst : ∃ rest, s.w.stack = .running s.parent :: rest)
    (hc : Core s) (hf : s.w.fired noneRemaining = true ↔ s.remaining = [])
    (he : s.entered = true ∧ .entered ∈ s.log ∧ s.parent ∉ ids s.log) :
    Mid (giveUp s) ∧ (giveUp s).cancelled = true ∧ .closed ∈ (giveUp s).log ∧
      kids (giveUp s).log = kids s.log ∧ (giveUp s).parent = s.parent ∧
      Keeps noneRemaining s.w (giveUp s).w := by
  have hp : Pre { s with finishing := true, log := s.log ++ [.closed] } s.log .closed := by
    refine ⟨rfl, ?_, ?_, ?_, ?_, hc.canc, rfl, rfl, rfl⟩
    · simpa [ids, kids] using hc.nd
    · show s.remaining = _
      rw [hc.rem]; simp [remOf, kids, announced]
    · simp [finished]
    · show s.excs = _
      rw [hc.excs]; simp [announced]
  have hk0 : kids (s.log ++ [Obs.closed]) = kids s.log := by simp [kids]
  have ha0 : announced (s.log ++ [Obs.closed]) = announced s.log := by simp [announced]
  obtain ⟨h1, h2, h3⟩ := Mid.cancelAll hp
    (by show Live _ (ids _) (announced _) _ _ _ _; unfold ids; rw [hk0, ha0]; exact hl) hst hf
    (by unfold ids; rw [hk0]; exact ⟨he.1, by simp [he.2.1], he.2.2⟩) (by simp [finished])
  have hgu : giveUp s = cancelAll { s with finishing := true, log := s.log ++ [.closed] } := rfl
  rw [← hgu] at h1 h2 h3
  exact ⟨h1, h3, h2.sub _ (by simp), by rw [h2.kids, hk0], h2.parent, h2.keeps⟩

theorem inBlock_iff {s : TS} : inBlock s = true ↔
    s.phase = .body ∧ ∃ rest, s.w.stack = .running s.parent :: rest := by
  unfold inBlock
  split
  · rename_i p rest h1 h2
    simp only [beq_iff_eq, h1, h2, true_and, List.cons.injEq, Frame.running.injEq]
    constructor
    · rintro rfl; exact ⟨_, rfl, rfl⟩
    · rintro ⟨_, h, -⟩; exact h
  · rename_i h
    constructor
    · intro hx; cases hx
    · rintro ⟨h1, rest, h2⟩; exact absurd h2 (h _ _ h1)

theorem closes_inv {s : TS} (h : TInv s) (hb : inBlock s = true) :
    TInv { giveUp s with phase := .left .closed } ∧
    kids (giveUp s).log = kids s.log ∧ Keeps noneRemaining s.w (giveUp s).w := by
  obtain ⟨h1, h2⟩ := inBlock_iff.1 hb
  have hl := h.live
  rw [h1] at hl
  obtain ⟨a1, a2, a3, a4, a5, a6⟩ := giveUp_mid hl h2 h.core (h.fired (by rw [h1]; simp))
    (h.ent (by rw [h1]; simp) (by rw [h1]; simp))
  exact ⟨⟨a1.live, by simp [Phase.inside], ⟨a1.core.nd, a1.core.rem, a1.core.fin, a1.core.excs, a1.core.canc⟩,
    ⟨a2, a3⟩, fun _ => a1.fired, fun _ _ => a1.ent, fun _ _ _ => a1.finl⟩, a4, a6⟩

/-- A step of other code, the manager's own code being called if it must be. -/
theorem sched_inv {s s' : TS} {a : Act} {w' : World} {r : Res} (h : TInv s)
    (hoff : off noneRemaining a = true) (hsp : spares (ids s.log) a = true)
    (hq : quiet s.w = true ∨ a = .cbStep)
    (hcn : ∀ t, a = .cancelNow t → ∀ u, Frame.running u ∉ s.w.stack)
    (hx : Sched.exec s.w a = some (w', r))
    (he : hook s.w { s with w := w' } a = some s') : TInv s' := by
  obtain ⟨D, hg⟩ := h.live.calm.reach.good
  have hin : s.phase.inside = true ↔ (s.phase.aw = true ∨ s.phase.dr = true) := by
    cases s.phase <;> simp [Phase.inside, Phase.aw, Phase.dr]
  have hkeep : ∀ t, (s.w.task t).state.isDone = true → (w'.task t).state = (s.w.task t).state ∧
    (w'.task t).outcome = (s.w.task t).outcome := fun t ht => done_keeps h.live.calm.reach hx ht
  have hf : w'.fired noneRemaining = s.w.fired noneRemaining := by
    refine Queue.fired_step hg (exec_step hx).2 ?_ ?_
    · rintro rfl; simp [off] at hoff
    · rintro rfl; simp [off] at hoff
  have hcore : Core { s with w := w' } := h.core.frame fun t ht => hkeep t (annDone h.live t ht)
  have hph : PhaseOk { s with w := w' } s.phase := h.ph.congr rfl rfl rfl rfl rfl
  have hfired : s.phase ≠ .fresh → (w'.fired noneRemaining = true ↔ s.remaining = []) := by
    rw [hf]; exact h.fired
  have hnew : s.phase.inside = true → (w'.task s.parent).state = .running →
      (a = .pop ∨ ∃ t, a = .cancelNow t) ∧ ∃ rest, w'.stack = .running s.parent :: rest :=
    fun h1 h2 => Wait.run_new hg hx (h.nr h1) h2 h.live.calm.reach
  rcases h.live.act hx hoff (fun h1 h2 => absurd h2 (h.nr (hin.2 h1))) hq hsp hcn with
    ⟨t, how, h1, rfl, h3, h4, h5, h6⟩ | ⟨h1, h2⟩
  · -- the end of a child is announced
    have hm : t ∈ (kids s.log).map (·.1) := h1
    simp only [hook, h3, hm, if_true, Option.some.injEq] at he
    subst he
    obtain ⟨c1, c2⟩ := Wait.cb_frame hx h3 h4
    refine doneCallback_inv (s := { s with w := w' }) h6 ?_ ?_ c1 c2 hcore hph hfired h.ent h.finl h1 h5
    · intro i1 i2
      rcases (hnew i1 i2).1 with hc | ⟨_, hc⟩ <;> cases hc
    · dsimp only; unfold quiet; simp only [h4]
  · have hgo : ∀ rest, w'.stack = .running s.parent :: rest → s.phase.inside = true →
        goOn { s with w := w' } = some s' → TInv s' := by
      intro rest i1 i2 i3
      have q : s.phase ≠ .fresh ∧ s.phase ≠ .created ∧ s.phase ≠ .body := by
        cases hx : s.phase <;> simp_all [Phase.inside]
      exact goOn_inv (s := { s with w := w' }) h2 ⟨rest, i1⟩ hcore hph i2 (hfired q.1) (h.ent q.1 q.2.1)
        (h.finl q.1 q.2.1 q.2.2) i3
    have hplain : ((w'.task s.parent).state = .running → s.phase.inside = false) →
        TInv { s with w := w' } := by
      intro hi
      refine ⟨h2, fun i1 i2 => ?_, hcore, hph, hfired, h.ent, h.finl⟩
      have := hi i2
      rw [i1] at this; cases this
    unfold hook at he
    split at he
    · rename_i t how rest hst
      have hno : t ∉ (kids s.log).map (·.1) := h1 t how rest hst
      rw [if_neg hno] at he
      cases he
      refine hplain fun hr => ?_
      cases hi : s.phase.inside
      · rfl
      · rcases (hnew hi hr).1 with hc | ⟨_, hc⟩ <;> cases hc
    · rename_i t rest hst
      split at he
      · rename_i hc
        obtain ⟨rfl, hc2⟩ := hc
        exact hgo rest hst hc2 he
      · rename_i hc
        cases he
        refine hplain fun hr => ?_
        cases hi : s.phase.inside
        · rfl
        · exfalso
          obtain ⟨rest', hst'⟩ := (hnew hi hr).2
          rw [hst] at hst'
          simp only [List.cons.injEq, Frame.running.injEq] at hst'
          exact hc ⟨hst'.1, hi⟩
    · rename_i t rest hst
      split at he
      · rename_i hc
        obtain ⟨rfl, hc2⟩ := hc
        exact hgo rest hst hc2 he
      · rename_i hc
        cases he
        refine hplain fun hr => ?_
        cases hi : s.phase.inside
        · rfl
        · exfalso
          obtain ⟨rest', hst'⟩ := (hnew hi hr).2
          rw [hst] at hst'
          simp only [List.cons.injEq, Frame.running.injEq] at hst'
          exact hc ⟨hst'.1, hi⟩
    · rename_i n1 n2 n3
      cases he
      refine hplain fun hr => ?_
      cases hi : s.phase.inside
      · rfl
      · exfalso
        obtain ⟨hc | ⟨t, hc⟩, rest', hst'⟩ := hnew hi hr
        · exact n2 _ _ hc hst'
        · exact n3 _ _ _ hc hst'

theorem exec_inv {s s' : TS} {a : TAct} (h : TInv s) (he : exec s a = some s') : TInv s' := by
  cases a with
  | new d c =>
    simp only [exec] at he
    split at he
    · rename_i hc; cases he; exact new_inv h hc.1 hc.2
    · cases he
  | enter =>
    simp only [exec] at he
    split at he
    · split at he
      · rename_i hc; cases he; exact enter_inv h hc.1
      · cases he
    · cases he
  | startSoon t coe =>
    simp only [exec] at he
    split at he
    · rename_i hc; cases he; exact startSoon_inv h hc.2.1 hc.2.2
    · cases he
  | exit exc =>
    simp only [exec] at he
    split at he
    · rename_i hc
      obtain ⟨h1, h2⟩ := inBlock_iff.1 hc.1
      exact exit_inv h h1 h2 he
    · cases he
  | sched a =>
    simp only [exec] at he
    split at he
    · rename_i hal
      split at he
      · cases he
      rename_i w' r hx
      unfold allowed at hal
      rw [Bool.and_eq_true, Bool.or_eq_true] at hal
      obtain ⟨hq, hal⟩ := hal
      have hq : quiet s.w = true ∨ a = .cbStep := by simpa using hq
      have hoff : off noneRemaining a = true := by
        cases a with
        | await g f => cases g <;> first | rfl | exact hal
        | setE e => exact hal
        | clearE e => exact hal
        | _ => rfl
      have hsp : spares (ids s.log) a = true := by
        cases a with
        | kill t => simpa [spares, ids] using hal
        | cancelNow t => simp only [Bool.and_eq_true] at hal; simpa [spares, ids] using hal.1
        | _ => rfl
      have hcn : ∀ t, a = .cancelNow t → ∀ u, Frame.running u ∉ s.w.stack := by
        rintro t rfl u hu
        simp only [Bool.and_eq_true] at hal
        have := hal.2
        unfold nobodyRuns at this
        rw [List.all_eq_true] at this
        exact absurd (this _ hu) (by simp)
      by_cases hcl : closes s a = true
      · simp only [hcl, if_true] at hx he
        have hb : inBlock s = true := by
          unfold closes at hcl
          simp only [Bool.and_eq_true] at hcl
          exact hcl.1.1
        obtain ⟨i1, i2, i3⟩ := closes_inv h hb
        refine sched_inv i1 hoff ?_ ?_ ?_ hx he
        · show spares ((kids (giveUp s).log).map (·.1)) a = true
          rw [i2]; exact hsp
        · rw [show ({ giveUp s with phase := Phase.left Leave.closed } : TS).w = (giveUp s).w from rfl, i3.quiet]
          exact hq
        · intro t ht
          rw [show ({ giveUp s with phase := Phase.left Leave.closed } : TS).w = (giveUp s).w from rfl, i3.stack]
          exact hcn t ht
      · simp only [hcl, Bool.false_eq_true, if_false] at hx he
        exact sched_inv h hoff hsp hq hcn hx he
    · cases he

theorem init_inv : TInv {} := by
  refine ⟨⟨Calm.init, by simp [Tidy], by simp, by simp [Phase.aw], by simp [Phase.dr], Owned.nil⟩,
    by simp [Phase.inside], ⟨by simp [ids, kids], rfl, rfl, rfl, ⟨fun _ => ⟨rfl, by simp [noCancel]⟩, by simp⟩⟩,
    ⟨rfl, rfl⟩, by simp, by simp, by simp⟩

theorem run_inv {as : List TAct} : ∀ {s s' : TS}, TInv s → run s as = some s' → TInv s' := by
  induction as with
  | nil => intro s s' h hr; cases hr; exact h
  | cons a as ih =>
    intro s s' h hr
    unfold run at hr
    split at hr
    · rename_i s1 h1; exact ih (exec_inv h h1) hr
    · cases hr

theorem Reach.inv {s : TS} (h : Reach s) : TInv s := by
  obtain ⟨as, h⟩ := h
  exact run_inv init_inv h

end Verif.TM
