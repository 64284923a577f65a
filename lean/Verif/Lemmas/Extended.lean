import Verif.Lemmas.SchedFire
import Verif.Lemmas.SchedPriv
import Verif.Spec.Extended

namespace Verif

open Sched SchedSpec ExtSpec

namespace Sched

variable {D : Trig → Prop}

theorem still_exec {t : Nat} {l : List Obs} : Still t l ↔ execOf t l = [] := by
  unfold Still execOf
  rw [List.filter_eq_nil_iff]
  constructor
  · intro h o ho
    obtain ⟨h1, h2, h3, h4⟩ := h o ho
    cases o <;> simp only [Bool.false_eq_true, not_false_eq_true, beq_iff_eq] <;> rintro rfl
    · exact h2 _ rfl
    · exact h3 rfl
    · exact h1 _ rfl
    · exact h4 _ _ rfl
  · intro h o ho
    have := h o ho
    cases o <;> simp_all

/-- A trigger that fires for its waiters has fired. -/
theorem fires_happened {w w' : World} {a : Act} {r : Res} {g : Trig} {new : List Obs}
    (hr : Reach w) (hg : Good D w) (he : exec w a = some (w', r)) (hl : w'.log = w.log ++ new)
    (hm : g ∈ firesOn w a) {p1 p2 : List Obs} {x : Obs} (hw : w.log = p1 ++ x :: p2)
    (hx : ∀ u s o, x ≠ .done u s o) :
    Happened g p1 (p2 ++ new) := by
  have hs := (exec_step he).2
  unfold firesOn at hm
  split at hm
  · rename_i n
    simp only [List.mem_singleton] at hm
    subst hm
    rcases fires_new hg hs hl with ⟨m, h1, h2⟩ | ⟨h1, -⟩ | ⟨h1, h2⟩
    · cases h1; subst h2; simp [Happened]
    · exact absurd rfl (h1 n)
    · exfalso
      obtain ⟨hp, h3⟩ := exec_fire he
      rw [h3] at hl
      rw [(react_aux _ _).1.log, h2] at hl
      simp [World.addLog] at hl
  · rename_i e
    simp only [List.mem_singleton] at hm
    subst hm
    have hi : w.inside = true := by
      cases h : w.inside <;> unfold exec at he <;> simp [h] at he
      rfl
    have : w' = setEvent w e := by
      unfold exec at he
      split at he
      · cases he
      · simp [hi] at he
        exact he.1.symm
    subst this
    unfold setEvent at hl
    rw [(react_aux _ _).1.log] at hl
    have := List.append_cancel_left hl
    subst this
    simp [Happened]
  · rename_i l
    split at hm
    · rename_i m n ns hc hp
      simp only [List.mem_singleton] at hm
      subst hm
      have hi : w.inside = true := by
        cases h : w.inside <;> unfold exec at he <;> simp [h] at he
        rfl
      unfold exec at he
      split at he
      · cases he
      simp only [hi, Option.some.injEq] at he
      unfold release at he
      rw [if_neg (by rw [hc]; simp)] at he
      rw [hp] at he
      cases he
      simp only [acquireAndFire] at hl
      rw [(react_aux _ _).1.log] at hl
      simp only [World.addLog, World.setLock, List.append_assoc] at hl
      have := List.append_cancel_left hl
      subst this
      simp [Happened]
    · simp at hm
  · split at hm
    · rename_i t i how rest hst
      split at hm
      · have hd := hg.stk.fin t i how (by simp [hst])
        obtain ⟨s, o, h⟩ := done_logged hr hd
        have : .done t s o ∈ p1 ++ (p2 ++ new) := by
          rw [hw] at h
          rcases List.mem_append.1 h with h | h
          · exact List.mem_append_left _ h
          · rcases List.mem_cons.1 h with h | h
            · exact absurd h.symm (hx t s o)
            · exact List.mem_append_right _ (List.mem_append_left _ h)
        simp only [List.mem_cons, List.not_mem_nil, or_false] at hm
        rcases hm with rfl | rfl <;> exact ⟨s, o, this⟩
      · simp at hm
    · simp at hm
  · simp at hm

/-- There is nothing to wait for. -/
def AtOnce (w : World) (t : Nat) (new : List Obs) : Trig → Prop
  | .gpi _ => False
  | .event e => w.fired e = true
  | .null _ => True
  | .lock l n => .grant l n ∈ new
  | .complete u | .join u => u ≠ t ∧ (w.task u).state.isDone = true

/-- Who is woken at once when starting to wait had nothing to wait for. -/
theorem register_woken {w : World} {t : Nat} {g : Trig} {new : List Obs}
    (hs : (w.task t).state = .pending) (hl : (register w g t false).log = w.log ++ new)
    (hw : ((register w g t false).task t).state ≠ .pending) :
    AtOnce w t new g := by
  unfold register at hl hw
  dsimp only at hl hw
  by_cases hc : (w.cbs g).isEmpty = true
  case neg => rw [if_neg hc] at hw; simp [upd_self, hs] at hw
  rw [if_pos hc] at hw
  rw [if_pos hc] at hl
  cases g with
  | gpi n => simp [prime, upd_self, hs] at hw
  | event e =>
    simp only [prime] at hw
    simp only [AtOnce]
    split at hw
    · assumption
    · simp [upd_self, hs] at hw
  | null n => trivial
  | lock l n =>
    simp only [prime, primeLock] at hl hw
    simp only [AtOnce]
    split at hw
    · rename_i hn
      rw [if_pos hn] at hl
      simp only [acquireAndFire] at hl
      rw [(react_aux _ _).1.log] at hl
      simp only [World.addLog, World.setLock, List.append_assoc] at hl
      have := List.append_cancel_left hl
      subst this
      simp
    · simp [World.addLog, World.setLock, upd_self, hs] at hw
  | complete u =>
    simp only [prime] at hw
    simp only [AtOnce]
    split at hw
    · rename_i hd
      by_cases hu : u = t
      · subst hu; simp [upd_self, hs, TState.isDone] at hd
      · simp only [upd_ne _ _ hu] at hd; exact ⟨hu, hd⟩
    · simp [upd_self, hs] at hw
  | join u =>
    simp only [prime] at hw
    simp only [AtOnce]
    split at hw
    · rename_i hd
      by_cases hu : u = t
      · subst hu; simp [upd_self, hs, TState.isDone] at hd
      · simp only [upd_ne _ _ hu] at hd; exact ⟨hu, hd⟩
    · simp [upd_self, hs] at hw

/-- Splitting a longer log at an entry. -/
theorem split_append {α : Type} {a b p q : List α} {x : α} (h : a ++ b = p ++ x :: q) :
    (∃ q', a = p ++ x :: q' ∧ q = q' ++ b) ∨ ∃ p', p = a ++ p' ∧ b = p' ++ x :: q := by
  induction a generalizing p with
  | nil => exact Or.inr ⟨p, rfl, h⟩
  | cons y a ih =>
    cases p with
    | nil =>
      simp only [List.cons_append, List.nil_append, List.cons.injEq] at h
      obtain ⟨rfl, rfl⟩ := h
      exact Or.inl ⟨a, rfl, rfl⟩
    | cons z p =>
      simp only [List.cons_append, List.cons.injEq] at h
      obtain ⟨rfl, h⟩ := h
      rcases ih h with ⟨q', h1, h2⟩ | ⟨p', h1, h2⟩
      · exact Or.inl ⟨q', by rw [h1]; rfl, h2⟩
      · exact Or.inr ⟨p', by rw [h1]; rfl, h2⟩

/-- The state of a task that has suspended on `g` and was not resumed yet. -/
def Waits (g : Trig) (p1 p2 : List Obs) (r : TaskRec) : Prop :=
  (r.state = .pending ∧ ∃ h, r.tcb = some (g, h)) ∨
  (r.state = .scheduled ∧ (r.exc = none → Happened g p1 p2))

theorem Happened.mono {g : Trig} {p1 p2 l : List Obs} (h : Happened g p1 p2) :
    Happened g p1 (p2 ++ l) := by
  cases g <;> simp only [Happened] at h ⊢
  · exact List.mem_append_left _ h
  · exact h.imp id (List.mem_append_left _)
  · exact List.mem_append_left _ h
  · obtain ⟨s, o, h⟩ := h; exact ⟨s, o, by rw [← List.append_assoc]; exact List.mem_append_left _ h⟩
  · obtain ⟨s, o, h⟩ := h; exact ⟨s, o, by rw [← List.append_assoc]; exact List.mem_append_left _ h⟩

/-- A waiting task that is not resumed in a step. -/
theorem Waits.still {a : Act} {t : Nat} {r r' : TaskRec} {obs p1 p2 new : List Obs} {g : Trig}
    (hT : TStep a t r r' obs) (hq : execOf t obs = []) (hW : Waits g p1 p2 r)
    (hwake : r.state = .pending → r'.state = .scheduled → r'.exc = none →
      Happened g p1 (p2 ++ new)) : Waits g p1 (p2 ++ new) r' := by
  have hsame : Waits g p1 (p2 ++ new) r := hW.imp id (fun h => ⟨h.1, fun hn => Happened.mono (h.2 hn)⟩)
  have hu : r.state ≠ .unstarted := by
    rintro hu; rcases hW with ⟨h, -⟩ | ⟨h, -⟩ <;> rw [hu] at h <;> cases h
  have hr : r.state ≠ .running := by
    rintro hu; rcases hW with ⟨h, -⟩ | ⟨h, -⟩ <;> rw [hu] at h <;> cases h
  have hd : r.state.isDone = false := by
    rcases hW with ⟨h, -⟩ | ⟨h, -⟩ <;> rw [h] <;> rfl
  cases hT with
  | same => exact hsame
  | wake k hs => exact Or.inr ⟨rfl, fun _ => hwake hs rfl rfl⟩
  | start k ha hs => exact absurd hs hu
  | cancelP k ha hs => exact Or.inr ⟨rfl, fun h => by cases h⟩
  | cancelS ha hs => exact Or.inr ⟨hs, fun h => by cases h⟩
  | cancelU k ha hs => exact absurd hs hu
  | kill => simp [execOf] at hq
  | cancelNow => simp [execOf] at hq
  | run => simp [execOf] at hq
  | uncancel => exact hsame
  | addCb => exact hsame
  | addCbDone => exact hsame
  | suspend g h ha hs => exact absurd hs hr
  | suspendWoken g h k ha hs => exact absurd hs hr
  | suspendFail n h k ha hs => exact absurd hs hr
  | yieldBad k ha hs => exact absurd hs hr
  | finish s o how hs => exact absurd hs hr
  | cb => exact hsame

/-- Why a waiting task is woken. -/
theorem wake_happened {w w' : World} {a : Act} {r : Res} {g : Trig} {t h : Nat} {new p1 p2 : List Obs}
    (hr : Reach w) (hg : Good D w) (he : exec w a = some (w', r)) (hl : w'.log = w.log ++ new)
    (hw : w.log = p1 ++ .suspend t g :: p2) (hp : (w.task t).state = .pending)
    (ht : (w.task t).tcb = some (g, h))
    (hs : (w'.task t).state = .scheduled) (hn : (w'.task t).exc = none) :
    Happened g p1 (p2 ++ new) := by
  rcases hg.woken (exec_step he).2 hp with ⟨g1, -⟩ | hk | ⟨g', hm, hgt⟩
  · rw [hs] at g1; cases g1
  · rcases hk with rfl | rfl | rfl
    · rcases exec_cancel hg he with ⟨h1, -⟩ | ⟨h1, -⟩ | ⟨-, -, -, -, h1, -⟩
      · rw [hp] at h1; cases h1
      · rw [hp] at h1; cases h1
      · rw [hn] at h1; cases h1
    · rcases Queue.kill_task he with h1 | h1
      · rw [h1, hp] at hs; cases hs
      · unfold World.done at h1; rw [hs] at h1; cases h1
    · rcases exec_cancelNow hg he with ⟨-, h1⟩ | ⟨-, -, h1, -⟩
      · rw [h1, hp] at hs; cases hs
      · rw [hs] at h1; cases h1
  · obtain ⟨⟨k, u⟩, hkm, hu⟩ := List.mem_map.1 hgt
    simp only at hu; subst hu
    have hreg := ((hg.inv.ok u (by simp)).reg g' k hkm (fires_live hg he hm)).2
    rw [ht] at hreg
    simp only [Option.some.injEq, Prod.mk.injEq] at hreg
    obtain ⟨rfl, -⟩ := hreg
    exact fires_happened hr hg he hl hm hw (by simp)

/-- The entries about `t` in what a step adds. -/
theorem exec_new {a : Act} {t : Nat} {r r' : TaskRec} {obs : List Obs} (hT : TStep a t r r' obs) :
    (execOf t obs).length ≤ 1 := by
  cases hT <;> simp [execOf]

theorem about_of_split {t : Nat} {new p q : List Obs} {x : Obs} (h : new = p ++ x :: q)
    (hx : execOf t [x] = [x]) (hlen : (execOf t new).length ≤ 1) :
    execOf t new = [x] ∧ execOf t p = [] ∧ execOf t q = [] := by
  have : execOf t new = execOf t p ++ (x :: execOf t q) := by
    rw [h, execOf_append, show x :: q = [x] ++ q from rfl, execOf_append, hx]; rfl
  rw [this] at hlen ⊢
  simp only [List.length_append, List.length_cons] at hlen
  have h1 : execOf t p = [] := List.eq_nil_of_length_eq_zero (by omega)
  have h2 : execOf t q = [] := List.eq_nil_of_length_eq_zero (by omega)
  simp [h1, h2]

/-- The step in which a task starts to wait. -/
theorem suspend_waits {w w' : World} {a : Act} {r : Res} {g : Trig} {t : Nat} {new n1 n2 : List Obs}
    (hr : Reach w) (hg : Good D w) (he : exec w a = some (w', r)) (hl : w'.log = w.log ++ new)
    (hw : new = n1 ++ .suspend t g :: n2) : Waits g (w.log ++ n1) n2 (w'.task t) := by
  have hs := (exec_step he).2
  obtain ⟨new', hlog, hTs⟩ := hg.tstep hs
  have hnn : new' = new := List.append_cancel_left (hlog.symm.trans hl)
  subst hnn
  have hT := hTs t
  have hx : execOf t new' = [.suspend t g] :=
    (about_of_split hw (by simp [execOf]) (by rw [execOf_about]; exact exec_new hT)).1
  rw [execOf_about] at hx
  generalize hr' : w'.task t = r' at hT ⊢
  generalize hr0 : w.task t = r0 at hT
  generalize hob : new'.filter (·.about t) = obs at hT hx
  cases hT with
  | suspend g' h ha hs' hm =>
    simp [execOf] at hx
    subst hx
    exact Or.inl ⟨rfl, h, rfl⟩
  | suspendFail => exact Or.inr ⟨rfl, fun h => by cases h⟩
  | suspendWoken g' h k ha hs' hm =>
    simp [execOf] at hx
    subst hx
    obtain ⟨f, rfl⟩ := ha
    refine Or.inr ⟨rfl, fun _ => ?_⟩
    rcases hs with hs | hs
    · cases hs with
      | nop =>
        have := List.append_cancel_left ((List.append_nil _).trans hlog)
        rw [hw] at this; simp at this
      | finish =>
        exfalso
        have := List.append_cancel_left (show w.log ++ [_] = _ from hlog)
        rw [hw] at this
        cases n1 <;> simp at this
      | await u rest g' fails hi hst hrf hm =>
        have hX : Inv D { w with stack := rest } [u] := by
          have hs := (hg.stk.run u).1 (by simp [hst])
          exact (hg.inv.addX (t := u) (by rw [hs]; exact not_waiting_running)).congr rfl rfl rfl rfl rfl
        obtain ⟨⟨l, e1, e2⟩, -⟩ := register_task (t := u) (g := g')
          (w := (World.setTask { w with stack := rest } u
              { w.task u with state := .pending }).addLog (.suspend u g'))
          (Inv.log (hX.setTaskX (by simp)) _)
          (by simp [World.addLog, World.setTask, upd_self])
        have hl2 := hl
        dsimp only at hl2
        rw [e1] at hl2
        simp only [World.addLog, World.setTask, List.append_assoc] at hl2
        have hl3 := List.append_cancel_left hl2
        rw [hw] at hl3
        have hlk : ∀ o ∈ l, o ≠ .suspend t g' := by
          rintro o ho rfl; have := e2 _ ho; cases this
        cases n1 with
        | cons x n1 =>
          exfalso
          simp only [List.cons_append, List.nil_append, List.cons.injEq] at hl3
          exact hlk _ (by rw [hl3.2]; simp) rfl
        | nil =>
          simp only [List.cons_append, List.nil_append, List.cons.injEq, Obs.suspend.injEq] at hl3
          obtain ⟨⟨rfl, -⟩, rfl⟩ := hl3
          rw [List.append_nil]
          have := register_woken (t := u) (g := g')
            (w := (World.setTask { w with stack := rest } u
              { w.task u with state := .pending }).addLog (.suspend u g')) (new := l)
            (by simp [World.addLog, World.setTask, upd_self]) e1
            (by dsimp only at hr'; rw [hr']; simp)
          cases g' with
          | gpi n => exact (this : False).elim
          | null n => trivial
          | event e =>
            left
            simp only [AtOnce, World.addLog, World.setTask] at this
            rw [← C33_is_set_reports_last hr e]; exact this
          | lock l n => exact this
          | complete v =>
            obtain ⟨h1, h2⟩ := this
            simp only [World.addLog, World.setTask, upd_ne _ _ h1] at h2
            obtain ⟨s, o, h⟩ := done_logged hr h2
            exact ⟨s, o, List.mem_append_left _ h⟩
          | join v =>
            obtain ⟨h1, h2⟩ := this
            simp only [World.addLog, World.setTask, upd_ne _ _ h1] at h2
            obtain ⟨s, o, h⟩ := done_logged hr h2
            exact ⟨s, o, List.mem_append_left _ h⟩
    · exfalso
      cases hs with
      | mk u rest n hi hst hm hc =>
        have : t = u := by
          by_cases h : t = u
          · exact h
          · exfalso
            simp only [failWorld, scheduleResume, upd_ne _ _ h] at hr'
            rw [hr0] at hr'
            have := congrArg TaskRec.state hr'
            simp [hs'] at this
        subst this
        simp [failWorld, scheduleResume, upd_self] at hr'
  | cancelNow => exfalso; revert hx; simp only [execOf]; split <;> simp
  | _ => simp [execOf] at hx

theorem waits {w : World} (hr : Reach w) (t : Nat) :
    (∀ g p1 p2, w.log = p1 ++ .suspend t g :: p2 → execOf t p2 = [] → Waits g p1 p2 (w.task t)) ∧
    (∀ g p1 p2 p3, w.log = p1 ++ .suspend t g :: (p2 ++ .resume t none :: p3) → execOf t p2 = [] →
      Happened g p1 p2) := by
  have key : ∀ {w : World}, Reach w → Reach w ∧
    (∀ g p1 p2, w.log = p1 ++ .suspend t g :: p2 → execOf t p2 = [] → Waits g p1 p2 (w.task t)) ∧
    (∀ g p1 p2 p3, w.log = p1 ++ .suspend t g :: (p2 ++ .resume t none :: p3) → execOf t p2 = [] →
      Happened g p1 p2) := by
    intro w hr
    refine hr.induct (P := fun w => Reach w ∧
      (∀ g p1 p2, w.log = p1 ++ .suspend t g :: p2 → execOf t p2 = [] → Waits g p1 p2 (w.task t)) ∧
      (∀ g p1 p2 p3, w.log = p1 ++ .suspend t g :: (p2 ++ .resume t none :: p3) → execOf t p2 = [] →
        Happened g p1 p2)) ?_ ?_
    · refine ⟨⟨[], rfl⟩, fun g p1 p2 h => ?_, fun g p1 p2 p3 h => ?_⟩ <;> simp [init] at h
    intro D w w' a r hg ⟨hreach, hA, hB⟩ hex he
    refine ⟨hreach.exec hex, ?_⟩
    obtain ⟨new, hlog, hTs⟩ := hg.tstep he
    have hT := hTs t
    have habout : execOf t new = execOf t (new.filter (·.about t)) := execOf_about t new
    have hlen : (execOf t new).length ≤ 1 := by rw [habout]; exact exec_new hT
    constructor
    · intro g p1 p2 hl hq
      rw [hlog] at hl
      rcases split_append hl with ⟨q', h1, h2⟩ | ⟨p', h1, h2⟩
      · -- the suspension is old
        subst h2
        rw [execOf_append] at hq
        obtain ⟨hq1, hq2⟩ := List.append_eq_nil_iff.1 hq
        rw [habout] at hq2
        have hW := hA g p1 q' h1 hq1
        refine hW.still hT hq2 (fun hp hs hn => ?_)
        obtain ⟨-, h, htcb⟩ := hW.resolve_right (by rintro ⟨h, -⟩; rw [hp] at h; cases h)
        exact wake_happened hreach hg hex hlog h1 hp htcb hs hn
      · subst h1
        exact suspend_waits hreach hg hex hlog h2
    · intro g p1 p2 p3 hl hq
      rw [hlog, show p1 ++ .suspend t g :: (p2 ++ .resume t none :: p3) =
        (p1 ++ .suspend t g :: p2) ++ .resume t none :: p3 by simp] at hl
      rcases split_append hl with ⟨q', h1, h2⟩ | ⟨p', h1, h2⟩
      · exact hB g p1 p2 q' (by rw [h1]; simp) hq
      · -- resumed now
        have hx := about_of_split h2 (by simp [execOf]) hlen
        rcases split_append h1.symm with ⟨q', h3, h4⟩ | ⟨p'', h3, h4⟩
        · subst h4
          rw [execOf_append] at hq
          obtain ⟨hq1, hq2⟩ := List.append_eq_nil_iff.1 hq
          have hW := hA g p1 q' h3 hq1
          rw [habout] at hx
          replace hx := hx.1
          generalize new.filter (·.about t) = obs at hT hx
          generalize w'.task t = r' at hT
          generalize w.task t = r0 at hT hW
          cases hT with
          | run ha hs =>
            simp [execOf] at hx
            rcases hW with ⟨h, -⟩ | ⟨-, h⟩
            · rw [hs] at h; cases h
            · exact Happened.mono (h hx)
          | cancelNow => exfalso; revert hx; simp only [execOf]; split <;> simp
          | _ => simp [execOf] at hx
        · exfalso
          have := hx.2.1
          rw [h4, execOf_append] at this
          have := (List.append_eq_nil_iff.1 this).2
          simp [execOf] at this
  exact (key hr).2

end Sched

end Verif
