import Verif.Lemmas.TaskManager

/-! Histories in which the task in the block is not cancelled a second time before it has dealt with an
earlier cancellation, is not killed, and lets its `CancelledError` out of the block. -/

namespace Verif.TM

open Sched
open Wait (MOk)

/-- The task is in the block or in `__aexit__`. -/
def Phase.within : Phase → Bool
  | .body | .killing | .waiting _ | .ext => true
  | _ => false

/-- This step announces the failure of a child that makes the manager cancel the block. -/
def stopsBlock (s : TS) : Bool :=
  match s.w.stack with
  | .finishing t 0 _ :: _ => (kids s.log).contains (t, false) && (failure s.w t).isSome && !s.cancelled
  | _ => false

/-- The restriction on one action. -/
def kind (s : TS) : TAct → Prop
  | .sched a => closes s a = false ∧ (s.phase.within = true →
      match a with
      | .cancel t => t = s.parent → (s.w.task t).mustCancel = 0
      | .cancelNow t => t = s.parent → (s.w.task t).mustCancel = 0
      | .kill t => t ≠ s.parent
      | .cbStep => s.phase = .body → stopsBlock s = true → (s.w.task s.parent).mustCancel = 0
      | _ => True)
  | .enter => match s.w.stack with
    | .running p :: _ => (s.w.task p).mustCancel = 0
    | _ => True
  | .exit exc => (exc = some .cancelled ∨ ∃ n, exc = some (.fatal n)) ∨
      (s.cancelled = false ∧ (s.w.task s.parent).mustCancel = 0)
  | _ => True

inductive Gentle : TS → Prop
  | init : Gentle {}
  | step {s s' : TS} {a : TAct} : Gentle s → kind s a → exec s a = some s' → Gentle s'

instance (s : TS) (a : TAct) : Decidable (kind s a) := by
  cases a with
  | sched a => unfold kind; cases a <;> infer_instance
  | new d c => exact isTrue trivial
  | enter =>
    show Decidable (match s.w.stack with
      | .running p :: _ => (s.w.task p).mustCancel = 0
      | _ => True)
    split <;> infer_instance
  | startSoon t c => exact isTrue trivial
  | exit exc =>
    unfold kind
    have : Decidable (∃ n, exc = some (.fatal n)) := by
      rcases exc with _ | e
      · exact isFalse (by simp)
      · cases e with
        | fatal n => exact isTrue ⟨n, rfl⟩
        | _ => exact isFalse (by simp)
    infer_instance

/-- A gentle run, as a function. -/
def runGentle : TS → List TAct → Option TS
  | s, [] => some s
  | s, a :: as => if kind s a then (exec s a).bind (runGentle · as) else none

theorem runGentle_ok {as : List TAct} {s s' : TS} (h : Gentle s) (hr : runGentle s as = some s') :
    Gentle s' := by
  induction as generalizing s with
  | nil => cases hr; exact h
  | cons a as ih =>
    simp only [runGentle] at hr
    split at hr
    · rename_i hk
      cases hx : exec s a with
      | none => rw [hx] at hr; cases hr
      | some s1 => rw [hx] at hr; exact ih (h.step hk hx) hr
    · cases hr

theorem Gentle.reach {s : TS} (h : Gentle s) : Reach s := by
  have app : ∀ (as : List TAct) (b : TAct) (s s' s'' : TS), run s as = some s' → exec s' b = some s'' →
      run s (as ++ [b]) = some s'' := by
    intro as
    induction as with
    | nil => intro b s s' s'' h1 h2; cases h1; simp [run, h2]
    | cons a as ih =>
      intro b s s' s'' h1 h2
      simp only [List.cons_append, run] at h1 ⊢
      split at h1
      · rename_i s1 h3; exact ih b s1 s' s'' h1 h2
      · cases h1
  induction h with
  | init => exact ⟨[], rfl⟩
  | step _ _ he ih =>
    obtain ⟨as, h⟩ := ih
    exact ⟨as ++ [_], app as _ _ _ _ h he⟩

/-- What gentle histories keep. -/
structure Nice (s : TS) : Prop where
  body : s.phase = .body → (s.w.task s.parent).mustCancel ≤ 1
  moks : s.phase.inside = true → MOk (s.w.task s.parent)
  kill : s.phase ≠ .killing
  closed : s.phase ≠ .left .closed
  raises : ∀ e, s.phase = .left (.raises e) → (∃ n, e = .fatal n) ∨ s.remaining = []

/-- The parent runs in `__aexit__` with at most `m` cancellations it has not dealt with. -/
structure Sur (s : TS) (m : Nat) : Prop where
  live : LiveS s false false
  st : ∃ rest, s.w.stack = .running s.parent :: rest
  ins : s.w.inside = true
  hal : s.w.halted = false
  fired : s.w.fired noneRemaining = true ↔ s.remaining = []
  fin : s.finishing = true
  par : s.parent ∉ s.remaining.map (·.1)
  must : (s.w.task s.parent).mustCancel ≤ m

theorem Sur.quiet {s : TS} {m : Nat} (h : Sur s m) : Sched.quiet s.w = true := by
  obtain ⟨rest, hst⟩ := h.st
  unfold Sched.quiet; rw [hst]

theorem Sur.running {s : TS} {m : Nat} (h : Sur s m) : (s.w.task s.parent).state = .running := by
  obtain ⟨rest, hst⟩ := h.st
  obtain ⟨D, hg⟩ := h.live.calm.reach.good
  exact (hg.stk.run _).1 (by simp [hst])

theorem Sur.cancelAll {s : TS} {m : Nat} (h : Sur s m) : Sur (cancelAll s) m := by
  have hr := cancelAll_rest h.live h.quiet
  have hl := (cancelAll_live h.live h.quiet).1
  refine ⟨?_, ?_, by rw [hr.keeps.inside]; exact h.ins, by rw [hr.keeps.halted]; exact h.hal, ?_, ?_, ?_, ?_⟩
  · show Live _ (ids _) (announced _) _ _ _ _
    unfold ids; rw [hr.kids, hr.ann, hr.parent]; exact hl
  · rw [hr.keeps.stack, hr.parent]; exact h.st
  · rw [hr.keeps.fired, hr.remaining]; exact h.fired
  · rw [hr.finishing]; exact h.fin
  · rw [hr.remaining, hr.parent]; exact h.par
  · rw [hr.parent]
    obtain ⟨w1, e1, e2, e3⟩ := cancelAll_eq s
    rw [e1]
    dsimp only
    cases hc : s.cancelled with
    | true => rw [e2 hc]; exact h.must
    | false =>
      rw [e3 hc, foldl_ids, h.fin]
      simp only [if_true]
      rw [cancels_other _ h.live.calm.reach _ h.par]
      exact h.must

theorem Sur.uncancel {s : TS} {m : Nat} (h : Sur s (m + 1)) : Sur (uncancel s) m := by
  have k : Keeps noneRemaining s.w (api s.w (.uncancel s.parent)) := keeps_api h.live.calm.reach rfl rfl
  refine ⟨h.live.simple rfl rfl h.quiet, ?_, k.inside.trans h.ins, k.halted.trans h.hal, ?_, h.fin, h.par, ?_⟩
  · obtain ⟨rest, hst⟩ := h.st
    exact ⟨rest, k.stack.trans hst⟩
  · show (api s.w (.uncancel s.parent)).fired noneRemaining = true ↔ _
    rw [k.fired]; exact h.fired
  · have e : api s.w (.uncancel s.parent) = Sched.uncancel s.w s.parent := by
      simp [api, Sched.exec, h.ins, h.hal]
    show ((api s.w (.uncancel s.parent)).task s.parent).mustCancel ≤ m
    rw [e]
    have := h.must
    simp only [Sched.uncancel, World.setTask, upd_self]
    omega

theorem Sur.weaken {s : TS} {m n : Nat} (h : Sur s m) (hm : m ≤ n) : Sur s n :=
  ⟨h.live, h.st, h.ins, h.hal, h.fired, h.fin, h.par, Nat.le_trans h.must hm⟩

theorem Sur.suspend {s s' : TS} {g : Trig} {ph : Phase} (h : Sur s 0)
    (hph : ph = .ext ∨ ∃ e, ph = .waiting e) (he : suspend s g ph = some s') : Nice s' := by
  unfold TM.suspend at he
  have hm : (s.w.task s.parent).mustCancel = 0 := Nat.le_zero.1 h.must
  rw [if_neg (by omega)] at he
  dsimp only at he
  split at he
  · cases he
  rename_i w' r hx
  cases he
  obtain ⟨h1, h2⟩ := Wait.await_keeps h.live.calm.reach h.running hm hx
  have hd : w'.done s.parent = false := h1
  simp only [hd, Bool.false_eq_true, if_false]
  refine ⟨fun hp => ?_, fun _ => ⟨h1, Or.inl h2⟩, ?_, ?_, ?_⟩ <;> dsimp only at * <;>
    rcases hph with rfl | ⟨e, rfl⟩ <;> simp_all

theorem Sur.loop {s s' : TS} (h : Sur s 0) (he : loop s = some s') : Nice s' := by
  unfold TM.loop at he
  split at he
  · rename_i hf
    cases he
    exact ⟨by simp, by simp [Phase.inside], by simp, by simp, fun e _ => Or.inr (h.fired.1 hf)⟩
  · exact h.suspend (Or.inl rfl) he

theorem par_rem {s : TS} (h : Core s) (hp : s.parent ∉ ids s.log) : s.parent ∉ s.remaining.map (·.1) := by
  rw [h.rem]
  intro hm
  apply hp
  obtain ⟨y, hy, hy2⟩ := List.mem_map.1 hm
  exact List.mem_map.2 ⟨y, (List.mem_filter.1 hy).1, hy2⟩

theorem exit_nice {s s' : TS} {exc : Option Exc} (h : TInv s) (hn : Nice s) (hb : s.phase = .body)
    (hst : ∃ rest, s.w.stack = .running s.parent :: rest) (hi : s.w.inside = true)
    (hh : s.w.halted = false) (hk : kind s (.exit exc)) (he : exit s exc = some s') : Nice s' := by
  have hsur : Sur (begin_ s exc) (s.w.task s.parent).mustCancel := by
    obtain ⟨n1, -, -, -, -, -, -, -, -⟩ := noted (exc := exc) h hb hst
    exact ⟨n1, hst, hi, hh, h.fired (by rw [hb]; simp), rfl,
      par_rem (s := s) h.core (h.ent (by rw [hb]; simp) (by rw [hb]; simp)).2.2, Nat.le_refl _⟩
  have hm1 := hn.body hb
  have hc1 : (begin_ s exc).cancelled = s.cancelled := rfl
  unfold exit at he
  dsimp only at he
  generalize begin_ s exc = s1 at he hsur hc1
  unfold kind at hk
  split at he
  · cases he
    exact ⟨by simp, by simp [Phase.inside], by simp, by simp, fun e hx => by
      simp only [Phase.left.injEq, Leave.raises.injEq] at hx; exact Or.inl ⟨_, hx.symm⟩⟩
  · split at he
    · exact ((hsur.weaken hm1).uncancel).suspend (Or.inr ⟨_, rfl⟩) he
    · exact ((hsur.weaken hm1).cancelAll.uncancel).loop he
  · obtain ⟨k1, k2⟩ : s.cancelled = false ∧ (s.w.task s.parent).mustCancel = 0 := by
      rcases hk with (hk | ⟨n, hk⟩) | hk
      · cases hk
      · cases hk
      · exact hk
    rw [hc1, k1] at he
    exact (hsur.weaken (by omega)).suspend (Or.inr ⟨_, rfl⟩) he
  · rename_i e h1 h2
    obtain ⟨k1, k2⟩ : s.cancelled = false ∧ (s.w.task s.parent).mustCancel = 0 := by
      rcases hk with (hk | ⟨n, hk⟩) | hk
      · cases hk; exact absurd rfl h2
      · cases hk; exact absurd rfl (h1 n)
      · exact hk
    rw [hc1, k1] at he
    simp only [Bool.false_eq_true, if_false] at he
    split at he
    · exact (hsur.weaken (by omega)).suspend (Or.inr ⟨_, rfl⟩) he
    · exact (hsur.cancelAll.weaken (by omega)).suspend (Or.inr ⟨_, rfl⟩) he

theorem goOn_nice {s s' : TS} (hl : LiveS s s.phase.aw s.phase.dr)
    (hst : ∃ rest, s.w.stack = .running s.parent :: rest) (hi : s.w.inside = true)
    (hh : s.w.halted = false) (hc : Core s) (hin : s.phase.inside = true) (hnk : s.phase ≠ .killing)
    (hf : s.w.fired noneRemaining = true ↔ s.remaining = [])
    (hent : s.parent ∉ ids s.log) (hfin : finished s.log = true)
    (hm : MOk (s.w.task s.parent)) (he : goOn s = some s') : Nice s' := by
  obtain ⟨D, hg⟩ := hl.calm.reach.good
  have hrun : (s.w.task s.parent).state = .running := by
    obtain ⟨rest, hst⟩ := hst
    exact (hg.stk.run _).1 (by simp [hst])
  have hl0 : LiveS s false false := hl.resumed (by rw [hrun]; simp)
  have hE : s.phase.aw = true → ((s.w.task s.parent).exc = none ∧ s.w.fired noneRemaining = true) ∨
      (s.w.task s.parent).exc = some .cancelled := by
    intro ha
    have := hl.onE ha
    unfold OnEvent at this
    rw [hrun] at this
    simpa [TState.isDone] using this
  have hm1 : (s.w.task s.parent).mustCancel ≤ 1 := by rcases hm.2 with h | ⟨h, -⟩ <;> omega
  have hm0 : (s.w.task s.parent).exc = none → (s.w.task s.parent).mustCancel ≤ 0 := by
    intro hx; rcases hm.2 with h | ⟨-, h, -⟩
    · omega
    · rw [hx] at h; cases h
  have sur : ∀ m, (s.w.task s.parent).mustCancel ≤ m → Sur s m := fun m hx =>
    ⟨hl0, hst, hi, hh, hf, by rw [hc.fin]; exact hfin, par_rem hc hent, hx⟩
  unfold goOn at he
  cases hp : s.phase with
  | killing => exact absurd hp hnk
  | ext =>
    rcases hE (by rw [hp]; rfl) with ⟨h1, h2⟩ | h1
    · simp only [hp, h1] at he
      exact (sur 0 (hm0 h1)).loop he
    · simp only [hp, h1] at he
      exact (sur 1 hm1).uncancel.loop he
  | waiting exc =>
    rcases hE (by rw [hp]; rfl) with ⟨h1, h2⟩ | h1
    · simp only [hp, h1, Option.some.injEq] at he
      rw [← he]
      unfold finish
      dsimp only
      refine ⟨by simp, by simp [Phase.inside], by simp, ?_, ?_⟩
      · simp only [ne_eq, Phase.left.injEq]; split <;> simp
      · intro e hx
        simp only [Phase.left.injEq] at hx
        split at hx <;> cases hx
    · simp only [hp, h1] at he
      rw [← hp] at he
      have s1 : Sur { s with log := s.log ++ [.interrupted] } 1 := by
        refine ⟨?_, hst, hi, hh, hf, (sur 1 hm1).fin, par_rem (s := s) hc hent, hm1⟩
        have hk0 : kids (s.log ++ [Obs.interrupted]) = kids s.log := by simp [kids]
        have ha0 : announced (s.log ++ [Obs.interrupted]) = announced s.log := by simp [announced]
        show Live _ (ids _) (announced _) _ _ _ _
        unfold ids; rw [hk0, ha0]; exact hl0
      exact s1.cancelAll.uncancel.loop he
  | _ => rw [hp] at hin; cases hin

theorem must_step {a : Act} {t : Nat} {r r' : TaskRec} {obs : List Sched.Obs} (h : TStep a t r r' obs) :
    r'.mustCancel ≤ r.mustCancel + (if a = .cancel t ∨ a = .cancelNow t then 1 else 0) := by
  cases h <;> simp_all <;> omega

theorem must_exec {w w' : World} {a : Act} {r : Res} (hr : Sched.Reach w)
    (he : Sched.exec w a = some (w', r)) (t : Nat) :
    (w'.task t).mustCancel ≤ (w.task t).mustCancel + (if a = .cancel t ∨ a = .cancelNow t then 1 else 0) := by
  obtain ⟨D, hg⟩ := hr.good
  obtain ⟨new, -, hts⟩ := hg.tstep (exec_step he).2
  exact must_step (hts t)

theorem must_api {w : World} {a : Act} (hr : Sched.Reach w) (t : Nat) :
    ((api w a).task t).mustCancel ≤ (w.task t).mustCancel + (if a = .cancel t ∨ a = .cancelNow t then 1 else 0) := by
  rcases api_cases w a with ⟨r, he⟩ | ⟨-, he⟩
  · exact must_exec hr he t
  · rw [he]; omega

theorem childLeft_fields (s : TS) (t : Nat) : (childLeft s t).phase = s.phase ∧
    (childLeft s t).parent = s.parent ∧ (childLeft s t).cancelled = s.cancelled ∧
    (childLeft s t).finishing = s.finishing ∧ (childLeft s t).remaining = s.remaining.filter (·.1 != t) ∧
    ((childLeft s t).w = s.w ∨ (childLeft s t).w = api s.w (.setE noneRemaining)) := by
  unfold childLeft
  dsimp only
  split <;> simp

theorem doneCallback_nice {s : TS} {t : Nat}
    (hl : Live noneRemaining (ids s.log) (announced s.log ++ [t]) s.parent s.phase.aw s.phase.dr s.w)
    (hc : Core s) (hfin : s.phase.inside = true → finished s.log = true)
    (hent : s.phase ≠ .fresh → s.phase ≠ .created → s.parent ∉ ids s.log)
    (hm : t ∈ ids s.log) (hA : t ∉ announced s.log)
    (hd : (s.w.task t).state.isDone = true)
    (hk : s.phase = .body → (kids s.log).contains (t, false) = true → (failure s.w t).isSome = true →
      s.cancelled = false → (s.w.task s.parent).mustCancel = 0)
    (hn : Nice s) : Nice (doneCallback s t) := by
  obtain ⟨f1, f2, f3, f4, f5, f6⟩ := childLeft_fields s t
  have hne : noteEnd s t = { childLeft s t with
      excs := (childLeft s t).excs ++ ((failure (childLeft s t).w t).map fun e => (some t, e)).toList } := rfl
  have hreach : Sched.Reach (childLeft s t).w := by
    rcases f6 with h | h <;> rw [h]
    · exact hl.calm.reach
    · exact api_reach hl.calm.reach
  have hmust : ∀ u, ((childLeft s t).w.task u).mustCancel ≤ (s.w.task u).mustCancel := by
    intro u
    rcases f6 with h | h <;> rw [h]
    · omega
    · have := must_api (a := .setE noneRemaining) hl.calm.reach u
      simpa using this
  have hmok : s.phase.inside = true → MOk ((childLeft s t).w.task s.parent) := by
    intro hi
    rcases f6 with h | h <;> rw [h]
    · exact hn.moks hi
    · exact (hn.moks hi).api hl.calm.reach rfl (by simp)
  have hfail : failure (childLeft s t).w t = failure s.w t := by
    rcases f6 with h | h <;> rw [h]
    exact failure_congr (api_done hl.calm.reach hd)
  have hpar : s.phase ≠ .fresh → s.phase ≠ .created → s.parent ∉ (s.remaining.filter (·.1 != t)).map (·.1) := by
    intro h1 h2 hx
    refine par_rem hc (hent h1 h2) ?_
    obtain ⟨y, hy, hy2⟩ := List.mem_map.1 hx
    exact List.mem_map.2 ⟨y, (List.mem_filter.1 hy).1, hy2⟩
  have hraise : ∀ e, s.phase = .left (.raises e) → (∃ n, e = .fatal n) ∨ s.remaining.filter (·.1 != t) = [] := by
    intro e he
    rcases hn.raises e he with h | h
    · exact Or.inl h
    · right; rw [h]; rfl
  rw [doneCallback_eq]
  generalize hs3 : noteEnd s t = s3 at hne ⊢
  have e1 : s3.w = (childLeft s t).w := by rw [hne]
  have e2 : s3.phase = s.phase := by rw [hne]; exact f1
  have e3 : s3.parent = s.parent := by rw [hne]; exact f2
  have e4 : s3.remaining = s.remaining.filter (·.1 != t) := by rw [hne]; exact f5
  have e5 : s3.cancelled = s.cancelled := by rw [hne]; exact f3
  have e6 : s3.finishing = s.finishing := by rw [hne]; exact f4
  split
  · rename_i hcond
    obtain ⟨w', c1, c2, c3⟩ := cancelAll_eq s3
    have p1 : (cancelAll s3).phase = s.phase := by rw [c1]; exact e2
    have p2 : (cancelAll s3).parent = s.parent := by rw [c1]; exact e3
    have p3 : (cancelAll s3).remaining = s.remaining.filter (·.1 != t) := by rw [c1]; exact e4
    have p4 : (cancelAll s3).w = w' := by rw [c1]
    refine ⟨?_, ?_, ?_, ?_, ?_⟩ <;> rw [p1]
    · intro hb
      rw [p2, p4]
      have hq := hpar (by rw [hb]; simp) (by rw [hb]; simp)
      cases hcc : s3.cancelled with
      | true => rw [c2 hcc, e1]; exact Nat.le_trans (hmust _) (hn.body hb)
      | false =>
        rw [c3 hcc, foldl_ids, e4]
        have hz := hk hb ?_ ?_ (by rw [← e5]; exact hcc)
        · split
          · rw [cancels_other _ (by rw [e1]; exact hreach) _ hq, e1]
            have := hmust s.parent; omega
          · rw [cancels_other _ (api_reach (by rw [e1]; exact hreach)) _ hq, e1, e3]
            have h1 := must_api (a := .cancel s.parent) hreach s.parent
            have := hmust s.parent
            simp at h1; omega
        · have := coe_of hc.nd hm hA
          rw [← hc.rem] at this
          exact this.1 hcond.2
        · rw [← hfail, ← e1]; exact hcond.1
    · intro hi
      rw [p2, p4]
      have hq := hpar (by rintro hx; rw [hx] at hi; cases hi) (by rintro hx; rw [hx] at hi; cases hi)
      cases hcc : s3.cancelled with
      | true => rw [c2 hcc, e1]; exact hmok hi
      | false =>
        rw [c3 hcc, foldl_ids, e4, e6, hc.fin, hfin hi]
        simp only [if_true]
        rw [cancels_other _ (by rw [e1]; exact hreach) _ hq, e1]
        exact hmok hi
    · exact hn.kill
    · exact hn.closed
    · rw [p3]; exact hraise
  · refine ⟨?_, ?_, ?_, ?_, ?_⟩ <;> rw [e2]
    · intro hb; rw [e3, e1]; exact Nat.le_trans (hmust _) (hn.body hb)
    · intro hi; rw [e3, e1]; exact hmok hi
    · exact hn.kill
    · exact hn.closed
    · rw [e4]; exact hraise

theorem startSoon_nice {s : TS} {t : Nat} {coe : Option Bool} (h : TInv s) (hn : Nice s)
    (hf : s.w.task t = {}) (hs : s.phase ≠ .fresh) : Nice (startSoon s t coe) := by
  unfold startSoon
  cases hr : refusal s with
  | some e => exact hn
  | none =>
    dsimp only
    have hin : s.phase = .body := by
      unfold refusal at hr
      split at hr
      · cases hr
      split at hr
      · cases hr
      rename_i h2
      split at hr
      · cases hr
      rename_i h3
      simp only [Bool.not_eq_true] at h2
      simp only [Bool.not_eq_true', Bool.not_eq_false] at h3
      have hfl : finished s.log = false := by rw [← h.core.fin]; exact h2
      have q2 : s.phase ≠ .created := by
        intro hx; have := h.ph; rw [hx] at this; have := this.2; rw [h3] at this; cases this
      cases hx : s.phase with
      | body => rfl
      | fresh => exact absurd hx hs
      | created => exact absurd hx q2
      | _ => exact absurd (h.finl hs q2 (by rw [hx]; simp)) (by rw [hfl]; simp)
    refine ⟨?_, ?_, ?_, ?_, ?_⟩ <;> dsimp only <;> rw [hin]
    · intro _
      have r0 := h.live.calm.reach
      have m1 := must_api (a := .addCb t) r0 s.parent
      have m2 := must_api (a := .clearE noneRemaining) (api_reach (a := .addCb t) r0) s.parent
      have m3 := must_api (a := .startSoon t) (api_reach (a := .clearE noneRemaining)
        (api_reach (a := .addCb t) r0)) s.parent
      have := hn.body hin
      simp at m1 m2 m3
      omega
    · intro hx; cases hx
    · simp
    · simp
    · intro e he; cases he

structure GI (s : TS) : Prop where
  inv : TInv s
  nice : Nice s

theorem exec_gi {s s' : TS} {a : TAct} (h : GI s) (hk : kind s a) (he : exec s a = some s') : GI s' := by
  refine ⟨exec_inv h.inv he, ?_⟩
  have hn := h.nice
  cases a with
  | new d c =>
    simp only [exec] at he
    split at he
    · cases he
      exact ⟨by simp [new], by simp [new, Phase.inside], by simp [new], by simp [new], by simp [new]⟩
    · cases he
  | enter =>
    simp only [exec] at he
    split at he
    · rename_i p rest hst
      split at he
      · cases he
        have hk0 : (s.w.task p).mustCancel = 0 := by simpa [kind, hst] using hk
        exact ⟨fun _ => by simp [enter, hk0], by simp [enter, Phase.inside], by simp [enter],
          by simp [enter], by simp [enter]⟩
      · cases he
    · cases he
  | startSoon t coe =>
    simp only [exec] at he
    split at he
    · rename_i hc; cases he; exact startSoon_nice h.inv hn hc.2.2 hc.1
    · cases he
  | exit exc =>
    simp only [exec] at he
    split at he
    · rename_i hc
      obtain ⟨h1, h2⟩ := inBlock_iff.1 hc.1
      have ha := hc.2
      unfold active at ha
      simp only [Bool.and_eq_true, Bool.not_eq_true'] at ha
      exact exit_nice h.inv hn h1 h2 ha.1.1 ha.1.2 hk he
    · cases he
  | sched a =>
    obtain ⟨hkc, hkk⟩ := hk
    simp only [exec] at he
    split at he
    case isFalse => cases he
    rename_i hal
    simp only [hkc, Bool.false_eq_true, if_false] at he
    split at he
    · cases he
    rename_i w' r hx
    unfold allowed at hal
    rw [Bool.and_eq_true, Bool.or_eq_true] at hal
    obtain ⟨hq, hal⟩ := hal
    have hq : quiet s.w = true ∨ a = .cbStep := by simpa using hq
    have hoff : off noneRemaining a = true := by
      cases a with
      | await g f => cases g <;> first | rfl | exact hal
      | setE e => exact hal
      | clearE e => exact hal
      | _ => rfl
    have hsp : spares (ids s.log) a = true := by
      cases a with
      | kill t => simpa [spares, ids] using hal
      | cancelNow t => simp only [Bool.and_eq_true] at hal; simpa [spares, ids] using hal.1
      | _ => rfl
    have hcn : ∀ t, a = .cancelNow t → ∀ u, Frame.running u ∉ s.w.stack := by
      rintro t rfl u hu
      simp only [Bool.and_eq_true] at hal
      have := hal.2
      unfold nobodyRuns at this
      rw [List.all_eq_true] at this
      exact absurd (this _ hu) (by simp)
    have hlive := h.inv.live
    have hreach := hlive.calm.reach
    obtain ⟨D, hg⟩ := hreach.good
    have hin : s.phase.inside = true ↔ (s.phase.aw = true ∨ s.phase.dr = true) := by
      cases s.phase <;> simp [Phase.inside, Phase.aw, Phase.dr]
    have hwi : s.phase.inside = true → s.phase.within = true := by
      cases s.phase <;> simp [Phase.inside, Phase.within]
    have hq3 : s.phase.inside = true → s.phase ≠ .fresh ∧ s.phase ≠ .created ∧ s.phase ≠ .body := by
      cases hp : s.phase <;> simp [Phase.inside]
    have hf : w'.fired noneRemaining = s.w.fired noneRemaining := by
      refine Queue.fired_step hg (exec_step hx).2 ?_ ?_
      · rintro rfl; simp [off] at hoff
      · rintro rfl; simp [off] at hoff
    have hcore : Core { s with w := w' } :=
      h.inv.core.frame fun t ht => done_keeps hreach hx (annDone hlive t ht)
    have hm' : s.phase.inside = true → MOk (w'.task s.parent) := by
      intro hi
      have hkk := hkk (hwi hi)
      obtain ⟨new, -, hts⟩ := hg.tstep (exec_step hx).2
      refine (hn.moks hi).step (hts s.parent) ?_ ?_ (fun hr => absurd hr (h.inv.nr hi))
      · rintro (rfl | rfl)
        · exact hkk rfl
        · exact hkk rfl
      · rintro rfl; exact hkk rfl
    have hb' : s.phase = .body → (w'.task s.parent).mustCancel ≤ 1 := by
      intro hb
      have hkk := hkk (by rw [hb]; rfl)
      have h1 := must_exec hreach hx s.parent
      have h2 := hn.body hb
      split at h1
      · rename_i hc
        have : (s.w.task s.parent).mustCancel = 0 := by
          rcases hc with rfl | rfl
          · exact hkk rfl
          · exact hkk rfl
        omega
      · omega
    have hplain : Nice { s with w := w' } := ⟨hb', hm', hn.kill, hn.closed, hn.raises⟩
    rcases hlive.act hx hoff (fun h1 h2 => absurd h2 (h.inv.nr (hin.2 h1))) hq hsp hcn with
      ⟨t, how, h1, rfl, h3, h4, h5, h6⟩ | ⟨h1, h2⟩
    · have hmem : t ∈ (kids s.log).map (·.1) := h1
      simp only [hook, h3, hmem, if_true, Option.some.injEq] at he
      subst he
      have hdt : (s.w.task t).state.isDone = true := hg.stk.fin t 0 how (by rw [h3]; simp)
      have hkeep := done_keeps hreach hx hdt
      have hmc := must_exec hreach hx s.parent
      simp only [reduceCtorEq, or_self, if_false, Nat.add_zero] at hmc
      refine doneCallback_nice (s := { s with w := w' }) h6 hcore ?_ ?_ h1 h5 (by dsimp only; rw [hkeep.1]; exact hdt) ?_ hplain
      · intro hi; obtain ⟨a1, a2, a3⟩ := hq3 hi; exact h.inv.finl a1 a2 a3
      · intro a1 a2; exact (h.inv.ent a1 a2).2.2
      · intro b1 b2 b3 b4
        dsimp only at b1 b2 b3 b4 ⊢
        have hkk := hkk (by rw [b1]; rfl) b1
        rw [failure_congr hkeep] at b3
        have := hkk (by unfold stopsBlock; rw [h3]; simp only; rw [b2, b3, b4]; rfl)
        omega
    · have hgo : ∀ rest, w'.stack = .running s.parent :: rest → s.phase.inside = true →
          (a = .pop ∨ ∃ t, a = .cancelNow t) → goOn { s with w := w' } = some s' → Nice s' := by
        intro rest i1 i2 i3 i4
        obtain ⟨c1, c2⟩ := enter_active hx i3
        obtain ⟨a1, a2, a3⟩ := hq3 i2
        exact goOn_nice (s := { s with w := w' }) h2 ⟨rest, i1⟩ c1 c2 hcore i2 hn.kill
          (by dsimp only; rw [hf]; exact h.inv.fired a1) (h.inv.ent a1 a2).2.2 (h.inv.finl a1 a2 a3) (hm' i2) i4
      unfold hook at he
      split at he
      · rename_i t how rest hst _
        have hno : t ∉ (kids s.log).map (·.1) := h1 t how rest hst
        rw [if_neg hno] at he
        cases he
        exact hplain
      · rename_i t rest hst _
        split at he
        · rename_i hc
          obtain ⟨rfl, hc2⟩ := hc
          exact hgo rest hst hc2 (Or.inl rfl) he
        · cases he
          exact hplain
      · rename_i t rest hst _
        split at he
        · rename_i hc
          obtain ⟨rfl, hc2⟩ := hc
          exact hgo rest hst hc2 (Or.inr ⟨_, rfl⟩) he
        · cases he
          exact hplain
      · cases he
        exact hplain

theorem Gentle.gi {s : TS} (h : Gentle s) : GI s := by
  induction h with
  | init => exact ⟨init_inv, by simp, by simp [Phase.inside], by simp, by simp, by simp⟩
  | step _ hk he ih => exact exec_gi ih hk he

end Verif.TM
