import Verif.Lemmas.WaitFrame

/-! Histories in which the caller of `wait` is not cancelled again before it has been told of an
earlier cancellation, and not killed. -/

namespace Verif.Wait

open Sched

/-- The restriction on one action. -/
def kind (s : WS) : WAct → Prop
  | .sched (.cancel t) => s.phase.inside = true → t = s.parent → (s.w.task t).mustCancel = 0
  | .sched (.cancelNow t) => s.phase.inside = true → t = s.parent → (s.w.task t).mustCancel = 0
  | .sched (.kill t) => s.phase.inside = true → t ≠ s.parent
  | .wait _ _ => match s.w.stack with
    | .running p :: _ => (s.w.task p).mustCancel = 0
    | _ => True
  | _ => True

inductive Gentle : WS → Prop
  | init : Gentle {}
  | step {s s' : WS} {a : WAct} : Gentle s → kind s a → exec s a = some s' → Gentle s'

instance (s : WS) (a : WAct) : Decidable (kind s a) := by
  unfold kind
  split <;> try infer_instance
  split <;> infer_instance

/-- A gentle run, as a function. -/
def runGentle : WS → List WAct → Option WS
  | s, [] => some s
  | s, a :: as => if kind s a then (exec s a).bind (runGentle · as) else none

theorem runGentle_ok {as : List WAct} {s s' : WS} (h : Gentle s) (hr : runGentle s as = some s') :
    Gentle s' := by
  induction as generalizing s with
  | nil => cases hr; exact h
  | cons a as ih =>
    simp only [runGentle] at hr
    split at hr
    · rename_i hk
      cases hx : exec s a with
      | none => rw [hx] at hr; cases hr
      | some s1 => rw [hx] at hr; exact ih (h.step hk hx) hr
    · cases hr

theorem Gentle.reach {s : WS} (h : Gentle s) : Reach s := by
  have app : ∀ (as : List WAct) (b : WAct) (s s' s'' : WS), run s as = some s' → exec s' b = some s'' →
      run s (as ++ [b]) = some s'' := by
    intro as
    induction as with
    | nil => intro b s s' s'' h1 h2; cases h1; simp [run, h2]
    | cons a as ih =>
      intro b s s' s'' h1 h2
      simp only [List.cons_append, run] at h1 ⊢
      split at h1
      · rename_i s1 h3; exact ih b s1 s' s'' h1 h2
      · cases h1
  induction h with
  | init => exact ⟨[], rfl⟩
  | step _ _ he ih =>
    obtain ⟨as, h⟩ := ih
    exact ⟨as ++ [_], app as _ _ _ _ h he⟩

/-- The caller's cancellation count while it is inside the call. -/
def MOk (r : TaskRec) : Prop :=
  r.state.isDone = false ∧ (r.mustCancel = 0 ∨ (r.mustCancel = 1 ∧ r.exc = some .cancelled ∧
    (r.state = .scheduled ∨ r.state = .running)))

theorem MOk.step {a : Act} {p : Nat} {r r' : TaskRec} {obs : List Sched.Obs} (h : MOk r)
    (hT : TStep a p r r' obs) (hc : a = .cancel p ∨ a = .cancelNow p → r.mustCancel = 0)
    (hk : a ≠ .kill p) (hr : r.state = .running → coroAct a = false) : MOk r' := by
  obtain ⟨h1, h2⟩ := h
  cases hT with
  | same => exact ⟨h1, h2⟩
  | wake k hs => 
    refine ⟨rfl, Or.inl ?_⟩
    rcases h2 with h2 | ⟨-, -, h2 | h2⟩
    · exact h2
    · rw [hs] at h2; cases h2
    · rw [hs] at h2; cases h2
  | start k ha hs =>
    refine ⟨rfl, Or.inl ?_⟩
    rcases h2 with h2 | ⟨-, -, h2 | h2⟩
    · exact h2
    · rw [hs] at h2; cases h2
    · rw [hs] at h2; cases h2
  | cancelP k ha hs => 
    have := hc (Or.inl ha)
    exact ⟨rfl, Or.inr ⟨by simp [this], rfl, Or.inl rfl⟩⟩
  | cancelS ha hs =>
    have := hc (Or.inl ha)
    exact ⟨h1, Or.inr ⟨by simp [this], rfl, Or.inl hs⟩⟩
  | cancelU k ha hs =>
    have := hc (Or.inl ha)
    exact ⟨rfl, Or.inr ⟨by simp [this], rfl, Or.inl rfl⟩⟩
  | kill ha => exact absurd ha hk
  | cancelNow ha hnd hnr =>
    have := hc (Or.inr ha)
    exact ⟨rfl, Or.inr ⟨by simp [this], rfl, Or.inr rfl⟩⟩
  | run ha hs =>
    refine ⟨rfl, ?_⟩
    rcases h2 with h2 | ⟨h2, h3, -⟩
    · exact Or.inl h2
    · exact Or.inr ⟨h2, h3, Or.inr rfl⟩
  | uncancel ha =>
    refine ⟨h1, ?_⟩
    rcases h2 with h2 | ⟨h2, h3, -⟩
    · exact Or.inl (by simp [h2])
    · exact Or.inl (by simp [h2])
  | addCb c ha hs => exact ⟨h1, h2⟩
  | addCbDone c ha hs => exact ⟨h1, h2⟩
  | cb c ha hs => exact ⟨h1, h2⟩
  | suspend g h ha hs => obtain ⟨f, rfl⟩ := ha; exact absurd (hr hs) (by simp [coroAct])
  | suspendWoken g h k ha hs => obtain ⟨f, rfl⟩ := ha; exact absurd (hr hs) (by simp [coroAct])
  | suspendFail n h k ha hs => subst ha; exact absurd (hr hs) (by simp [coroAct])
  | yieldBad k ha hs => subst ha; exact absurd (hr hs) (by simp [coroAct])
  | finish s' o' how hs hce => rw [coroAct_end hce] at hr; exact absurd (hr hs) (by simp)

theorem MOk.api {w : World} {p : Nat} {a : Act} (h : MOk (w.task p)) (hr : Sched.Reach w)
    (hs : simple a = true) (hc : a ≠ .cancel p) : MOk ((api w a).task p) := by
  rcases api_cases w a with ⟨r, he⟩ | ⟨-, he⟩
  · obtain ⟨D, hg⟩ := hr.good
    obtain ⟨new, -, hts⟩ := hg.tstep (exec_step he).2
    refine h.step (hts p) ?_ ?_ (fun _ => simple_coro hs)
    · rintro (h | rfl)
      · exact absurd h hc
      · simp [simple] at hs
    · rintro rfl; simp [simple] at hs
  · rw [he]; exact h

/-- Awaiting without a pending cancellation. -/
theorem await_keeps {w w' : World} {p : Nat} {g : Trig} {r : Res} (hr : Sched.Reach w)
    (hrun : (w.task p).state = .running) (hm : (w.task p).mustCancel = 0)
    (he : Sched.exec w (.await g false) = some (w', r)) :
    (w'.task p).state.isDone = false ∧ (w'.task p).mustCancel = 0 := by
  obtain ⟨D, hg⟩ := hr.good
  obtain ⟨new, -, hts⟩ := hg.tstep (exec_step he).2
  have hT := hts p
  generalize w'.task p = r' at hT ⊢
  generalize w.task p = r0 at hT hm hrun
  generalize new.filter (·.about p) = obs at hT
  cases hT <;> simp_all [TState.isDone, coroEnd]

/-- The invariant of gentle histories. -/
structure GI (s : WS) : Prop where
  inv : WInv s
  moks : s.phase.inside = true → MOk (s.w.task s.parent)
  open_ : s.phase ≠ .closed

theorem drain_gi {s s' : WS} {rest : List Frame}
    (hl : Live complete s.waiters (announced s.log) s.parent false false s.w)
    (hst : s.w.stack = .running s.parent :: rest) (hm : (s.w.task s.parent).mustCancel = 0)
    (h : drain s = some s') :
    (s'.phase.inside = true → MOk (s'.w.task s'.parent)) ∧ s'.phase ≠ .closed := by
  obtain ⟨D, hg⟩ := hl.calm.reach.good
  have hrun : (s.w.task s.parent).state = .running := (hg.stk.run _).1 (by simp [hst])
  unfold drain at h
  split at h
  · cases h; simp [Phase.inside]
  · split at h
    · cases h
    rename_i w' r he
    cases h
    obtain ⟨h1, h2⟩ := await_keeps hl.calm.reach hrun hm he
    unfold suspended
    have hd : w'.done s.parent = false := h1
    simp only [hd, Bool.false_eq_true, if_false]
    exact ⟨fun _ => ⟨h1, Or.inl h2⟩, by simp⟩

theorem uncancel_gi {s s' : WS} {rest : List Frame}
    (hl : Live complete s.waiters (announced s.log) s.parent false false s.w)
    (hst : s.w.stack = .running s.parent :: rest) (hm : (s.w.task s.parent).mustCancel ≤ 1)
    (hi : s.w.inside = true) (hh : s.w.halted = false)
    (h : uncancelAndDrain s = some s') :
    (s'.phase.inside = true → MOk (s'.w.task s'.parent)) ∧ s'.phase ≠ .closed := by
  unfold uncancelAndDrain at h
  have hq : quiet s.w = true := by unfold quiet; rw [hst]
  have hcur : s.w.current = some s.parent := by
    have := hl.calm.ok
    rw [hst] at this
    exact this.1
  rw [hcur] at h
  have k : Keeps complete s.w (api s.w (.uncancel s.parent)) := keeps_api hl.calm.reach rfl rfl
  refine drain_gi (s := { s with w := api s.w (.uncancel s.parent) }) (hl.simple rfl rfl hq)
    (by rw [← hst]; exact k.stack) ?_ h
  have e : api s.w (.uncancel s.parent) = uncancel s.w s.parent := by simp [api, Sched.exec, hi, hh]
  dsimp only
  rw [e]
  simp only [uncancel, World.setTask, upd_self]
  omega

theorem goOn_gi {s s' : WS} {rest : List Frame}
    (hl : Live complete s.waiters (announced s.log) s.parent (decide (s.phase = .awaiting))
      (decide (s.phase = .draining)) s.w)
    (hst : s.w.stack = .running s.parent :: rest) (hi : s.w.inside = true) (hh : s.w.halted = false)
    (hd : Data s) (hph : s.phase.inside = true) (hm : MOk (s.w.task s.parent))
    (h : goOn s = some s') :
    (s'.phase.inside = true → MOk (s'.w.task s'.parent)) ∧ s'.phase ≠ .closed := by
  have hq : quiet s.w = true := by unfold quiet; rw [hst]
  obtain ⟨D, hg⟩ := hl.calm.reach.good
  have hrun : (s.w.task s.parent).state = .running := (hg.stk.run _).1 (by simp [hst])
  have hl0 := hl.resumed (by rw [hrun]; simp)
  have hidle : s.phase ≠ .idle := by rintro hx; rw [hx] at hph; cases hph
  have hm1 : (s.w.task s.parent).mustCancel ≤ 1 := by rcases hm.2 with h | ⟨h, -⟩ <;> omega
  have hm0 : (s.w.task s.parent).exc = none → (s.w.task s.parent).mustCancel = 0 := by
    intro hx; rcases hm.2 with h | ⟨-, h, -⟩
    · exact h
    · rw [hx] at h; cases h
  unfold goOn at h
  cases hp : s.phase <;> rw [hp] at hph <;> simp only [Phase.inside, Bool.false_eq_true] at hph
  · have hE := hl.onE (by simp [hp])
    unfold OnEvent at hE
    rw [hrun] at hE
    simp only [TState.isDone, Bool.false_eq_true, reduceCtorEq, false_and, or_true, true_and, false_or] at hE
    rcases hE with ⟨h1, h2⟩ | h1
    · simp only [hp, h1, Option.some.injEq] at h
      subst h
      simp [Phase.inside]
    · simp only [hp, h1] at h
      rw [← hp] at h
      obtain ⟨a1, a2, a3, a4, a5, a6⟩ := thrown_inv (e := some .cancelled) hl0 hq hd (by rw [hp]; rfl)
      obtain ⟨c1, -⟩ := cancelRemaining_effect
        (s := { s with log := s.log ++ [.thrown (some .cancelled)] }) hl.calm.reach hi hh
        (by dsimp only; rw [hd.rem]; exact hd.nd.filter _)
        (by
          dsimp only
          rw [hd.rem]
          intro u hu
          simp only [List.mem_filter, decide_eq_true_eq] at hu
          refine ⟨left_not_done hl hq hu.1 hu.2, ?_⟩
          intro hr
          rw [← hg.stk.run, hst] at hr
          have hok := hl.calm.ok
          rw [hst] at hok
          rcases List.mem_cons.1 hr with hr | hr
          · cases hr
            exact (hd.ne hidle).2 hu.1
          · exact hok.2 u hr)
      refine uncancel_gi a1 (by rw [a3.stack, a6]; exact hst) ?_ (by rw [a3.inside]; exact hi)
        (by rw [a3.halted]; exact hh) h
      rw [a6, c1 s.parent]
      · exact hm1
      · dsimp only; rw [hd.rem]
        intro hx
        exact (hd.ne hidle).2 (List.mem_filter.1 hx).1
  · have hN := hl.onN (by simp [hp])
    unfold OnNull at hN
    rw [hrun] at hN
    simp only [TState.isDone, Bool.false_eq_true, reduceCtorEq, or_true, true_and, false_or] at hN
    rcases hN with h1 | h1
    · simp only [hp, h1] at h
      exact drain_gi hl0 hst (hm0 h1) h
    · simp only [hp, h1] at h
      exact uncancel_gi hl0 hst hm1 hi hh h

theorem doneCallback_gi {s : WS} {t : Nat}
    (hl : Live complete s.waiters (announced s.log ++ [t]) s.parent (decide (s.phase = .awaiting))
      (decide (s.phase = .draining)) s.w)
    (hq : quiet s.w = true) (hd : Data s) (hm : s.phase.inside = true → MOk (s.w.task s.parent))
    (ho : s.phase ≠ .closed) :
    ((doneCallback s t).phase.inside = true →
      MOk ((doneCallback s t).w.task (doneCallback s t).parent)) ∧ (doneCallback s t).phase ≠ .closed := by
  have key : (doneCallback s t).phase = s.phase ∧ (doneCallback s t).parent = s.parent := by
    unfold doneCallback
    dsimp only
    split <;> split <;> simp [(cancelRemaining_fields _).2]
  rw [key.1, key.2]
  refine ⟨fun hi => ?_, ho⟩
  have hm := hm hi
  have hidle : s.phase ≠ .idle := by rintro hx; rw [hx] at hi; cases hi
  have hrem : s.remaining.erase t = s.waiters.filter (· ∉ announced s.log ++ [t]) := by
    rw [hd.rem, erase_filter hd.nd]
  have hpn : s.parent ∉ s.remaining.erase t := by
    rw [hrem]; intro hx; exact (hd.ne hidle).2 (List.mem_filter.1 hx).1
  have h2 : ∀ s2 : WS, (s2.w = s.w ∨ s2.w = api s.w (.setE complete)) →
      MOk (s2.w.task s.parent) ∧ Sched.Reach s2.w := by
    rintro s2 (h | h)
    · rw [h]; exact ⟨hm, hl.calm.reach⟩
    · rw [h]; exact ⟨hm.api hl.calm.reach rfl (by simp), api_reach hl.calm.reach⟩
  have h3 : ∀ s2 : WS, s2.remaining = s.remaining.erase t → Sched.Reach s2.w →
      MOk (s2.w.task s.parent) → MOk ((cancelRemaining s2).w.task s.parent) := by
    intro s2 h1 h4 h5
    unfold cancelRemaining
    split
    · exact h5
    · dsimp only
      rw [cancels_other _ h4 _ (by rw [h1]; exact hpn)]; exact h5
  unfold doneCallback
  dsimp only
  split
  · split
    · refine h3 _ rfl ?_ ?_
      · exact api_reach hl.calm.reach
      · exact hm.api hl.calm.reach rfl (by simp)
    · exact hm.api hl.calm.reach rfl (by simp)
  · split
    · exact h3 _ rfl hl.calm.reach hm
    · exact hm

theorem start_gi {s s' : WS} {p : Nat} {ts : List Nat} {m : Mode} {rest : List Frame} (h : WInv s)
    (hst : s.w.stack = .running p :: rest) (hid : s.phase = .idle) (hi : s.w.inside = true)
    (hh : s.w.halted = false) (hnd : ts.Nodup) (hfresh : ∀ t ∈ ts, s.w.task t = {})
    (hm : (s.w.task p).mustCancel = 0) (he : start s p ts m = some s') :
    (s'.phase.inside = true → MOk (s'.w.task s'.parent)) ∧ s'.phase ≠ .closed := by
  obtain ⟨hw, hlog⟩ := h.data.idle hid
  have hq : quiet s.w = true := by unfold quiet; rw [hst]
  obtain ⟨D, hg⟩ := h.live.calm.reach.good
  have hrun : (s.w.task p).state = .running := (hg.stk.run _).1 (by simp [hst])
  have hp : p ∉ ts := by
    intro hm; rw [hfresh p hm] at hrun; cases hrun
  have hl := h.live
  rw [hw, hlog, hid] at hl
  have hl0 : Live complete [] [] p false false s.w :=
    ⟨hl.calm, hl.tidy, fun t k a b => absurd (hl.reg t k a b).2 (by simp), by simp, by simp, hl.own⟩
  have hnr : ((ts.reverse).Nodup) := (List.reverse_perm ts).nodup_iff.2 hnd
  have hfr : ∀ t ∈ ts.reverse, s.w.task t = {} := fun t ht => hfresh t (List.mem_reverse.1 ht)
  obtain ⟨h1, k1⟩ := starts_live ts.reverse hl0 hq hi hh hnr hfr
  have ho := starts_other ts.reverse hl0 hq hi hh hnr hfr p (by simpa using hp)
  have hw1 : (enroll s p ts m).w =
      ts.reverse.foldl (fun w t => api (api w (.addCb t)) (.startNext t)) s.w := rfl
  rw [← hw1] at h1 k1 ho
  unfold start at he
  dsimp only at he
  generalize hs1 : enroll s p ts m = s1 at he h1 k1 ho
  have hsp : s1.parent = p := by subst hs1; rfl
  rw [if_neg (by rw [ho, hm]; simp)] at he
  split at he
  · cases he
  rename_i w' r hx
  cases he
  obtain ⟨a1, a2⟩ := await_keeps (p := p) h1.calm.reach (by rw [ho]; exact hrun) (by rw [ho]; exact hm) hx
  unfold suspended
  have hd : w'.done s1.parent = false := by rw [hsp]; exact a1
  simp only [hd, Bool.false_eq_true, if_false]
  refine ⟨fun _ => ?_, by simp⟩
  rw [hsp]
  exact ⟨a1, Or.inl a2⟩

theorem exec_gi {s s' : WS} {a : WAct} (h : GI s) (hk : kind s a) (he : exec s a = some s') : GI s' := by
  have hinv' := exec_inv h.inv he
  suffices hx : (s'.phase.inside = true → MOk (s'.w.task s'.parent)) ∧ s'.phase ≠ .closed from
    ⟨hinv', hx.1, hx.2⟩
  cases a with
  | wait ts m =>
    simp only [exec] at he
    split at he
    · rename_i p rest hst
      split at he
      · rename_i hc
        obtain ⟨h1, h2, h3, h4, h5, h6⟩ := hc
        exact start_gi h.inv hst h1 h3 h2 h5 h6 (by simpa [kind, hst] using hk) he
      · cases he
    · cases he
  | sched a =>
    simp only [exec] at he
    split at he
    case isFalse => cases he
    rename_i hal
    split at he
    · cases he
    rename_i w' r hx
    unfold allowed at hal
    rw [Bool.and_eq_true, Bool.or_eq_true] at hal
    obtain ⟨hq, hal⟩ := hal
    have hq : quiet s.w = true ∨ a = .cbStep := by simpa using hq
    have hoff : off complete a = true := by
      cases a with
      | await g f => cases g <;> first | rfl | exact hal
      | setE e => exact hal
      | clearE e => exact hal
      | _ => rfl
    have hsp : spares s.waiters a = true := by
      cases a with
      | kill t => simpa [spares] using hal
      | cancelNow t => simp only [Bool.and_eq_true] at hal; simpa [spares] using hal.1
      | _ => rfl
    have hcn : ∀ t, a = .cancelNow t → ∀ u, Frame.running u ∉ s.w.stack := by
      rintro t rfl u hu
      simp only [Bool.and_eq_true] at hal
      have := hal.2
      unfold nobodyRuns at this
      rw [List.all_eq_true] at this
      exact absurd (this _ hu) (by simp)
    have hlive := h.inv.live
    obtain ⟨D, hg⟩ := hlive.calm.reach.good
    have hin : s.phase.inside = true ↔ (s.phase = .awaiting ∨ s.phase = .draining) := by
      cases s.phase <;> simp [Phase.inside]
    have hkeep : ∀ t, (s.w.task t).state.isDone = true → (w'.task t).state = (s.w.task t).state ∧
      (w'.task t).outcome = (s.w.task t).outcome := fun t ht => done_keeps hlive.calm.reach hx ht
    have hf : w'.fired complete = s.w.fired complete := by
      refine Queue.fired_step hg (exec_step hx).2 ?_ ?_
      · rintro rfl; simp [off] at hoff
      · rintro rfl; simp [off] at hoff
    have hdata := h.inv.data.frame hf hkeep (Live.annDone hlive)
    have hm' : s.phase.inside = true → MOk (w'.task s.parent) := by
      intro hi
      obtain ⟨new, -, hts⟩ := hg.tstep (exec_step hx).2
      refine (h.moks hi).step (hts s.parent) ?_ ?_ (fun hr => absurd hr (h.inv.nr hi))
      · rintro (rfl | rfl)
        · exact hk hi rfl
        · exact hk hi rfl
      · rintro rfl; exact hk hi rfl
    rcases hlive.act hx hoff (fun h1 h2 => absurd h2 (h.inv.nr (hin.2 (by simpa using h1)))) hq hsp hcn with
      ⟨t, how, h1, rfl, h3, h4, h5, h6⟩ | ⟨h1, h2⟩
    · simp only [hook, h3, h1, if_true, Option.some.injEq] at he
      subst he
      exact doneCallback_gi (s := { s with w := w' }) h6 (by dsimp only; unfold quiet; simp only [h4])
        hdata hm' h.open_
    · have hgo : ∀ rest, w'.stack = .running s.parent :: rest → s.phase.inside = true →
          (a = .pop ∨ ∃ t, a = .cancelNow t) → goOn { s with w := w' } = some s' →
          (s'.phase.inside = true → MOk (s'.w.task s'.parent)) ∧ s'.phase ≠ .closed := by
        intro rest i1 i2 i3 i4
        obtain ⟨c1, c2⟩ := enter_active hx i3
        exact goOn_gi (s := { s with w := w' }) h2 i1 c1 c2 hdata i2 (hm' i2) i4
      unfold hook at he
      split at he
      · rename_i t how rest hst _
        rw [if_neg (h1 t how rest hst)] at he
        cases he
        exact ⟨hm', h.open_⟩
      · rename_i t rest hst _
        split at he
        · rename_i hc
          obtain ⟨rfl, hc2⟩ := hc
          exact hgo rest hst hc2 (Or.inl rfl) he
        · cases he
          exact ⟨hm', h.open_⟩
      · rename_i t rest hst _
        split at he
        · rename_i hc
          obtain ⟨rfl, hc2⟩ := hc
          exact hgo rest hst hc2 (Or.inr ⟨_, rfl⟩) he
        · cases he
          exact ⟨hm', h.open_⟩
      · cases he
        exact ⟨hm', h.open_⟩

theorem Gentle.gi {s : WS} (h : Gentle s) : GI s := by
  induction h with
  | init => exact ⟨init_inv, by simp [Phase.inside], by simp⟩
  | step _ hk he ih => exact exec_gi ih hk he

end Verif.Wait
