import Verif.Lemmas.TaskManagerGentle

/-! What the cancellations of a task manager do to the tasks. -/

namespace Verif.TM

open Sched

/-- Scheduled with `CancelledError`. -/
def Told (w : World) (t : Nat) : Prop := (w.task t).state = .scheduled ∧ (w.task t).exc = some .cancelled

/-- Every cancellation logged between the two states has been delivered in the second. -/
structure Delivers (s s' : TS) : Prop where
  kids : ∀ t, Obs.cancel t ∈ s'.log → Obs.cancel t ∉ s.log → Told s'.w t ∧ t ≠ s.parent
  par : Obs.cancelParent ∈ s'.log → Obs.cancelParent ∉ s.log → (s.w.task s.parent).state.isDone = false →
    Told s'.w s.parent

theorem Delivers.same {s s' : TS} (h : s'.log = s.log) : Delivers s s' :=
  ⟨fun t h1 h2 => absurd h1 (by rw [h]; exact h2), fun h1 h2 => absurd h1 (by rw [h]; exact h2)⟩

/-- Nothing is logged and only the parent's own state changes. -/
def Still (s s' : TS) : Prop := s'.log = s.log ∧ s'.parent = s.parent ∧
  ∀ u, u ≠ s.parent → s'.w.task u = s.w.task u

theorem Still.refl (s : TS) : Still s s := ⟨rfl, rfl, fun _ _ => rfl⟩

theorem Still.trans {s s' s'' : TS} (h : Still s s') (h' : Still s' s'') : Still s s'' :=
  ⟨h'.1.trans h.1, h'.2.1.trans h.2.1, fun u hu => by
    rw [h'.2.2 u (by rw [h.2.1]; exact hu), h.2.2 u hu]⟩

/-- The parent is not cancelled in the first step; then only its own state changes. -/
theorem Delivers.still {s s1 s' : TS} (h : Delivers s s1) (hp : s1.parent = s.parent)
    (hn : Obs.cancelParent ∈ s1.log → Obs.cancelParent ∈ s.log) (h' : Still s1 s') : Delivers s s' := by
  obtain ⟨h1, h2, h3⟩ := h'
  refine ⟨fun t a b => ?_, fun a b => ?_⟩
  · rw [h1] at a
    obtain ⟨c1, c2⟩ := h.kids t a b
    refine ⟨?_, c2⟩
    unfold Told
    rw [h3 t (by rw [hp]; exact c2)]
    exact c1
  · rw [h1] at a; exact absurd (hn a) b

theorem left_not_done {e : Nat} {O A : List Nat} {p : Nat} {aw dr : Bool} {w : World} {t : Nat}
    (h : Live e O A p aw dr w) (hq : quiet w = true) (ht : t ∈ O) (hA : t ∉ A) :
    (w.task t).state.isDone = false := by
  cases hd : (w.task t).state.isDone with
  | false => rfl
  | true =>
    rcases (h.own.done t ht).1 hd with h1 | ⟨how, h1⟩
    · exact absurd h1 hA
    · exact absurd h1 (quiet_no hq)

/-- `_cancel`. -/
theorem cancelAll_delivers {s0 s : TS} (hr : Sched.Reach s.w) (hi : s.w.inside = true)
    (hh : s.w.halted = false) (hnd : (s.remaining.map (·.1)).Nodup)
    (hrem : ∀ t ∈ s.remaining.map (·.1), (s.w.task t).state.isDone = false ∧
      (s.w.task t).state ≠ .running)
    (hp : s.parent ∉ s.remaining.map (·.1)) (hp0 : s0.parent = s.parent)
    (hpar : s.finishing = false → (s0.w.task s.parent).state.isDone = false →
      (s.w.task s.parent).state.isDone = false ∧ (s.w.task s.parent).state ≠ .running)
    (hc : ∀ t, Obs.cancel t ∈ s.log → Obs.cancel t ∈ s0.log)
    (hcp : Obs.cancelParent ∈ s.log → Obs.cancelParent ∈ s0.log) : Delivers s0 (cancelAll s) := by
  obtain ⟨w', e1, e2, e3⟩ := cancelAll_eq s
  have hlog : (cancelAll s).log = s.log ++ if s.cancelled then [] else cancels s.finishing s.remaining := by
    rw [e1]
  have hw : (cancelAll s).w = w' := by rw [e1]
  cases hcc : s.cancelled with
  | true =>
    rw [hcc] at hlog
    simp only [if_true, List.append_nil] at hlog
    exact ⟨fun t h1 h2 => absurd (hc t (by rw [← hlog]; exact h1)) h2,
      fun h1 h2 => absurd (hcp (by rw [← hlog]; exact h1)) h2⟩
  | false =>
    rw [hcc] at hlog
    simp only [Bool.false_eq_true, if_false] at hlog
    have hw' := e3 hcc
    rw [foldl_ids] at hw'
    -- the world in which the children are cancelled
    have key : ∀ w1 : World, Sched.Reach w1 → w1.inside = true → w1.halted = false →
        (∀ t, t ≠ s.parent → w1.task t = s.w.task t) →
        w' = (s.remaining.map (·.1)).foldl (fun w t => api w (.cancel t)) w1 →
        (∀ t ∈ s.remaining.map (·.1), Told w' t) ∧ w'.task s.parent = w1.task s.parent := by
      intro w1 r1 i1 h1 o1 hx
      rw [hx]
      refine ⟨fun t ht => ?_, cancels_other _ r1 _ hp⟩
      have hne : t ≠ s.parent := by rintro rfl; exact hp ht
      obtain ⟨a1, a2⟩ := hrem t ht
      exact cancels_effect _ r1 i1 h1 hnd t ht (by rw [o1 t hne]; exact a1) (by rw [o1 t hne]; exact a2)
    have kidsIn : ∀ t, Obs.cancel t ∈ (cancelAll s).log → Obs.cancel t ∉ s0.log →
        t ∈ s.remaining.map (·.1) := by
      intro t h1 h2
      rw [hlog] at h1
      rcases List.mem_append.1 h1 with h1 | h1
      · exact absurd (hc t h1) h2
      · unfold cancels at h1
        split at h1
        · simpa using h1
        · simpa using h1
    cases hf : s.finishing with
    | true =>
      rw [hf] at hw'
      simp only [if_true] at hw'
      obtain ⟨k1, k2⟩ := key s.w hr hi hh (fun _ _ => rfl) hw'
      refine ⟨fun t h1 h2 => ?_, fun h1 h2 => ?_⟩
      · have := kidsIn t h1 h2
        rw [hw]
        exact ⟨k1 t this, by rw [hp0]; rintro rfl; exact hp this⟩
      · rw [hlog, hf] at h1
        rcases List.mem_append.1 h1 with h1 | h1
        · exact absurd (hcp h1) h2
        · simp [cancels] at h1
    | false =>
      rw [hf] at hw'
      simp only [Bool.false_eq_true, if_false] at hw'
      obtain ⟨f1, f2, f3, f4⟩ := api_frame (w := s.w) (a := .cancel s.parent) rfl
      obtain ⟨k1, k2⟩ := key (api s.w (.cancel s.parent)) (api_reach hr) (by rw [f2]; exact hi)
        (by rw [f3]; exact hh) (fun t ht => api_cancel_other hr ht) hw'
      refine ⟨fun t h1 h2 => ?_, fun h1 h2 h3 => ?_⟩
      · have := kidsIn t h1 h2
        rw [hw]
        exact ⟨k1 t this, by rw [hp0]; rintro rfl; exact hp this⟩
      · rw [hp0] at h3 ⊢
        rw [hw]
        unfold Told
        rw [k2]
        obtain ⟨a1, a2⟩ := hpar hf h3
        have := cancels_effect [s.parent] hr hi hh (by simp) s.parent (by simp) a1 a2
        exact this

/-- Awaiting the private event does nothing to other tasks. -/
theorem awaitE_other {e : Nat} {O A : List Nat} {p : Nat} {w w' : World} {r : Res} {rest : List Frame}
    (h : Live e O A p false false w) (hst : w.stack = .running p :: rest)
    (he : Sched.exec w (.await (.event e) false) = some (w', r)) : ∀ u, u ≠ p → w'.task u = w.task u := by
  obtain ⟨D, hg⟩ := h.calm.reach.good
  have hc : w.cbs (.event e) = [] := by
    rw [List.eq_nil_iff_forall_not_mem]
    rintro ⟨hh, u⟩ hm
    obtain ⟨e1, e2⟩ := (hg.inv.ok u (by simp)).reg _ _ hm (hg.inv.gpiDead (by simp))
    exact absurd (h.reg u hh e1 e2).2 (by simp)
  cases hf : w.fired e with
  | false => exact (Queue.await_fresh hst hc hf he).1
  | true => exact (await_set hst hc hf he).1

theorem uncancel_still (s : TS) : Still s (uncancel s) :=
  ⟨rfl, rfl, fun u hu => by show (api s.w (.uncancel s.parent)).task u = _; exact uncancel_other hu⟩

/-- A state of `__aexit__` in which the parent runs. -/
structure Runs (s : TS) : Prop where
  live : LiveS s false false
  st : ∃ rest, s.w.stack = .running s.parent :: rest
  ins : s.w.inside = true
  hal : s.w.halted = false
  nd : (ids s.log).Nodup
  rem : s.remaining = remOf s.log
  par : s.parent ∉ ids s.log

theorem Runs.quiet {s : TS} (h : Runs s) : Sched.quiet s.w = true := by
  obtain ⟨rest, hst⟩ := h.st
  unfold Sched.quiet; rw [hst]

theorem remOf_sub {log : List Obs} {t : Nat} (h : t ∈ (remOf log).map (·.1)) :
    t ∈ ids log ∧ t ∉ announced log := by
  obtain ⟨y, hy, hy2⟩ := List.mem_map.1 h
  have := List.mem_filter.1 hy
  rw [← hy2]
  exact ⟨List.mem_map.2 ⟨y, this.1, rfl⟩, by simpa using this.2⟩

theorem remOf_nodup {log : List Obs} (h : (ids log).Nodup) : ((remOf log).map (·.1)).Nodup := by
  unfold remOf
  exact h.sublist (List.filter_sublist.map _)

theorem Runs.left {s : TS} (h : Runs s) : ∀ t ∈ s.remaining.map (·.1),
    (s.w.task t).state.isDone = false ∧ (s.w.task t).state ≠ .running := by
  intro t ht
  rw [h.rem] at ht
  obtain ⟨h1, h2⟩ := remOf_sub ht
  refine ⟨left_not_done h.live h.quiet h1 h2, fun hr => ?_⟩
  obtain ⟨D, hg⟩ := h.live.calm.reach.good
  obtain ⟨rest, hst⟩ := h.st
  rw [← hg.stk.run, hst] at hr
  have hok := h.live.calm.ok
  rw [hst] at hok
  rcases List.mem_cons.1 hr with hr | hr
  · cases hr; exact h.par h1
  · exact hok.2 t hr

/-- Noting `x` and cancelling, from a state in which the parent runs. -/
theorem Runs.delivers {s : TS} (h : Runs s) (hf : s.finishing = true) : Delivers s (cancelAll s) :=
  cancelAll_delivers h.live.calm.reach h.ins h.hal (by rw [h.rem]; exact remOf_nodup h.nd) h.left
    (by rw [h.rem]; exact fun hm => h.par (remOf_sub hm).1) rfl (fun hx => by rw [hf] at hx; cases hx)
    (fun _ h => h) (fun h => h)

theorem cancelAll_noPar {s : TS} (hf : s.finishing = true) :
    Obs.cancelParent ∈ (cancelAll s).log → Obs.cancelParent ∈ s.log := by
  obtain ⟨w', e1, -, -⟩ := cancelAll_eq s
  rw [e1, hf]
  intro h
  rcases List.mem_append.1 h with h | h
  · exact h
  · split at h
    · cases h
    · simp [cancels] at h

theorem Runs.cancelAll {s : TS} (h : Runs s) : Runs (cancelAll s) := by
  have hr := cancelAll_rest h.live h.quiet
  have hl := (cancelAll_live h.live h.quiet).1
  refine ⟨?_, ?_, by rw [hr.keeps.inside]; exact h.ins, by rw [hr.keeps.halted]; exact h.hal, ?_, ?_, ?_⟩
  · show Live _ (ids _) (announced _) _ _ _ _
    unfold ids; rw [hr.kids, hr.ann, hr.parent]; exact hl
  · rw [hr.keeps.stack, hr.parent]; exact h.st
  · unfold ids; rw [hr.kids]; exact h.nd
  · rw [hr.remaining, h.rem]; unfold remOf; rw [hr.kids, hr.ann]
  · unfold ids; rw [hr.kids, hr.parent]; exact h.par

theorem Runs.uncancel {s : TS} (h : Runs s) : Runs (uncancel s) := by
  have k : Keeps noneRemaining s.w (api s.w (.uncancel s.parent)) := keeps_api h.live.calm.reach rfl rfl
  refine ⟨h.live.simple rfl rfl h.quiet, ?_, k.inside.trans h.ins, k.halted.trans h.hal, h.nd, h.rem, h.par⟩
  obtain ⟨rest, hst⟩ := h.st
  exact ⟨rest, k.stack.trans hst⟩

theorem Runs.note {s : TS} (h : Runs s) {x : Obs} (hk : kids [x] = []) (ha : announced [x] = []) (f : Bool) :
    Runs { s with finishing := f, log := s.log ++ [x] } := by
  have hk0 : kids (s.log ++ [x]) = kids s.log := by simp [hk]
  have ha0 : announced (s.log ++ [x]) = announced s.log := by simp [ha]
  refine ⟨?_, h.st, h.ins, h.hal, ?_, ?_, ?_⟩
  · show Live _ (ids _) (announced _) _ _ _ _
    unfold ids; rw [hk0, ha0]; exact h.live
  · show (ids (s.log ++ [x])).Nodup
    unfold ids; rw [hk0]; exact h.nd
  · show s.remaining = remOf (s.log ++ [x])
    rw [h.rem]; unfold remOf; rw [hk0, ha0]
  · show s.parent ∉ ids (s.log ++ [x])
    unfold ids; rw [hk0]; exact h.par

theorem Delivers.note {s s' : TS} {x : Obs} {f : Bool} (hx : x.isCancel = false)
    (h : Delivers { s with finishing := f, log := s.log ++ [x] } s') : Delivers s s' := by
  refine ⟨fun t h1 h2 => h.kids t h1 ?_, fun h1 h2 h3 => h.par h1 ?_ h3⟩
  · show Obs.cancel t ∉ s.log ++ [x]
    intro hm
    rcases List.mem_append.1 hm with hm | hm
    · exact h2 hm
    · simp only [List.mem_singleton] at hm
      rw [← hm] at hx; cases hx
  · show Obs.cancelParent ∉ s.log ++ [x]
    intro hm
    rcases List.mem_append.1 hm with hm | hm
    · exact h2 hm
    · simp only [List.mem_singleton] at hm
      rw [← hm] at hx; cases hx

theorem cancelAll_parent (s : TS) : (cancelAll s).parent = s.parent := by
  obtain ⟨w', e1, -, -⟩ := cancelAll_eq s
  rw [e1]

/-- `suspend`: what it logs it delivers, and it does nothing if the manager has already cancelled. -/
theorem Runs.suspend {s s' : TS} {g : Trig} {ph : Phase} (h : Runs s)
    (hg : g = .event noneRemaining ∨ g = .null 0) (he : suspend s g ph = some s') :
    Delivers s s' ∧ s'.parent = s.parent ∧ (Obs.cancelParent ∈ s'.log → Obs.cancelParent ∈ s.log) ∧
    (s.cancelled = true → (∀ t, Obs.cancel t ∈ s'.log → Obs.cancel t ∈ s.log) ∧
      ∀ u, u ≠ s.parent → s'.w.task u = s.w.task u) := by
  have aw : ∀ (s1 : TS) (w' : World) (r : Res), Runs s1 → Sched.exec s1.w (.await g false) = some (w', r) →
      ∀ u, u ≠ s1.parent → w'.task u = s1.w.task u := by
    intro s1 w' r h1 hx
    obtain ⟨rest, hst⟩ := h1.st
    rcases hg with rfl | rfl
    · exact awaitE_other h1.live hst hx
    · obtain ⟨D, hg⟩ := h1.live.calm.reach.good
      exact null_other hg hst hx
  unfold TM.suspend at he
  dsimp only at he
  by_cases hm : (s.w.task s.parent).mustCancel > 0
  · rw [if_pos hm] at he
    split at he
    · cases he
    rename_i w' r hx
    cases he
    have hn : Runs { s with finishing := true, log := s.log ++ [.closed] } := h.note rfl rfl true
    have hgu : giveUp s = TM.cancelAll { s with finishing := true, log := s.log ++ [.closed] } := rfl
    have hpp : (giveUp s).parent = s.parent := by rw [hgu, cancelAll_parent]
    have hnp : Obs.cancelParent ∈ (giveUp s).log → Obs.cancelParent ∈ s.log := by
      rw [hgu]
      intro hx
      have := cancelAll_noPar (s := { s with finishing := true, log := s.log ++ [.closed] }) rfl hx
      simpa using this
    have ho := aw (giveUp s) w' r (by rw [hgu]; exact hn.cancelAll) hx
    refine ⟨?_, hpp, hnp, ?_⟩
    · refine Delivers.still (s1 := giveUp s) ?_ hpp hnp ⟨rfl, rfl, ho⟩
      rw [hgu]
      exact (hn.delivers rfl).note rfl
    · intro hc
      obtain ⟨w1, e1, e2, -⟩ := cancelAll_eq { s with finishing := true, log := s.log ++ [.closed] }
      have e2 := e2 hc
      constructor
      · intro t
        show Obs.cancel t ∈ (giveUp s).log → _
        rw [hgu, e1]
        dsimp only
        rw [hc]
        simp
      · intro u hu
        show w'.task u = _
        rw [ho u (by rw [hpp]; exact hu), hgu, e1]
        dsimp only
        rw [e2]
  · rw [if_neg hm] at he
    split at he
    · cases he
    rename_i w' r hx
    cases he
    exact ⟨.same rfl, rfl, fun h => h, fun _ => ⟨fun _ h => h, aw s w' r h hx⟩⟩

theorem Runs.loop {s s' : TS} (h : Runs s) (he : loop s = some s') :
    Delivers s s' ∧ s'.parent = s.parent ∧ (Obs.cancelParent ∈ s'.log → Obs.cancelParent ∈ s.log) ∧
    (s.cancelled = true → (∀ t, Obs.cancel t ∈ s'.log → Obs.cancel t ∈ s.log) ∧
      ∀ u, u ≠ s.parent → s'.w.task u = s.w.task u) := by
  unfold TM.loop at he
  split at he
  · cases he
    exact ⟨.same rfl, rfl, fun h => h, fun _ => ⟨fun _ h => h, fun _ _ => rfl⟩⟩
  · exact h.suspend (Or.inl rfl) he

theorem cancelAll_cancelled (s : TS) : (cancelAll s).cancelled = true := by
  obtain ⟨w', e1, -, -⟩ := cancelAll_eq s
  rw [e1]

/-- After a delivery: something that only changes the parent when the manager has cancelled. -/
theorem Delivers.then {s s1 s' : TS} (h : Delivers s s1) (hp : s1.parent = s.parent)
    (hn : Obs.cancelParent ∈ s1.log → Obs.cancelParent ∈ s.log)
    (h2 : (∀ t, Obs.cancel t ∈ s'.log → Obs.cancel t ∈ s1.log) ∧
      ∀ u, u ≠ s1.parent → s'.w.task u = s1.w.task u)
    (h3 : Obs.cancelParent ∈ s'.log → Obs.cancelParent ∈ s1.log) : Delivers s s' := by
  refine ⟨fun t a b => ?_, fun a b => absurd (hn (h3 a)) b⟩
  obtain ⟨c1, c2⟩ := h.kids t (h2.1 t a) b
  refine ⟨?_, c2⟩
  unfold Told
  rw [h2.2 t (by rw [hp]; exact c2)]
  exact c1

/-- Noting `x`, cancelling, uncancelling, and looping. -/
theorem Runs.cancelLoop {s s' : TS} {x : Obs} {f : Bool} (h : Runs s) (hf : f = true)
    (hk : kids [x] = []) (ha : announced [x] = []) (hx : x.isCancel = false)
    (he : TM.loop (TM.uncancel (TM.cancelAll { s with finishing := f, log := s.log ++ [x] })) = some s') :
    Delivers s s' := by
  subst hf
  have hn := h.note hk ha true
  obtain ⟨a1, a2, a3, a4⟩ := hn.cancelAll.uncancel.loop he
  obtain ⟨b1, b2⟩ := a4 (cancelAll_cancelled _)
  have hd := hn.delivers rfl
  refine Delivers.note (x := x) (f := true) hx (hd.then (cancelAll_parent _) (cancelAll_noPar rfl) ⟨b1, fun u hu => ?_⟩ a3)
  rw [b2 u hu]
  exact (uncancel_still _).2.2 u hu

theorem exit_delivers {s s' : TS} {exc : Option Exc} (h : Runs s) (he : exit s exc = some s') :
    Delivers s s' := by
  have hn : Runs (begin_ s exc) := h.note rfl rfl true
  have note : ∀ s', Delivers (begin_ s exc) s' → Delivers s s' :=
    fun s' hd => Delivers.note (x := .block exc) (f := true) rfl hd
  have hcan : ∀ s' g ph, (g = .event noneRemaining ∨ g = .null 0) →
      suspend (cancelAll (begin_ s exc)) g ph = some s' → Delivers s s' := by
    intro s' g ph hg hx
    obtain ⟨a1, a2, a3, a4⟩ := hn.cancelAll.suspend hg hx
    exact note _ ((hn.delivers rfl).then (cancelAll_parent _) (cancelAll_noPar rfl)
      (a4 (cancelAll_cancelled _)) a3)
  unfold exit at he
  dsimp only at he
  split at he
  · cases he
    exact note _ ((hn.delivers rfl).still (cancelAll_parent _) (cancelAll_noPar rfl) ⟨rfl, rfl, fun _ _ => rfl⟩)
  · split at he
    · obtain ⟨a1, a2, a3, a4⟩ := hn.uncancel.suspend (Or.inl rfl) he
      exact note _ ⟨a1.kids, fun x y z => absurd (a3 x) y⟩
    · exact h.cancelLoop (x := .block (some .cancelled)) rfl rfl rfl rfl he
  · split at he
    · exact note _ (hn.suspend (Or.inr rfl) he).1
    · exact note _ (hn.suspend (Or.inl rfl) he).1
  · split at he
    · exact note _ (hn.suspend (Or.inr rfl) he).1
    · split at he
      · exact note _ (hn.suspend (Or.inl rfl) he).1
      · exact hcan _ _ _ (Or.inl rfl) he

theorem goOn_delivers {s s' : TS} (h : Runs s) (hf : s.finishing = true) (he : goOn s = some s') :
    Delivers s s' := by
  unfold goOn at he
  split at he
  · cases he; exact .same rfl
  · cases he; exact .same rfl
  · cases he; exact .same rfl
  · refine h.cancelLoop (x := .interrupted) (f := s.finishing) hf rfl rfl rfl he
  · cases he
    have hn : Runs { s with log := s.log ++ [.interrupted] } := h.note (f := s.finishing) rfl rfl
    exact Delivers.note (x := .interrupted) (f := s.finishing) rfl
      ((hn.delivers hf).still (cancelAll_parent _) (cancelAll_noPar hf) ⟨rfl, rfl, fun _ _ => rfl⟩)
  · exact (h.loop he).1
  · obtain ⟨a1, a2, a3, a4⟩ := h.uncancel.loop he
    exact ⟨a1.kids, fun x y z => absurd (a3 x) y⟩
  · cases he; exact .same rfl
  · cases he; exact .same rfl

theorem step_undone {w w' : World} {a : Act} {r : Res} {t : Nat} (hr : Sched.Reach w)
    (ha : a = .cbStep ∨ ∃ e, a = .setE e) (he : Sched.exec w a = some (w', r))
    (hd : (w.task t).state.isDone = false) : (w'.task t).state.isDone = false := by
  obtain ⟨D, hg⟩ := hr.good
  obtain ⟨new, -, hts⟩ := hg.tstep (exec_step he).2
  have hT := hts t
  generalize w'.task t = r' at hT ⊢
  generalize w.task t = r0 at hT hd
  generalize List.filter _ new = nn at hT
  cases hT <;> rcases ha with ha | ⟨e, ha⟩ <;> (try (subst ha)) <;> simp_all [TState.isDone, coroEnd]

theorem set_undone {w : World} {e t : Nat} (hr : Sched.Reach w) (hd : (w.task t).state.isDone = false) :
    ((api w (.setE e)).task t).state.isDone = false := by
  rcases api_cases w (.setE e) with ⟨r, he⟩ | ⟨-, he⟩
  · exact step_undone hr (Or.inr ⟨e, rfl⟩) he hd
  · rw [he]; exact hd

theorem doneCallback_delivers {s : TS} {t : Nat} {how : How}
    (hl : Live noneRemaining (ids s.log) (announced s.log ++ [t]) s.parent s.phase.aw s.phase.dr s.w)
    (hst : s.w.stack = [.finishing t 1 how]) (hi : s.w.inside = true) (hh : s.w.halted = false)
    (hc : Core s) (hent : s.parent ∉ ids s.log) : Delivers s (doneCallback s t) := by
  obtain ⟨f1, f2, f3, f4, f5, f6⟩ := childLeft_fields s t
  have hq : quiet s.w = true := by unfold quiet; simp [hst]
  have hkeep : Live noneRemaining (ids s.log) (announced s.log ++ [t]) s.parent s.phase.aw s.phase.dr
      (childLeft s t).w ∧ (childLeft s t).w.stack = s.w.stack ∧ (childLeft s t).w.inside = true ∧
      (childLeft s t).w.halted = false ∧ ((s.w.task s.parent).state.isDone = false →
        ((childLeft s t).w.task s.parent).state.isDone = false) := by
    rcases f6 with h | h <;> rw [h]
    · exact ⟨hl, rfl, hi, hh, fun h => h⟩
    · obtain ⟨g1, g2, g3, g4⟩ := api_frame (w := s.w) (a := .setE noneRemaining) rfl
      refine ⟨(hl.set hq hi hh).1, g1, g2.trans hi, g3.trans hh, fun hd => ?_⟩
      exact set_undone hl.calm.reach hd
  obtain ⟨hl2, k1, k2, k3, k4⟩ := hkeep
  have hne : noteEnd s t = { childLeft s t with
      excs := (childLeft s t).excs ++ ((failure (childLeft s t).w t).map fun e => (some t, e)).toList } := rfl
  have hlog : (childLeft s t).log = s.log ++ [.ended t] := by
    unfold childLeft; dsimp only; split <;> rfl
  rw [doneCallback_eq]
  generalize noteEnd s t = s3 at hne ⊢
  have e1 : s3.w = (childLeft s t).w := by rw [hne]
  have e2 : s3.log = s.log ++ [.ended t] := by rw [hne]; exact hlog
  have e3 : s3.parent = s.parent := by rw [hne]; exact f2
  have e4 : s3.remaining = s.remaining.filter (·.1 != t) := by rw [hne]; exact f5
  have sub : ∀ u ∈ s3.remaining.map (·.1), u ∈ ids s.log ∧ u ∉ announced s.log ++ [t] := by
    intro u hu
    rw [e4] at hu
    obtain ⟨y, hy, hy2⟩ := List.mem_map.1 hu
    obtain ⟨y1, y2⟩ := List.mem_filter.1 hy
    rw [hc.rem] at y1
    have := remOf_sub (List.mem_map.2 ⟨y, y1, hy2⟩)
    refine ⟨this.1, ?_⟩
    simp only [List.mem_append, List.mem_singleton, not_or]
    exact ⟨this.2, by rw [← hy2]; simpa using y2⟩
  have hnrun : ∀ u, ((childLeft s t).w.task u).state ≠ .running := by
    intro u hu
    obtain ⟨D, hg⟩ := hl2.calm.reach.good
    rw [← hg.stk.run, k1, hst] at hu
    simp at hu
  split
  · refine cancelAll_delivers (s := s3) (by rw [e1]; exact hl2.calm.reach) (by rw [e1]; exact k2)
      (by rw [e1]; exact k3) ?_ ?_ ?_ e3.symm ?_ ?_ ?_
    · rw [e4, hc.rem]
      exact (remOf_nodup hc.nd).sublist (List.filter_sublist.map _)
    · intro u hu
      obtain ⟨u1, u2⟩ := sub u hu
      rw [e1]
      exact ⟨left_not_done hl2 (by rw [quiet_stack k1]; exact hq) u1 u2, hnrun u⟩
    · intro hx
      rw [e3] at hx
      exact hent (sub _ hx).1
    · intro _ hd
      rw [e3] at hd ⊢
      rw [e1]
      exact ⟨k4 hd, hnrun _⟩
    · intro u; rw [e2]; simp
    · rw [e2]; simp
  · exact ⟨fun u h1 h2 => absurd h1 (by rw [e2]; simpa using h2),
      fun h1 h2 => absurd h1 (by rw [e2]; simpa using h2)⟩

theorem sched_delivers {s s' : TS} {a : Act} {w' : World} {r : Res} (h : TInv s)
    (hoff : off noneRemaining a = true) (hsp : spares (ids s.log) a = true)
    (hq : quiet s.w = true ∨ a = .cbStep)
    (hcn : ∀ t, a = .cancelNow t → ∀ u, Frame.running u ∉ s.w.stack)
    (hx : Sched.exec s.w a = some (w', r))
    (he : hook s.w { s with w := w' } a = some s') : Delivers { s with w := w' } s' ∧
    (s'.log = s.log ∨ ((s.w.task s.parent).state.isDone = false →
      (w'.task s.parent).state.isDone = false)) := by
  obtain ⟨D, hg⟩ := h.live.calm.reach.good
  have hin : s.phase.inside = true ↔ (s.phase.aw = true ∨ s.phase.dr = true) := by
    cases s.phase <;> simp [Phase.inside, Phase.aw, Phase.dr]
  have hkeep : ∀ t, (s.w.task t).state.isDone = true → (w'.task t).state = (s.w.task t).state ∧
    (w'.task t).outcome = (s.w.task t).outcome := fun t ht => done_keeps h.live.calm.reach hx ht
  have hcore : Core { s with w := w' } := h.core.frame fun t ht => hkeep t (annDone h.live t ht)
  rcases h.live.act hx hoff (fun h1 h2 => absurd h2 (h.nr (hin.2 h1))) hq hsp hcn with
    ⟨t, how, h1, rfl, h3, h4, h5, h6⟩ | ⟨h1, h2⟩
  · have hm : t ∈ (kids s.log).map (·.1) := h1
    simp only [hook, h3, hm, if_true, Option.some.injEq] at he
    subst he
    obtain ⟨c1, c2⟩ := Wait.cb_frame hx h3 h4
    have hlne := kids_ne h1
    have hp1 : s.phase ≠ .fresh := by intro hx; have := h.ph; rw [hx] at this; exact hlne this.1
    have hp2 : s.phase ≠ .created := by intro hx; have := h.ph; rw [hx] at this; exact hlne this.1
    exact ⟨doneCallback_delivers (s := { s with w := w' }) h6 h4 c1 c2 hcore (h.ent hp1 hp2).2.2,
      Or.inr fun hd => step_undone h.live.calm.reach (Or.inl rfl) hx hd⟩
  · have hgo : ∀ rest, w'.stack = .running s.parent :: rest → s.phase.inside = true →
        (a = .pop ∨ ∃ t, a = .cancelNow t) → goOn { s with w := w' } = some s' →
        Delivers { s with w := w' } s' ∧ (s'.log = s.log ∨ ((s.w.task s.parent).state.isDone = false →
          (w'.task s.parent).state.isDone = false)) := by
      intro rest i1 i2 i4 i3
      have q : s.phase ≠ .fresh ∧ s.phase ≠ .created ∧ s.phase ≠ .body := by
        cases hx : s.phase <;> simp_all [Phase.inside]
      obtain ⟨c1, c2⟩ := enter_active hx i4
      have hrun : (w'.task s.parent).state = .running := by
        obtain ⟨D', hg'⟩ := h2.calm.reach.good
        exact (hg'.stk.run _).1 (by simp [i1])
      refine ⟨goOn_delivers (s := { s with w := w' }) ⟨h2.resumed (by rw [hrun]; simp), ⟨rest, i1⟩, c1, c2,
        h.core.nd, h.core.rem, (h.ent q.1 q.2.1).2.2⟩ ?_ i3, Or.inr fun _ => by rw [hrun]; rfl⟩
      exact h.core.fin.trans (h.finl q.1 q.2.1 q.2.2)
    unfold hook at he
    split at he
    · rename_i t how rest hst
      have hno : t ∉ (kids s.log).map (·.1) := h1 t how rest hst
      rw [if_neg hno] at he
      cases he
      exact ⟨.same rfl, Or.inl rfl⟩
    · rename_i t rest hst
      split at he
      · rename_i hc
        obtain ⟨rfl, hc2⟩ := hc
        exact hgo rest hst hc2 (Or.inl rfl) he
      · cases he; exact ⟨.same rfl, Or.inl rfl⟩
    · rename_i t rest hst
      split at he
      · rename_i hc
        obtain ⟨rfl, hc2⟩ := hc
        exact hgo rest hst hc2 (Or.inr ⟨_, rfl⟩) he
      · cases he; exact ⟨.same rfl, Or.inl rfl⟩
    · cases he; exact ⟨.same rfl, Or.inl rfl⟩

/-- A task that is told to end and goes on is ended, and no other task is touched. -/
theorem closed_other {w w' : World} {p : Nat} {rest : List Frame} {a : Act} {r : Res}
    (hst : w.stack = .running p :: rest) (hm : (w.task p).mustCancel > 0)
    (ha : match a with
      | .await _ _ => True
      | .yieldBad => True
      | _ => False)
    (he : Sched.exec w a = some (w', r)) : ∀ u, u ≠ p → w'.task u = w.task u := by
  intro u hu
  unfold Sched.exec at he
  split at he
  · cases he
  cases hi : w.inside
  · cases a <;> simp [hi] at he <;> cases ha
  cases a with
  | await g f =>
    simp only [hi, hst, execCoro] at he
    split at he
    · simp only [Option.some.injEq, Prod.mk.injEq] at he
      rw [← he.1]
    simp only [Option.some.injEq, Prod.mk.injEq] at he
    obtain ⟨he, -⟩ := he
    subst he
    unfold suspendOn
    rw [if_pos hm]
    simp [setOutcome, upd, hu]
  | yieldBad =>
    simp only [hi, hst, execCoro, Option.some.injEq, Prod.mk.injEq] at he
    obtain ⟨he, -⟩ := he
    subst he
    unfold suspendBad
    rw [if_pos hm]
    simp [setOutcome, upd, hu]
  | _ => cases ha

/-- Cancellations logged by a step are delivered in it. -/
theorem exec_delivers {s s' : TS} {a : TAct} (h : TInv s) (he : exec s a = some s') :
    (∀ t, Obs.cancel t ∈ s'.log → Obs.cancel t ∉ s.log → Told s'.w t) ∧
    (Obs.cancelParent ∈ s'.log → Obs.cancelParent ∉ s.log → (s.w.task s.parent).state.isDone = false →
      Told s'.w s.parent) := by
  have plain : ∀ s1 : TS, ∀ l : List Obs, noCancel l → s1.log = s.log ++ l →
      (∀ t, Obs.cancel t ∈ s1.log → Obs.cancel t ∉ s.log → Told s1.w t) ∧
      (Obs.cancelParent ∈ s1.log → Obs.cancelParent ∉ s.log → (s.w.task s.parent).state.isDone = false →
        Told s1.w s.parent) := by
    intro s1 l hl h1
    refine ⟨fun t a b => ?_, fun a b => ?_⟩ <;>
    · rw [h1] at a
      have := hl _ ((List.mem_append.1 a).resolve_left b)
      cases this
  cases a with
  | new d c =>
    simp only [exec] at he
    split at he
    · cases he; exact plain _ [] (by simp [noCancel]) (by simp [new])
    · cases he
  | enter =>
    simp only [exec] at he
    split at he
    · split at he
      · cases he; exact plain _ [.entered] (by simp [noCancel, Obs.isCancel]) rfl
      · cases he
    · cases he
  | startSoon t coe =>
    simp only [exec] at he
    split at he
    · cases he
      unfold startSoon
      split
      · exact plain _ [] (by simp [noCancel]) (by simp)
      · exact plain _ [.child t (coe.getD s.dflt)] (by simp [noCancel, Obs.isCancel]) rfl
    · cases he
  | exit exc =>
    simp only [exec] at he
    split at he
    · rename_i hc
      obtain ⟨h1, h2⟩ := inBlock_iff.1 hc.1
      have hl := h.live
      rw [h1] at hl
      have ha := hc.2
      unfold active at ha
      simp only [Bool.and_eq_true, Bool.not_eq_true'] at ha
      have hd := exit_delivers ⟨hl, h2, ha.1.1, ha.1.2, h.core.nd, h.core.rem,
        (h.ent (by rw [h1]; simp) (by rw [h1]; simp)).2.2⟩ he
      exact ⟨fun t a b => (hd.kids t a b).1, hd.par⟩
    · cases he
  | sched a =>
    simp only [exec] at he
    split at he
    · rename_i hal
      split at he
      · cases he
      rename_i w' r hx
      unfold allowed at hal
      rw [Bool.and_eq_true, Bool.or_eq_true] at hal
      obtain ⟨hq, hal⟩ := hal
      have hq : quiet s.w = true ∨ a = .cbStep := by simpa using hq
      by_cases hcl : closes s a = true
      · simp only [hcl, if_true] at hx he
        unfold closes at hcl
        simp only [Bool.and_eq_true, decide_eq_true_eq] at hcl
        obtain ⟨⟨hb, hm⟩, hk⟩ := hcl
        obtain ⟨h1, rest, h2⟩ := inBlock_iff.1 hb
        have hl := h.live
        rw [h1] at hl
        have hent := h.ent (by rw [h1]; simp) (by rw [h1]; simp)
        obtain ⟨i1, i2, i3⟩ := closes_inv h hb
        have hact : (giveUp s).w.inside = true ∧ (giveUp s).w.halted = false := by
          unfold Sched.exec at hx
          split at hx
          · cases hx
          rename_i hh
          refine ⟨?_, by simpa using hh⟩
          cases hi : (giveUp s).w.inside
          · cases a <;> first | (simp at hk; done) | (simp [hi] at hx)
          · rfl
        have hrun : Runs s := ⟨hl, ⟨rest, h2⟩, by rw [← i3.inside]; exact hact.1,
          by rw [← i3.halted]; exact hact.2, h.core.nd, h.core.rem, hent.2.2⟩
        have hgu : giveUp s = cancelAll { s with finishing := true, log := s.log ++ [.closed] } := rfl
        have hn : Runs { s with finishing := true, log := s.log ++ [.closed] } := hrun.note rfl rfl true
        have hd1 : Delivers s (giveUp s) := (hn.delivers rfl).note rfl
        have hpp : (giveUp s).parent = s.parent := by rw [hgu, cancelAll_parent]
        have hnp : Obs.cancelParent ∈ (giveUp s).log → Obs.cancelParent ∈ s.log := by
          intro hx
          have := cancelAll_noPar (s := { s with finishing := true, log := s.log ++ [.closed] }) rfl hx
          simpa using this
        have hmust : ((giveUp s).w.task s.parent).mustCancel > 0 := by
          have hrem : s.parent ∉ s.remaining.map (·.1) := par_rem h.core hent.2.2
          obtain ⟨w1, e1, e2, e3⟩ := cancelAll_eq { s with finishing := true, log := s.log ++ [.closed] }
          rw [hgu, e1]
          dsimp only
          cases hcc : s.cancelled with
          | true => rw [e2 hcc]; exact hm
          | false =>
            rw [e3 hcc, foldl_ids]
            simp only [if_true]
            rw [cancels_other _ h.live.calm.reach _ hrem]
            exact hm
        have hother : ∀ u, u ≠ s.parent → w'.task u = (giveUp s).w.task u := by
          refine closed_other (rest := rest) (by rw [i3.stack]; exact h2) hmust ?_ hx
          cases a <;> simp_all
        have hs' : s' = { giveUp s with phase := .left .closed, w := w' } := by
          cases a with
          | await g f => simp only [hook, Option.some.injEq] at he; exact he.symm
          | yieldBad => simp only [hook, Option.some.injEq] at he; exact he.symm
          | _ => simp at hk
        have := hd1.still (s' := s') hpp hnp
          ⟨by rw [hs'], by rw [hs'], by rw [hs', hpp]; exact hother⟩
        exact ⟨fun t a b => (this.kids t a b).1, this.par⟩
      · simp only [hcl, Bool.false_eq_true, if_false] at hx he
        have hoff : off noneRemaining a = true := by
          cases a with
          | await g f => cases g <;> first | rfl | exact hal
          | setE e => exact hal
          | clearE e => exact hal
          | _ => rfl
        have hsp : spares (ids s.log) a = true := by
          cases a with
          | kill t => simpa [spares, ids] using hal
          | cancelNow t => simp only [Bool.and_eq_true] at hal; simpa [spares, ids] using hal.1
          | _ => rfl
        have hcn : ∀ t, a = .cancelNow t → ∀ u, Frame.running u ∉ s.w.stack := by
          rintro t rfl u hu
          simp only [Bool.and_eq_true] at hal
          have := hal.2
          unfold nobodyRuns at this
          rw [List.all_eq_true] at this
          exact absurd (this _ hu) (by simp)
        obtain ⟨hd1, hd2⟩ := sched_delivers h hoff hsp hq hcn hx he
        refine ⟨fun t a b => (hd1.kids t a b).1, fun a b c => ?_⟩
        rcases hd2 with h1 | h1
        · rw [h1] at a; exact absurd a b
        · exact hd1.par a b (h1 c)
    · cases he

end Verif.TM
