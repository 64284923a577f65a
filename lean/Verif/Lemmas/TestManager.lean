import Verif.Spec.TestManager
namespace Verif.TestMgr

/-- The failures as the code counts them: waiting through `join()` does not count as waiting. -/
def counted : Obs → Option Exc
  | .timedOut => some simTimeout
  | .cancelled => some testCancelled
  | .ended x =>
    match x.end_ with
    | .failed e => if x.task = 0 ∨ x.awaited = false then some e else none
    | _ => none

/-- Facts about the tasks, in every state. -/
structure Core (s : TMState) : Prop where
  nodup : s.tasks.Nodup
  bound : ∀ t ∈ s.tasks, t < s.next
  pos : 0 < s.next
  doneNil : s.doneSet = true → s.tasks = []
  nilDone : s.started = true → s.tasks = [] → s.doneSet = true
  fresh : s.started = false → s.tasks = [] ∧ s.current = false ∧ s.doneSet = false ∧ s.next = 1
  acct : s.started = true → ∀ t, t < s.next → t ∈ s.tasks ∨ ∃ x, Obs.ended x ∈ s.log ∧ x.task = t

theorem core_init : Core TMState.init :=
  ⟨List.nodup_nil, by simp [TMState.init], by simp [TMState.init], by simp [TMState.init],
    by simp [TMState.init], by simp [TMState.init], by simp [TMState.init]⟩

theorem core_congr {s s' : TMState} (h : Core s) (h1 : s'.tasks = s.tasks) (h2 : s'.next = s.next)
    (h3 : s'.doneSet = s.doneSet) (h4 : s'.started = s.started) (h5 : s'.current = true → s.current = true)
    (h6 : ∀ o ∈ s.log, o ∈ s'.log) : Core s' := by
  refine ⟨by rw [h1]; exact h.nodup, by rw [h1, h2]; exact h.bound, by rw [h2]; exact h.pos,
    by rw [h1, h3]; exact h.doneNil, by rw [h1, h3, h4]; exact h.nilDone, ?_, ?_⟩
  · intro hs
    rw [h4] at hs
    obtain ⟨a, b, c, d⟩ := h.fresh hs
    refine ⟨by rw [h1]; exact a, ?_, by rw [h3]; exact c, by rw [h2]; exact d⟩
    cases hc : s'.current with
    | false => rfl
    | true => rw [h5 hc] at b; cases b
  · intro hs t ht
    rw [h4] at hs
    rw [h2] at ht
    rcases h.acct hs t ht with h | ⟨x, hx, he⟩
    · exact .inl (by rw [h1]; exact h)
    · exact .inr ⟨x, h6 _ hx, he⟩

theorem core_observe {s : TMState} (o : Obs) (h : Core s) : Core (observe o s) :=
  core_congr h rfl rfl rfl rfl id (fun _ h => List.mem_append_left _ h)

theorem core_note {s : TMState} (e : Option Exc) (h : Core s) : Core (note e s) := by
  cases e
  · exact h
  · exact core_congr h rfl rfl rfl rfl id (fun _ h => h)

theorem core_finish {s : TMState} (h : Core s) : Core (finish s) :=
  core_congr h rfl rfl rfl rfl id (fun _ h => h)

theorem core_complete {s : TMState} (h : Core s) : Core (complete s) :=
  core_congr h rfl rfl rfl rfl (fun e => by cases e) (fun _ h => h)

theorem core_create {s : TMState} (h : Core s) : Core (createTask s) := by
  unfold createTask
  split
  · rename_i hc
    have hst : s.started = true := by
      cases hs : s.started with
      | true => rfl
      | false => rw [(h.fresh hs).2.1] at hc; cases hc
    refine ⟨?_, ?_, Nat.succ_pos _, (fun e => by cases e), ?_, ?_, ?_⟩
    · refine List.nodup_append.2 ⟨h.nodup, by simp, ?_⟩
      intro a ha b hb
      simp only [List.mem_singleton] at hb
      have := h.bound a ha
      omega
    · intro t ht
      rcases List.mem_append.1 ht with ht | ht
      · exact Nat.lt_succ_of_lt (h.bound t ht)
      · simp only [List.mem_singleton] at ht; subst ht; exact Nat.lt_succ_self _
    · intro _ e; simp at e
    · intro e; rw [hst] at e; cases e
    · intro _ t ht
      by_cases htn : t = s.next
      · exact .inl (by simp [htn])
      · rcases h.acct hst t (by change t < s.next + 1 at ht; omega) with h | h
        · exact .inl (List.mem_append_left _ h)
        · exact .inr h
  · exact h

/-- Removing a task that is there and whose end has been observed. -/
theorem core_remove {s : TMState} (t : Nat) (h : Core s) (hm : t ∈ s.tasks)
    (hl : ∃ x, Obs.ended x ∈ s.log ∧ x.task = t) : Core (removeTask t s) := by
  have hst : s.started = true := by
    cases hs : s.started with
    | true => rfl
    | false => rw [(h.fresh hs).1] at hm; cases hm
  have hds : s.doneSet = false := by
    cases hd : s.doneSet with
    | false => rfl
    | true => rw [h.doneNil hd] at hm; cases hm
  have hacct : ∀ u, u < s.next → u ∈ s.tasks.erase t ∨ ∃ x, Obs.ended x ∈ s.log ∧ x.task = u := by
    intro u hu
    rcases h.acct hst u hu with h | h
    · by_cases e : u = t
      · subst e; exact .inr hl
      · exact .inl ((List.mem_erase_of_ne e).2 h)
    · exact .inr h
  unfold removeTask
  by_cases he : (drop t s).tasks = []
  · rw [if_pos he]
    have hb : Core { drop t s with doneSet := true } := by
      refine ⟨h.nodup.erase t, fun u hu => h.bound u (List.mem_of_mem_erase hu), h.pos, fun _ => he,
        fun _ _ => rfl, ?_, fun _ => hacct⟩
      intro e
      change s.started = false at e
      rw [hst] at e; cases e
    unfold setDone
    split
    · exact core_complete hb
    · exact hb
  · rw [if_neg he]
    refine ⟨h.nodup.erase t, fun u hu => h.bound u (List.mem_of_mem_erase hu), h.pos, ?_, ?_, ?_, fun _ => hacct⟩
    · intro e; change s.doneSet = true at e; rw [hds] at e; cases e
    · intro _ e; exact absurd e he
    · intro e
      change s.started = false at e
      rw [hst] at e; cases e

theorem core_endInner {s : TMState} (x : Ended) (h : Core s) (hm : x.task ∈ s.tasks) :
    Core (endInner x s) := by
  have h1 : Core (removeTask x.task (observe (.ended x) s)) :=
    core_remove _ (core_observe _ h) hm ⟨x, List.mem_append_right _ (by simp), rfl⟩
  unfold endInner
  split
  · exact h1
  · exact core_note _ h1

/-! ### The shutdown loop -/

/-- What is kept while the test is shut down. -/
structure Loop (s s' : TMState) : Prop where
  finishing : s'.finishing = s.finishing
  waiting : s'.waiting = false
  completed : s'.completed = s.completed
  verdict : s'.verdict = s.verdict
  armed : s'.armed = s.armed
  started : s'.started = s.started
  current : s'.current = s.current
  next : s.next ≤ s'.next

theorem Loop.refl {s : TMState} (h : s.waiting = false) : Loop s s :=
  ⟨rfl, h, rfl, rfl, rfl, rfl, rfl, Nat.le_refl _⟩

theorem Loop.trans {s s' s'' : TMState} (h : Loop s s') (h' : Loop s' s'') : Loop s s'' :=
  ⟨h'.finishing.trans h.finishing, h'.waiting, h'.completed.trans h.completed, h'.verdict.trans h.verdict,
    h'.armed.trans h.armed, h'.started.trans h.started, h'.current.trans h.current, Nat.le_trans h.next h'.next⟩

theorem loop_create {s : TMState} (h : s.waiting = false) : Loop s (createTask s) := by
  unfold createTask
  split
  · exact ⟨rfl, h, rfl, rfl, rfl, rfl, rfl, Nat.le_succ _⟩
  · exact Loop.refl h

theorem removeTask_of_not_waiting {s : TMState} (t : Nat) (h : s.waiting = false) :
    removeTask t s = { drop t s with doneSet := s.doneSet || decide (s.tasks.erase t = []) } := by
  unfold removeTask setDone
  have hw : (drop t s).waiting = false := h
  by_cases he : (drop t s).tasks = []
  · rw [if_pos he, if_neg (by rw [hw]; simp)]
    have : decide (s.tasks.erase t = []) = true := decide_eq_true he
    rw [this, Bool.or_true]
  · rw [if_neg he]
    have : decide (s.tasks.erase t = []) = false := decide_eq_false he
    rw [this, Bool.or_false]; rfl

theorem note_fields (e : Option Exc) (s : TMState) :
    (note e s).tasks = s.tasks ∧ (note e s).finishing = s.finishing ∧ (note e s).waiting = s.waiting ∧
    (note e s).completed = s.completed ∧ (note e s).verdict = s.verdict ∧ (note e s).armed = s.armed ∧
    (note e s).started = s.started ∧ (note e s).current = s.current ∧ (note e s).next = s.next ∧
    (note e s).log = s.log ∧ (note e s).excs = s.excs ++ e.toList ∧ (note e s).doneSet = s.doneSet := by
  cases e <;> simp [note]

theorem endInner_fields (x : Ended) {s : TMState} (h : s.waiting = false) :
    (endInner x s).tasks = s.tasks.erase x.task ∧ (endInner x s).log = s.log ++ [.ended x] ∧
    (endInner x s).excs = s.excs ++ (counted (.ended x)).toList ∧ Loop s (endInner x s) := by
  unfold endInner
  have hr := removeTask_of_not_waiting (s := observe (.ended x) s) x.task h
  cases hc : consequence x with
  | none =>
    simp only [hr]
    refine ⟨rfl, rfl, ?_, rfl, h, rfl, rfl, rfl, rfl, rfl, Nat.le_refl _⟩
    have : counted (.ended x) = none := by
      unfold consequence at hc
      unfold counted
      cases he : x.end_ <;> simp only [he] at hc ⊢
      all_goals (split at hc <;> simp_all)
    rw [this]
    simp [drop, observe]
  | some exc =>
    simp only [hr]
    obtain ⟨f1, f2, f3, f4, f5, f6, f7, f8, f9, f10, f11, f12⟩ := note_fields exc
      { drop x.task (observe (.ended x) s) with
        doneSet := (observe (.ended x) s).doneSet || decide ((observe (.ended x) s).tasks.erase x.task = []) }
    refine ⟨f1, f10, ?_, f2, f3.trans h, f4, f5, f6, f7, f8, Nat.le_of_eq f9.symm⟩
    rw [f11]
    have : counted (.ended x) = exc := by
      unfold consequence at hc
      unfold counted
      cases he : x.end_ <;> simp only [he] at hc ⊢
      all_goals (split at hc <;> simp_all)
    rw [this]
    simp [drop, observe]

/-- The exceptions are those of the observations. -/
def Tracks (s : TMState) : Prop := s.excs = s.log.filterMap counted

/-- What one or several actions during the shutdown do. -/
structure Shut (s s' : TMState) : Prop where
  core : Core s'
  loop : Loop s s'
  tracks : Tracks s → Tracks s'
  gone : ∀ u, u < s.next → u ∉ s.tasks → u ∉ s'.tasks
  log : ∃ l, s'.log = s.log ++ l

theorem Shut.refl {s : TMState} (h : Core s) (hw : s.waiting = false) : Shut s s :=
  ⟨h, Loop.refl hw, id, fun _ _ h => h, [], by simp⟩

theorem Shut.trans {s s' s'' : TMState} (h : Shut s s') (h' : Shut s' s'') : Shut s s'' := by
  obtain ⟨l, hl⟩ := h.log
  obtain ⟨l', hl'⟩ := h'.log
  exact ⟨h'.core, h.loop.trans h'.loop, fun t => h'.tracks (h.tracks t),
    fun u hu hn => h'.gone u (Nat.lt_of_lt_of_le hu h.loop.next) (h.gone u hu hn),
    l ++ l', by rw [hl', hl, List.append_assoc]⟩

theorem shut_create {s : TMState} (h : Core s) (hw : s.waiting = false) : Shut s (createTask s) := by
  refine ⟨core_create h, loop_create hw, ?_, ?_, ?_⟩
  · unfold createTask; split <;> exact id
  · intro u hu hn
    unfold createTask
    split
    · intro hm
      rcases List.mem_append.1 hm with hm | hm
      · exact hn hm
      · simp only [List.mem_singleton] at hm; omega
    · exact hn
  · refine ⟨[], ?_⟩
    unfold createTask; split <;> simp

theorem shut_endInner {s : TMState} (x : Ended) (h : Core s) (hw : s.waiting = false) (hm : x.task ∈ s.tasks) :
    Shut s (endInner x s) := by
  obtain ⟨h1, h2, h3, h4⟩ := endInner_fields x hw
  refine ⟨core_endInner x h hm, h4, ?_, ?_, _, h2⟩
  · intro ht
    unfold Tracks at ht ⊢
    rw [h3, h2, List.filterMap_append, ht]
    cases hc : counted (.ended x) <;> simp [hc]
  · intro u _ hn
    rw [h1]
    exact fun e => hn (List.mem_of_mem_erase e)

theorem shut_doSub {s : TMState} (b : Option Nat) (t : Nat) (a : Sub) (h : Core s) (hw : s.waiting = false)
    (hm : t ∈ s.tasks) : Shut s (doSub b t s a) ∧ t ∈ (doSub b t s a).tasks ∧
      (a ≠ .create → ∀ u ∈ (doSub b t s a).tasks, u ∈ s.tasks) ∧
      (∀ r, b = some r → r ∈ s.tasks → r ∈ (doSub b t s a).tasks) := by
  cases a with
  | create =>
    simp only [doSub]
    refine ⟨shut_create h hw, ?_, fun e => absurd rfl e, ?_⟩
    · unfold createTask; split
      · exact List.mem_append_left _ hm
      · exact hm
    · intro r _ hr
      unfold createTask; split
      · exact List.mem_append_left _ hr
      · exact hr
  | kill u =>
    simp only [doSub]
    split
    · rename_i hu
      have hf := (endInner_fields ⟨u, .returned, false, false⟩ hw).1
      refine ⟨shut_endInner _ h hw hu.1, ?_, ?_, ?_⟩
      · rw [hf]; exact (List.mem_erase_of_ne (fun e => hu.2.1 e.symm)).2 hm
      · intro _ v hv
        rw [hf] at hv
        exact List.mem_of_mem_erase hv
      · intro r hr hrm
        rw [hf]
        refine (List.mem_erase_of_ne ?_).2 hrm
        intro e
        subst e
        exact hu.2.2 hr
    · exact ⟨Shut.refl h hw, hm, fun _ _ h => h, fun _ _ h => h⟩

theorem shut_subs (b : Option Nat) (t : Nat) : ∀ (l : List Sub) (s : TMState), Core s → s.waiting = false →
    t ∈ s.tasks → Shut s (l.foldl (doSub b t) s) ∧ t ∈ (l.foldl (doSub b t) s).tasks ∧
      (Sub.create ∉ l → ∀ u ∈ (l.foldl (doSub b t) s).tasks, u ∈ s.tasks) ∧
      (∀ r, b = some r → r ∈ s.tasks → r ∈ (l.foldl (doSub b t) s).tasks)
  | [], s, h, hw, hm => ⟨Shut.refl h hw, hm, fun _ _ h => h, fun _ _ h => h⟩
  | a :: l, s, h, hw, hm => by
    obtain ⟨h1, h2, h3, h4⟩ := shut_doSub b t a h hw hm
    obtain ⟨g1, g2, g3, g4⟩ := shut_subs b t l _ h1.core h1.loop.waiting h2
    refine ⟨h1.trans g1, g2, ?_, fun r hr hm => g4 r hr (h4 r hr hm)⟩
    intro hn u hu
    exact h3 (fun e => hn (by rw [e]; exact List.mem_cons_self)) u
      (g3 (fun e => hn (List.mem_cons_of_mem _ e)) u hu)

theorem shut_cancelOne {s : TMState} (b : Option Nat) (t : Nat) (c : Cleanup) (h : Core s)
    (hw : s.waiting = false) (hm : t ∈ s.tasks) : Shut s (cancelOne b t c s) ∧
      t ∉ (cancelOne b t c s).tasks ∧
      (Sub.create ∉ c.subs → ∀ u ∈ (cancelOne b t c s).tasks, u ∈ s.tasks) ∧
      (∀ r, b = some r → r ≠ t → r ∈ s.tasks → r ∈ (cancelOne b t c s).tasks) := by
  obtain ⟨h1, h2, h3, h4⟩ := shut_subs b t c.subs s h hw hm
  unfold cancelOne
  generalize hx : (⟨t, match c.error with | none => .cancelled | some e => .failed e, c.awaited, c.joined⟩ : Ended) = x
  have hxt : x.task = t := by rw [← hx]
  have hf := (endInner_fields x h1.loop.waiting).1
  rw [hxt] at hf
  refine ⟨h1.trans (shut_endInner x h1.core h1.loop.waiting (by rw [hxt]; exact h2)), ?_, ?_, ?_⟩
  · simp only [hf]
    exact fun e => (h1.core.nodup.not_mem_erase) e
  · intro hn u hu
    simp only [hf] at hu
    exact h3 hn u (List.mem_of_mem_erase hu)
  · intro r hr hne hrm
    simp only [hf]
    exact (List.mem_erase_of_ne hne).2 (h4 r hr hrm)

theorem shut_cancelAll (b : Option Nat) (script : Nat → Cleanup) : ∀ (ts : List Nat) (s : TMState), Core s →
    s.waiting = false → (∀ t ∈ ts, t < s.next) →
    Shut s (cancelAll b script ts s).1 ∧
      (b = none → (cancelAll b script ts s).2 = true) ∧
      ((cancelAll b script ts s).2 = true → ∀ t ∈ ts, t ∉ (cancelAll b script ts s).1.tasks) ∧
      ((∀ t, Sub.create ∉ (script t).subs) → ∀ u ∈ (cancelAll b script ts s).1.tasks, u ∈ s.tasks) ∧
      (∀ r, b = some r → r ∈ s.tasks → r ∈ (cancelAll b script ts s).1.tasks)
  | [], s, h, hw, _ => ⟨Shut.refl h hw, fun _ => rfl, by simp, fun _ _ h => h, fun _ _ h => h⟩
  | t :: ts, s, h, hw, hb => by
    simp only [cancelAll]
    by_cases hm : t ∈ s.tasks
    · rw [if_pos hm]
      by_cases hr : b = some t
      · rw [if_pos hr]
        exact ⟨Shut.refl h hw, (fun e => by rw [e] at hr; cases hr), (fun e => by simp at e), fun _ _ h => h,
          fun _ _ h => h⟩
      · rw [if_neg hr]
        obtain ⟨h1, h2, h3, h4⟩ := shut_cancelOne b t (script t) h hw hm
        obtain ⟨g1, g2, g3, g4, g5⟩ := shut_cancelAll b script ts _ h1.core h1.loop.waiting
          (fun u hu => Nat.lt_of_lt_of_le (hb u (List.mem_cons_of_mem _ hu)) h1.loop.next)
        refine ⟨h1.trans g1, g2, ?_, fun hq u hu => h3 (hq t) u (g4 hq u hu), ?_⟩
        · intro he u hu
          rcases List.mem_cons.1 hu with rfl | hu
          · exact g1.gone _ (Nat.lt_of_lt_of_le (h.bound _ hm) h1.loop.next) h2
          · exact g3 he u hu
        · intro r hbr hrm
          exact g5 r hbr (h4 r hbr (fun e => hr (by rw [hbr, e])) hrm)
    · rw [if_neg hm]
      obtain ⟨g1, g2, g3, g4, g5⟩ := shut_cancelAll b script ts s h hw (fun u hu => hb u (List.mem_cons_of_mem _ hu))
      refine ⟨g1, g2, ?_, g4, g5⟩
      intro he u hu
      rcases List.mem_cons.1 hu with rfl | hu
      · exact g1.gone _ (hb _ List.mem_cons_self) hm
      · exact g3 he u hu

/-! ### Single steps -/

theorem removeTask_fields (t : Nat) (s : TMState) :
    (removeTask t s).tasks = s.tasks.erase t ∧ (removeTask t s).excs = s.excs ∧ (removeTask t s).log = s.log ∧
    (removeTask t s).finishing = s.finishing ∧ (removeTask t s).armed = s.armed ∧
    (removeTask t s).started = s.started ∧
    ((s.waiting = true ∧ s.tasks.erase t = [] ∧ (removeTask t s).completed = s.completed + 1 ∧
        (removeTask t s).waiting = false ∧ (removeTask t s).current = false ∧
        (removeTask t s).verdict = some s.excs) ∨
     (¬ (s.waiting = true ∧ s.tasks.erase t = []) ∧ (removeTask t s).completed = s.completed ∧
        (removeTask t s).waiting = s.waiting ∧ (removeTask t s).current = s.current ∧
        (removeTask t s).verdict = s.verdict)) := by
  unfold removeTask setDone
  by_cases he : (drop t s).tasks = []
  · rw [if_pos he]
    have he' : s.tasks.erase t = [] := he
    by_cases hw : s.waiting = true
    · rw [if_pos (show (drop t s).waiting = true from hw)]
      exact ⟨rfl, rfl, rfl, rfl, rfl, rfl, .inl ⟨hw, he', rfl, rfl, rfl, rfl⟩⟩
    · rw [if_neg (show ¬ (drop t s).waiting = true from hw)]
      exact ⟨rfl, rfl, rfl, rfl, rfl, rfl, .inr ⟨fun h => hw h.1, rfl, rfl, rfl, rfl⟩⟩
  · rw [if_neg he]
    exact ⟨rfl, rfl, rfl, rfl, rfl, rfl, .inr ⟨fun h => he h.2, rfl, rfl, rfl, rfl⟩⟩

/-- The exception noted at the end of a task, and the one the observation stands for. -/
theorem counted_none {x : Ended} (h : consequence x = none) : counted (.ended x) = none := by
  unfold consequence at h
  unfold counted
  cases he : x.end_ <;> simp only [he] at h ⊢
  split at h <;> simp_all

theorem counted_some {x : Ended} {exc : Option Exc} (h : consequence x = some exc) :
    counted (.ended x) = exc := by
  unfold consequence at h
  unfold counted
  cases he : x.end_ <;> simp only [he] at h ⊢
  all_goals (split at h <;> simp_all)

theorem endTask_none {b : Option Nat} {x : Ended} {script : Nat → Cleanup} {s : TMState}
    (h : consequence x = none) : endTask b x script s = removeTask x.task (observe (.ended x) s) := by
  unfold endTask; rw [h]

theorem endTask_some {b : Option Nat} {x : Ended} {script : Nat → Cleanup} {s : TMState} {exc : Option Exc}
    (h : consequence x = some exc) :
    endTask b x script s = abort b exc script (removeTask x.task (observe (.ended x) s)) := by
  unfold endTask; rw [h]

theorem abort_finishing {b : Option Nat} {exc : Option Exc} {script : Nat → Cleanup} {s : TMState}
    (h : s.finishing = true) : abort b exc script s = note exc s := by
  unfold abort
  simp only
  rw [if_pos (by rw [(note_fields exc s).2.1]; exact h)]

/-- The result of shutting down a test. -/
theorem abort_fresh {b : Option Nat} {exc : Option Exc} {script : Nat → Cleanup} {s : TMState}
    (hc : Core s) (hf : s.finishing = false) (hw : s.waiting = false) :
    ∃ u ok, abort b exc script s = await_ (u, ok) ∧ Shut (finish (note exc s)) u ∧
      (b = none → ok = true) ∧ (∀ r, b = some r → r ∈ s.tasks → ok = false) ∧
      (ok = true → (∀ t, Sub.create ∉ (script t).subs) → u.tasks = []) := by
  obtain ⟨f1, f2, f3, f4, f5, f6, f7, f8, f9, f10, f11, f12⟩ := note_fields exc s
  unfold abort
  simp only
  rw [if_neg (by rw [f2, hf]; simp)]
  have hc' : Core (finish (note exc s)) := core_finish (core_note exc hc)
  obtain ⟨g1, g2, g3, g4, g5⟩ := shut_cancelAll b script (finish (note exc s)).tasks (finish (note exc s)) hc'
    (show (note exc s).waiting = false by rw [f3, hw]) hc'.bound
  refine ⟨_, _, rfl, g1, g2, ?_, ?_⟩
  · intro r hr hm
    cases ho : (cancelAll b script (finish (note exc s)).tasks (finish (note exc s))).2 with
    | false => rfl
    | true =>
      have hm' : r ∈ (finish (note exc s)).tasks := by
        show r ∈ (note exc s).tasks
        rw [f1]; exact hm
      exact absurd (g5 r hr hm') (g3 ho r hm')
  · intro ho hq
    refine List.eq_nil_iff_forall_not_mem.2 fun t ht => g3 ho t (g4 hq t ht) ht

/-! ### The invariant -/

/-- How far the test has got. -/
structure Inv (s : TMState) : Prop where
  core : Core s
  notFin : s.finishing = false → s.completed = 0 ∧ s.waiting = false
  le : s.completed ≤ 1
  one : s.completed = 1 → s.tasks = [] ∧ s.current = false ∧ s.waiting = false ∧ s.started = true
  armed : s.finishing = true → s.armed = false
  noVerdict : s.completed = 0 → s.verdict = none
  tracks : Tracks s

theorem tracks_note {s : TMState} {exc : Option Exc} {o : Obs} (h : Tracks s) (ho : counted o = exc)
    {s' : TMState} (hl : s'.log = s.log ++ [o]) (he : s'.excs = s.excs) : Tracks (note exc s') := by
  obtain ⟨f1, f2, f3, f4, f5, f6, f7, f8, f9, f10, f11, f12⟩ := note_fields exc s'
  unfold Tracks at h ⊢
  rw [f11, f10, hl, he, List.filterMap_append, ← h]
  cases exc <;> simp [ho]

theorem inv_abort {b : Option Nat} {exc : Option Exc} {script : Nat → Cleanup} {s : TMState}
    (hc : Core s) (hf : s.finishing = false) (hw : s.waiting = false) (h0 : s.completed = 0)
    (hv : s.verdict = none) (ht : Tracks (note exc s)) (hst : s.started = true ∨ s.tasks = []) :
    Inv (abort b exc script s) := by
  obtain ⟨f1, f2, f3, f4, f5, f6, f7, f8, f9, f10, f11, f12⟩ := note_fields exc s
  obtain ⟨u, ok, he, hs, -⟩ := abort_fresh (b := b) (exc := exc) (script := script) hc hf hw
  rw [he]
  have l := hs.loop
  have hfin : u.finishing = true := l.finishing
  have harm : u.armed = false := l.armed
  have hcp : u.completed = 0 := by rw [l.completed]; exact f4.trans h0
  have hve : u.verdict = none := by rw [l.verdict]; exact f5.trans hv
  have htr : Tracks u := hs.tracks ht
  unfold await_
  simp only
  split
  · split
    · rename_i hd
      refine ⟨core_complete hs.core, ?_, ?_, ?_, fun _ => harm, ?_, htr⟩
      · intro e; change u.finishing = false at e; rw [hfin] at e; cases e
      · show u.completed + 1 ≤ 1; omega
      · intro _
        refine ⟨hs.core.doneNil hd, rfl, rfl, ?_⟩
        cases hsu : u.started with
        | true => exact hsu
        | false => rw [(hs.core.fresh hsu).2.2.1] at hd; cases hd
      · intro e; change u.completed + 1 = 0 at e; omega
    · refine ⟨core_congr hs.core rfl rfl rfl rfl id (fun _ h => h), ?_, ?_, ?_, fun _ => harm, fun _ => hve, htr⟩
      · intro e; change u.finishing = false at e; rw [hfin] at e; cases e
      · show u.completed ≤ 1; omega
      · intro e; change u.completed = 1 at e; omega
  · exact ⟨hs.core, (fun e => by rw [hfin] at e; cases e), by omega, fun e => by omega, fun _ => harm,
      fun _ => hve, htr⟩

theorem inv_endTask {b : Option Nat} {x : Ended} {script : Nat → Cleanup} {s : TMState} (h : Inv s)
    (hm : x.task ∈ s.tasks) : Inv (endTask b x script s) := by
  have h0 : s.completed = 0 := by
    have := h.le
    by_cases e : s.completed = 1
    · rw [(h.one e).1] at hm; cases hm
    · omega
  have hst : s.started = true := by
    cases hs : s.started with
    | true => rfl
    | false => rw [(h.core.fresh hs).1] at hm; cases hm
  obtain ⟨r1, r2, r3, r4, r5, r6, r7⟩ := removeTask_fields x.task (observe (.ended x) s)
  have hc : Core (removeTask x.task (observe (.ended x) s)) :=
    core_remove _ (core_observe _ h.core) hm ⟨x, List.mem_append_right _ (by simp), rfl⟩
  have hinv : ∀ exc, counted (.ended x) = exc → s.finishing = true ∨ exc = none →
      Inv (note exc (removeTask x.task (observe (.ended x) s))) := by
    intro exc hcnt _
    obtain ⟨f1, f2, f3, f4, f5, f6, f7, f8, f9, f10, f11, f12⟩ :=
      note_fields exc (removeTask x.task (observe (.ended x) s))
    refine ⟨core_note _ hc, ?_, ?_, ?_, ?_, ?_, tracks_note h.tracks hcnt r3 r2⟩
    · intro e
      rw [f2, r4] at e
      have hn := h.notFin e
      rcases r7 with ⟨hw, -⟩ | ⟨-, g1, g2, -⟩
      · have : s.waiting = true := hw
        rw [hn.2] at this; cases this
      · exact ⟨by rw [f4, g1]; exact hn.1, by rw [f3, g2]; exact hn.2⟩
    · rw [f4]
      rcases r7 with ⟨-, -, g1, -⟩ | ⟨-, g1, -⟩
      · rw [g1]; show s.completed + 1 ≤ 1; omega
      · rw [g1]; exact h.le
    · rw [f4]
      intro e
      rcases r7 with ⟨-, g0, g1, g2, g3, -⟩ | ⟨-, g1, -⟩
      · exact ⟨by rw [f1, r1]; exact g0, by rw [f8, g3], by rw [f3, g2], by rw [f7, r6]; exact hst⟩
      · rw [g1] at e
        change s.completed = 1 at e
        omega
    · rw [f2, r4, f6, r5]; exact h.armed
    · rw [f4, f5]
      intro e
      rcases r7 with ⟨-, g0, g1, g2, g3, -⟩ | ⟨-, g1, -, -, g4⟩
      · rw [g1] at e; change s.completed + 1 = 0 at e; omega
      · rw [g4]; exact h.noVerdict h0
  cases hcs : consequence x with
  | none =>
    rw [endTask_none hcs]
    exact hinv none (counted_none hcs) (.inr rfl)
  | some exc =>
    rw [endTask_some hcs]
    cases hfin : s.finishing with
    | true =>
      rw [abort_finishing (by rw [r4]; exact hfin)]
      exact hinv exc (counted_some hcs) (.inl hfin)
    | false =>
      have hn := h.notFin hfin
      rcases r7 with ⟨hw, -⟩ | ⟨-, g1, g2, -, g4⟩
      · have : s.waiting = true := hw
        rw [hn.2] at this; cases this
      · exact inv_abort hc (by rw [r4]; exact hfin) (by rw [g2]; exact hn.2) (by rw [g1]; exact h0)
          (by rw [g4]; exact h.noVerdict h0) (tracks_note h.tracks (counted_some hcs) r3 r2)
          (.inl (by rw [r6]; exact hst))

theorem inv_signal {exc : Exc} {o : Obs} {script : Nat → Cleanup} {s s' : TMState} (h : Inv s)
    (ho : counted o = some exc) (hs' : s' = s ∨ s' = { s with armed := false }) :
    Inv (abort none (some exc) script (observe o s')) := by
  have he : s'.excs = s.excs ∧ s'.log = s.log ∧ s'.finishing = s.finishing ∧ s'.waiting = s.waiting ∧
      s'.completed = s.completed ∧ s'.verdict = s.verdict ∧ s'.started = s.started ∧ s'.tasks = s.tasks ∧
      s'.current = s.current ∧ (s.armed = false → s'.armed = false) ∧ Core s' := by
    rcases hs' with rfl | rfl
    · exact ⟨rfl, rfl, rfl, rfl, rfl, rfl, rfl, rfl, rfl, id, h.core⟩
    · exact ⟨rfl, rfl, rfl, rfl, rfl, rfl, rfl, rfl, rfl, fun _ => rfl,
        core_congr h.core rfl rfl rfl rfl id (fun _ h => h)⟩
  obtain ⟨e1, e2, e3, e4, e5, e6, e7, e8, e9, e10, e11⟩ := he
  have htr : Tracks (note (some exc) (observe o s')) :=
    tracks_note h.tracks ho (by show s'.log ++ [o] = _; rw [e2]) (by show s'.excs = _; rw [e1])
  cases hfin : s.finishing with
  | true =>
    rw [abort_finishing (show (observe o s').finishing = true by show s'.finishing = true; rw [e3, hfin])]
    refine ⟨core_note _ (core_observe _ e11), ?_, ?_, ?_, ?_, ?_, htr⟩
    · intro e; change s'.finishing = false at e; rw [e3, hfin] at e; cases e
    · show s'.completed ≤ 1; rw [e5]; exact h.le
    · intro e
      change s'.completed = 1 at e
      rw [e5] at e
      obtain ⟨a, b, c, d⟩ := h.one e
      exact ⟨by show s'.tasks = []; rw [e8, a], by show s'.current = false; rw [e9, b],
        by show s'.waiting = false; rw [e4, c], by show s'.started = true; rw [e7, d]⟩
    · intro _; exact e10 (h.armed hfin)
    · intro e
      change s'.completed = 0 at e
      show s'.verdict = none
      rw [e6]
      exact h.noVerdict (by rw [← e5]; exact e)
  | false =>
    have hn := h.notFin hfin
    refine inv_abort (core_observe _ e11) (by show s'.finishing = false; rw [e3, hfin])
      (by show s'.waiting = false; rw [e4, hn.2]) (by show s'.completed = 0; rw [e5, hn.1])
      (by show s'.verdict = none; rw [e6]; exact h.noVerdict hn.1) htr ?_
    cases hs : s.started with
    | true => exact .inl (by show s'.started = true; rw [e7, hs])
    | false => exact .inr (by show s'.tasks = []; rw [e8]; exact (h.core.fresh hs).1)

theorem inv_create {s : TMState} (h : Inv s) : Inv (createTask s) := by
  have hc := core_create h.core
  revert hc
  unfold createTask
  split
  · rename_i hcur
    intro hc
    refine ⟨hc, h.notFin, h.le, ?_, h.armed, h.noVerdict, h.tracks⟩
    intro e
    have := (h.one e).2.1
    rw [hcur] at this; cases this
  · exact fun _ => h

theorem inv_start {s : TMState} (timeout : Bool) (h : Inv s) (hs : s.started = false)
    (ht : s.finishing = true → timeout = false) : Inv (start timeout s) := by
  obtain ⟨a, b, c, d⟩ := h.core.fresh hs
  refine ⟨⟨?_, ?_, h.core.pos, ?_, ?_, ?_, ?_⟩, h.notFin, h.le, ?_, ht, h.noVerdict, h.tracks⟩
  · show (s.tasks ++ [0]).Nodup
    rw [a]; simp
  · intro t ht
    change t ∈ s.tasks ++ [0] at ht
    rw [a] at ht
    simp at ht
    subst ht
    exact h.core.pos
  · intro e; change s.doneSet = true at e; rw [c] at e; cases e
  · intro _ e
    change s.tasks ++ [0] = [] at e
    simp at e
  · intro e; cases e
  · intro _ t ht
    change t < s.next at ht
    rw [d] at ht
    refine .inl ?_
    show t ∈ s.tasks ++ [0]
    have : t = 0 := by omega
    simp [this]
  · intro e
    have := (h.one e).2.2.2
    rw [hs] at this; cases this

theorem await_started (r : TMState × Bool) : (await_ r).started = r.1.started := by
  unfold await_; split
  · split <;> rfl
  · rfl

theorem abort_started {b : Option Nat} {exc : Option Exc} {script : Nat → Cleanup} {s : TMState}
    (hc : Core s) (hw : s.finishing = false → s.waiting = false) :
    (abort b exc script s).started = s.started := by
  cases hf : s.finishing with
  | true => rw [abort_finishing hf, (note_fields exc s).2.2.2.2.2.2.1]
  | false =>
    obtain ⟨u, ok, he, hs, -⟩ := abort_fresh (b := b) (exc := exc) (script := script) hc hf (hw hf)
    rw [he, await_started]
    exact hs.loop.started.trans (note_fields exc s).2.2.2.2.2.2.1

/-- The state in which `_abort` is called at the end of a task. -/
theorem inv_removed {x : Ended} {s : TMState} (h : Inv s) (hm : x.task ∈ s.tasks) :
    Core (removeTask x.task (observe (.ended x) s)) ∧
    ((removeTask x.task (observe (.ended x) s)).finishing = false →
      (removeTask x.task (observe (.ended x) s)).waiting = false) ∧
    (s.finishing = false → (removeTask x.task (observe (.ended x) s)).completed = s.completed) := by
  obtain ⟨r1, r2, r3, r4, r5, r6, r7⟩ := removeTask_fields x.task (observe (.ended x) s)
  refine ⟨core_remove _ (core_observe _ h.core) hm ⟨x, List.mem_append_right _ (by simp), rfl⟩, ?_, ?_⟩
  · intro e
    rw [r4] at e
    rcases r7 with ⟨-, -, -, g, -⟩ | ⟨-, -, g, -⟩
    · exact g
    · rw [g]; exact (h.notFin e).2
  · intro e
    rcases r7 with ⟨g, -⟩ | ⟨-, g, -⟩
    · have : s.waiting = true := g
      rw [(h.notFin e).2] at this; cases this
    · exact g

theorem inv_step {s : TMState} (ev : Ev) (h : Inv s) (hst : s.started = true) :
    Inv (step ev s) ∧ (step ev s).started = true := by
  have hend : ∀ b x script, x.task ∈ s.tasks → (endTask b x script s).started = true := by
    intro b x script hm
    obtain ⟨c, w, -⟩ := inv_removed h hm
    have r6 := (removeTask_fields x.task (observe (.ended x) s)).2.2.2.2.2.1
    cases hcs : consequence x with
    | none => rw [endTask_none hcs, r6]; exact hst
    | some exc => rw [endTask_some hcs, abort_started c w, r6]; exact hst
  cases ev with
  | start timeout => rw [show step (.start timeout) s = s by simp only [step, hst, if_true]]; exact ⟨h, hst⟩
  | create =>
    refine ⟨inv_create h, ?_⟩
    simp only [step]; unfold createTask; split <;> exact hst
  | ends x script =>
    simp only [step]
    split
    · rename_i hm; exact ⟨inv_endTask h hm, hend _ _ _ hm⟩
    · exact ⟨h, hst⟩
  | kill r t aw jn script =>
    simp only [step]
    split
    · rename_i hm
      exact ⟨inv_endTask (x := ⟨t, .returned, aw, jn⟩) h hm.2.1, hend _ ⟨t, .returned, aw, jn⟩ _ hm.2.1⟩
    · exact ⟨h, hst⟩
  | timeout script =>
    simp only [step]
    split
    · refine ⟨inv_signal h rfl (.inr rfl), ?_⟩
      exact (abort_started (s := observe .timedOut { s with armed := false })
        (core_observe _ (core_congr h.core rfl rfl rfl rfl id (fun _ h => h))) (fun e => (h.notFin e).2)).trans hst
    · exact ⟨h, hst⟩
  | cancel script =>
    refine ⟨inv_signal h rfl (.inl rfl), ?_⟩
    simp only [step]
    rw [abort_started (core_observe _ h.core) (fun e => (h.notFin e).2)]
    exact hst

theorem inv_init : Inv TMState.init :=
  ⟨core_init, fun _ => ⟨rfl, rfl⟩, Nat.zero_le _, (fun e => by cases e), (fun e => by cases e), fun _ => rfl, rfl⟩

/-- Before the test is started only a cancellation from outside leaves a trace. -/
theorem run_induct {P : TMState → Prop} (hstep : ∀ ev s, Inv s → s.started = true → P s → P (step ev s)) :
    ∀ evs s, Inv s → s.started = true → P s → Inv (run evs s) ∧ (run evs s).started = true ∧ P (run evs s)
  | [], _, h, hs, hp => ⟨h, hs, hp⟩
  | ev :: evs, s, h, hs, hp =>
    run_induct hstep evs (step ev s) (inv_step ev h hs).1 (inv_step ev h hs).2 (hstep ev s h hs hp)

/-! ### Completion and verdict -/

/-- The observation makes the code shut the test down. -/
def stops : Obs → Bool
  | .timedOut => true
  | .cancelled => true
  | .ended x => (consequence x).isSome

theorem abort_result {b : Option Nat} {exc : Option Exc} {script : Nat → Cleanup} {s : TMState}
    (hc : Core s) (hf : s.finishing = false) (hw : s.waiting = false) (hst : s.started = true) :
    (abort b exc script s).finishing = true ∧
    (∃ l, (abort b exc script s).log = s.log ++ l) ∧
    ((abort b exc script s).completed = s.completed ∨
      ((abort b exc script s).completed = s.completed + 1 ∧
        (abort b exc script s).verdict = some (abort b exc script s).excs)) ∧
    (b = none → ((abort b exc script s).waiting = true ∧ (abort b exc script s).tasks ≠ []) ∨
      (abort b exc script s).completed = s.completed + 1) ∧
    ((∀ t, Sub.create ∉ (script t).subs) → (abort b exc script s).waiting = false) ∧
    (∀ r, b = some r → r ∈ s.tasks →
      (abort b exc script s).completed = s.completed ∧ (abort b exc script s).waiting = false) := by
  obtain ⟨f1, f2, f3, f4, f5, f6, f7, f8, f9, f10, f11, f12⟩ := note_fields exc s
  obtain ⟨u, ok, he, hs, h1, h2, h3⟩ := abort_fresh (b := b) (exc := exc) (script := script) hc hf hw
  rw [he]
  have l := hs.loop
  have hfin : u.finishing = true := l.finishing
  have hcp : u.completed = s.completed := l.completed.trans f4
  have hus : u.started = true := l.started.trans (f7.trans hst)
  have hlog : ∃ l, u.log = s.log ++ l := by
    obtain ⟨l, hl⟩ := hs.log
    exact ⟨l, by rw [hl]; show (note exc s).log ++ l = _; rw [f10]⟩
  cases ok with
  | false =>
    rw [show await_ (u, false) = u from rfl]
    refine ⟨hfin, hlog, .inl hcp, ?_, fun _ => l.waiting, fun _ _ _ => ⟨hcp, l.waiting⟩⟩
    intro hb
    exact absurd (h1 hb) (by simp)
  | true =>
    by_cases hd : u.doneSet = true
    · rw [show await_ (u, true) = complete u by simp [await_, hd]]
      refine ⟨hfin, hlog, .inr ⟨?_, rfl⟩, fun _ => .inr ?_, fun _ => rfl, ?_⟩
      · show u.completed + 1 = _; rw [hcp]
      · show u.completed + 1 = _; rw [hcp]
      · intro r hr hm
        exact absurd (h2 r hr hm) (by simp)
    · rw [show await_ (u, true) = { u with waiting := true } by simp [await_, hd]]
      have hne : u.tasks ≠ [] := fun e => hd (hs.core.nilDone hus e)
      refine ⟨hfin, hlog, .inl hcp, fun _ => .inl ⟨rfl, hne⟩, ?_, ?_⟩
      · intro hq
        exact absurd (h3 rfl hq) hne
      · intro r hr hm
        exact absurd (h2 r hr hm) (by simp)

/-- A finishing test: what the end of a task does. -/
theorem endTask_finishing {b : Option Nat} {x : Ended} {script : Nat → Cleanup} {s : TMState}
    (hf : s.finishing = true) :
    (endTask b x script s).finishing = true ∧
    (endTask b x script s).log = s.log ++ [.ended x] ∧
    (endTask b x script s).tasks = s.tasks.erase x.task ∧
    ((s.waiting = true ∧ s.tasks.erase x.task = [] ∧ (endTask b x script s).completed = s.completed + 1 ∧
        (endTask b x script s).waiting = false) ∨
     (¬ (s.waiting = true ∧ s.tasks.erase x.task = []) ∧ (endTask b x script s).completed = s.completed ∧
        (endTask b x script s).waiting = s.waiting)) := by
  obtain ⟨r1, r2, r3, r4, r5, r6, r7⟩ := removeTask_fields x.task (observe (.ended x) s)
  have hx : ∃ exc, endTask b x script s = note exc (removeTask x.task (observe (.ended x) s)) := by
    cases hcs : consequence x with
    | none => exact ⟨none, endTask_none hcs⟩
    | some exc => exact ⟨exc, by rw [endTask_some hcs, abort_finishing (by rw [r4]; exact hf)]⟩
  obtain ⟨exc, hx⟩ := hx
  obtain ⟨f1, f2, f3, f4, f5, f6, f7, f8, f9, f10, f11, f12⟩ :=
    note_fields exc (removeTask x.task (observe (.ended x) s))
  rw [hx]
  refine ⟨by rw [f2, r4]; exact hf, by rw [f10, r3]; rfl, by rw [f1, r1]; rfl, ?_⟩
  rw [f4, f3]
  rcases r7 with ⟨g1, g2, g3, g4, -⟩ | ⟨g1, g2, g3, -⟩
  · exact .inl ⟨g1, g2, g3, g4⟩
  · exact .inr ⟨g1, g2, g3⟩

/-- A running test: what the end of a task does. -/
theorem endTask_running {b : Option Nat} {x : Ended} {script : Nat → Cleanup} {s : TMState} (h : Inv s)
    (hst : s.started = true) (hm : x.task ∈ s.tasks) (hf : s.finishing = false) :
    (consequence x = none ∧ (endTask b x script s).finishing = false ∧
      (endTask b x script s).log = s.log ++ [.ended x] ∧ (endTask b x script s).completed = 0 ∧
      (endTask b x script s).waiting = false) ∨
    ((consequence x).isSome = true ∧ (endTask b x script s).finishing = true ∧
      (∃ l, (endTask b x script s).log = s.log ++ .ended x :: l) ∧
      ((endTask b x script s).completed = 0 ∨ ((endTask b x script s).completed = 1 ∧
        (endTask b x script s).verdict = some (endTask b x script s).excs)) ∧
      (b = none → ((endTask b x script s).waiting = true ∧ (endTask b x script s).tasks ≠ []) ∨
        (endTask b x script s).completed = 1) ∧
      ((∀ t, Sub.create ∉ (script t).subs) → (endTask b x script s).waiting = false) ∧
      (∀ r, b = some r → r ≠ x.task → r ∈ s.tasks →
        (endTask b x script s).completed = 0 ∧ (endTask b x script s).waiting = false)) := by
  have hn := h.notFin hf
  obtain ⟨c, w, cc⟩ := inv_removed h hm
  obtain ⟨r1, r2, r3, r4, r5, r6, r7⟩ := removeTask_fields x.task (observe (.ended x) s)
  have hf' : (removeTask x.task (observe (.ended x) s)).finishing = false := by rw [r4]; exact hf
  have h0 : (removeTask x.task (observe (.ended x) s)).completed = 0 := (cc hf).trans hn.1
  cases hcs : consequence x with
  | none =>
    rw [endTask_none hcs]
    exact .inl ⟨rfl, hf', r3, h0, w hf'⟩
  | some exc =>
    rw [endTask_some hcs]
    obtain ⟨a1, ⟨l, a2⟩, a3, a4, a5, a6⟩ := abort_result (b := b) (exc := exc) (script := script) c hf' (w hf')
      (by rw [r6]; exact hst)
    rw [h0] at a3 a4 a6
    refine .inr ⟨rfl, a1, ⟨l, ?_⟩, a3, a4, a5, ?_⟩
    · rw [a2, r3]; show (s.log ++ [Obs.ended x]) ++ l = _; simp
    · intro r hr hne hm
      exact a6 r hr (by rw [r1]; exact (List.mem_erase_of_ne hne).2 hm)

/-- The timeout, or a cancellation from outside. -/
theorem signal_facts {exc : Exc} {o : Obs} {script : Nat → Cleanup} {s s' : TMState} (h : Inv s)
    (hst : s.started = true) (hs' : s' = s ∨ s' = { s with armed := false }) :
    (abort none (some exc) script (observe o s')).finishing = true ∧
    (∃ l, (abort none (some exc) script (observe o s')).log = s.log ++ o :: l) ∧
    (s.finishing = true → (abort none (some exc) script (observe o s')).log = s.log ++ [o] ∧
      (abort none (some exc) script (observe o s')).completed = s.completed ∧
      (abort none (some exc) script (observe o s')).waiting = s.waiting ∧
      (abort none (some exc) script (observe o s')).tasks = s.tasks ∧
      (abort none (some exc) script (observe o s')).verdict = s.verdict) ∧
    (s.finishing = false →
      ((abort none (some exc) script (observe o s')).completed = 0 ∨
        ((abort none (some exc) script (observe o s')).completed = 1 ∧
        (abort none (some exc) script (observe o s')).verdict =
          some (abort none (some exc) script (observe o s')).excs)) ∧
      (((abort none (some exc) script (observe o s')).waiting = true ∧
        (abort none (some exc) script (observe o s')).tasks ≠ []) ∨
        (abort none (some exc) script (observe o s')).completed = 1) ∧
      ((∀ t, Sub.create ∉ (script t).subs) → (abort none (some exc) script (observe o s')).waiting = false)) := by
  have he : s'.log = s.log ∧ s'.finishing = s.finishing ∧ s'.waiting = s.waiting ∧
      s'.completed = s.completed ∧ s'.verdict = s.verdict ∧ s'.started = s.started ∧ s'.tasks = s.tasks ∧
      Core s' := by
    rcases hs' with rfl | rfl
    · exact ⟨rfl, rfl, rfl, rfl, rfl, rfl, rfl, h.core⟩
    · exact ⟨rfl, rfl, rfl, rfl, rfl, rfl, rfl, core_congr h.core rfl rfl rfl rfl id (fun _ h => h)⟩
  obtain ⟨e2, e3, e4, e5, e6, e7, e8, e11⟩ := he
  cases hfin : s.finishing with
  | true =>
    have hf' : (observe o s').finishing = true := e3.trans hfin
    rw [abort_finishing hf']
    have hl : (note (some exc) (observe o s')).log = s.log ++ [o] := by
      show s'.log ++ [o] = _; rw [e2]
    exact ⟨hf', ⟨[], hl⟩, fun _ => ⟨hl, e5, e4, e8, e6⟩, fun e => by cases e⟩
  | false =>
    have hn := h.notFin hfin
    obtain ⟨a1, ⟨l, a2⟩, a3, a4, a5, -⟩ := abort_result (b := none) (exc := some exc) (script := script)
      (s := observe o s') (core_observe _ e11) (e3.trans hfin) (e4.trans hn.2) (e7.trans hst)
    have h0 : (observe o s').completed = 0 := e5.trans hn.1
    rw [h0] at a3 a4
    refine ⟨a1, ⟨l, ?_⟩, (fun e => by cases e), fun _ => ⟨a3, a4 rfl, a5⟩⟩
    rw [a2]
    show (s'.log ++ [o]) ++ l = _
    rw [e2]; simp

/-- The test is being shut down exactly if something ended it. -/
def Fin (s : TMState) : Prop := s.finishing = true ↔ ∃ o ∈ s.log, stops o = true

theorem fin_step (ev : Ev) (s : TMState) (h : Inv s) (hst : s.started = true) (hp : Fin s) :
    Fin (step ev s) := by
  have hend : ∀ b x script, x.task ∈ s.tasks → Fin (endTask b x script s) := by
    intro b x script hm
    unfold Fin at hp ⊢
    cases hf : s.finishing with
    | true =>
      obtain ⟨g1, g2, -⟩ := endTask_finishing (b := b) (x := x) (script := script) hf
      obtain ⟨o, ho, hs⟩ := hp.1 hf
      exact ⟨fun _ => ⟨o, by rw [g2]; exact List.mem_append_left _ ho, hs⟩, fun _ => g1⟩
    | false =>
      rcases endTask_running (b := b) (script := script) h hst hm hf with ⟨g0, g1, g2, -⟩ | ⟨g0, g1, ⟨l, g2⟩, -⟩
      · refine ⟨(fun e => by rw [g1] at e; cases e), ?_⟩
        rintro ⟨o, ho, hs⟩
        rw [g2] at ho
        rcases List.mem_append.1 ho with ho | ho
        · rw [hp.2 ⟨o, ho, hs⟩] at hf; cases hf
        · simp only [List.mem_singleton] at ho
          subst ho
          simp [stops, g0] at hs
      · exact ⟨fun _ => ⟨.ended x, by rw [g2]; exact List.mem_append_right _ List.mem_cons_self, g0⟩, fun _ => g1⟩
  cases ev with
  | start timeout => rw [show step (.start timeout) s = s by simp only [step, hst, if_true]]; exact hp
  | create =>
    simp only [step]
    unfold createTask; split <;> exact hp
  | ends x script =>
    simp only [step]
    split
    · rename_i hm; exact hend _ _ _ hm
    · exact hp
  | kill r t aw jn script =>
    simp only [step]
    split
    · rename_i hm; exact hend _ ⟨t, .returned, aw, jn⟩ _ hm.2.1
    · exact hp
  | timeout script =>
    simp only [step]
    split
    · obtain ⟨g1, ⟨l, g2⟩, -⟩ := signal_facts (exc := simTimeout) (o := .timedOut) (script := script) h hst (.inr rfl)
      exact ⟨fun _ => ⟨.timedOut, by rw [g2]; exact List.mem_append_right _ List.mem_cons_self, rfl⟩, fun _ => g1⟩
    · exact hp
  | cancel script =>
    obtain ⟨g1, ⟨l, g2⟩, -⟩ := signal_facts (exc := testCancelled) (o := .cancelled) (script := script) h hst (.inl rfl)
    exact ⟨fun _ => ⟨.cancelled, by simp only [step]; rw [g2]; exact List.mem_append_right _ List.mem_cons_self, rfl⟩,
      fun _ => g1⟩

/-- A test that is being shut down waits for a task that is left, or is complete. -/
def Live (s : TMState) : Prop := s.finishing = true → (s.waiting = true ∧ s.tasks ≠ []) ∨ s.completed = 1

theorem live_step (ev : Ev) (s : TMState) (h : Inv s) (hst : s.started = true) (hk : ¬ KillsMain ev)
    (hp : Live s) : Live (step ev s) := by
  have hone : ∀ {t}, t ∈ s.tasks → s.completed ≠ 1 := by
    intro t hm e; rw [(h.one e).1] at hm; cases hm
  cases ev with
  | start timeout => rw [show step (.start timeout) s = s by simp only [step, hst, if_true]]; exact hp
  | create =>
    simp only [step]
    unfold createTask
    split
    · intro hf
      rcases hp hf with ⟨a, b⟩ | e
      · exact .inl ⟨a, by simp⟩
      · exact .inr e
    · exact hp
  | ends x script =>
    simp only [step]
    split
    · rename_i hm
      intro _
      cases hf : s.finishing with
      | true =>
        obtain ⟨-, -, g3, g4⟩ := endTask_finishing (b := none) (x := x) (script := script) hf
        rcases hp hf with ⟨a, b⟩ | e
        · rcases g4 with ⟨-, -, g, -⟩ | ⟨g, g5, g6⟩
          · refine .inr ?_
            have hc0 : s.completed = 0 := by have := h.le; have := hone hm; omega
            rw [g, hc0]
          · exact .inl ⟨by rw [g6]; exact a, by rw [g3]; exact fun e => g ⟨a, e⟩⟩
        · exact absurd e (hone hm)
      | false =>
        rcases endTask_running (b := none) (script := script) h hst hm hf with ⟨-, g1, -⟩ | ⟨-, -, -, -, g, -⟩
        · rename_i hf2
          rw [g1] at hf2; cases hf2
        · exact g rfl
    · exact hp
  | kill r t aw jn script =>
    simp only [step]
    split
    · rename_i hm
      have ht0 : t ≠ 0 := hk
      have hcs : consequence ⟨t, .returned, aw, jn⟩ = none := by simp [consequence, ht0]
      intro hf2
      cases hf : s.finishing with
      | true =>
        obtain ⟨-, -, g3, g4⟩ := endTask_finishing (b := some r) (x := ⟨t, .returned, aw, jn⟩) (script := script) hf
        have hr : r ∈ s.tasks.erase t := (List.mem_erase_of_ne hm.2.2).2 hm.1
        have hne : s.tasks.erase t ≠ [] := fun e => by rw [e] at hr; cases hr
        rcases hp hf with ⟨a, b⟩ | e
        · rcases g4 with ⟨-, g, -⟩ | ⟨g, g5, g6⟩
          · exact absurd g hne
          · exact .inl ⟨by rw [g6]; exact a, by rw [g3]; exact hne⟩
        · exact absurd e (hone hm.1)
      | false =>
        rcases endTask_running (b := some r) (x := ⟨t, .returned, aw, jn⟩) (script := script) h hst hm.2.1 hf with
          ⟨-, g1, -⟩ | ⟨g, -⟩
        · rw [g1] at hf2; cases hf2
        · rw [hcs] at g; cases g
    · exact hp
  | timeout script =>
    simp only [step]
    split
    · rename_i ha
      obtain ⟨-, -, -, g⟩ := signal_facts (exc := simTimeout) (o := .timedOut) (script := script) h hst (.inr rfl)
      have hf : s.finishing = false := by
        cases hf : s.finishing with
        | false => rfl
        | true => rw [h.armed hf] at ha; cases ha
      exact fun _ => (g hf).2.1
    · exact hp
  | cancel script =>
    obtain ⟨-, -, g3, g⟩ := signal_facts (exc := testCancelled) (o := .cancelled) (script := script) h hst (.inl rfl)
    intro _
    simp only [step]
    cases hf : s.finishing with
    | true =>
      obtain ⟨-, g4, g5, g6, -⟩ := g3 hf
      rw [g4, g5, g6]; exact hp hf
    | false => exact (g hf).2.1

/-- If shutting down starts no tasks, nothing is waited for, and the verdict is what had been observed. -/
def Settled (s : TMState) : Prop :=
  s.waiting = false ∧ (s.completed = 1 → ∃ l log₀ rest, s.verdict = some l ∧ s.log = log₀ ++ rest ∧
    l = log₀.filterMap counted ∧ ∀ o ∈ rest, o = .cancelled)

theorem settled_of {s : TMState} (h : Inv s) (hw : s.waiting = false) (hv : s.completed = 1 → s.verdict = some s.excs) :
    Settled s :=
  ⟨hw, fun e => ⟨s.excs, s.log, [], hv e, by simp, h.tracks, by simp⟩⟩

theorem settled_step (ev : Ev) (s : TMState) (h : Inv s) (hst : s.started = true) (hq : Quiet ev)
    (hp : Settled s) : Settled (step ev s) := by
  have hone : ∀ {t}, t ∈ s.tasks → s.completed = 0 := by
    intro t hm
    have := h.le
    by_cases e : s.completed = 1
    · rw [(h.one e).1] at hm; cases hm
    · omega
  have hend : ∀ b x script, x.task ∈ s.tasks → (∀ t, Sub.create ∉ (script t).subs) →
      Settled (endTask b x script s) := by
    intro b x script hm hq
    have hi := inv_endTask (b := b) (script := script) h hm
    cases hf : s.finishing with
    | true =>
      obtain ⟨-, -, g3, g4⟩ := endTask_finishing (b := b) (x := x) (script := script) hf
      rcases g4 with ⟨g, -⟩ | ⟨-, g5, g6⟩
      · rw [hp.1] at g; cases g
      · refine settled_of hi (by rw [g6]; exact hp.1) fun e => ?_
        rw [g5, hone hm] at e; cases e
    | false =>
      rcases endTask_running (b := b) (script := script) h hst hm hf with ⟨-, -, -, g1, g2⟩ | ⟨-, -, -, g1, -, g2, -⟩
      · exact settled_of hi g2 fun e => by rw [g1] at e; cases e
      · refine settled_of hi (g2 hq) fun e => ?_
        rcases g1 with g1 | g1
        · rw [g1] at e; cases e
        · exact g1.2
  cases ev with
  | start timeout => rw [show step (.start timeout) s = s by simp only [step, hst, if_true]]; exact hp
  | create =>
    simp only [step]
    unfold createTask; split <;> exact hp
  | ends x script =>
    simp only [step]
    split
    · rename_i hm; exact hend _ _ _ hm hq
    · exact hp
  | kill r t aw jn script =>
    simp only [step]
    split
    · rename_i hm; exact hend _ ⟨t, .returned, aw, jn⟩ _ hm.2.1 hq
    · exact hp
  | timeout script =>
    have hi := (inv_step (.timeout script) h hst).1
    revert hi
    simp only [step]
    split
    · rename_i ha
      intro hi
      obtain ⟨-, -, -, g⟩ := signal_facts (exc := simTimeout) (o := .timedOut) (script := script) h hst (.inr rfl)
      have hf : s.finishing = false := by
        cases hf : s.finishing with
        | false => rfl
        | true => rw [h.armed hf] at ha; cases ha
      obtain ⟨g1, -, g3⟩ := g hf
      refine settled_of hi (g3 hq) fun e => ?_
      rcases g1 with g1 | g1
      · rw [g1] at e; cases e
      · exact g1.2
    · exact fun _ => hp
  | cancel script =>
    have hi := (inv_step (.cancel script) h hst).1
    revert hi
    simp only [step]
    intro hi
    obtain ⟨-, -, g3, g⟩ := signal_facts (exc := testCancelled) (o := .cancelled) (script := script) h hst (.inl rfl)
    cases hf : s.finishing with
    | true =>
      obtain ⟨g2, g4, g5, g6, g7⟩ := g3 hf
      refine ⟨by rw [g5]; exact hp.1, fun e => ?_⟩
      rw [g4] at e
      obtain ⟨l, log₀, rest, k1, k2, k3, k4⟩ := hp.2 e
      refine ⟨l, log₀, rest ++ [.cancelled], by rw [g7, k1], by rw [g2, k2, List.append_assoc], k3, ?_⟩
      intro o ho
      rcases List.mem_append.1 ho with ho | ho
      · exact k4 o ho
      · simpa using ho
    | false =>
      obtain ⟨g1, -, g3⟩ := g hf
      refine settled_of hi (g3 hq) fun e => ?_
      rcases g1 with g1 | g1
      · rw [g1] at e; cases e
      · exact g1.2

/-! ### Histories -/

theorem inv_started (timeout : Bool) : Inv (step (.start timeout) TMState.init) :=
  inv_start timeout inv_init rfl (fun e => by cases e)

theorem history_inv (timeout : Bool) (evs : List Ev) : Inv (history timeout evs) ∧ (history timeout evs).started = true :=
  have h := run_induct (P := fun _ => True) (fun _ _ _ _ _ => trivial) evs _ (inv_started timeout) rfl trivial
  ⟨h.1, h.2.1⟩

theorem history_fin (timeout : Bool) (evs : List Ev) : Fin (history timeout evs) :=
  (run_induct (P := Fin) fin_step evs _ (inv_started timeout) rfl
    ⟨(fun e => by cases e), by rintro ⟨o, ho, -⟩; cases ho⟩).2.2

theorem run_where {Q : Ev → Prop} {P : TMState → Prop}
    (hstep : ∀ ev s, Inv s → s.started = true → Q ev → P s → P (step ev s)) :
    ∀ evs s, (∀ ev ∈ evs, Q ev) → Inv s → s.started = true → P s → P (run evs s)
  | [], _, _, _, _, hp => hp
  | ev :: evs, s, hq, h, hs, hp =>
    run_where hstep evs (step ev s) (fun e he => hq e (List.mem_cons_of_mem _ he)) (inv_step ev h hs).1
      (inv_step ev h hs).2 (hstep ev s h hs (hq ev List.mem_cons_self) hp)

theorem history_live (timeout : Bool) {evs : List Ev} (h : ∀ ev ∈ evs, ¬ KillsMain ev) : Live (history timeout evs) :=
  run_where (Q := fun ev => ¬ KillsMain ev) (P := Live) live_step evs _ h (inv_started timeout) rfl
    (fun e => by cases e)

theorem history_settled (timeout : Bool) {evs : List Ev} (h : ∀ ev ∈ evs, Quiet ev) : Settled (history timeout evs) :=
  run_where (Q := Quiet) (P := Settled) settled_step evs _ h (inv_started timeout) rfl
    ⟨rfl, fun e => by cases e⟩

/-- As long as the test runs, the timeout is armed if there is one. -/
def Arm (timeout : Bool) (s : TMState) : Prop := s.finishing = false → s.armed = timeout

theorem arm_step (timeout : Bool) (ev : Ev) (s : TMState) (h : Inv s) (hst : s.started = true) (hp : Arm timeout s) :
    Arm timeout (step ev s) := by
  have hend : ∀ b x script, x.task ∈ s.tasks → Arm timeout (endTask b x script s) := by
    intro b x script hm hfin
    cases hf : s.finishing with
    | true => rw [(endTask_finishing hf).1] at hfin; cases hfin
    | false =>
      rcases endTask_running (b := b) (script := script) h hst hm hf with ⟨g0, -⟩ | ⟨-, g1, -⟩
      · rw [endTask_none g0]
        rw [(removeTask_fields x.task (observe (.ended x) s)).2.2.2.2.1]
        exact hp hf
      · rw [g1] at hfin; cases hfin
  cases ev with
  | start timeout => rw [show step (.start timeout) s = s by simp only [step, hst, if_true]]; exact hp
  | create =>
    simp only [step]
    unfold createTask; split <;> exact hp
  | ends x script =>
    simp only [step]
    split
    · rename_i hm; exact hend _ _ _ hm
    · exact hp
  | kill r t aw jn script =>
    simp only [step]
    split
    · rename_i hm; exact hend _ ⟨t, .returned, aw, jn⟩ _ hm.2.1
    · exact hp
  | timeout script =>
    simp only [step]
    split
    · intro hfin
      rw [(signal_facts (exc := simTimeout) (o := .timedOut) (script := script) h hst (.inr rfl)).1] at hfin
      cases hfin
    · exact hp
  | cancel script =>
    intro hfin
    simp only [step] at hfin
    rw [(signal_facts (exc := testCancelled) (o := .cancelled) (script := script) h hst (.inl rfl)).1] at hfin
    cases hfin

theorem history_arm (timeout : Bool) (evs : List Ev) : Arm timeout (history timeout evs) :=
  (run_induct (P := Arm timeout) (arm_step timeout) evs _ (inv_started timeout) rfl (fun _ => rfl)).2.2

theorem run_append : ∀ (l l' : List Ev) (s : TMState), run (l ++ l') s = run l' (run l s)
  | [], _, _ => rfl
  | ev :: l, l', s => run_append l l' (step ev s)

theorem counted_unhandled {o : Obs} (h : NoJoin o) : counted o = unhandled o := by
  cases o with
  | timedOut => rfl
  | cancelled => rfl
  | ended x =>
    unfold counted unhandled
    cases he : x.end_ with
    | failed e =>
      have hj : x.joined = true → x.awaited = true := h
      simp only
      cases ha : x.awaited <;> cases hjj : x.joined <;> simp_all
    | _ => simp [he]

theorem counted_failures {log : List Obs} (h : ∀ o ∈ log, NoJoin o) : log.filterMap counted = failures log := by
  unfold failures
  induction log with
  | nil => rfl
  | cons o l ih =>
    rw [List.filterMap_cons, List.filterMap_cons, counted_unhandled (h o List.mem_cons_self),
      ih fun o ho => h o (List.mem_cons_of_mem _ ho)]

theorem stops_endsTest {o : Obs} (h : NoJoin o) : stops o = true ↔ EndsTest o := by
  cases o with
  | timedOut => simp [stops, EndsTest]
  | cancelled => simp [stops, EndsTest]
  | ended x =>
    have hj : x.joined = true → x.awaited = true := h
    unfold stops EndsTest consequence
    by_cases h0 : x.task = 0
    · simp only [h0, if_true]
      cases x.end_ <;> simp
    · simp only [h0, if_false]
      cases he : x.end_ <;> cases ha : x.awaited <;> cases hjj : x.joined <;> simp_all

/-- What ends the test always makes the code shut it down. -/
theorem endsTest_stops {o : Obs} (h : EndsTest o) : stops o = true := by
  cases o with
  | timedOut => rfl
  | cancelled => rfl
  | ended x =>
    unfold stops consequence
    unfold EndsTest at h
    by_cases h0 : x.task = 0
    · simp only [h0, if_true]
      cases x.end_ <;> simp
    · simp only [h0, if_false]
      rcases h with h | ⟨h1, h2, h3⟩
      · exact absurd h h0
      · rcases h1 with h1 | ⟨e, h1⟩ <;> simp [h1, h2]

end Verif.TestMgr
