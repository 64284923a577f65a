import Verif.Lemmas.SchedFire

/-!
The order in which tasks that are ready are run.
-/

namespace Verif.Sched

open SchedSpec

variable {D : Trig → Prop}

theorem loopQueue_append (w : World) (l : List Entry) {w' : World} (h : w'.queue = w.queue ++ l) :
    loopQueue w' = loopQueue w ++ (l.filter (!·.cancelled)).map (·.task) := by
  unfold loopQueue; rw [h]; simp

theorem loopQueue_sched (w : World) (t : Nat) (e : Option Exc) :
    loopQueue (scheduleResume w t e) = loopQueue w ++ [t] := by
  rw [loopQueue_append w [⟨w.nEntry, t, false⟩] rfl]; rfl

theorem loopQueue_congr {w w' : World} (h : w'.queue = w.queue) : loopQueue w' = loopQueue w := by
  unfold loopQueue; rw [h]

theorem deregister_queue {w w' : World} {c : Option (Trig × Nat)} (h : deregister w c = some w') :
    w'.queue = w.queue := by
  unfold deregister at h
  split at h
  · cases h
  · split at h
    · simp only at h
      split at h
      · unfold unprime at h
        split at h
        · split at h
          · cases h; rfl
          · cases h
        · cases h
          unfold unprimeLock
          split <;> rfl
        · cases h; rfl
      · cases h; rfl
    · cases h

/-- What one action does to the tasks that are ready, in the order in which they will be run. -/
inductive QStep (a : Act) (w w' : World) : Prop
  | append (l : List Nat) (h : loopQueue w' = loopQueue w ++ l) (ha : a ≠ .pop)
  | front (t : Nat) (ha : a = .startNext t) (hs : (w.task t).state = .unstarted)
      (h : loopQueue w' = t :: loopQueue w)
  | skip (ha : a = .pop) (h : loopQueue w' = loopQueue w) (hst : w'.stack = w.stack)
      (ht : w'.task = w.task)
  | run (t : Nat) (ha : a = .pop) (h : loopQueue w = t :: loopQueue w') (hst : w.stack = [])
      (h1 : w'.stack = [.running t])
  | drop (t : Nat) (ha : a = .kill t ∨ a = .cancelNow t)
      (h : (loopQueue w').filter (· ≠ t) = (loopQueue w).filter (· ≠ t))

theorem cancelEntry_filter {t : Nat} {i : Option Nat} : ∀ {q : List Entry},
    (∀ x ∈ q, some x.id = i → x.task = t) →
    ((((q.map fun e => if some e.id = i then { e with cancelled := true } else e).filter
      (!·.cancelled)).map (·.task)).filter (· ≠ t)) =
    ((q.filter (!·.cancelled)).map (·.task)).filter (· ≠ t)
  | [], _ => rfl
  | x :: q, h => by
    have ih := cancelEntry_filter (t := t) (i := i) (q := q) fun y hy => h y (by simp [hy])
    by_cases hx : some x.id = i
    · have ht := h x (by simp) hx
      rw [List.map_cons, if_pos hx]
      simp only [List.filter_cons, Bool.not_true, Bool.false_eq_true, if_false]
      rw [ih]
      split
      · rw [List.map_cons, List.filter_cons]; simp [ht]
      · rfl
    · rw [List.map_cons, if_neg hx]
      simp only [List.filter_cons]
      split
      · simp only [List.map_cons, List.filter_cons, ih]
      · exact ih

theorem cancelEntry_queue {w : World} (hg : Good D w) {t : Nat}
    (hs : (w.task t).state = .scheduled) :
    (loopQueue (cancelEntry w (w.task t).scb)).filter (· ≠ t) = (loopQueue w).filter (· ≠ t) := by
  obtain ⟨e, h1, h2, -, h3⟩ := (hg.inv.ok t (by simp)).sched hs
  unfold loopQueue cancelEntry
  apply cancelEntry_filter
  intro x hx hi
  rw [h3] at hi
  simp only [Option.some.injEq] at hi
  rw [eq_of_nodup_map hg.inv.qnd hx h1 hi, h2]

theorem detach_queue {w w' : World} (hg : Good D w) {t : Nat} (h : detach w t = some w') :
    (loopQueue w').filter (· ≠ t) = (loopQueue w).filter (· ≠ t) := by
  unfold detach at h
  split at h
  · rw [loopQueue_congr (deregister_queue h)]
  · rename_i hs
    cases h
    exact cancelEntry_queue hg hs
  · cases h; rfl

theorem register_loopQueue (w : World) (g : Trig) (t : Nat) :
    ∃ l, loopQueue (register w g t false) = loopQueue w ++ l := by
  have hn : ∀ w' : World, w'.queue = w.queue → ∃ l, loopQueue w' = loopQueue w ++ l :=
    fun w' h => ⟨[], by rw [loopQueue_congr h, List.append_nil]⟩
  have hr : ∀ (w' : World) (g : Trig), w'.queue = w.queue → ∃ l, loopQueue (react w' g) = loopQueue w ++ l :=
    fun w' g h => ⟨_, by rw [react_loopQueue, loopQueue_congr h]⟩
  unfold register
  simp only
  split
  · cases g with
    | gpi n => exact hn _ rfl
    | event e => simp only [prime]; split <;> first | exact hn _ rfl | exact hr _ _ rfl
    | null n => exact hr _ _ rfl
    | complete u => simp only [prime]; split <;> first | exact hn _ rfl | exact hr _ _ rfl
    | join u => simp only [prime]; split <;> first | exact hn _ rfl | exact hr _ _ rfl
    | lock l n =>
      simp only [prime, primeLock]
      split
      · exact hr _ _ rfl
      · exact hn _ rfl
  · exact hn _ rfl

theorem Good.qstep {w w' : World} {a : Act} {r : Res} (hg : Good D w)
    (he : Step w a w' r ∨ FailStep w a w' r) : QStep a w w' := by
  have hn : a ≠ .pop → w'.queue = w.queue → QStep a w w' :=
    fun ha h => .append [] (by rw [loopQueue_congr h, List.append_nil]) ha
  rcases he with he | he
  case inr =>
    cases he with
    | mk t rest n hi hst hm hc =>
      refine .append [t] ?_ (by simp)
      unfold failWorld
      exact loopQueue_sched _ _ (some .primeError)
  cases he with
  | enter hi => exact hn (by simp) rfl
  | fire n hi hp => exact .append _ (react_loopQueue _ _) (by simp)
  | popCancelled e rest hi hst hq hc => exact .skip rfl (by unfold loopQueue; rw [hq]; simp [hc]) rfl rfl
  | popRun e rest hi hst hq hc =>
    exact .run e.task rfl (by unfold loopQueue; rw [hq]; simp [hc, resume]) hst (by simp [resume, hst])
  | exit => exact hn (by simp) rfl
  | nop _ _ hi hr =>
    by_cases ha : a = .pop
    · exact .skip ha rfl rfl rfl
    · exact hn ha rfl
  | startSoon t hi hs => exact .append [t] (loopQueue_sched _ _ none) (by simp)
  | startNext t hi hs => exact .front t rfl hs (by simp [loopQueue, scheduleLeft, World.addLog])
  | cancelPending t w1 hi hs hd =>
    refine .append [t] ?_ (by simp)
    rw [← loopQueue_congr (deregister_queue hd)]
    exact loopQueue_sched _ _ (some .cancelled)
  | cancelScheduled => exact hn (by simp) rfl
  | cancelUnstarted t hi hs => exact .append [t] (loopQueue_sched _ _ (some .cancelled)) (by simp)
  | kill t w1 hi hnd hnr hd => exact .drop t (Or.inl rfl) (by
      show (loopQueue w1).filter _ = _
      exact detach_queue hg hd)
  | cancelNow t w1 hi hnd hnr hd =>
    refine .drop t (Or.inr rfl) ?_
    show (loopQueue w1).filter _ = _
    split at hd
    · rename_i hs
      unfold detach at hd
      have : ((w.addLog (.start t)).task t).state = .unstarted := hs
      rw [this] at hd
      cases hd; rfl
    · exact detach_queue hg hd
  | uncancel => exact hn (by simp) rfl
  | addCbDone => exact hn (by simp) rfl
  | addCb => exact hn (by simp) rfl
  | setE e hi => exact .append _ (react_loopQueue _ _) (by simp)
  | clearE => exact hn (by simp) rfl
  | release => exact hn (by simp) rfl
  | releaseGrant l m n ns hi hc hp => exact .append _ (react_loopQueue _ _) (by simp)
  | await t rest g fails hi hst hr hm =>
    obtain ⟨l, hl⟩ := register_loopQueue ((World.setTask { w with stack := rest } t
          { w.task t with state := .pending }).addLog (.suspend t g)) g t
    exact .append l hl (by simp)
  | yieldBad t rest hi hst hm => exact .append [t] (loopQueue_sched _ _ (some .typeError)) (by simp)
  | finish _ t rest s o how hi hst he =>
    refine hn ?_ rfl
    rintro rfl
    simp [coroEnd] at he
  | cbNext => exact hn (by simp) rfl
  | cbEnd t i how rest hi hst hc =>
    refine .append (waiters w (.complete t) ++ waiters (react { w with stack := rest } (.complete t)) (.join t)) ?_ (by simp)
    have h1 := react_loopQueue (react { w with stack := rest } (.complete t)) (.join t)
    have h2 := react_loopQueue { w with stack := rest } (.complete t)
    rw [h2] at h1
    unfold finishEnd
    rw [← List.append_assoc]
    cases how <;> exact h1

/-- `t` is ready and comes before `u` in the list. -/
def Ahead (t u : Nat) (q : List Nat) : Prop := (q.filter fun x => x = t ∨ x = u).head? = some t

theorem Ahead.append {t u : Nat} {q l : List Nat} (h : Ahead t u q) : Ahead t u (q ++ l) := by
  unfold Ahead at h ⊢
  rw [List.filter_append]
  cases hf : q.filter (fun x => x = t ∨ x = u) with
  | nil => rw [hf] at h; cases h
  | cons x r => rw [hf] at h; simpa using h

theorem Ahead.front {t u x : Nat} {q : List Nat} (h : Ahead t u q) (hx : x ≠ u) :
    Ahead t u (x :: q) := by
  unfold Ahead at h ⊢
  rw [List.filter_cons]
  split
  · rename_i hc
    simp only [hx, or_false, decide_eq_true_eq] at hc
    rw [hc]; rfl
  · exact h

theorem Ahead.tail {t u x : Nat} {q : List Nat} (h : Ahead t u (x :: q)) (hx : x ≠ t) :
    x ≠ u ∧ Ahead t u q := by
  unfold Ahead at h ⊢
  rw [List.filter_cons] at h
  split at h
  · simp only [List.head?_cons, Option.some.injEq] at h
    exact absurd h hx
  · rename_i hc
    exact ⟨fun hxu => hc (by simp [hxu]), h⟩

theorem Ahead.drop {t u x : Nat} {q q' : List Nat} (h : Ahead t u q) (ht : x ≠ t) (hu : x ≠ u)
    (hq : q'.filter (· ≠ x) = q.filter (· ≠ x)) : Ahead t u q' := by
  have key : ∀ l : List Nat, l.filter (fun y => y = t ∨ y = u) =
      (l.filter (· ≠ x)).filter (fun y => y = t ∨ y = u) := by
    intro l
    rw [List.filter_filter]
    congr 1
    funext y
    by_cases hy : y = x
    · subst hy; simp [ht, hu]
    · simp [hy]
  unfold Ahead at h ⊢
  rw [key] at h ⊢
  rw [hq]; exact h

/-- `t` stays ahead of `u` until it is run. -/
theorem Ahead.step {w w' : World} {a : Act} {r : Res} (hg : Good D w) {t u : Nat} (htu : t ≠ u)
    (he : exec w a = some (w', r)) (h : Ahead t u (loopQueue w))
    (h1 : (w.task u).state ≠ .unstarted) (h2 : (w.task u).state ≠ .running)
    (hk : a ≠ .kill t ∧ a ≠ .cancelNow t ∧ a ≠ .kill u ∧ a ≠ .cancelNow u) :
    (w'.task u).state ≠ .unstarted ∧ (w'.task u).state ≠ .running ∧
    (Ahead t u (loopQueue w') ∨ (a = .pop ∧ w'.stack = [.running t])) := by
  have hs := (exec_step he).2
  obtain ⟨new, hlog, hTs⟩ := hg.tstep hs
  have hTu := hTs u
  obtain ⟨D', hg', -⟩ := hg.exec he
  have hu1 : (w'.task u).state ≠ .unstarted := by
    generalize new.filter (·.about u) = obs at hTu
    generalize w'.task u = r' at hTu ⊢
    generalize w.task u = r0 at hTu h1
    cases hTu with
    | finish s o how hs hce =>
      intro hc
      have := coroEnd_done hce
      simp only at hc
      rw [hc] at this; cases this
    | _ => simp_all
  have hu2 : a ≠ .pop → (w'.task u).state ≠ .running := by
    intro ha
    generalize new.filter (·.about u) = obs at hTu
    generalize w'.task u = r' at hTu ⊢
    generalize w.task u = r0 at hTu h1 h2
    cases hTu with
    | finish s o how hs hce =>
      intro hc
      have := coroEnd_done hce
      simp only at hc
      rw [hc] at this; cases this
    | _ => simp_all
  have hrun : ∀ v, w'.stack = [.running v] → v ≠ u → (w'.task u).state ≠ .running := by
    intro v hv hne hc
    have := (hg'.stk.run u).2 hc
    rw [hv] at this
    simp only [List.mem_singleton, Frame.running.injEq] at this
    exact hne this.symm
  refine ⟨hu1, ?_⟩
  rcases hg.qstep hs with ⟨l, hq, ha⟩ | ⟨x, rfl, hx, hq⟩ | ⟨rfl, hq, hst, ht⟩ | ⟨x, rfl, hq, hst, hst'⟩ | ⟨x, ha, hq⟩
  · exact ⟨hu2 ha, Or.inl (by rw [hq]; exact h.append)⟩
  · refine ⟨hu2 (by simp), Or.inl ?_⟩
    rw [hq]
    apply h.front
    rintro rfl
    exact h1 hx
  · rw [ht, hq]; exact ⟨h2, Or.inl h⟩
  · by_cases hxt : x = t
    · subst hxt
      exact ⟨hrun _ hst' htu, Or.inr ⟨rfl, hst'⟩⟩
    · rw [hq] at h
      obtain ⟨h3, h4⟩ := h.tail hxt
      exact ⟨hrun _ hst' h3, Or.inl h4⟩
  · refine ⟨hu2 (by rcases ha with rfl | rfl <;> simp), Or.inl (h.drop ?_ ?_ hq)⟩
    · rintro rfl
      rcases ha with rfl | rfl
      · exact hk.1 rfl
      · exact hk.2.1 rfl
    · rintro rfl
      rcases ha with rfl | rfl
      · exact hk.2.2.1 rfl
      · exact hk.2.2.2 rfl

end Verif.Sched
