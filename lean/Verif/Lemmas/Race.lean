import Verif.Lemmas.SchedOrder
import Verif.Lemmas.Cycles
import Verif.Props.SchedCurrent

/-!
A task `t` that waits for a simulator-backed trigger of its own, and another task `u` that is already
started: once the trigger has fired, `u` does not end before `t` does.
-/

namespace Verif.Ext

open Sched SchedSpec ExtSpec

variable {D : Trig → Prop}

/-- Histories in which `t` and `u`, once `u` is started and before `t` has run, are not killed and
not cancelled on the spot. -/
inductive Pair (t u : Nat) : World → Prop
  | base {w : World} : Reach w → resumes t w.log = [] → (w.task t).state.isDone = false →
    (w.task u).state ≠ .unstarted → Pair t u w
  | step {w w' : World} {a : Act} {r : Res} : Pair t u w → exec w a = some (w', r) →
    a ≠ .kill t ∧ a ≠ .cancelNow t ∧ a ≠ .kill u ∧ a ≠ .cancelNow u → Pair t u w'

theorem Pair.reach {t u : Nat} {w : World} (h : Pair t u w) : Reach w := by
  induction h with
  | base h => exact h
  | step _ he _ ih => exact ih.exec he

/-- A task that is not killed did not end as a killed task does. -/
theorem Pair.alive {t u : Nat} {w : World} (h : Pair t u w) :
    (w.task t).state.isDone = true → (w.task t).outcome ≠ some .noneKilled := by
  induction h with
  | base h1 h2 h3 => intro h; rw [h3] at h; cases h
  | @step w w' a r h he hk ih =>
    obtain ⟨D, hg⟩ := h.reach.good
    obtain ⟨new, -, hTs⟩ := hg.tstep (exec_step he).2
    have hT := hTs t
    generalize List.filter _ _ = obs at hT
    generalize w'.task t = r' at hT ⊢
    generalize w.task t = r0 at hT ih
    cases hT with
    | kill ha => exact absurd ha hk.1
    | finish s o how hs hce =>
      intro _
      have : o ≠ .noneKilled := by
        rintro rfl
        unfold coroEnd at hce
        repeat' split at hce
        all_goals simp_all
      simpa using this
    | cb => exact ih
    | _ => simp_all [TState.isDone]

/-- The trigger fired since `t` was started. -/
def Fired (m t : Nat) (log : List Obs) : Prop := .fire m ∈ sinceStart t log

theorem fired_append {m t : Nat} {l l' : List Obs} :
    Fired m t (l ++ l') → Fired m t l ∨ .fire m ∈ l' := by
  unfold Fired
  by_cases hr : resumes t l = []
  · rw [since_append_nil hr]
    exact fun h => Or.inr (since_sub t l' _ h)
  · rw [since_append hr, List.mem_append]
    exact id

theorem fired_resumes {m t : Nat} {l : List Obs} (h : Fired m t l) : resumes t l ≠ [] := by
  intro hr
  unfold Fired at h
  rw [since_nil hr] at h
  cases h

/-- What is known while `t` has been woken by the trigger and has not ended. -/
def Racing (t u : Nat) (w : World) : Prop :=
  (w.task u).state ≠ .unstarted ∧ (w.task u).state ≠ .running ∧
  (((w.task t).state = .scheduled ∧ Ahead t u (loopQueue w)) ∨
    ((w.task t).state = .running ∧ 2 ≤ (resumes t w.log).length))

theorem Pair.started {t u : Nat} {w : World} (h : Pair t u w) : (w.task u).state ≠ .unstarted := by
  induction h with
  | base h1 h2 h3 h4 => exact h4
  | @step w w' a r h he hk ih =>
    obtain ⟨D, hg⟩ := h.reach.good
    obtain ⟨new, -, hTs⟩ := hg.tstep (exec_step he).2
    have hT := hTs u
    generalize List.filter _ _ = obs at hT
    generalize w'.task u = r' at hT ⊢
    generalize w.task u = r0 at hT ih
    cases hT with
    | finish s o how hs hce =>
      intro hc
      have := coroEnd_done hce
      simp only at hc
      rw [hc] at this; cases this
    | _ => simp_all

theorem no_run {w w' : World} {a : Act} {r : Res} (hg : Good D w) (he : exec w a = some (w', r))
    {u : Nat} (h : (w.task u).state ≠ .running) (ha : a ≠ .pop) (hk : a ≠ .cancelNow u) :
    (w'.task u).state ≠ .running := by
  obtain ⟨new, -, hTs⟩ := hg.tstep (exec_step he).2
  have hT := hTs u
  generalize List.filter _ _ = obs at hT
  generalize w'.task u = r' at hT ⊢
  generalize w.task u = r0 at hT h
  cases hT with
  | finish s o how hs hce =>
    intro hc
    have := coroEnd_done hce
    simp only at hc
    rw [hc] at this; cases this
  | _ => simp_all

theorem racing_step {w w' : World} {a : Act} {r : Res} {m t u v : Nat} (hp : Pair t u w)
    (htu : t ≠ u) (he : exec w a = some (w', r))
    (hk : a ≠ .kill t ∧ a ≠ .cancelNow t ∧ a ≠ .kill u ∧ a ≠ .cancelNow u)
    (hf : Follows (loop (.gpi m) 1 v) t w'.log) (hpr : Private m t w'.log)
    (ih : Fired m t w.log → (w.task t).state.isDone = false → Racing t u w) :
    Fired m t w'.log → (w'.task t).state.isDone = false → Racing t u w' := by
  intro hfired hnd
  obtain ⟨D, hg⟩ := hp.reach.good
  have hs := (exec_step he).2
  obtain ⟨new, hlog, hTs⟩ := hg.tstep hs
  rw [hlog] at hf hpr hfired
  have hat := (cycles hp.reach (Follows.prefix hf)).1
  have hnd0 : (w.task t).state.isDone = false := by
    cases hd : (w.task t).state.isDone with
    | false => rfl
    | true =>
      have hT := hTs t
      generalize List.filter _ _ = obs at hT
      generalize w'.task t = r' at hT hnd
      generalize w.task t = r0 at hT hd
      cases hT <;> simp_all [TState.isDone]
  have hne : resumes t w.log ≠ [] := by
    intro hr
    unfold Fired at hfired
    rw [since_append_nil hr] at hfired
    rcases fires_new hg hs hlog with ⟨x, -, hnew⟩ | ⟨-, hno⟩ | ⟨-, hnew⟩
    · rw [hnew] at hfired; simp [sinceStart] at hfired
    · have := List.filterMap_eq_nil_iff.1 hno _ (since_sub t new _ hfired)
      simp [fireOf] at this
    · rw [hnew] at hfired; cases hfired
  have hTt := hTs t
  have hab : execOf t new = execOf t (new.filter (·.about t)) := execOf_about t new
  have hlen : (execOf t new).length ≤ 1 := by rw [hab]; exact exec_new hTt
  have hres : resumes t (w.log ++ new) = resumes t w.log ++ resumes t (new.filter (·.about t)) := by
    rw [resumes_append, resumes_exec t new, hab, ← resumes_exec]
  obtain ⟨D', hg', -⟩ := hg.exec he
  by_cases hold : Fired m t w.log
  · obtain ⟨h1, h2, h3⟩ := ih hold hnd0
    rcases h3 with ⟨h3, h4⟩ | ⟨h3, h4⟩
    · obtain ⟨g1, g2, g3⟩ := h4.step hg htu he h1 h2 hk
      refine ⟨g1, g2, ?_⟩
      have hq : (w'.task t).state = .scheduled → Ahead t u (loopQueue w') := by
        intro hsch
        rcases g3 with g3 | ⟨-, g3⟩
        · exact g3
        · have := (hg'.stk.run t).1 (by rw [g3]; simp)
          rw [hsch] at this; cases this
      rw [hlog, hres]
      have hl : 1 ≤ (resumes t w.log).length := List.length_pos_iff.2 hne
      clear hat hres hab hlen hTs hg hg' g1 g2 g3 hs
      generalize List.filter _ _ = obs at hTt ⊢
      generalize w'.task t = r' at hTt hq hnd ⊢
      generalize w.task t = r0 at hTt h3
      cases hTt with
      | same => exact Or.inl ⟨h3, hq h3⟩
      | uncancel => exact Or.inl ⟨h3, hq h3⟩
      | addCb => exact Or.inl ⟨h3, hq h3⟩
      | cancelS => exact Or.inl ⟨h3, hq h3⟩
      | run => exact Or.inr ⟨rfl, by simp [resumes]; unfold resumes at hl; omega⟩
      | kill ha => exact absurd ha hk.1
      | cancelNow ha => exact absurd ha hk.2.1
      | wake _ h => rw [h3] at h; cases h
      | start _ _ h => rw [h3] at h; cases h
      | cancelP _ _ h => rw [h3] at h; cases h
      | cancelU _ _ h => rw [h3] at h; cases h
      | addCbDone _ _ h => rw [h3] at h; cases h
      | suspend _ _ _ h => rw [h3] at h; cases h
      | suspendWoken _ _ _ _ h => rw [h3] at h; cases h
      | suspendFail _ _ _ _ h => rw [h3] at h; cases h
      | yieldBad _ _ h => rw [h3] at h; cases h
      | finish _ _ _ h => rw [h3] at h; cases h
      | cb _ _ h => rw [h3] at h; cases h
    · have hstk : .running t ∈ w.stack := (hg.stk.run t).2 h3
      have hu : (w'.task u).state ≠ .running := by
        by_cases ha : a = .pop
        · rcases hg.qstep hs with ⟨l, hq, ha'⟩ | ⟨x, rfl, hx, hq⟩ | ⟨-, hq, hst, ht⟩ |
            ⟨x, -, hq, hst, hst'⟩ | ⟨x, ha', hq⟩
          · exact absurd ha ha'
          · cases ha
          · rw [ht]; exact h2
          · rw [hst] at hstk; cases hstk
          · subst ha; rcases ha' with h | h <;> cases h
        · exact no_run hg he h2 ha hk.2.2.2
      refine ⟨(hp.step he hk).started, hu, Or.inr ?_⟩
      rw [hlog, hres]
      have hawait : ∀ o, execOf t (new.filter (·.about t)) = [o] → o ∈ new →
          (∀ g, o ≠ .suspend t g) ∧ o ≠ .suspendBad t := by
        intro o ho hm
        obtain ⟨n1, n2, h5⟩ := List.append_of_mem hm
        have ho' : execOf t [o] = [o] := by
          have : o ∈ execOf t (new.filter (·.about t)) := by rw [ho]; simp
          unfold execOf at this ⊢
          rw [List.filter_cons, if_pos (List.mem_filter.1 this).2]; rfl
        have h6 := (about_of_split h5 ho' hlen).2.1
        have h7 := hf (w.log ++ n1) o n2 (by rw [h5]; simp)
        rw [resumes_append, resumes_still h6, List.append_nil] at h7
        refine ⟨fun g hg => ?_, h7.2.2⟩
        have := (loop_await (h7.1 g hg)).2.1
        omega
      have hmem : ∀ o, o ∈ new.filter (·.about t) → o ∈ new := fun o ho => (List.mem_filter.1 ho).1
      clear hat hres hab hlen hTs hg hg' hs hlog hf hpr hfired
      generalize List.filter _ _ = obs at hTt hawait hmem ⊢
      generalize w'.task t = r' at hTt hnd ⊢
      generalize w.task t = r0 at hTt h3
      cases hTt with
      | same => exact ⟨h3, by simp; omega⟩
      | uncancel => exact ⟨h3, by simp; omega⟩
      | addCb => exact ⟨h3, by simp; omega⟩
      | cancelS _ h => rw [h3] at h; cases h
      | run _ h => rw [h3] at h; cases h
      | kill ha => exact absurd ha hk.1
      | cancelNow ha => exact absurd ha hk.2.1
      | wake _ h => rw [h3] at h; cases h
      | start _ _ h => rw [h3] at h; cases h
      | cancelP _ _ h => rw [h3] at h; cases h
      | cancelU _ _ h => rw [h3] at h; cases h
      | addCbDone _ _ h => rw [h3] at h; cases h
      | suspend g => exact absurd rfl ((hawait (.suspend t g) (by simp [execOf]) (hmem _ (by simp))).1 g)
      | suspendWoken g =>
        exact absurd rfl ((hawait (.suspend t g) (by simp [execOf]) (hmem _ (by simp))).1 g)
      | suspendFail n =>
        exact absurd rfl ((hawait (.suspend t (.gpi n)) (by simp [execOf]) (hmem _ (by simp))).1 _)
      | yieldBad => exact absurd rfl (hawait (.suspendBad t) (by simp [execOf]) (hmem _ (by simp))).2
      | finish _ _ _ _ hce => rw [coroEnd_done hce] at hnd; cases hnd
      | cb _ _ h => rw [h3] at h; cases h
  · have hnew := (fired_append hfired).resolve_left hold
    have ha : a = .fire m := by
      rcases fires_new hg hs hlog with ⟨x, hx, hn⟩ | ⟨-, hno⟩ | ⟨-, hn⟩
      · rw [hn] at hnew
        simp only [List.mem_singleton, Obs.fire.injEq] at hnew
        rw [hx, hnew]
      · have := List.filterMap_eq_nil_iff.1 hno _ hnew
        simp [fireOf] at this
      · rw [hn] at hnew; cases hnew
    subst ha
    have hi : w.inside = false := by
      cases hi : w.inside
      · rfl
      · exfalso
        unfold exec at he
        split at he
        · cases he
        · simp only [hi] at he
          split at he
          · simp [execCoro] at he
          · simp at he
          · cases he
    obtain ⟨hst, hq⟩ := outside_empty hp.reach hi
    have hu2 : (w.task u).state ≠ .running := by
      intro h
      have := (hg.stk.run u).2 h
      rw [hst] at this; cases this
    refine ⟨(hp.step he hk).started, no_run hg he hu2 (by simp) (by simp), Or.inl ?_⟩
    rcases hat with ⟨-, h1⟩ | ⟨h, -⟩ | ⟨h, -⟩ | ⟨h, h1, h2, h3, hh, h4⟩ | h
    · exact absurd h1 hne
    · obtain ⟨e, hm, -⟩ := (hg.inv.ok t (by simp)).sched h
      rw [hq] at hm; cases hm
    · have := (hg.stk.run t).2 h
      rw [hst] at this; cases this
    · obtain ⟨g, k, h5, h6⟩ := (hg.inv.ok t (by simp)).pend h
      rw [h4] at h5
      simp only [Option.some.injEq, Prod.mk.injEq] at h5
      obtain ⟨rfl, rfl⟩ := h5
      have hmem : t ∈ waiters w (.gpi m) := List.mem_map.2 ⟨_, h6, rfl⟩
      refine ⟨(C32_fire_resumes_normally he hmem).1, ?_⟩
      rw [(C32_fire_wakes_all_in_order he).1]
      have hlq : loopQueue w = [] := by unfold loopQueue; rw [hq]; rfl
      rw [hlq, List.nil_append]
      have hu : u ∉ waiters w (.gpi m) := by
        intro hu
        obtain ⟨⟨k, x⟩, hm, hx⟩ := List.mem_map.1 hu
        simp only at hx; subst hx
        have hpend := ((hg.inv.ok x (by simp)).reg (.gpi m) k hm (fires_live hg he (by simp [firesOn])))
        obtain ⟨g', hg1, hg2⟩ := C32_waits_for_what_it_yielded hp.reach hpend.1
        obtain ⟨p, q, h7, h8⟩ := split_last hg2
        have hW := (waits hp.reach x).1 g' p q h7 h8
        have hg' : g' = .gpi m := by
          rcases hW with ⟨-, k', h9⟩ | ⟨h9, -⟩
          · rw [hpend.2] at h9
            simp only [Option.some.injEq, Prod.mk.injEq] at h9
            exact h9.1.symm
          · rw [hpend.1] at h9; cases h9
        subst hg'
        exact htu (hpr x (by rw [h7]; simp)).symm
      unfold Ahead
      have hall : ∀ y ∈ (waiters w (.gpi m)).filter (fun y => y = t ∨ y = u), y = t := by
        intro y hy
        obtain ⟨h7, h8⟩ := List.mem_filter.1 hy
        simp only [decide_eq_true_eq] at h8
        exact h8.resolve_right (fun h => hu (h ▸ h7))
      cases hfl : (waiters w (.gpi m)).filter (fun y => y = t ∨ y = u) with
      | nil =>
        have := List.filter_eq_nil_iff.1 hfl t hmem
        simp at this
      | cons y l =>
        have := hall y (by rw [hfl]; simp)
        rw [this]; rfl
    · rw [hnd0] at h; cases h

theorem _root_.Verif.ExtSpec.Private.prefix {m t : Nat} {l l' : List Obs} (h : Private m t (l ++ l')) : Private m t l :=
  fun x hx => h x (List.mem_append_left _ hx)

/-- Once the trigger has fired, `u` does not end before `t` does. -/
theorem race {w : World} {m t u v : Nat} (hp : Pair t u w) (htu : t ≠ u)
    (hf : Follows (loop (.gpi m) 1 v) t w.log) (hpr : Private m t w.log) :
    (Fired m t w.log → (w.task t).state.isDone = false → Racing t u w) ∧
    ∀ pre post s o, w.log = pre ++ .done u s o :: post → Fired m t pre →
      ∃ s' o', .done t s' o' ∈ pre := by
  induction hp with
  | base h1 h2 h3 h4 =>
    refine ⟨fun h => absurd h2 (fired_resumes h), fun pre post s o hl h => ?_⟩
    rw [hl, resumes_append] at h2
    exact absurd (List.append_eq_nil_iff.1 h2).1 (fired_resumes h)
  | @step w w' a r hp he hk ih =>
    obtain ⟨D, hg⟩ := hp.reach.good
    have hs := (exec_step he).2
    obtain ⟨new, hlog, hTs⟩ := hg.tstep hs
    rw [hlog] at hf hpr
    obtain ⟨ih1, ih2⟩ := ih (Follows.prefix hf) hpr.prefix
    rw [← hlog] at hf hpr
    refine ⟨racing_step hp htu he hk hf hpr ih1, ?_⟩
    intro pre post s o hl hfi
    rw [hlog] at hl
    rcases split_append hl with ⟨q', h5, -⟩ | ⟨p', h5, h6⟩
    · exact ih2 pre q' s o h5 hfi
    · subst h5
      have hold : Fired m t w.log := by
        rcases fired_append hfi with h | h
        · exact h
        · rcases fires_new hg hs hlog with ⟨x, -, hn⟩ | ⟨-, hno⟩ | ⟨-, hn⟩
          · rw [hn] at h6
            cases p' <;> simp at h6
          · have := List.filterMap_eq_nil_iff.1 hno (.fire m) (by rw [h6]; simp [h])
            simp [fireOf] at this
          · rw [hn] at h6; cases p' <;> simp at h6
      cases hd : (w.task t).state.isDone with
      | true =>
        obtain ⟨s', o', h⟩ := done_logged hp.reach hd
        exact ⟨s', o', List.mem_append_left _ h⟩
      | false =>
        exfalso
        obtain ⟨-, h2, -⟩ := ih1 hold hd
        have hT := hTs u
        have hm : .done u s o ∈ new.filter (·.about u) := by
          apply List.mem_filter.2
          exact ⟨by rw [h6]; simp, by simp [Obs.about]⟩
        generalize List.filter _ _ = obs at hT hm
        generalize w'.task u = r' at hT
        generalize w.task u = r0 at hT h2
        cases hT with
        | kill ha => exact hk.2.2.1 ha
        | finish s o how hs => exact h2 hs
        | cancelNow => revert hm; split <;> simp
        | _ => simp at hm

end Verif.Ext
