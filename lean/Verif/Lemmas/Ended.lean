import Verif.Lemmas.WaitPair

/-!
What the entry of a task's end in the log says about the task, and the like.
-/

namespace Verif

open Sched SchedSpec ExtSpec

namespace Sched

/-- The entry in the log is the task's outcome. -/
theorem done_entry {w : World} (h : Reach w) {t : Nat} {s : TState} {o : Outcome}
    (hd : .done t s o ∈ w.log) : (w.task t).state = s ∧ (w.task t).outcome = some o ∧ s.isDone = true := by
  revert hd
  refine h.induct (P := fun w => .done t s o ∈ w.log →
    (w.task t).state = s ∧ (w.task t).outcome = some o ∧ s.isDone = true) ?_ ?_
  · intro h; simp [init] at h
  · intro D w w' a r hg hp _ he hd
    obtain ⟨new, hlog, hT⟩ := hg.tstep he
    have hT := hT t
    rw [hlog, List.mem_append] at hd
    rcases hd with hd | hd
    · obtain ⟨h1, h2, h3⟩ := hp hd
      generalize new.filter (·.about t) = obs at hT
      generalize w'.task t = r' at hT ⊢
      generalize w.task t = r0 at hT h1 h2
      rw [← h1] at h3 ⊢
      clear hp hd h1
      refine ⟨?_, ?_, h3⟩ <;> cases hT <;> first
        | rfl
        | exact h2
        | (rename_i hs; rw [hs] at h3; simp [TState.isDone] at h3; done)
        | (rename_i hs _; rw [hs] at h3; simp [TState.isDone] at h3; done)
    · have hm : .done t s o ∈ new.filter (·.about t) := List.mem_filter.2 ⟨hd, by simp [Obs.about]⟩
      generalize new.filter (·.about t) = obs at hT hm
      generalize w'.task t = r' at hT ⊢
      generalize w.task t = r0 at hT
      cases hT with
      | kill => simp at hm; obtain ⟨rfl, rfl⟩ := hm; exact ⟨rfl, rfl, rfl⟩
      | finish s' o' how hs hce =>
        simp at hm; obtain ⟨rfl, rfl⟩ := hm; exact ⟨rfl, rfl, coroEnd_done hce⟩
      | cancelNow => revert hm; split <;> simp
      | _ => simp at hm

/-- A task's trigger is one it awaited. -/
theorem tcb_logged {w : World} (h : Reach w) {t : Nat} {g : Trig} {k : Nat}
    (hc : (w.task t).tcb = some (g, k)) : .suspend t g ∈ w.log := by
  revert hc
  refine h.induct (P := fun w => (w.task t).tcb = some (g, k) → .suspend t g ∈ w.log) ?_ ?_
  · intro h; simp [init] at h
  · intro D w w' a r hg hp _ he hc
    obtain ⟨new, hlog, hT⟩ := hg.tstep he
    have hT := hT t
    rw [hlog, List.mem_append]
    have key : (w.task t).tcb = some (g, k) ∨ .suspend t g ∈ new.filter (·.about t) := by
      generalize new.filter (·.about t) = obs at hT
      generalize w'.task t = r' at hT hc
      generalize w.task t = r0 at hT
      cases hT with
      | suspend | suspendWoken | suspendFail => simp at hc; right; simp [hc.1]
      | _ => exact Or.inl hc
    rcases key with h | h
    · exact Or.inl (hp h)
    · exact Or.inr (List.mem_filter.1 h).1

/-- Whoever a simulator-backed trigger is armed for has awaited it and is waiting. -/
theorem armed_for {w : World} (h : Reach w) {n : Nat} (hp : w.primed n = true) :
    ∃ t, (w.task t).state = .pending ∧ .suspend t (.gpi n) ∈ w.log := by
  obtain ⟨D, hg⟩ := h.good
  obtain ⟨h1, h2⟩ := (hg.trg.trig (.gpi n)).1 hp
  obtain ⟨p, l, hl⟩ := List.exists_cons_of_ne_nil h1
  obtain ⟨h3, h4⟩ := (hg.inv.ok p.2 (by simp)).reg (.gpi n) p.1 (by rw [hl]; simp) h2
  exact ⟨p.2, h3, tcb_logged h h4⟩

end Sched

namespace Wait

/-- The first of some tasks to end. -/
theorem order_head {w : World} {ws : List Nat} {t : Nat} (h : (WaitSpec.order w ws).head? = some t) :
    t ∈ ws ∧ ∃ (pre : List Sched.Obs) (s : TState) (o : Outcome) (post : List Sched.Obs),
      w.log = pre ++ .done t s o :: post ∧ ∀ u ∈ ws, ¬ ExtSpec.HasEnded u pre := by
  obtain ⟨l, hl⟩ : ∃ l, WaitSpec.order w ws = t :: l := by
    cases hx : WaitSpec.order w ws with
    | nil => rw [hx] at h; cases h
    | cons a l => rw [hx] at h; simp at h; exact ⟨l, by rw [h]⟩
  unfold WaitSpec.order at hl
  obtain ⟨pre, a, post, h1, h2, h3, -⟩ := List.filterMap_eq_cons_iff.1 hl
  cases a <;> simp at h3
  rename_i x s o
  obtain ⟨h3, rfl⟩ := h3
  refine ⟨h3, pre, s, o, post, h1, fun u hu hd => ?_⟩
  obtain ⟨s', o', hd⟩ := hd
  have := h2 _ hd
  simp [hu] at this

end Wait

end Verif
