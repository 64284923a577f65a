import Verif.Lemmas.Extended
import Verif.Model.Extended

namespace Verif

open Sched SchedSpec ExtSpec Ext

namespace Ext

variable {D : Trig → Prop}

theorem resumes_append (t : Nat) (l l' : List Obs) :
    resumes t (l ++ l') = resumes t l ++ resumes t l' := by simp [resumes]

theorem resumes_exec (t : Nat) (l : List Obs) : resumes t l = resumes t (execOf t l) := by
  unfold resumes execOf
  induction l with
  | nil => rfl
  | cons o l ih =>
    rw [List.filterMap_cons, List.filter_cons]
    cases o with
    | resume u e => by_cases h : u = t <;> simp [h, ih]
    | suspend u g => by_cases h : u = t <;> simp [h, ih]
    | suspendBad u => by_cases h : u = t <;> simp [h, ih]
    | done u s r => by_cases h : u = t <;> simp [h, ih]
    | _ => simp [ih]

theorem resumes_still {t : Nat} {l : List Obs} (h : execOf t l = []) : resumes t l = [] := by
  rw [resumes_exec, h]; rfl

/-- The firings since the start. -/
def count (m t : Nat) (log : List Obs) : Nat := fires m (sinceStart t log)

theorem since_append {t : Nat} {l l' : List Obs} (h : resumes t l ≠ []) :
    sinceStart t (l ++ l') = sinceStart t l ++ l' := by
  induction l with
  | nil => exact absurd rfl h
  | cons o l ih =>
    unfold sinceStart at ih ⊢
    rw [List.cons_append, List.dropWhile_cons, List.dropWhile_cons]
    cases o with
    | resume u e =>
      by_cases hu : u = t
      · simp [hu]
      · simp only [bne_iff_ne, ne_eq, hu, not_false_eq_true, if_true]
        exact ih (by simpa [resumes, hu] using h)
    | _ =>
      simp only [if_true]
      exact ih (by simpa [resumes] using h)

theorem since_append_nil {t : Nat} {l l' : List Obs} (h : resumes t l = []) :
    sinceStart t (l ++ l') = sinceStart t l' := by
  induction l with
  | nil => rfl
  | cons o l ih =>
    unfold sinceStart at ih ⊢
    rw [List.cons_append, List.dropWhile_cons]
    cases o with
    | resume u e =>
      by_cases hu : u = t
      · simp [resumes, hu] at h
      · simp only [bne_iff_ne, ne_eq, hu, not_false_eq_true, if_true]
        exact ih (by simpa [resumes, hu] using h)
    | _ =>
      simp only [if_true]
      exact ih (by simpa [resumes] using h)

theorem since_nil {t : Nat} {l : List Obs} (h : resumes t l = []) : sinceStart t l = [] := by
  have := since_append_nil (l' := []) h
  rwa [List.append_nil] at this

theorem fires_none {m : Nat} {l : List Obs} (h : l.filterMap fireOf = []) : fires m l = 0 := by
  unfold fires
  apply List.count_eq_zero.2
  intro hm
  have := List.filterMap_eq_nil_iff.1 h _ hm
  simp [fireOf] at this

theorem since_sub (t : Nat) (l : List Obs) : ∀ o ∈ sinceStart t l, o ∈ l :=
  fun _ ho => (List.dropWhile_sublist _).subset ho

theorem count_append {m t : Nat} {l l' : List Obs} (h : l'.filterMap fireOf = []) :
    count m t (l ++ l') = count m t l := by
  unfold count
  by_cases hr : resumes t l = []
  · rw [since_nil hr]
    have : (sinceStart t (l ++ l')).filterMap fireOf = [] := by
      rw [since_append_nil hr]
      apply List.filterMap_eq_nil_iff.2
      intro o ho
      exact List.filterMap_eq_nil_iff.1 h o (since_sub t l' o ho)
    rw [fires_none this]; rfl
  · rw [since_append hr]
    unfold fires at *
    rw [List.count_append]
    have := fires_none (m := m) h
    unfold fires at this
    omega

theorem last_append {l l' : List Obs} (h : l'.filterMap fireOf = []) :
    lastFired (l ++ l') = lastFired l := by
  have e : ∀ l : List Obs, lastFired l = (l.filterMap fireOf).getLast? := by
    intro l; unfold lastFired; congr 1
  rw [e, e, List.filterMap_append, h, List.append_nil]

theorem fires_gpi {w : World} {a : Act} {n : Nat} (h : .gpi n ∈ firesOn w a) : a = .fire n := by
  unfold firesOn at h
  split at h
  · simp at h; rw [h]
  · simp at h
  · split at h <;> simp at h
  · split at h
    · split at h <;> simp at h
    · simp at h
  · simp at h

/-- Who waits for simulator-backed trigger `m` is woken when it fires, and by nothing else. -/
theorem pend_gpi {w w' : World} {a : Act} {r : Res} (hg : Good D w)
    (he : exec w a = some (w', r)) {t m h : Nat} (hs : (w.task t).state = .pending)
    (ht : (w.task t).tcb = some (.gpi m, h)) :
    (a = .fire m ∧ (w'.task t).state = .scheduled ∧ (w'.task t).exc = none) ∨
    (a ≠ .fire m ∧ (w'.task t).state = .pending ∧ (w'.task t).tcb = (w.task t).tcb) ∨
    a = .cancel t ∨ a = .kill t ∨ a = .cancelNow t := by
  by_cases ha : a = .fire m
  · subst ha
    left
    refine ⟨rfl, ?_⟩
    obtain ⟨g, k, h1, h2⟩ := (hg.inv.ok t (by simp)).pend hs
    rw [ht] at h1
    simp only [Option.some.injEq, Prod.mk.injEq] at h1
    obtain ⟨rfl, -⟩ := h1
    exact C32_fire_resumes_normally he (List.mem_map.2 ⟨_, h2, rfl⟩)
  · rcases hg.woken (exec_step he).2 hs with h1 | h1 | ⟨g, hgm, hgt⟩
    · exact Or.inr (Or.inl ⟨ha, h1⟩)
    · exact Or.inr (Or.inr h1)
    · exfalso
      obtain ⟨⟨k, u⟩, hm, hu⟩ := List.mem_map.1 hgt
      simp only at hu; subst hu
      have := ((hg.inv.ok u (by simp)).reg g k hm (fires_live hg he hgm)).2
      rw [ht] at this
      simp only [Option.some.injEq, Prod.mk.injEq] at this
      rw [← this.1] at hgm
      exact ha (fires_gpi hgm)

def AllNone (l : List (Option Exc)) : Prop := ∀ e ∈ l, e = none

/-- Where a task running `loop (.gpi m) n v` is. -/
def At (m n t : Nat) (log : List Obs) (r : TaskRec) : Prop :=
  (r.state = .unstarted ∧ resumes t log = []) ∨
  (r.state = .scheduled ∧ AllNone (resumes t log) ∧ (r.exc = none → resumes t log = [] ∨
    ((resumes t log).length = count m t log ∧ (resumes t log).length ≤ n ∧ lastFired log = some m))) ∨
  (r.state = .running ∧ resumes t log ≠ [] ∧ AllNone (resumes t log).dropLast ∧
    (AllNone (resumes t log) → (resumes t log).length = count m t log + 1 ∧
      (resumes t log).length ≤ n + 1 ∧
      ((resumes t log).length = 1 ∨ lastFired log = some m))) ∨
  (r.state = .pending ∧ AllNone (resumes t log) ∧ (resumes t log).length = count m t log + 1 ∧
    (resumes t log).length ≤ n ∧ ∃ h, r.tcb = some (.gpi m, h)) ∨
  r.state.isDone = true

theorem At.quiet {m n t : Nat} {log new : List Obs} {r r' : TaskRec} (h : At m n t log r)
    (hf : new.filterMap fireOf = []) (he : execOf t new = []) (h1 : r'.state = r.state)
    (h2 : r'.exc = r.exc) (h3 : r'.tcb = r.tcb) : At m n t (log ++ new) r' := by
  unfold At at h ⊢
  rw [resumes_append, resumes_still he, List.append_nil, count_append hf, last_append hf, h1, h2, h3]
  exact h

theorem loop_await {g g' : Trig} {n v : Nat} {R : List (Option Exc)} (h : loop g n v R = .await g') :
    g' = g ∧ R.length ≤ n ∧ ∀ e, R.getLast? ≠ some (some e) := by
  unfold loop at h
  split at h
  · cases h
  · rename_i hl
    split at h
    · simp only [Out.await.injEq] at h
      exact ⟨h.symm, by assumption, fun e he => hl e he⟩
    · cases h

theorem loop_ret {g : Trig} {n v v' : Nat} {R : List (Option Exc)} (h : loop g n v R = .ret v') :
    v' = v ∧ n < R.length ∧ ∀ e, R.getLast? ≠ some (some e) := by
  unfold loop at h
  split at h
  · cases h
  · rename_i hl
    split at h
    · cases h
    · simp only [Out.ret.injEq] at h
      exact ⟨h.symm, by omega, fun e he => hl e he⟩

theorem allNone_last {R : List (Option Exc)} (h : AllNone R.dropLast)
    (hl : ∀ e, R.getLast? ≠ some (some e)) : AllNone R := by
  intro x hx
  cases hR : R.getLast? with
  | none => rw [List.getLast?_eq_none_iff] at hR; subst hR; cases hx
  | some y =>
    obtain ⟨R', rfl⟩ := List.getLast?_eq_some_iff.1 hR
    rw [List.dropLast_concat] at h
    rcases List.mem_append.1 hx with hx | hx
    · exact h x hx
    · simp only [List.mem_singleton] at hx
      subst hx
      cases x with
      | none => rfl
      | some e => exact absurd hR (hl e)

theorem Follows.prefix {p : Prog} {t : Nat} {l l' : List Obs} (h : Follows p t (l ++ l')) :
    Follows p t l := by
  intro pre o post hl
  exact h pre o (post ++ l') (by rw [hl]; simp)

/-- The invariant is kept; what is known when the task returns. -/
theorem At.step {w w' : World} {a : Act} {r : Res} {m n v t : Nat} {new : List Obs} (hr : Reach w)
    (hg : Good D w) (he : exec w a = some (w', r)) (hl : w'.log = w.log ++ new)
    (hf : Follows (loop (.gpi m) n v) t (w.log ++ new)) (h : At m n t w.log (w.task t)) :
    At m n t (w.log ++ new) (w'.task t) ∧
    ∀ n1 n2 s v', new = n1 ++ .done t s (.value v') :: n2 →
      v' = v ∧ count m t (w.log ++ n1) = n ∧ (0 < n → lastFired (w.log ++ n1) = some m) := by
  have hs := (exec_step he).2
  obtain ⟨new', hlog, hTs⟩ := hg.tstep hs
  have hnn : new' = new := List.append_cancel_left (hlog.symm.trans hl)
  subst hnn
  have hT := hTs t
  have hab : execOf t new' = execOf t (new'.filter (·.about t)) := execOf_about t new'
  have hlen : (execOf t new').length ≤ 1 := by rw [hab]; exact exec_new hT
  rcases fires_new hg hs hl with ⟨x, rfl, hnew⟩ | ⟨hnf, hnof⟩ | ⟨rfl, hnew⟩
  · -- the simulator fires a trigger
    subst hnew
    refine ⟨?_, by intro n1 n2 s v' h; cases n1 <;> simp at h⟩
    have hi : w.inside = false := by
      cases hi : w.inside
      · rfl
      · exfalso
        unfold exec at he
        split at he
        · cases he
        · simp only [hi] at he
          split at he
          · simp [execCoro] at he
          · simp at he
          · cases he
    obtain ⟨hst, hq⟩ := outside_empty hr hi
    have hns : (w.task t).state ≠ .scheduled := by
      intro h
      obtain ⟨e, hm, -⟩ := (hg.inv.ok t (by simp)).sched h
      rw [hq] at hm; cases hm
    have hnr : (w.task t).state ≠ .running := by
      intro h
      have := (hg.stk.run t).2 h
      rw [hst] at this; cases this
    have hres : resumes t (w.log ++ [.fire x]) = resumes t w.log := by
      rw [resumes_append]; simp [resumes]
    rcases h with ⟨h, h1⟩ | ⟨h, -⟩ | ⟨h, -⟩ | ⟨h, h1, h2, h3, hh, h4⟩ | h
    · left
      refine ⟨?_, by rw [hres, h1]⟩
      generalize List.filter _ _ = obs at hT
      generalize w'.task t = r' at hT ⊢
      generalize w.task t = r0 at hT h
      cases hT <;> simp_all [TState.isDone, coroEnd]
    · exact absurd h hns
    · exact absurd h hnr
    · have hne : resumes t w.log ≠ [] := by
        intro h; rw [h] at h2; simp at h2
      have hc : count m t (w.log ++ [.fire x]) = count m t w.log + if x = m then 1 else 0 := by
        unfold count fires
        rw [since_append hne, List.count_append]
        congr 1
        by_cases hx : x = m <;> simp [hx]
      rcases pend_gpi hg he h h4 with ⟨h5, h6, h7⟩ | ⟨h5, h6, h7⟩ | h5 | h5 | h5
      · simp only [Act.fire.injEq] at h5
        subst h5
        right; left
        refine ⟨h6, by rw [hres]; exact h1, fun _ => Or.inr ⟨?_, ?_, ?_⟩⟩
        · rw [hres, hc, if_pos rfl]; exact h2
        · rw [hres]; exact h3
        · simp [lastFired]
      · have hx : x ≠ m := fun hx => h5 (by rw [hx])
        right; right; right; left
        refine ⟨h6, by rw [hres]; exact h1, ?_, by rw [hres]; exact h3, hh, by rw [h7, h4]⟩
        rw [hres, hc, if_neg hx]; exact h2
      · cases h5
      · cases h5
      · cases h5
    · right; right; right; right
      generalize List.filter _ _ = obs at hT
      generalize w'.task t = r' at hT ⊢
      generalize w.task t = r0 at hT h
      cases hT <;> simp_all [TState.isDone, coroEnd]
  · -- some other action
    have hcount : ∀ l : List Obs, (∀ o ∈ l, o ∈ new') → l.filterMap fireOf = [] := by
      intro l hl
      apply List.filterMap_eq_nil_iff.2
      intro o ho
      exact List.filterMap_eq_nil_iff.1 hnof o (hl o ho)
    -- what the task awaits or returns is what its code says
    have hout : ∀ n1 o n2, new' = n1 ++ o :: n2 → execOf t n1 = [] →
        (∀ g, o = .suspend t g → loop (.gpi m) n v (resumes t w.log) = .await g) ∧
        (∀ s v', o = .done t s (.value v') → loop (.gpi m) n v (resumes t w.log) = .ret v') ∧
        o ≠ .suspendBad t := by
      intro n1 o n2 h1 h2
      have := hf (w.log ++ n1) o n2 (by rw [h1]; simp)
      rwa [resumes_append, resumes_still h2, List.append_nil] at this
    have hres : resumes t (w.log ++ new') = resumes t w.log ++ resumes t (new'.filter (·.about t)) := by
      rw [resumes_append, resumes_exec t new', hab, ← resumes_exec]
    have hcnt : count m t (w.log ++ new') = count m t w.log := count_append hnof
    have hlast : lastFired (w.log ++ new') = lastFired w.log := last_append hnof
    -- where `t`'s entry is
    have hpos : ∀ o, execOf t (new'.filter (·.about t)) = [o] → o ∈ new' →
        ∃ n1 n2, new' = n1 ++ o :: n2 ∧ execOf t n1 = [] := by
      intro o h1 h2
      obtain ⟨n1, n2, h3⟩ := List.append_of_mem h2
      refine ⟨n1, n2, h3, ?_⟩
      rw [← hab] at h1
      have ho : execOf t [o] = [o] := by
        have : o ∈ execOf t new' := by rw [h1]; simp
        unfold execOf at this ⊢
        rw [List.filter_cons, if_pos (List.mem_filter.1 this).2]; rfl
      exact (about_of_split h3 ho hlen).2.1
    have hmem : ∀ o, o ∈ new'.filter (·.about t) → o ∈ new' := fun o ho => (List.mem_filter.1 ho).1
    have hdone : ∀ n1 n2 s v', new' = n1 ++ .done t s (.value v') :: n2 →
        execOf t (new'.filter (·.about t)) = [.done t s (.value v')] ∧ execOf t n1 = [] := by
      intro n1 n2 s v' h1
      have := about_of_split h1 (by simp [execOf]) hlen
      exact ⟨by rw [← hab]; exact this.1, this.2.1⟩
    constructor
    · have hwake : ∀ h, (w.task t).state = .pending → (w.task t).tcb = some (.gpi m, h) →
          (w'.task t).state = .scheduled → (w'.task t).exc = none → False := by
        intro h h1 h2 h3 h4
        rcases pend_gpi hg he h1 h2 with ⟨h5, -⟩ | ⟨-, h6, -⟩ | rfl | rfl | rfl
        · exact hnf m h5
        · rw [h3] at h6; cases h6
        · rcases exec_cancel hg he with ⟨h5, -⟩ | ⟨h5, -⟩ | ⟨-, -, -, -, h5, -⟩
          · rw [h1] at h5; cases h5
          · rw [h1] at h5; cases h5
          · rw [h4] at h5; cases h5
        · rcases Queue.kill_task he with h5 | h5
          · rw [h5, h1] at h3; cases h3
          · unfold World.done at h5; rw [h3] at h5; cases h5
        · rcases exec_cancelNow hg he with ⟨-, h5⟩ | ⟨-, -, h5, -⟩
          · rw [h5, h1] at h3; cases h3
          · rw [h3] at h5; cases h5
      have hsw : ∀ g, (w'.task t).state = .scheduled → (w'.task t).exc = none →
          .suspend t g ∈ new' → g = .gpi m → False := by
        intro g h1 h2 h3 h4
        subst h4
        obtain ⟨n1, n2, h5⟩ := List.append_of_mem h3
        rcases suspend_waits hr hg he hl h5 with ⟨h6, -⟩ | ⟨-, h6⟩
        · rw [h1] at h6; cases h6
        · have h7 : .fire m ∈ n2 := h6 h2
          have := List.filterMap_eq_nil_iff.1 hnof (.fire m) (by rw [h5]; simp [h7])
          simp [fireOf] at this
      have hquiet : execOf t new' = [] → (w'.task t).state = (w.task t).state →
          (w'.task t).exc = (w.task t).exc → (w'.task t).tcb = (w.task t).tcb →
          At m n t (w.log ++ new') (w'.task t) := fun h1 h2 h3 h4 => h.quiet hnof h1 h2 h3 h4
      rw [hab] at hquiet
      unfold At at hquiet ⊢
      rw [hres, hcnt, hlast] at hquiet ⊢
      unfold At at h
      clear hlen hf hTs hdone hres hcnt hlast hab
      clear hs hl hlog
      generalize hobs : new'.filter (·.about t) = obs at hT hquiet hpos hmem ⊢
      generalize w'.task t = r' at hT hquiet hwake hsw ⊢
      generalize w.task t = r0 at hT hquiet hwake h
      have h0 : resumes t w.log = [] → count m t w.log = 0 := by
        intro h; unfold count; rw [since_nil h]; rfl
      generalize hR : resumes t w.log = R at h hout hquiet h0 ⊢
      generalize count m t w.log = k at h hquiet h0 ⊢
      generalize lastFired w.log = lf at h hquiet ⊢
      have hstill : ∀ g, obs = [.suspend t g] → g = .gpi m ∧ R.length ≤ n ∧ ∀ e, R.getLast? ≠ some (some e) := by
        rintro g rfl
        obtain ⟨n1, n2, h1, h2⟩ := hpos (.suspend t g) (by simp [execOf]) (hmem _ (by simp))
        exact loop_await ((hout n1 _ n2 h1 h2).1 g rfl)
      cases hT with
      | same => exact hquiet rfl rfl rfl rfl
      | uncancel => exact hquiet rfl rfl rfl rfl
      | addCb => exact hquiet (by simp [execOf]) rfl rfl rfl
      | addCbDone => exact hquiet (by simp [execOf]) rfl rfl rfl
      | cb => exact hquiet (by simp [execOf]) rfl rfl rfl
      | wake k' hs =>
        rcases h with ⟨h, -⟩ | ⟨h, -⟩ | ⟨h, -⟩ | ⟨h, h1, h2, h3, hh, h4⟩ | h
        · rw [hs] at h; cases h
        · rw [hs] at h; cases h
        · rw [hs] at h; cases h
        · exact (hwake hh hs h4 rfl rfl).elim
        · rw [hs] at h; cases h
      | start k' ha hs =>
        rcases h with ⟨h, h1⟩ | ⟨h, -⟩ | ⟨h, -⟩ | ⟨h, -⟩ | h <;> try (rw [hs] at h; cases h)
        subst h1
        exact Or.inr (Or.inl ⟨rfl, by simp [resumes, AllNone], fun _ => Or.inl (by simp [resumes])⟩)
      | cancelP k' ha hs =>
        rcases h with ⟨h, -⟩ | ⟨h, -⟩ | ⟨h, -⟩ | ⟨h, h1, -⟩ | h <;> try (rw [hs] at h; cases h)
        exact Or.inr (Or.inl ⟨rfl, by simpa [resumes] using h1, fun h => by cases h⟩)
      | cancelS ha hs =>
        rcases h with ⟨h, -⟩ | ⟨h, h1, -⟩ | ⟨h, -⟩ | ⟨h, -⟩ | h <;> try (rw [hs] at h; cases h)
        exact Or.inr (Or.inl ⟨hs, by simpa [resumes] using h1, fun h => by cases h⟩)
      | cancelU k' ha hs =>
        rcases h with ⟨h, h1⟩ | ⟨h, -⟩ | ⟨h, -⟩ | ⟨h, -⟩ | h <;> try (rw [hs] at h; cases h)
        subst h1
        exact Or.inr (Or.inl ⟨rfl, by simp [resumes, AllNone], fun h => by cases h⟩)
      | kill => exact Or.inr (Or.inr (Or.inr (Or.inr rfl)))
      | cancelNow ha hnd hnr =>
        have hres : resumes t ((if r0.state = .unstarted then [Obs.start t] else []) ++
            [.resume t (some .cancelled)]) = [some .cancelled] := by
          split <;> simp [resumes]
        have hn : AllNone R := by
          rcases h with ⟨h, h1⟩ | ⟨h, h1, -⟩ | ⟨h, -⟩ | ⟨h, h1, -⟩ | h
          · subst h1; simp [AllNone]
          · exact h1
          · exact absurd h hnr
          · exact h1
          · rw [hnd] at h; cases h
        rw [hres]
        refine Or.inr (Or.inr (Or.inl ⟨rfl, by simp, by rw [List.dropLast_concat]; exact hn, fun hx => ?_⟩))
        have := hx (some .cancelled) (by simp)
        cases this
      | run ha hs =>
        rcases h with ⟨h, -⟩ | ⟨h, h1, h2⟩ | ⟨h, -⟩ | ⟨h, -⟩ | h <;> try (rw [hs] at h; cases h)
        have hres : resumes t [.resume t r0.exc] = [r0.exc] := by simp [resumes]
        rw [hres]
        refine Or.inr (Or.inr (Or.inl ⟨rfl, by simp, by rw [List.dropLast_concat]; exact h1, fun hx => ?_⟩))
        have he : r0.exc = none := hx _ (by simp)
        rcases h2 he with h3 | ⟨h3, h4, h5⟩
        · have := h0 h3
          subst h3
          simp [this]
        · simp only [List.length_append, List.length_singleton]
          exact ⟨by omega, by omega, Or.inr h5⟩
      | suspend g hh ha hs hm =>
        obtain ⟨rfl, h5, h6⟩ := hstill _ rfl
        rcases h with ⟨h, -⟩ | ⟨h, -⟩ | ⟨-, h1, h2, h3⟩ | ⟨h, -⟩ | h <;> try (rw [hs] at h; cases h)
        have hn := allNone_last h2 h6
        refine Or.inr (Or.inr (Or.inr (Or.inl ⟨rfl, ?_, ?_, ?_, hh, rfl⟩))) <;>
          simp only [resumes, List.filterMap_cons, List.filterMap_nil, List.append_nil]
        · exact hn
        · exact (h3 hn).1
        · exact h5
      | suspendWoken g hh k' ha hs hm =>
        obtain ⟨rfl, h5, h6⟩ := hstill _ rfl
        exact (hsw _ rfl rfl (hmem _ (by simp)) rfl).elim
      | suspendFail n' hh k' ha hs hm =>
        obtain ⟨-, h5, h6⟩ := hstill _ rfl
        rcases h with ⟨h, -⟩ | ⟨h, -⟩ | ⟨-, h1, h2, h3⟩ | ⟨h, -⟩ | h <;> try (rw [hs] at h; cases h)
        have hn := allNone_last h2 h6
        exact Or.inr (Or.inl ⟨rfl, by simpa [resumes] using hn, fun h => by cases h⟩)
      | yieldBad k' ha hs hm =>
        obtain ⟨n1, n2, h1, h2⟩ := hpos (.suspendBad t) (by simp [execOf]) (hmem _ (by simp))
        exact absurd rfl (hout n1 _ n2 h1 h2).2.2
      | finish s o how hs hce => exact Or.inr (Or.inr (Or.inr (Or.inr (coroEnd_done hce))))
    · intro n1 n2 s v' hnew
      obtain ⟨h1, h2⟩ := hdone n1 n2 s v' hnew
      have h3 := (hout n1 _ n2 hnew h2).2.1 s v' rfl
      obtain ⟨rfl, h4, h5⟩ := loop_ret h3
      have hsub : ∀ o ∈ n1, o ∈ new' := by intro o ho; rw [hnew]; simp [ho]
      rw [count_append (hcount n1 hsub), last_append (hcount n1 hsub)]
      have hrun : (w.task t).state = .running := by
        generalize new'.filter (·.about t) = obs at hT h1
        generalize w'.task t = r' at hT
        generalize w.task t = r0 at hT
        cases hT with
        | finish s o how hs => exact hs
        | cancelNow => exfalso; revert h1; simp only [execOf]; split <;> simp
        | _ => simp [execOf] at h1
      rcases h with ⟨h, -⟩ | ⟨h, -⟩ | ⟨-, g1, g2, g3⟩ | ⟨h, -⟩ | h
      · rw [hrun] at h; cases h
      · rw [hrun] at h; cases h
      · obtain ⟨g4, g5, g6⟩ := g3 (allNone_last g2 h5)
        refine ⟨rfl, by omega, fun hn => g6.resolve_left (by omega)⟩
      · rw [hrun] at h; cases h
      · rw [hrun] at h; cases h
  · subst hnew
    rw [List.append_nil]
    exact ⟨h, by intro n1 n2 s v' h; cases n1 <;> simp at h⟩

/-- A task running `loop (.gpi m) n v`, in every reachable world. -/
theorem cycles {m n v t : Nat} {w : World} (hr : Reach w)
    (hf : Follows (loop (.gpi m) n v) t w.log) :
    At m n t w.log (w.task t) ∧
    ∀ pre post s v', w.log = pre ++ .done t s (.value v') :: post →
      v' = v ∧ count m t pre = n ∧ (0 < n → lastFired pre = some m) := by
  refine (hr.induct (P := fun w => Reach w ∧ (Follows (loop (.gpi m) n v) t w.log →
    At m n t w.log (w.task t) ∧
    ∀ pre post s v', w.log = pre ++ .done t s (.value v') :: post →
      v' = v ∧ count m t pre = n ∧ (0 < n → lastFired pre = some m))) ?_ ?_).2 hf
  · refine ⟨⟨[], rfl⟩, fun _ => ⟨Or.inl ⟨rfl, rfl⟩, ?_⟩⟩
    intro pre post s v' h
    cases pre <;> simp [init] at h
  intro D w w' a r hg ⟨hreach, ih⟩ hex he
  refine ⟨hreach.exec hex, fun hf => ?_⟩
  obtain ⟨new, hlog, -⟩ := hg.tstep he
  rw [hlog] at hf
  obtain ⟨h1, h2⟩ := ih (Follows.prefix hf)
  obtain ⟨h3, h4⟩ := At.step hreach hg hex hlog hf h1
  rw [hlog]
  refine ⟨h3, ?_⟩
  intro pre post s v' hl
  rcases split_append hl with ⟨q', h5, -⟩ | ⟨p', h5, h6⟩
  · exact h2 pre q' s v' h5
  · subst h5
    exact h4 p' post s v' h6

/-- What `t` did last, by its state. -/
def Last (t : Nat) (l : List Obs) (r : TaskRec) : Prop :=
  (r.state = .unstarted ∧ l = []) ∨
  (r.state = .scheduled ∧ (l = [] ∨ (∃ g, l.getLast? = some (.suspend t g)) ∨
    l.getLast? = some (.suspendBad t))) ∨
  (r.state = .running ∧ ∃ e, l.getLast? = some (.resume t e)) ∨
  (r.state = .pending ∧ ∃ g, l.getLast? = some (.suspend t g)) ∨
  r.state.isDone = true

theorem Last.step {t : Nat} {a : Act} {obs l : List Obs} {r r' : TaskRec}
    (hT : TStep a t r r' obs) (h : Last t l r) : Last t (l ++ execOf t obs) r' := by
  unfold Last at h ⊢
  cases hT with
  | cancelNow =>
    right; right; left
    refine ⟨rfl, some .cancelled, ?_⟩
    simp only [execOf]; split <;> simp
  | finish s o how hs hce => exact Or.inr (Or.inr (Or.inr (Or.inr (coroEnd_done hce))))
  | _ => simp_all [execOf, TState.isDone] <;> grind

theorem last_exec {w : World} (hr : Reach w) (t : Nat) : Last t (execOf t w.log) (w.task t) := by
  refine hr.induct (P := fun w => Last t (execOf t w.log) (w.task t)) (Or.inl ⟨rfl, rfl⟩) ?_
  intro D w w' a r hg ih hex he
  obtain ⟨new, hlog, hTs⟩ := hg.tstep he
  rw [hlog, execOf_append, execOf_about t new]
  exact ih.step (hTs t)

/-- Before it is resumed a task has done nothing or is waiting. -/
def Paused (t : Nat) (l : List Obs) : Prop :=
  execOf t l = [] ∨ (∃ g, (execOf t l).getLast? = some (.suspend t g)) ∨
    (execOf t l).getLast? = some (.suspendBad t)

theorem resumed_after {w : World} (hr : Reach w) (t : Nat) :
    ∀ pre e post, w.log = pre ++ .resume t e :: post → Paused t pre := by
  refine (hr.induct (P := fun w => Reach w ∧
    ∀ pre e post, w.log = pre ++ .resume t e :: post → Paused t pre) ?_ ?_).2
  · refine ⟨⟨[], rfl⟩, fun pre e post h => ?_⟩
    cases pre <;> simp [init] at h
  intro D w w' a r hg ⟨hreach, ih⟩ hex he
  refine ⟨hreach.exec hex, fun pre e post hl => ?_⟩
  obtain ⟨new, hlog, hTs⟩ := hg.tstep he
  rw [hlog] at hl
  rcases split_append hl with ⟨q', h5, -⟩ | ⟨p', h5, h6⟩
  · exact ih pre e q' h5
  · subst h5
    have hT := hTs t
    have hab : execOf t new = execOf t (new.filter (·.about t)) := execOf_about t new
    have hlen : (execOf t new).length ≤ 1 := by rw [hab]; exact exec_new hT
    obtain ⟨h7, h8, -⟩ := about_of_split h6 (by simp [execOf]) hlen
    have hL := last_exec hreach t
    unfold Paused
    rw [execOf_append, h8, List.append_nil]
    rw [hab] at h7
    unfold Last at hL
    generalize execOf t w.log = l at hL ⊢
    generalize new.filter (·.about t) = obs at hT h7
    generalize w'.task t = r' at hT
    generalize w.task t = r0 at hT hL
    cases hT with
    | run ha hs =>
      rcases hL with ⟨h, -⟩ | ⟨-, h⟩ | ⟨h, -⟩ | ⟨h, -⟩ | h
      · rw [hs] at h; cases h
      · exact h
      · rw [hs] at h; cases h
      · rw [hs] at h; cases h
      · rw [hs] at h; cases h
    | cancelNow ha h1 h2 =>
      rcases hL with ⟨-, h⟩ | ⟨-, h⟩ | ⟨h, -⟩ | ⟨-, h⟩ | h
      · exact Or.inl h
      · exact h
      · exact absurd h h2
      · exact Or.inr (Or.inl h)
      · rw [h1] at h; cases h
    | _ => simp [execOf] at h7

theorem split_last {t : Nat} {l : List Obs} {o : Obs} (h : (execOf t l).getLast? = some o) :
    ∃ p q, l = p ++ o :: q ∧ execOf t q = [] := by
  induction l with
  | nil => simp [execOf] at h
  | cons x l ih =>
    by_cases hl : execOf t l = []
    · have : execOf t (x :: l) = execOf t [x] := by
        rw [show x :: l = [x] ++ l from rfl, execOf_append, hl, List.append_nil]
      rw [this] at h
      have hx : x = o := by
        have := List.mem_of_getLast? h
        have := (List.mem_filter.1 (this : o ∈ List.filter _ _)).1
        simp only [List.mem_singleton] at this
        exact this.symm
      subst hx
      exact ⟨[], l, rfl, hl⟩
    · have : (execOf t (x :: l)).getLast? = (execOf t l).getLast? := by
        rw [show x :: l = [x] ++ l from rfl, execOf_append, List.getLast?_append]
        cases h9 : (execOf t l).getLast? with
        | none => exact absurd (List.getLast?_eq_none_iff.1 h9) hl
        | some y => rfl
      rw [this] at h
      obtain ⟨p, q, h1, h2⟩ := ih h
      exact ⟨x :: p, q, by rw [h1]; rfl, h2⟩

theorem split_resume {t : Nat} {l : List Obs} {e : Option Exc} {R : List (Option Exc)}
    (h : resumes t l = R ++ [e]) :
    ∃ p q, l = p ++ .resume t e :: q ∧ resumes t p = R ∧ resumes t q = [] := by
  unfold resumes at h
  obtain ⟨l1, l2, h1, h2, h3⟩ := List.filterMap_eq_append_iff.1 h
  obtain ⟨q1, o, q2, h4, h5, h6, h7⟩ := List.filterMap_eq_cons_iff.1 h3
  refine ⟨l1 ++ q1, q2, ?_, ?_, h7⟩
  · rw [h1, h4]
    cases o with
    | resume u x =>
      by_cases hu : u = t
      · simp [hu] at h6 ⊢; exact h6
      · simp [hu] at h6
    | _ => simp at h6
  · rw [resumes_append]
    unfold resumes
    rw [h2, List.filterMap_eq_nil_iff.2 h5, List.append_nil]

/-- Who awaits one trigger and returns had that trigger fire. -/
theorem awaited {w : World} {t v v' : Nat} {g : Trig} {pre post : List Obs} {s : TState}
    (hr : Reach w) (hf : Follows (loop g 1 v) t w.log)
    (hl : w.log = pre ++ .done t s (.value v') :: post) :
    v' = v ∧ ∃ p1 p2 p3, pre = p1 ++ .suspend t g :: (p2 ++ .resume t none :: p3) ∧
      execOf t p2 = [] ∧ Happened g p1 p2 := by
  obtain ⟨rfl, h1, h2⟩ := loop_ret ((hf pre _ post hl).2.1 s v' rfl)
  refine ⟨rfl, ?_⟩
  obtain ⟨R, e, hR⟩ : ∃ R e, resumes t pre = R ++ [e] :=
    ⟨_, _, (List.dropLast_concat_getLast (by intro h; rw [h] at h1; simp at h1)).symm⟩
  have he : e = none := by
    cases e with
    | none => rfl
    | some e => exact absurd (by rw [hR]; simp) (h2 e)
  subst he
  obtain ⟨p, q, h3, h4, h5⟩ := split_resume hR
  have hP := resumed_after hr t p none (q ++ .done t s (.value v') :: post) (by rw [hl, h3]; simp)
  have hne : execOf t p ≠ [] := by
    intro h
    have := resumes_still h
    rw [h4] at this
    rw [hR, this] at h1; simp at h1
  have hsub : ∀ (p1 p2 : List Obs) (o : Obs), p = p1 ++ o :: p2 →
      w.log = p1 ++ o :: (p2 ++ .resume t none :: (q ++ .done t s (.value v') :: post)) := by
    intro p1 p2 o h
    rw [hl, h3, h]; simp
  rcases hP with h | ⟨g', h⟩ | h
  · exact absurd h hne
  · obtain ⟨p1, p2, h6, h7⟩ := split_last h
    have hw := hsub _ _ _ h6
    obtain ⟨rfl, -⟩ := loop_await ((hf p1 _ _ hw).1 g' rfl)
    exact ⟨p1, p2, q, by rw [h3, h6]; simp, h7, (waits hr t).2 g' p1 p2 _ hw h7⟩
  · obtain ⟨p1, p2, h6, -⟩ := split_last h
    exact absurd rfl (hf p1 _ _ (hsub _ _ _ h6)).2.2

end Ext

end Verif
