import Verif.Lemmas.Live
import Verif.Model.Wait

namespace Verif.Wait

open Sched

/-- The waiters whose end has been announced to the call, in order. -/
def announced (log : List Obs) : List Nat :=
  log.filterMap fun
    | .ended t => some t
    | _ => none

@[simp] theorem announced_append (l l' : List Obs) : announced (l ++ l') = announced l ++ announced l' := by
  simp [announced]

@[simp] theorem announced_ended (t : Nat) : announced [.ended t] = [t] := rfl
@[simp] theorem announced_thrown (e : Option Exc) : announced [.thrown e] = [] := rfl
@[simp] theorem announced_cancels (l : List Nat) : announced (l.map .cancel) = [] := by
  induction l with
  | nil => rfl
  | cons x l ih => simpa [announced] using ih

/-- Some event in the log makes the call cancel what is left. -/
def met (m : Mode) (w : World) (log : List Obs) : Bool :=
  log.any fun
    | .ended t => decides m w t
    | .thrown _ => true
    | .cancel _ => false

@[simp] theorem met_append (m : Mode) (w : World) (l l' : List Obs) :
    met m w (l ++ l') = (met m w l || met m w l') := by simp [met]

@[simp] theorem met_cancels (m : Mode) (w : World) (l : List Nat) : met m w (l.map .cancel) = false := by
  simp [met]

def noCancel (log : List Obs) : Prop := ∀ t, Obs.cancel t ∉ log

/-- What the log says about cancellations. -/
structure CancelOk (m : Mode) (w : World) (waiters : List Nat) (log : List Obs) (c : Bool) : Prop where
  no : c = false → met m w log = false ∧ noCancel log
  yes : c = true → ∃ pre x post,
    log = pre ++ [x] ++ ((waiters.filter (· ∉ announced (pre ++ [x]))).map .cancel) ++ post ∧
    met m w pre = false ∧ met m w [x] = true ∧ noCancel pre ∧ noCancel [x] ∧ noCancel post

/-- The local variables of the call. -/
structure Data (s : WS) : Prop where
  idle : s.phase = .idle → s.waiters = [] ∧ s.log = []
  ne : s.phase ≠ .idle → s.waiters ≠ [] ∧ s.parent ∉ s.waiters
  nd : s.waiters.Nodup
  rem : s.remaining = s.waiters.filter (· ∉ announced s.log)
  first : s.first = (announced s.log).find? (decides s.mode s.w)
  fired : s.w.fired complete = true ↔ (s.phase ≠ .idle ∧ s.remaining = [])
  canc : CancelOk s.mode s.w s.waiters s.log s.cancelled
  drain : s.phase = .draining → s.cancelled = true ∧ .thrown (some .cancelled) ∈ s.log
  closed : s.phase = .closed → s.cancelled = true ∧ s.w.done s.parent = true
  returned : ∀ i, s.phase = .returned i → s.remaining = [] ∧ i = s.first.map (s.waiters.idxOf ·)
  raised : ∀ e, s.phase = .raised e → s.remaining = [] ∧ e = .cancelled ∧
    s.cancelled = true ∧ .thrown (some .cancelled) ∈ s.log

structure WInv (s : WS) : Prop where
  live : Live complete s.waiters (announced s.log) s.parent (decide (s.phase = .awaiting))
    (decide (s.phase = .draining)) s.w
  nr : s.phase.inside = true → (s.w.task s.parent).state ≠ .running
  data : Data s

theorem decides_congr {m : Mode} {w w' : World} {t : Nat}
    (h : (w'.task t).state = (w.task t).state ∧ (w'.task t).outcome = (w.task t).outcome) :
    decides m w' t = decides m w t := by
  unfold decides World.cancelled World.exception
  rw [h.1, h.2]

theorem met_congr {m : Mode} {w w' : World} {log : List Obs}
    (h : ∀ t ∈ announced log, (w'.task t).state = (w.task t).state ∧
      (w'.task t).outcome = (w.task t).outcome) : met m w' log = met m w log := by
  induction log with
  | nil => rfl
  | cons o l ih =>
    have ih := ih (fun t ht => h t (by
      have : announced (o :: l) = announced [o] ++ announced l := announced_append [o] l
      rw [this]; simp [ht]))
    have e : ∀ v, met m v (o :: l) = (met m v [o] || met m v l) := fun v => met_append m v [o] l
    rw [e, e, ih]
    congr 1
    cases o with
    | ended t =>
      have := h t (by simp [announced])
      simp [met, decides_congr this]
    | thrown e => rfl
    | cancel t => rfl

theorem find_congr {α : Type} {p q : α → Bool} {l : List α} (h : ∀ x ∈ l, p x = q x) :
    l.find? p = l.find? q := by
  induction l with
  | nil => rfl
  | cons x l ih =>
    rw [List.find?_cons, List.find?_cons, h x (by simp), ih (fun y hy => h y (by simp [hy]))]

theorem CancelOk.congr {m : Mode} {w w' : World} {ws : List Nat} {log : List Obs} {c : Bool}
    (h : CancelOk m w ws log c)
    (hk : ∀ t ∈ announced log, (w'.task t).state = (w.task t).state ∧
      (w'.task t).outcome = (w.task t).outcome) : CancelOk m w' ws log c := by
  refine ⟨fun hc => ?_, fun hc => ?_⟩
  · rw [met_congr hk]; exact h.no hc
  · obtain ⟨pre, x, post, h1, h2, h3, h4⟩ := h.yes hc
    refine ⟨pre, x, post, h1, ?_, ?_, h4⟩
    · rw [met_congr (fun t ht => hk t (by rw [h1]; simp [ht]))]; exact h2
    · rw [met_congr (fun t ht => hk t (by rw [h1]; simp only [announced_append]; simp [ht]))]; exact h3

/-- A step of the scheduler that does not concern the call. -/
theorem Data.frame {s : WS} (h : Data s) {w' : World} (hf : w'.fired complete = s.w.fired complete)
    (hk : ∀ t, (s.w.task t).state.isDone = true → (w'.task t).state = (s.w.task t).state ∧
      (w'.task t).outcome = (s.w.task t).outcome)
    (ha : ∀ t ∈ announced s.log, (s.w.task t).state.isDone = true) :
    Data { s with w := w' } := by
  have hk' := fun t ht => hk t (ha t ht)
  refine ⟨h.idle, h.ne, h.nd, h.rem, ?_, ?_, h.canc.congr hk', h.drain, ?_, h.returned, h.raised⟩
  · show s.first = _
    rw [h.first]
    exact find_congr fun t ht => (decides_congr (hk' t ht)).symm
  · show w'.fired complete = true ↔ _
    rw [hf]; exact h.fired
  · intro hc
    obtain ⟨h1, h2⟩ := h.closed hc
    refine ⟨h1, ?_⟩
    unfold World.done at h2 ⊢
    rw [(hk _ h2).1]; exact h2

theorem cancelRemaining_live {s : WS} {A : List Nat} {aw dr : Bool}
    (h : Live complete s.waiters A s.parent aw dr s.w) (hq : quiet s.w = true) :
    Live complete s.waiters A s.parent aw dr (cancelRemaining s).w ∧
    Keeps complete s.w (cancelRemaining s).w := by
  unfold cancelRemaining
  split
  · exact ⟨h, Keeps.refl _ _⟩
  · exact h.cancels s.remaining hq

/-- The condition is met by the observation `x`, which comes last. -/
theorem CancelOk.fire {m : Mode} {w : World} {ws : List Nat} {log : List Obs} {x : Obs} {c : Bool}
    (h : CancelOk m w ws log c) (hx : met m w [x] = true) (hn : noCancel [x]) :
    CancelOk m w ws (log ++ [x] ++ if c then [] else
      (ws.filter (· ∉ announced (log ++ [x]))).map .cancel) true := by
  refine ⟨by simp, fun _ => ?_⟩
  cases c with
  | false =>
    obtain ⟨h1, h2⟩ := h.no rfl
    exact ⟨log, x, [], by simp, h1, hx, h2, hn, by simp [noCancel]⟩
  | true =>
    obtain ⟨pre, y, post, h1, h2, h3, h4, h5, h6⟩ := h.yes rfl
    refine ⟨pre, y, post ++ [x], by rw [h1]; simp, h2, h3, h4, h5, ?_⟩
    intro t ht
    rcases List.mem_append.1 ht with ht | ht
    · exact h6 t ht
    · exact hn t ht

/-- An end that does not meet the condition. -/
theorem CancelOk.pass {m : Mode} {w : World} {ws : List Nat} {log : List Obs} {x : Obs} {c : Bool}
    (h : CancelOk m w ws log c) (hx : met m w [x] = true → c = true) (hn : noCancel [x]) :
    CancelOk m w ws (log ++ [x]) c := by
  cases c with
  | true =>
    by_cases hm : met m w [x] = true
    · simpa using h.fire hm hn
    · refine ⟨by simp, fun _ => ?_⟩
      obtain ⟨pre, y, post, h1, h2, h3, h4, h5, h6⟩ := h.yes rfl
      refine ⟨pre, y, post ++ [x], by rw [h1]; simp, h2, h3, h4, h5, ?_⟩
      intro t ht
      rcases List.mem_append.1 ht with ht | ht
      · exact h6 t ht
      · exact hn t ht
  | false =>
    refine ⟨fun _ => ?_, by simp⟩
    obtain ⟨h1, h2⟩ := h.no rfl
    refine ⟨by simpa [h1] using fun hm => hx hm, ?_⟩
    intro t ht
    rcases List.mem_append.1 ht with ht | ht
    · exact h2 t ht
    · exact hn t ht

/-- An announced task is done. -/
theorem Live.annDone {O A : List Nat} {p : Nat} {aw dr : Bool} {w : World}
    (h : Live complete O A p aw dr w) : ∀ t ∈ A, (w.task t).state.isDone = true :=
  fun t ht => (h.own.done t (h.own.sub t ht)).2 (Or.inl ht)

theorem erase_filter {ws A : List Nat} (hn : ws.Nodup) (t : Nat) :
    (ws.filter (· ∉ A)).erase t = ws.filter (· ∉ A ++ [t]) := by
  rw [List.Nodup.erase_eq_filter (hn.filter _), List.filter_filter]
  apply List.filter_congr
  intro x _
  by_cases h1 : x = t <;> by_cases h2 : x ∈ A <;> simp [h1, h2]

/-- The end of a waiter is announced. -/
theorem doneCallback_inv {s : WS} {t : Nat}
    (hl : Live complete s.waiters (announced s.log ++ [t]) s.parent (decide (s.phase = .awaiting))
      (decide (s.phase = .draining)) s.w)
    (hnr : s.phase.inside = true → (s.w.task s.parent).state ≠ .running)
    (hq : quiet s.w = true) (hi : s.w.inside = true) (hh : s.w.halted = false)
    (hd : Data s) (hm : t ∈ s.waiters) (hA : t ∉ announced s.log) :
    WInv (doneCallback s t) := by
  have hidle : s.phase ≠ .idle := by
    intro hx; rw [(hd.idle hx).1] at hm; cases hm
  have htr : t ∈ s.remaining := by rw [hd.rem]; simp [hm, hA]
  have hfin : ∀ i, s.phase ≠ .returned i := by
    intro i hx; rw [(hd.returned i hx).1] at htr; cases htr
  have hfin' : ∀ i, s.phase ≠ .raised i := by
    intro i hx; rw [(hd.raised i hx).1] at htr; cases htr
  have htd := Live.annDone hl t (by simp)
  have hf0 : s.w.fired complete = false := by
    cases hf : s.w.fired complete
    · rfl
    · rw [(hd.fired.1 hf).2] at htr; cases htr
  have hrem : s.remaining.erase t = s.waiters.filter (· ∉ announced s.log ++ [t]) := by
    rw [hd.rem, erase_filter hd.nd]
  -- setting the event
  obtain ⟨w2, hw2, hl2, hst2, hkeep2, hrun2, hf2⟩ : ∃ w2,
      (if s.remaining.erase t = [] then api s.w (.setE complete) else s.w) = w2 ∧
      Live complete s.waiters (announced s.log ++ [t]) s.parent (decide (s.phase = .awaiting))
        (decide (s.phase = .draining)) w2 ∧ w2.stack = s.w.stack ∧
      (∀ t, (s.w.task t).state.isDone = true → (w2.task t).state = (s.w.task t).state ∧
        (w2.task t).outcome = (s.w.task t).outcome) ∧
      (∀ t, (w2.task t).state = .running ↔ (s.w.task t).state = .running) ∧
      (w2.fired complete = true ↔ s.remaining.erase t = []) := by
    refine ⟨_, rfl, ?_⟩
    split
    · rename_i hr
      obtain ⟨h1, h2⟩ := hl.set hq hi hh
      have f1 := (api_frame (w := s.w) (a := .setE complete) rfl).1
      refine ⟨h1, f1, fun t ht => api_done hl.calm.reach ht, fun t => ?_, by simp [h2, hr]⟩
      obtain ⟨D, hg⟩ := hl.calm.reach.good
      obtain ⟨D', hg'⟩ := h1.calm.reach.good
      rw [← hg'.stk.run, f1, hg.stk.run]
    · rename_i hr
      exact ⟨hl, rfl, fun _ _ => ⟨rfl, rfl⟩, fun _ => Iff.rfl, by simp [hf0, hr]⟩
  have hdec : decides s.mode w2 t = decides s.mode s.w t := decides_congr (hkeep2 t htd)
  have hca : CancelOk s.mode w2 s.waiters s.log s.cancelled :=
    hd.canc.congr (fun u hu => hkeep2 u (Live.annDone hl u (by simp [hu])))
  have hfi : s.first = (announced s.log).find? (decides s.mode w2) := by
    rw [hd.first]
    exact find_congr fun u hu => (decides_congr (hkeep2 u (Live.annDone hl u (by simp [hu])))).symm
  have hclosed : s.phase = .closed → s.cancelled = true ∧ w2.done s.parent = true := by
    intro hx
    obtain ⟨h1, h2⟩ := hd.closed hx
    refine ⟨h1, ?_⟩
    unfold World.done at h2 ⊢
    rw [(hkeep2 _ h2).1]; exact h2
  have hmet : met s.mode w2 [.ended t] = decides s.mode w2 t := by simp [met]
  have hncx : noCancel [.ended t] := by simp [noCancel]
  -- the state before `cancel_remaining`
  generalize hs2 : ({ s with remaining := s.remaining.erase t, log := s.log ++ [.ended t], w := w2 } : WS) = s2
  have hdc : doneCallback s t = if s2.first = none ∧ decides s2.mode s2.w t = true then
      cancelRemaining { s2 with first := some t } else s2 := by
    have : (if ({ s with remaining := s.remaining.erase t, log := s.log ++ [.ended t] } : WS).remaining = [] then
        { ({ s with remaining := s.remaining.erase t, log := s.log ++ [.ended t] } : WS) with
          w := api s.w (.setE complete) }
        else { s with remaining := s.remaining.erase t, log := s.log ++ [.ended t] }) = s2 := by
      rw [← hs2, ← hw2]
      dsimp only
      split <;> rfl
    unfold doneCallback
    dsimp only at this ⊢
    rw [this]
  rw [hdc]
  by_cases hc : s.first = none ∧ decides s.mode w2 t = true
  · rw [if_pos (by rw [← hs2]; exact hc)]
    obtain ⟨h3, k3⟩ := cancelRemaining_live (s := { s2 with first := some t })
      (by rw [← hs2]; exact hl2) (by rw [← hs2, quiet_stack hst2]; exact hq)
    generalize hs3 : cancelRemaining { s2 with first := some t } = s3 at h3 k3 ⊢
    have e : s3 = { s2 with
        first := some t
        w := s3.w
        cancelled := true
        log := s2.log ++ if s.cancelled then [] else s2.remaining.map .cancel } := by
      rw [← hs3]
      unfold cancelRemaining
      subst hs2
      dsimp only
      split <;> rename_i hcc <;> simp [hcc]
    have elog : s3.log = s.log ++ [.ended t] ++ if s.cancelled then [] else
        (s.waiters.filter (· ∉ announced (s.log ++ [.ended t]))).map .cancel := by
      rw [e, ← hs2]; simp [hrem]
    have ea : announced s3.log = announced s.log ++ [t] := by
      rw [elog, announced_append, announced_append]
      split
      · simp [announced]
      · rw [announced_cancels]; simp
    have e1 : s3.waiters = s.waiters := by rw [e, ← hs2]
    have e2 : s3.parent = s.parent := by rw [e, ← hs2]
    have e3 : s3.phase = s.phase := by rw [e, ← hs2]
    have e4 : s3.mode = s.mode := by rw [e, ← hs2]
    have e5 : s3.remaining = s.remaining.erase t := by rw [e, ← hs2]
    have e6 : s3.first = some t := by rw [e]
    have e7 : s3.cancelled = true := by rw [e]
    have k : Keeps complete w2 s3.w := by rw [← hs2] at k3; exact k3
    have hadone : ∀ u ∈ announced s.log ++ [t], (w2.task u).state.isDone = true :=
      fun u hu => Live.annDone hl2 u hu
    refine ⟨by rw [e1, ea, e2, e3]; rw [← hs2] at h3; exact h3, ?_, ?_⟩
    · rw [e2, e3]
      intro hx hy
      exact hnr hx ((hrun2 _).1 ((k.running _).1 hy))
    · refine ⟨?_, ?_, ?_, ?_, ?_, ?_, ?_, ?_, ?_, ?_, ?_⟩
      · rw [e3]; intro hx; exact absurd hx hidle
      · rw [e1, e2, e3]; exact hd.ne
      · rw [e1]; exact hd.nd
      · rw [e1, e5, ea]; exact hrem
      · rw [e6, ea, e4, List.find?_append]
        have : (announced s.log).find? (decides s.mode s3.w) = none := by
          rw [← hc.1, hfi]
          exact find_congr fun u hu => decides_congr (k.done u (hadone u (by simp [hu])))
        rw [this, List.find?_cons, decides_congr (w := w2) (k.done t (hadone t (by simp))), hc.2]
        rfl
      · rw [k.fired, hf2, e3, e5]; simp [hidle]
      · rw [e7, e1, e4, elog]
        refine (hca.fire (by rw [hmet]; exact hc.2) hncx).congr ?_
        intro u hu
        rw [← elog, ea] at hu
        exact k.done u (hadone u hu)
      · rw [e3, elog]; intro hx; exact ⟨e7, by simp [(hd.drain hx).2]⟩
      · rw [e3, e7, e2]
        intro hx
        refine ⟨rfl, ?_⟩
        have := (hclosed hx).2
        unfold World.done at this ⊢
        rw [(k.done _ this).1]; exact this
      · rw [e3]; intro i hx; exact absurd hx (hfin i)
      · rw [e3]; intro i hx; exact absurd hx (hfin' i)
  · rw [if_neg (by rw [← hs2]; exact hc)]
    subst hs2
    refine ⟨by simpa using hl2, ?_, ?_⟩
    · intro hx hy
      exact hnr hx ((hrun2 _).1 hy)
    · refine ⟨?_, hd.ne, hd.nd, by simpa using hrem, ?_, ?_, ?_, ?_, hclosed, ?_, ?_⟩
      · intro hx; exact absurd hx hidle
      · dsimp only
        rw [announced_append, List.find?_append, ← hfi]
        cases hfs : s.first with
        | some u => rfl
        | none =>
          simp only [hfs, true_and] at hc
          simp [hc]
      · dsimp only; rw [hf2]; simp [hidle]
      · refine hca.pass ?_ hncx
        rw [hmet]
        intro hx
        simp only [hx, and_true] at hc
        cases hcc : s.cancelled with
        | true => rfl
        | false =>
          exfalso
          apply hc
          rw [hfi, List.find?_eq_none]
          intro u hu hdu
          have := (hca.no hcc).1
          simp only [met, List.any_eq_false] at this
          have h2 := this (.ended u) (by
            simp only [announced, List.mem_filterMap] at hu
            obtain ⟨o, ho1, ho2⟩ := hu
            cases o <;> simp_all)
          exact h2 hdu
      · intro hx; exact ⟨(hd.drain hx).1, by simp [(hd.drain hx).2]⟩
      · intro i hx; exact absurd hx (hfin i)
      · intro i hx; exact absurd hx (hfin' i)

/-- An exception is thrown into the call. -/
theorem thrown_inv {s : WS} {e : Option Exc}
    (hl : Live complete s.waiters (announced s.log) s.parent false false s.w)
    (hq : quiet s.w = true) (hd : Data s) (hph : s.phase.inside = true) :
    let s' := cancelRemaining { s with log := s.log ++ [.thrown e] }
    Live complete s'.waiters (announced s'.log) s'.parent false false s'.w ∧ Data s' ∧
    Keeps complete s.w s'.w ∧ (s'.cancelled = true ∧ .thrown e ∈ s'.log) ∧ s'.phase = s.phase ∧
    s'.parent = s.parent := by
  obtain ⟨h3, k⟩ := cancelRemaining_live (s := { s with log := s.log ++ [.thrown e] }) hl hq
  dsimp only
  generalize hs3 : cancelRemaining { s with log := s.log ++ [.thrown e] } = s3 at h3 k ⊢
  have e0 : s3 = { s with
      w := s3.w
      cancelled := true
      log := s.log ++ [.thrown e] ++ if s.cancelled then [] else s.remaining.map .cancel } := by
    rw [← hs3]
    unfold cancelRemaining
    dsimp only
    split <;> rename_i hcc <;> simp [hcc]
  have hidle : s.phase ≠ .idle := by rintro hx; rw [hx] at hph; cases hph
  have hrem : s.remaining = s.waiters.filter (· ∉ announced (s.log ++ [.thrown e])) := by
    rw [hd.rem]; simp
  have elog : s3.log = s.log ++ [.thrown e] ++ if s.cancelled then [] else
      (s.waiters.filter (· ∉ announced (s.log ++ [.thrown e]))).map .cancel := by
    rw [e0, hrem]
  have ea : announced s3.log = announced s.log := by
    rw [elog, announced_append, announced_append]
    split
    · simp [announced]
    · rw [announced_cancels]; simp
  have e1 : s3.waiters = s.waiters := by rw [e0]
  have e2 : s3.parent = s.parent := by rw [e0]
  have e3 : s3.phase = s.phase := by rw [e0]
  have e4 : s3.mode = s.mode := by rw [e0]
  have e5 : s3.remaining = s.remaining := by rw [e0]
  have e6 : s3.first = s.first := by rw [e0]
  have e7 : s3.cancelled = true := by rw [e0]
  have hadone : ∀ u ∈ announced s.log, (s.w.task u).state.isDone = true :=
    fun u hu => Live.annDone hl u hu
  refine ⟨by rw [e1, e2, ea]; exact h3, ?_, k, ⟨e7, by rw [elog]; simp⟩, e3, e2⟩
  refine ⟨?_, ?_, ?_, ?_, ?_, ?_, ?_, ?_, ?_, ?_, ?_⟩
  · rw [e3]; intro hx; exact absurd hx hidle
  · rw [e1, e2, e3]; exact hd.ne
  · rw [e1]; exact hd.nd
  · rw [e1, e5, ea]; exact hd.rem
  · rw [e6, ea, e4, hd.first]
    exact find_congr fun u hu => (decides_congr (k.done u (hadone u hu))).symm
  · rw [k.fired, e3, e5]; exact hd.fired
  · rw [e7, e1, e4, elog]
    refine (hd.canc.fire (x := .thrown e) (by simp [met]) (by simp [noCancel])).congr ?_
    intro u hu
    rw [← elog, ea] at hu
    exact k.done u (hadone u hu)
  · rw [e3]; intro hx; exact ⟨e7, by rw [elog]; simp [(hd.drain hx).2]⟩
  · rw [e3]; intro hx; rw [hx] at hph; cases hph
  · rw [e3]; intro i hx; rw [hx] at hph; cases hph
  · rw [e3]; intro i hx; rw [hx] at hph; cases hph

/-- The call ends or waits one more step. -/
theorem drain_inv {s s' : WS} {rest : List Frame}
    (hl : Live complete s.waiters (announced s.log) s.parent false false s.w)
    (hst : s.w.stack = .running s.parent :: rest) (hd : Data s) (hph : s.phase.inside = true)
    (hc : s.cancelled = true ∧ .thrown (some .cancelled) ∈ s.log) (h : drain s = some s') : WInv s' := by
  have hidle : s.phase ≠ .idle := by rintro hx; rw [hx] at hph; cases hph
  unfold drain at h
  split at h
  · rename_i hr
    cases h
    refine ⟨hl, by simp [Phase.inside], ⟨by simp, fun _ => hd.ne hidle, hd.nd, hd.rem, hd.first, ?_, hd.canc,
      by simp, by simp, by simp, ?_⟩⟩
    · rw [hd.fired]; simp [hidle]
    · intro e he
      cases he
      exact ⟨hr, rfl, hc⟩
  · split at h
    · cases h
    rename_i w' r he
    cases h
    have hk : ∀ t, (s.w.task t).state.isDone = true → (w'.task t).state = (s.w.task t).state ∧
      (w'.task t).outcome = (s.w.task t).outcome := fun t ht => done_keeps hl.calm.reach he ht
    obtain ⟨hf, hnr, hx⟩ := hl.awaitNull hst he
    have hd' := hd.frame hf hk (Live.annDone hl)
    unfold suspended
    rcases hx with ⟨h1, h2⟩ | ⟨h1, h2⟩
    · simp only [h1, if_true]
      refine ⟨h2, by simp [Phase.inside], ⟨by simp, fun _ => hd.ne hidle, hd.nd, hd.rem, hd'.first, ?_,
        hd'.canc, by simp, fun _ => ⟨hc.1, h1⟩, by simp, by simp⟩⟩
      rw [hd'.fired]; simp [hidle]
    · simp only [h1, Bool.false_eq_true, if_false]
      refine ⟨h2, fun _ => hnr, ⟨by simp, fun _ => hd.ne hidle, hd.nd, hd.rem, hd'.first, ?_,
        hd'.canc, fun _ => hc, by simp, by simp, by simp⟩⟩
      rw [hd'.fired]; simp [hidle]

theorem uncancel_inv {s s' : WS} {rest : List Frame}
    (hl : Live complete s.waiters (announced s.log) s.parent false false s.w)
    (hst : s.w.stack = .running s.parent :: rest) (hd : Data s) (hph : s.phase.inside = true)
    (hc : s.cancelled = true ∧ .thrown (some .cancelled) ∈ s.log) (h : uncancelAndDrain s = some s') : WInv s' := by
  unfold uncancelAndDrain at h
  have hq : quiet s.w = true := by unfold quiet; rw [hst]
  have hcur : s.w.current = some s.parent := by
    have := hl.calm.ok
    rw [hst] at this
    exact this.1
  rw [hcur] at h
  have k : Keeps complete s.w (api s.w (.uncancel s.parent)) := keeps_api hl.calm.reach rfl rfl
  exact drain_inv (s := { s with w := api s.w (.uncancel s.parent) }) (hl.simple rfl rfl hq)
    (by rw [← hst]; exact k.stack) (hd.frame k.fired k.done (Live.annDone hl)) hph hc h

/-- The caller is resumed inside the call. -/
theorem goOn_inv {s s' : WS} {rest : List Frame}
    (hl : Live complete s.waiters (announced s.log) s.parent (decide (s.phase = .awaiting))
      (decide (s.phase = .draining)) s.w)
    (hst : s.w.stack = .running s.parent :: rest) (hd : Data s) (hph : s.phase.inside = true)
    (h : goOn s = some s') : WInv s' := by
  have hq : quiet s.w = true := by unfold quiet; rw [hst]
  obtain ⟨D, hg⟩ := hl.calm.reach.good
  have hrun : (s.w.task s.parent).state = .running := (hg.stk.run _).1 (by simp [hst])
  have hl0 := hl.resumed (by rw [hrun]; simp)
  have hidle : s.phase ≠ .idle := by rintro hx; rw [hx] at hph; cases hph
  unfold goOn at h
  cases hp : s.phase <;> rw [hp] at hph <;> simp only [Phase.inside, Bool.false_eq_true] at hph
  · -- awaiting
    have hE := hl.onE (by simp [hp])
    unfold OnEvent at hE
    rw [hrun] at hE
    simp only [TState.isDone, Bool.false_eq_true, reduceCtorEq, false_and, or_true, true_and, false_or] at hE
    rcases hE with ⟨h1, h2⟩ | h1
    · simp only [hp, h1, Option.some.injEq] at h
      subst h
      refine ⟨hl0, by simp [Phase.inside], ⟨by simp, fun _ => hd.ne hidle, hd.nd, hd.rem, hd.first, ?_,
        hd.canc, by simp, by simp, ?_, by simp⟩⟩
      · rw [hd.fired]; simp [hidle]
      · intro i hi
        cases hi
        exact ⟨(hd.fired.1 h2).2, rfl⟩
    · simp only [hp, h1] at h
      rw [← hp] at h
      obtain ⟨a1, a2, a3, a4, a5, a6⟩ := thrown_inv (e := some .cancelled) hl0 hq hd (by rw [hp]; rfl)
      exact uncancel_inv a1 (by rw [a3.stack, a6]; exact hst) a2 (by rw [a5, hp]; rfl) a4 h
  · -- draining
    have hN := hl.onN (by simp [hp])
    unfold OnNull at hN
    rw [hrun] at hN
    simp only [TState.isDone, Bool.false_eq_true, reduceCtorEq, or_true, true_and, false_or] at hN
    rcases hN with h1 | h1
    · simp only [hp, h1] at h
      exact drain_inv hl0 hst hd (by rw [hp]; rfl) (hd.drain hp) h
    · simp only [hp, h1] at h
      exact uncancel_inv hl0 hst hd (by rw [hp]; rfl) (hd.drain hp) h

/-- Registering the done callbacks and starting the waiters. -/
theorem starts_live {p : Nat} (l : List Nat) : ∀ {w : World} {O : List Nat},
    Live complete O [] p false false w → quiet w = true → w.inside = true → w.halted = false →
    l.Nodup → (∀ t ∈ l, w.task t = {}) →
    Live complete (l.reverse ++ O) [] p false false
      (l.foldl (fun w t => api (api w (.addCb t)) (.startNext t)) w) ∧
    Keeps complete w (l.foldl (fun w t => api (api w (.addCb t)) (.startNext t)) w) := by
  induction l with
  | nil => intro w O h _ _ _ _ _; exact ⟨h, Keeps.refl _ w⟩
  | cons x l ih =>
    intro w O h hq hi hh hn hf
    have hx := hf x (by simp)
    have h1 := h.simple (a := .addCb x) rfl rfl hq
    have k1 : Keeps complete w _ := keeps_api (a := .addCb x) h.calm.reach rfl rfl
    have e1 : api w (.addCb x) = addDoneCb w x := by simp [api, Sched.exec, hi, hh]
    have er : (api w (.addCb x)).task = upd w.task x { doneCbs := [w.nCb] } := by
      rw [e1]
      unfold addDoneCb
      rw [hx]
      simp [TState.isDone, World.addLog, hx]
    have h2 : Live complete (x :: O) [] p false false (api w (.addCb x)) := by
      refine ⟨h1.calm, h1.tidy, h1.reg, h1.onE, h1.onN, h1.own.add h1.calm.reach ?_ ?_ ?_⟩ <;>
        rw [er] <;> simp [upd_self, TState.isDone]
    have hq2 : quiet (api w (.addCb x)) = true := by rw [k1.quiet]; exact hq
    have h3 := h2.simple (a := .startNext x) rfl rfl hq2
    have k2 : Keeps complete (api w (.addCb x)) _ := keeps_api (a := .startNext x) h2.calm.reach rfl rfl
    have e2 : api (api w (.addCb x)) (.startNext x) = (startNext (api w (.addCb x)) x).1 := by
      have : Sched.exec (api w (.addCb x)) (.startNext x) = some (startNext (api w (.addCb x)) x) := by
        have e3 := k1.inside
        have e4 := k1.halted
        rw [hi] at e3
        rw [hh] at e4
        generalize api w (.addCb x) = v at e3 e4
        simp [Sched.exec, e3, e4]
      rw [api, this]
    have hne : ∀ t, t ≠ x → (api (api w (.addCb x)) (.startNext x)).task t = w.task t := by
      intro t ht
      rw [e2]
      unfold startNext
      split
      · rw [er, upd_ne _ _ ht]
      · simp [scheduleLeft, World.addLog, upd_ne _ _ ht, er]
    rw [List.nodup_cons] at hn
    obtain ⟨h4, k4⟩ := ih h3 (by rw [k2.quiet]; exact hq2) (by rw [k2.inside, k1.inside]; exact hi)
      (by rw [k2.halted, k1.halted]; exact hh) hn.2
      (fun t ht => by rw [hne t (by rintro rfl; exact hn.1 ht)]; exact hf t (by simp [ht]))
    refine ⟨?_, (k1.trans k2).trans k4⟩
    rw [List.reverse_cons, List.append_assoc]
    exact h4

theorem cancelRemaining_phase (s : WS) (ph : Phase) :
    cancelRemaining { s with phase := ph } = { cancelRemaining s with phase := ph } := by
  unfold cancelRemaining
  dsimp only
  split <;> rfl

/-- The call begins. -/
theorem start_inv {s s' : WS} {p : Nat} {ts : List Nat} {m : Mode} {rest : List Frame} (h : WInv s)
    (hst : s.w.stack = .running p :: rest) (hid : s.phase = .idle) (hi : s.w.inside = true)
    (hh : s.w.halted = false) (hne : ts ≠ []) (hnd : ts.Nodup) (hfresh : ∀ t ∈ ts, s.w.task t = {})
    (he : start s p ts m = some s') : WInv s' := by
  obtain ⟨hw, hlog⟩ := h.data.idle hid
  have hq : quiet s.w = true := by unfold quiet; rw [hst]
  obtain ⟨D, hg⟩ := h.live.calm.reach.good
  have hrun : (s.w.task p).state = .running := (hg.stk.run _).1 (by simp [hst])
  have hp : p ∉ ts := by
    intro hm; rw [hfresh p hm] at hrun; cases hrun
  have hl := h.live
  rw [hw, hlog, hid] at hl
  have hl0 : Live complete [] [] p false false s.w :=
    ⟨hl.calm, hl.tidy, fun t k a b => absurd (hl.reg t k a b).2 (by simp), by simp, by simp, hl.own⟩
  have hf0 : s.w.fired complete = false := by
    cases hf : s.w.fired complete
    · rfl
    · exact absurd hid (h.data.fired.1 hf).1
  have hfirst : s.first = none := by rw [h.data.first, hlog]; rfl
  have hcanc : s.cancelled = false := by
    cases hc : s.cancelled
    · rfl
    · obtain ⟨pre, x, post, h1, -⟩ := h.data.canc.yes hc
      rw [hlog] at h1; simp at h1
  obtain ⟨h1, k1⟩ := starts_live ts.reverse hl0 hq hi hh ((List.reverse_perm ts).nodup_iff.2 hnd)
    (fun t ht => hfresh t (List.mem_reverse.1 ht))
  rw [List.reverse_reverse, List.append_nil] at h1
  have hw1 : (enroll s p ts m).w =
      ts.reverse.foldl (fun w t => api (api w (.addCb t)) (.startNext t)) s.w := rfl
  rw [← hw1] at h1 k1
  unfold start at he
  dsimp only at he
  -- the state when the call awaits
  generalize hs1 : enroll s p ts m = s1 at he h1 k1
  have hsp : s1.parent = p := by subst hs1; rfl
  have hsw : s1.waiters = ts := by subst hs1; rfl
  have hsr : s1.remaining = ts := by subst hs1; rfl
  have hsm : s1.mode = m := by subst hs1; rfl
  have hsl : s1.log = [] := by subst hs1; exact hlog
  have hsf : s1.first = none := by subst hs1; exact hfirst
  have hsc : s1.cancelled = false := by subst hs1; exact hcanc
  have hd1 : Data { s1 with phase := .awaiting } := by
    refine ⟨by simp, ?_, ?_, ?_, ?_, ?_, ?_, by simp, by simp, by simp, by simp⟩ <;>
      dsimp only
    · rw [hsw, hsp]; exact fun _ => ⟨hne, hp⟩
    · rw [hsw]; exact hnd
    · rw [hsl, hsr, hsw]; exact (List.filter_eq_self.2 (by simp [announced])).symm
    · rw [hsl, hsf]; rfl
    · rw [k1.fired, hf0, hsr]; simp [hne]
    · rw [hsc, hsl]
      exact ⟨fun _ => ⟨rfl, by simp [noCancel]⟩, by simp⟩
  have hl1 : Live complete s1.waiters (announced s1.log) s1.parent false false s1.w := by
    rw [hsw, hsl, hsp]; exact h1
  have hq1 : quiet s1.w = true := (k1.quiet).trans hq
  have hst1 : s1.w.stack = .running s1.parent :: rest := by rw [k1.stack, hsp]; exact hst
  have hf1 : s1.w.fired complete = false := by rw [k1.fired]; exact hf0
  rw [← hsp] at he
  -- what `await` does
  have fin : ∀ (s2 : WS) (w' : World) (r : Res),
      Live complete s2.waiters (announced s2.log) s2.parent false false s2.w →
      s2.w.stack = .running s2.parent :: rest → s2.w.fired complete = false →
      Data { s2 with phase := .awaiting } →
      (s2.cancelled = true ∨ (s2.w.task s2.parent).mustCancel = 0) →
      Sched.exec s2.w (.await (.event complete) false) = some (w', r) →
      WInv (suspended { s2 with w := w' } .awaiting) := by
    intro s2 w' r hl2 hst2 hf2 hd2 hc2 hx
    obtain ⟨g1, g2, g3⟩ := hl2.await hst2 hf2 hx
    have hk : ∀ t, (s2.w.task t).state.isDone = true → (w'.task t).state = (s2.w.task t).state ∧
      (w'.task t).outcome = (s2.w.task t).outcome := fun t ht => done_keeps hl2.calm.reach hx ht
    have hd3 := hd2.frame (w' := w') (by rw [g1]) hk (Live.annDone hl2)
    unfold suspended
    rcases g3 with ⟨i1, i2⟩ | ⟨i1, i2⟩
    · simp only [i1, if_true]
      refine ⟨i2, by simp [Phase.inside], ⟨by simp, fun _ => hd3.ne (by simp), hd3.nd, hd3.rem,
        hd3.first, ?_, hd3.canc, by simp, fun _ => ⟨?_, i1⟩, by simp, by simp⟩⟩
      · have := hd3.fired
        simpa using this
      · rcases hc2 with hc2 | hc2
        · exact hc2
        · exfalso
          obtain ⟨D2, hg2⟩ := hl2.calm.reach.good
          have hrun2 : (s2.w.task s2.parent).state = .running := (hg2.stk.run _).1 (by simp [hst2])
          obtain ⟨new, -, hts⟩ := hg2.tstep (exec_step hx).2
          have hT := hts s2.parent
          unfold World.done at i1
          generalize w'.task s2.parent = r' at hT i1
          generalize s2.w.task s2.parent = r0 at hT hc2 hrun2
          generalize new.filter (·.about s2.parent) = obs at hT
          cases hT <;> simp_all [TState.isDone, coroEnd]
    · simp only [i1, Bool.false_eq_true, if_false]
      refine ⟨i2, fun _ => g2, ⟨by simp, fun _ => hd3.ne (by simp), hd3.nd, hd3.rem,
        hd3.first, ?_, hd3.canc, by simp, by simp, by simp, by simp⟩⟩
      have := hd3.fired
      simpa using this
  split at he
  · cases he
  rename_i w' r hx
  cases he
  by_cases hmust : (s1.w.task s1.parent).mustCancel > 0
  · simp only [hmust, if_true] at hx ⊢
    have hth := thrown_inv (s := { s1 with phase := .awaiting }) (e := none) hl1 hq1 hd1 rfl
    dsimp only at hth
    have ecr : cancelRemaining { s1 with phase := .awaiting, log := s1.log ++ [.thrown none] } =
        { cancelRemaining { s1 with log := s1.log ++ [.thrown none] } with phase := .awaiting } :=
      cancelRemaining_phase { s1 with log := s1.log ++ [.thrown none] } .awaiting
    rw [ecr] at hth
    generalize cancelRemaining { s1 with log := s1.log ++ [.thrown none] } = s2 at hth hx ⊢
    obtain ⟨a1, a2, a3, a4, a5, a6⟩ := hth
    dsimp only at a1 a2 a3 a4 a6
    exact fin s2 w' r a1 (by rw [a3.stack, a6]; exact hst1) (by rw [a3.fired]; exact hf1) a2 (Or.inl a4.1) hx
  · simp only [hmust, if_false] at hx ⊢
    exact fin s1 w' r hl1 hst1 hf1 hd1 (Or.inr (by omega)) hx

/-- A task starts running only by `pop` or `_cancel_now`, and is then on top. -/
theorem run_new {D : Trig → Prop} {w w' : World} {a : Act} {r : Res} (hg : Good D w)
    (he : Sched.exec w a = some (w', r)) {u : Nat} (h1 : (w.task u).state ≠ .running)
    (h2 : (w'.task u).state = .running) (hr : Sched.Reach w) :
    (a = .pop ∨ ∃ t, a = .cancelNow t) ∧ ∃ rest, w'.stack = .running u :: rest := by
  obtain ⟨D', hg'⟩ := (hr.exec he).good
  rw [ne_eq, ← hg.stk.run] at h1
  rw [← hg'.stk.run] at h2
  cases hg.frames (exec_step he).2 with
  | same h => rw [h] at h2; exact absurd h2 h1
  | popped t ha h0 h =>
    rw [h] at h2
    have : u = t := by simpa using h2
    exact ⟨Or.inl ha, [], by rw [h, this]⟩
  | killed t ha h => rw [h] at h2; simp at h2; exact absurd h2 h1
  | entered t ha h =>
    rw [h] at h2
    have : u = t := by simpa [h1] using h2
    exact ⟨Or.inr ⟨t, ha⟩, w.stack, by rw [h, this]⟩
  | suspended t rest ha h0 h => rw [h] at h2; rw [h0] at h1; simp [h2] at h1
  | ended t rest how hk ha h0 h => rw [h] at h2; rw [h0] at h1; simp at h1 h2; exact absurd h2 h1.2
  | next t i how rest c ha h0 hc h => rw [h] at h2; rw [h0] at h1; simp at h1 h2; exact absurd h2 h1
  | last t i how rest ha h0 hc h => rw [h] at h2; rw [h0] at h1; simp at h1; exact absurd h2 h1

theorem cb_frame {w w' : World} {r : Res} {t : Nat} {how : How}
    (he : Sched.exec w .cbStep = some (w', r)) (h0 : w.stack = [.finishing t 0 how])
    (h1 : w'.stack = [.finishing t 1 how]) : w'.inside = true ∧ w'.halted = false := by
  unfold Sched.exec at he
  split at he
  · cases he
  rename_i hh
  cases hi : w.inside
  · simp [hi] at he
  simp only [hi, h0, if_true, Option.some.injEq, Prod.mk.injEq] at he
  obtain ⟨he, -⟩ := he
  unfold cbStep at he
  split at he
  · subst he; exact ⟨hi, by simpa [World.addLog] using hh⟩
  · exfalso
    subst he
    have hx1 := (react_aux { w with stack := [] } (.complete t)).1
    have hx2 := (react_aux (react { w with stack := [] } (.complete t)) (.join t)).1
    have : (finishEnd { w with stack := [] } t how).stack = [] := by
      unfold finishEnd
      cases how <;> simp [hx2.stack, hx1.stack]
    rw [this] at h1; cases h1

theorem exec_inv {s s' : WS} {a : WAct} (h : WInv s) (he : exec s a = some s') : WInv s' := by
  cases a with
  | wait ts m =>
    simp only [exec] at he
    split at he
    · rename_i p rest hst
      split at he
      · rename_i hc
        obtain ⟨h1, h2, h3, h4, h5, h6⟩ := hc
        exact start_inv h hst h1 h3 h2 h4 h5 h6 he
      · cases he
    · cases he
  | sched a =>
    simp only [exec] at he
    split at he
    · rename_i hal
      split at he
      · cases he
      rename_i w' r hx
      unfold allowed at hal
      rw [Bool.and_eq_true, Bool.or_eq_true] at hal
      obtain ⟨hq, hal⟩ := hal
      have hq : quiet s.w = true ∨ a = .cbStep := by simpa using hq
      have hoff : off complete a = true := by
        cases a with
        | await g f => cases g <;> first | rfl | exact hal
        | setE e => exact hal
        | clearE e => exact hal
        | _ => rfl
      have hsp : spares s.waiters a = true := by
        cases a with
        | kill t => simpa [spares] using hal
        | cancelNow t => simp only [Bool.and_eq_true] at hal; simpa [spares] using hal.1
        | _ => rfl
      have hcn : ∀ t, a = .cancelNow t → ∀ u, Frame.running u ∉ s.w.stack := by
        rintro t rfl u hu
        simp only [Bool.and_eq_true] at hal
        have := hal.2
        unfold nobodyRuns at this
        rw [List.all_eq_true] at this
        exact absurd (this _ hu) (by simp)
      obtain ⟨D, hg⟩ := h.live.calm.reach.good
      have hin : s.phase.inside = true ↔ (s.phase = .awaiting ∨ s.phase = .draining) := by
        cases s.phase <;> simp [Phase.inside]
      have hkeep : ∀ t, (s.w.task t).state.isDone = true → (w'.task t).state = (s.w.task t).state ∧
        (w'.task t).outcome = (s.w.task t).outcome := fun t ht => done_keeps h.live.calm.reach hx ht
      have hf : w'.fired complete = s.w.fired complete := by
        refine Queue.fired_step hg (exec_step hx).2 ?_ ?_
        · rintro rfl; simp [off] at hoff
        · rintro rfl; simp [off] at hoff
      have hdata := h.data.frame hf hkeep (Live.annDone h.live)
      have hnew : s.phase.inside = true → (w'.task s.parent).state = .running →
          (a = .pop ∨ ∃ t, a = .cancelNow t) ∧ ∃ rest, w'.stack = .running s.parent :: rest :=
        fun h1 h2 => run_new hg hx (h.nr h1) h2 h.live.calm.reach
      rcases h.live.act hx hoff (fun h1 h2 => absurd h2 (h.nr (hin.2 (by simpa using h1)))) hq hsp hcn with
        ⟨t, how, h1, rfl, h3, h4, h5, h6⟩ | ⟨h1, h2⟩
      · -- the end of a waiter is announced
        simp only [hook, h3, h1, if_true, Option.some.injEq] at he
        subst he
        obtain ⟨c1, c2⟩ := cb_frame hx h3 h4
        refine doneCallback_inv (s := { s with w := w' }) h6 ?_ ?_ c1 c2 hdata h1 h5
        · intro i1 i2
          rcases (hnew i1 i2).1 with hc | ⟨_, hc⟩ <;> cases hc
        · dsimp only; unfold quiet; simp only [h4]
      · have hgo : ∀ rest, w'.stack = .running s.parent :: rest → s.phase.inside = true →
            goOn { s with w := w' } = some s' → WInv s' :=
          fun rest i1 i2 i3 => goOn_inv (s := { s with w := w' }) h2 i1 hdata i2 i3
        have hplain : ((w'.task s.parent).state = .running → s.phase.inside = false) →
            WInv { s with w := w' } := by
          intro hi
          refine ⟨h2, fun i1 i2 => ?_, hdata⟩
          have := hi i2
          rw [i1] at this; cases this
        unfold hook at he
        split at he
        · rename_i hc
          rename_i t how rest hst
          rw [if_neg (h1 t how rest hst)] at he
          cases he
          refine hplain fun hr => ?_
          cases hi : s.phase.inside
          · rfl
          · rcases (hnew hi hr).1 with hc | ⟨_, hc⟩ <;> cases hc
        · rename_i t rest hst _
          split at he
          · rename_i hc
            obtain ⟨rfl, hc2⟩ := hc
            exact hgo rest hst hc2 he
          · rename_i hc
            cases he
            refine hplain fun hr => ?_
            cases hi : s.phase.inside
            · rfl
            · exfalso
              obtain ⟨rest', hst'⟩ := (hnew hi hr).2
              rw [hst] at hst'
              simp only [List.cons.injEq, Frame.running.injEq] at hst'
              exact hc ⟨hst'.1, hi⟩
        · rename_i t rest hst _
          split at he
          · rename_i hc
            obtain ⟨rfl, hc2⟩ := hc
            exact hgo rest hst hc2 he
          · rename_i hc
            cases he
            refine hplain fun hr => ?_
            cases hi : s.phase.inside
            · rfl
            · exfalso
              obtain ⟨rest', hst'⟩ := (hnew hi hr).2
              rw [hst] at hst'
              simp only [List.cons.injEq, Frame.running.injEq] at hst'
              exact hc ⟨hst'.1, hi⟩
        · rename_i n1 n2 n3
          cases he
          refine hplain fun hr => ?_
          cases hi : s.phase.inside
          · rfl
          · exfalso
            obtain ⟨hc | ⟨t, hc⟩, rest', hst'⟩ := hnew hi hr
            · exact n2 _ _ hc hst'
            · exact n3 _ _ _ hc hst'
    · cases he

theorem init_inv : WInv {} := by
  refine ⟨⟨Calm.init, by simp [Tidy], by simp, by simp, by simp, Owned.nil⟩, by simp [Phase.inside], ?_⟩
  exact ⟨by simp, by simp, by simp, rfl, rfl, by simp, ⟨fun _ => ⟨rfl, by simp [noCancel]⟩, by simp⟩,
    by simp, by simp, by simp, by simp⟩

theorem run_inv {as : List WAct} : ∀ {s s' : WS}, WInv s → run s as = some s' → WInv s' := by
  induction as with
  | nil => intro s s' h hr; cases hr; exact h
  | cons a as ih =>
    intro s s' h hr
    unfold run at hr
    split at hr
    · rename_i s1 h1; exact ih (exec_inv h h1) hr
    · cases hr

theorem Reach.inv {s : WS} (h : Reach s) : WInv s := by
  obtain ⟨as, h⟩ := h
  exact run_inv init_inv h

end Verif.Wait
