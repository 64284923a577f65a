import Verif.Model.Sched

namespace Verif.Sched

theorem upd_self {α β : Type} [DecidableEq α] (f : α → β) (a : α) (b : β) : upd f a b a = b := by
  simp [upd]

theorem upd_ne {α β : Type} [DecidableEq α] (f : α → β) {a x : α} (b : β) (h : x ≠ a) :
    upd f a b x = f x := by
  simp [upd, h]

/-
In all of the following `D` is the set of dead triggers: simulator-backed triggers which the
simulator once refused to arm.  The refused callback stays in the trigger's list for good (task.py
446-447 does not remove it), so the list never becomes empty again and the trigger is never armed
again: it will never fire.
-/

/-- Nothing will ever resume `t`: no live trigger has a callback for it, no live queue entry. -/
def Det (D : Trig → Prop) (w : World) (t : Nat) : Prop :=
  (∀ g h, (h, t) ∈ w.cbs g → D g) ∧ (∀ e ∈ w.queue, e.task = t → e.cancelled = true)

structure TOk (D : Trig → Prop) (w : World) (t : Nat) : Prop where
  reg : ∀ g h, (h, t) ∈ w.cbs g → ¬ D g → (w.task t).state = .pending ∧ (w.task t).tcb = some (g, h)
  pend : (w.task t).state = .pending → ∃ g h, (w.task t).tcb = some (g, h) ∧ (h, t) ∈ w.cbs g
  live : ∀ e ∈ w.queue, e.task = t → e.cancelled = false →
    (w.task t).state = .scheduled ∧ (w.task t).scb = some e.id
  sched : (w.task t).state = .scheduled →
    ∃ e ∈ w.queue, e.task = t ∧ e.cancelled = false ∧ (w.task t).scb = some e.id

/-- A dead trigger is simulator-backed and still has a callback no waiting task knows of. -/
def DeadOk (D : Trig → Prop) (w : World) (X : List Nat) : Prop :=
  ∀ g, D g → (∃ n, g = .gpi n) ∧ ∃ h t, (h, t) ∈ w.cbs g ∧
    ∀ u, u ∉ X → (w.task u).state = .pending → (w.task u).tcb ≠ some (g, h)

/-- The wait invariant, except for the tasks of `X`, which are detached. -/
structure Inv (D : Trig → Prop) (w : World) (X : List Nat) : Prop where
  ok : ∀ t, t ∉ X → TOk D w t
  det : ∀ t, t ∈ X → Det D w t
  hnd : ∀ g, ((w.cbs g).map Prod.fst).Nodup
  hlt : ∀ g p, p ∈ w.cbs g → p.1 < w.nHandle
  qnd : (w.queue.map Entry.id).Nodup
  qlt : ∀ e ∈ w.queue, e.id < w.nEntry
  dead : DeadOk D w X

variable {D : Trig → Prop}

theorem DeadOk.mono {w w' : World} {X X'} (h : DeadOk D w X)
    (hc : ∀ g, D g → ∀ p ∈ w.cbs g, p ∈ w'.cbs g)
    (hp : ∀ u, u ∉ X' → (w'.task u).state = .pending →
      u ∉ X ∧ (w.task u).state = .pending ∧ (w'.task u).tcb = (w.task u).tcb) :
    DeadOk D w' X' := by
  intro g hg
  obtain ⟨h1, hh, t, h2, h3⟩ := h g hg
  refine ⟨h1, hh, t, hc g hg _ h2, fun u hu hs => ?_⟩
  obtain ⟨a1, a2, a3⟩ := hp u hu hs
  rw [a3]; exact h3 u a1 a2

def Waiting (s : TState) : Prop := s = .pending ∨ s = .scheduled

theorem Inv.congr {w w' : World} {X} (h : Inv D w X) (ht : w'.task = w.task) (hc : w'.cbs = w.cbs)
    (hq : w'.queue = w.queue) (hn : w'.nEntry = w.nEntry) (hh : w'.nHandle = w.nHandle) :
    Inv D w' X := by
  obtain ⟨a, b, c, d, e, f, hdd⟩ := h
  refine ⟨fun t ht' => ?_, fun t ht' => ?_, ?_, ?_, ?_, ?_,
    hdd.mono (by rw [hc]; exact fun _ _ _ h => h) (by rw [ht]; exact fun u hu hs => ⟨hu, hs, rfl⟩)⟩
  · obtain ⟨a1, a2, a3, a4⟩ := a t ht'
    exact ⟨by rw [hc, ht]; exact a1, by rw [hc, ht]; exact a2, by rw [hq, ht]; exact a3,
      by rw [hq, ht]; exact a4⟩
  · have := b t ht'
    unfold Det at this ⊢
    rw [hc, hq]; exact this
  · rw [hc]; exact c
  · rw [hc, hh]; exact d
  · rw [hq]; exact e
  · rw [hq, hn]; exact f

theorem TOk.det {w : World} {t : Nat} (h : TOk D w t) (hs : ¬ Waiting (w.task t).state) : Det D w t := by
  refine ⟨fun g hh hm => Classical.byContradiction fun hD => hs (Or.inl (h.reg g hh hm hD).1),
    fun e he ht => ?_⟩
  cases hc : e.cancelled
  · exact absurd (Or.inr (h.live e he ht hc).1) hs
  · rfl

theorem Inv.addX {w : World} {X t} (h : Inv D w X) (hs : ¬ Waiting (w.task t).state) :
    Inv D w (t :: X) := by
  refine ⟨fun t' ht' => h.ok t' (by grind), fun t' ht' => ?_, h.hnd, h.hlt, h.qnd, h.qlt,
    h.dead.mono (fun _ _ _ h => h) fun u hu hs => ⟨by grind, hs, rfl⟩⟩
  by_cases hX : t' ∈ X
  · exact h.det t' hX
  · rcases List.mem_cons.1 ht' with rfl | h'
    · exact (h.ok _ hX).det hs
    · exact h.det t' h'

theorem Inv.scheduleResume {w : World} {X t e} (h : Inv D w (t :: X)) (hX : t ∉ X) :
    Inv D (scheduleResume w t e) X := by
  have hd := h.det t (by simp)
  refine ⟨fun t' ht' => ?_, fun t' ht' => ?_, h.hnd, h.hlt, ?_, ?_,
    h.dead.mono (fun _ _ _ h => h) fun u hu hs => ?_⟩
  · by_cases he : t' = t
    · subst he
      refine ⟨?_, ?_, ?_, ?_⟩
      · intro g hh hm hD; exact absurd (hd.1 g hh hm) hD
      · intro hs; simp [Sched.scheduleResume, upd] at hs
      · intro e' he' ht hc
        simp only [Sched.scheduleResume, List.mem_append, List.mem_singleton] at he'
        rcases he' with he' | rfl
        · have := hd.2 e' he' ht; simp [this] at hc
        · simp [Sched.scheduleResume, upd]
      · intro _
        exact ⟨⟨w.nEntry, t', false⟩, by simp [Sched.scheduleResume, upd]⟩
    · obtain ⟨a1, a2, a3, a4⟩ := h.ok t' (by grind)
      refine ⟨?_, ?_, ?_, ?_⟩ <;> simp only [Sched.scheduleResume, upd_ne _ _ he]
      · exact a1
      · exact a2
      · intro e' he'
        simp only [List.mem_append, List.mem_singleton] at he'
        rcases he' with he' | rfl
        · exact a3 e' he'
        · intro h'; exact absurd h'.symm he
      · intro hs; obtain ⟨e', h1, h2⟩ := a4 hs
        exact ⟨e', by simp [h1], h2⟩
  · have := h.det t' (by simp [ht'])
    refine ⟨this.1, fun e' he' ht => ?_⟩
    simp only [Sched.scheduleResume, List.mem_append, List.mem_singleton] at he'
    rcases he' with he' | rfl
    · exact this.2 e' he' ht
    · simp at ht; subst ht; exact absurd ht' hX
  · simp only [Sched.scheduleResume, List.map_append, List.map_cons, List.map_nil]
    have := h.qnd
    have := h.qlt
    grind
  · intro e' he'
    simp only [Sched.scheduleResume, List.mem_append, List.mem_singleton] at he' ⊢
    have := h.qlt
    grind
  · by_cases he : u = t
    · subst he; simp [Sched.scheduleResume, upd_self] at hs
    · simp only [Sched.scheduleResume, upd_ne _ _ he] at hs ⊢
      exact ⟨by grind, hs, trivial⟩

theorem Inv.scheduleLeft {w : World} {X t} (h : Inv D w (t :: X)) (hX : t ∉ X) :
    Inv D (scheduleLeft w t) X := by
  have hd := h.det t (by simp)
  refine ⟨fun t' ht' => ?_, fun t' ht' => ?_, h.hnd, h.hlt, ?_, ?_,
    h.dead.mono (fun _ _ _ h => h) fun u hu hs => ?_⟩
  · by_cases he : t' = t
    · subst he
      refine ⟨?_, ?_, ?_, ?_⟩
      · intro g hh hm hD; exact absurd (hd.1 g hh hm) hD
      · intro hs; simp [Sched.scheduleLeft, upd] at hs
      · intro e' he' ht hc
        simp only [Sched.scheduleLeft, List.mem_cons] at he'
        rcases he' with rfl | he'
        · simp [Sched.scheduleLeft, upd]
        · have := hd.2 e' he' ht; simp [this] at hc
      · intro _
        exact ⟨⟨w.nEntry, t', false⟩, by simp [Sched.scheduleLeft, upd]⟩
    · obtain ⟨a1, a2, a3, a4⟩ := h.ok t' (by grind)
      refine ⟨?_, ?_, ?_, ?_⟩ <;> simp only [Sched.scheduleLeft, upd_ne _ _ he]
      · exact a1
      · exact a2
      · intro e' he'
        simp only [List.mem_cons] at he'
        rcases he' with rfl | he'
        · intro h'; exact absurd h'.symm he
        · exact a3 e' he'
      · intro hs; obtain ⟨e', h1, h2⟩ := a4 hs
        exact ⟨e', by simp [h1], h2⟩
  · have := h.det t' (by simp [ht'])
    refine ⟨this.1, fun e' he' ht => ?_⟩
    simp only [Sched.scheduleLeft, List.mem_cons] at he'
    rcases he' with rfl | he'
    · simp at ht; subst ht; exact absurd ht' hX
    · exact this.2 e' he' ht
  · simp only [Sched.scheduleLeft, List.map_cons]
    have := h.qnd
    have := h.qlt
    grind
  · intro e' he'
    simp only [Sched.scheduleLeft, List.mem_cons] at he' ⊢
    have := h.qlt
    grind
  · by_cases he : u = t
    · subst he; simp [Sched.scheduleLeft, upd_self] at hs
    · simp only [Sched.scheduleLeft, upd_ne _ _ he] at hs ⊢
      exact ⟨by grind, hs, trivial⟩

theorem Inv.wakeAll {l : List (Nat × Nat)} : ∀ {w : World} {X : List Nat},
    Inv D w (l.map Prod.snd ++ X) → (l.map Prod.snd ++ X).Nodup → Inv D (wakeAll w l) X := by
  induction l with
  | nil => intro w X h _; exact h
  | cons p l ih =>
    intro w X h hnd
    obtain ⟨hh, t⟩ := p
    simp only [List.map_cons, List.cons_append, List.nodup_cons] at h hnd
    exact ih (h.scheduleResume hnd.1) hnd.2

/-- The tasks registered with one trigger are distinct. -/
theorem Inv.regNodup {w : World} {X} (h : Inv D w X) {g : Trig} (hD : ¬ D g) :
    ((w.cbs g).map Prod.snd).Nodup := by
  have h1 := h.hnd g
  have h2 : ∀ p ∈ w.cbs g, ∀ q ∈ w.cbs g, p.2 = q.2 → p.1 = q.1 := by
    rintro ⟨a, t⟩ hp ⟨b, t'⟩ hq rfl
    by_cases hX : t ∈ X
    · exact absurd ((h.det t hX).1 g a hp) hD
    · have e1 := ((h.ok t hX).reg g a hp hD).2
      have e2 := ((h.ok t hX).reg g b hq hD).2
      rw [e1] at e2; simpa using e2
  generalize w.cbs g = l at h1 h2
  induction l with
  | nil => simp
  | cons p l ih =>
    simp only [List.map_cons, List.nodup_cons] at h1 ⊢
    refine ⟨fun hm => ?_, ih h1.2 fun p hp q hq => h2 p (by simp [hp]) q (by simp [hq])⟩
    obtain ⟨q, hq, he⟩ := List.mem_map.1 hm
    exact h1.1 (List.mem_map.2 ⟨q, hq, h2 q (by simp [hq]) p (by simp) he⟩)

theorem Inv.react {w : World} {X} (h : Inv D w X) (hX : X.Nodup) {g : Trig} (hD : ¬ D g) :
    Inv D (react w g) X := by
  have hdis : ∀ t, t ∈ (w.cbs g).map Prod.snd → t ∉ X := by
    intro t ht htX
    obtain ⟨⟨a, t'⟩, hp, rfl⟩ := List.mem_map.1 ht
    exact hD ((h.det t' htX).1 g a hp)
  unfold Sched.react
  apply Inv.wakeAll
  · refine ⟨fun t ht => ?_, fun t ht => ?_, fun g' => ?_, fun g' p hp => ?_, h.qnd, h.qlt,
      h.dead.mono (fun g' hg' p hp => ?_) fun u hu hs => ⟨by grind, hs, rfl⟩⟩
    · obtain ⟨a1, a2, a3, a4⟩ := h.ok t (by grind)
      refine ⟨?_, ?_, a3, a4⟩
      · intro g' hh hm hD'
        by_cases he : g' = g
        · subst he; simp [upd_self] at hm
        · simp only [upd_ne _ _ he] at hm; exact a1 g' hh hm hD'
      · intro hs
        obtain ⟨g', hh, h1, h2⟩ := a2 hs
        refine ⟨g', hh, h1, ?_⟩
        by_cases he : g' = g
        · subst he
          exact absurd (List.mem_append_left X (List.mem_map.2 ⟨(hh, t), h2, rfl⟩)) ht
        · simp only [upd_ne _ _ he]; exact h2
    · by_cases htX : t ∈ X
      · refine ⟨fun g' hh => ?_, (h.det t htX).2⟩
        by_cases he : g' = g
        · subst he; simp [upd_self]
        · simp only [upd_ne _ _ he]; exact (h.det t htX).1 g' hh
      · obtain ⟨⟨a, t'⟩, hp, rfl⟩ := List.mem_map.1 ((List.mem_append.1 ht).resolve_right htX)
        have hok := h.ok t' htX
        have hr := hok.reg g a hp hD
        refine ⟨fun g' hh hm => ?_, fun e he ht => ?_⟩
        · by_cases he : g' = g
          · subst he; simp [upd_self] at hm
          · simp only [upd_ne _ _ he] at hm
            refine Classical.byContradiction fun hD' => ?_
            have := (hok.reg g' hh hm hD').2
            rw [hr.2] at this
            simp at this; exact he this.1.symm
        · cases hc : e.cancelled
          · have := (hok.live e he ht hc).1; rw [hr.1] at this; cases this
          · rfl
    · by_cases he : g' = g
      · subst he; simp [upd_self]
      · simp only [upd_ne _ _ he]; exact h.hnd g'
    · by_cases he : g' = g
      · subst he; simp [upd_self] at hp
      · simp only [upd_ne _ _ he] at hp; exact h.hlt g' p hp
    · have he : g' ≠ g := fun h => hD (h ▸ hg')
      simp only [upd_ne _ _ he]; exact hp
  · rw [List.nodup_append]
    exact ⟨h.regNodup hD, hX, fun a ha b hb hab => hdis a ha (hab ▸ hb)⟩

/-- Changing fields of a task other than those concerning waiting. -/
theorem Inv.setTaskSame {w : World} {X t} {r : TaskRec} (h : Inv D w X)
    (hs : r.state = (w.task t).state) (ht : r.tcb = (w.task t).tcb) (hc : r.scb = (w.task t).scb) :
    Inv D (w.setTask t r) X := by
  refine ⟨fun t' ht' => ?_, h.det, h.hnd, h.hlt, h.qnd, h.qlt,
    h.dead.mono (fun _ _ _ h => h) fun u hu hst => ⟨hu, ?_⟩⟩
  · obtain ⟨a1, a2, a3, a4⟩ := h.ok t' ht'
    by_cases he : t' = t
    · subst he
      refine ⟨?_, ?_, ?_, ?_⟩ <;> simp only [World.setTask, upd_self, hs, ht, hc] <;> assumption
    · refine ⟨?_, ?_, ?_, ?_⟩ <;> simp only [World.setTask, upd_ne _ _ he] <;> assumption
  · by_cases he : u = t
    · subst he; simp only [World.setTask, upd_self, hs, ht] at hst ⊢; exact ⟨hst, trivial⟩
    · simp only [World.setTask, upd_ne _ _ he] at hst ⊢; exact ⟨hst, trivial⟩

/-- A detached task gets a non-waiting state. -/
theorem Inv.setTaskIdle {w : World} {X t} {r : TaskRec} (h : Inv D w (t :: X))
    (hs : ¬ Waiting r.state) : Inv D (w.setTask t r) X := by
  have hd := h.det t (by simp)
  refine ⟨fun t' ht' => ?_, fun t' ht' => h.det t' (by simp [ht']), h.hnd, h.hlt, h.qnd, h.qlt,
    h.dead.mono (fun _ _ _ h => h) fun u hu hst => ?_⟩
  rotate_left
  · by_cases he : u = t
    · subst he; simp only [World.setTask, upd_self] at hst; exact absurd (Or.inl hst) hs
    · simp only [World.setTask, upd_ne _ _ he] at hst ⊢; exact ⟨by grind, hst, trivial⟩
  by_cases he : t' = t
  · subst he
    refine ⟨?_, ?_, ?_, ?_⟩ <;> simp only [World.setTask, upd_self]
    · intro g hh hm hD; exact absurd (hd.1 g hh hm) hD
    · intro h'; exact absurd (Or.inl h') hs
    · intro e he ht hc; have := hd.2 e he ht; simp [this] at hc
    · intro h'; exact absurd (Or.inr h') hs
  · obtain ⟨a1, a2, a3, a4⟩ := h.ok t' (by grind)
    refine ⟨?_, ?_, ?_, ?_⟩ <;> simp only [World.setTask, upd_ne _ _ he] <;> assumption

theorem Inv.cancelEntry {w : World} {X t} (h : Inv D w X) (htX : t ∉ X)
    (hs : (w.task t).state = .scheduled) : Inv D (cancelEntry w (w.task t).scb) (t :: X) := by
  obtain ⟨e0, he0, ht0, hc0, hi0⟩ := (h.ok t htX).sched hs
  have huniq : ∀ e ∈ w.queue, e.id = e0.id → e = e0 := by
    intro e he hid
    have := h.qnd
    generalize w.queue = q at *
    induction q with
    | nil => simp at he
    | cons a q ih => simp only [List.map_cons, List.nodup_cons, List.mem_cons] at *; grind
  have hmem : ∀ e', e' ∈ (Sched.cancelEntry w (w.task t).scb).queue →
      ∃ e ∈ w.queue, e.id = e'.id ∧ e.task = e'.task ∧
        e'.cancelled = (e.cancelled || decide (e = e0)) := by
    intro e' he'
    simp only [Sched.cancelEntry, List.mem_map, hi0] at he'
    obtain ⟨e, he, rfl⟩ := he'
    refine ⟨e, he, ?_⟩
    by_cases hid : e.id = e0.id
    · simp [huniq e he hid]
    · have : e ≠ e0 := fun h => hid (h ▸ rfl)
      simp [hid, this]
  have hpres : ∀ e ∈ w.queue, e ≠ e0 → e ∈ (Sched.cancelEntry w (w.task t).scb).queue := by
    intro e he hne
    simp only [Sched.cancelEntry, List.mem_map, hi0]
    refine ⟨e, he, ?_⟩
    have : e.id ≠ e0.id := fun h => hne (huniq e he h)
    simp [this]
  have hdet : Det D (Sched.cancelEntry w (w.task t).scb) t := by
    refine ⟨fun g hh hm => ?_, fun e' he' ht' => ?_⟩
    · refine Classical.byContradiction fun hD => ?_
      have := ((h.ok t htX).reg g hh hm hD).1; rw [hs] at this; cases this
    · obtain ⟨e, he, h1, h2, h3⟩ := hmem e' he'
      rw [h3]
      cases hc : e.cancelled
      · have := ((h.ok t htX).live e he (h2.trans ht') hc).2
        rw [hi0] at this
        simp only [Option.some.injEq] at this
        simp [huniq e he this.symm]
      · rfl
  refine ⟨fun t' ht' => ?_, fun t' ht' => ?_, h.hnd, h.hlt, ?_, ?_,
    h.dead.mono (fun _ _ _ h => h) fun u hu hst => ⟨by grind, hst, rfl⟩⟩
  · simp only [List.mem_cons, not_or] at ht'
    obtain ⟨a1, a2, a3, a4⟩ := h.ok t' ht'.2
    refine ⟨a1, a2, ?_, ?_⟩
    · intro e' he' ht'' hc
      obtain ⟨e, he, h1, h2, h3⟩ := hmem e' he'
      rw [h3] at hc
      simp only [Bool.or_eq_false_iff] at hc
      rw [← h1]
      exact a3 e he (h2.trans ht'') hc.1
    · intro hs'
      obtain ⟨e, he, h1, h2⟩ := a4 hs'
      exact ⟨e, hpres e he (fun h => ht'.1 (by rw [← h1, h, ht0])), h1, h2⟩
  · rcases List.mem_cons.1 ht' with rfl | ht'
    · exact hdet
    · refine ⟨(h.det t' ht').1, fun e' he' ht'' => ?_⟩
      obtain ⟨e, he, h1, h2, h3⟩ := hmem e' he'
      rw [h3, (h.det t' ht').2 e he (h2.trans ht'')]; rfl
  · have : (Sched.cancelEntry w (w.task t).scb).queue.map Entry.id = w.queue.map Entry.id := by
      simp only [Sched.cancelEntry, List.map_map]
      apply List.map_congr_left
      intro e _; simp only [Function.comp]; split <;> rfl
    rw [this]; exact h.qnd
  · intro e' he'
    obtain ⟨e, he, h1, _⟩ := hmem e' he'
    rw [← h1]; exact h.qlt e he

/-- Removing the registration of a pending task detaches it. -/
theorem Inv.dropCb {w : World} {X t g hh} (h : Inv D w X) (htX : t ∉ X)
    (hs : (w.task t).state = .pending) (hc : (w.task t).tcb = some (g, hh)) :
    Inv D { w with cbs := upd w.cbs g ((w.cbs g).filter (·.1 != hh)) } (t :: X) := by
  obtain ⟨g0, h0, hc0, hm0⟩ := (h.ok t htX).pend hs
  rw [hc] at hc0; simp only [Option.some.injEq, Prod.mk.injEq] at hc0
  obtain ⟨rfl, rfl⟩ := hc0
  have huniq : ∀ p ∈ w.cbs g, p.1 = hh → p.2 = t := by
    intro p hp hid
    have h1 := h.hnd g
    generalize w.cbs g = q at *
    induction q with
    | nil => simp at hp
    | cons a q ih => simp only [List.map_cons, List.nodup_cons, List.mem_cons, List.mem_map] at *; grind
  have hsub : ∀ g' p, p ∈ upd w.cbs g ((w.cbs g).filter (·.1 != hh)) g' → p ∈ w.cbs g' := by
    intro g' p hp
    by_cases he : g' = g
    · subst he; rw [upd_self] at hp; exact (List.mem_filter.1 hp).1
    · rw [upd_ne _ _ he] at hp; exact hp
  refine ⟨fun t' ht' => ?_, fun t' ht' => ?_, fun g' => ?_, fun g' p hp => ?_, h.qnd, h.qlt, ?_⟩
  · simp only [List.mem_cons, not_or] at ht'
    obtain ⟨a1, a2, a3, a4⟩ := h.ok t' ht'.2
    refine ⟨fun g' k hm hD => a1 g' k (hsub _ _ hm) hD, fun hs' => ?_, a3, a4⟩
    obtain ⟨g', k, h1, h2⟩ := a2 hs'
    refine ⟨g', k, h1, ?_⟩
    by_cases he : g' = g
    · subst he
      simp only [upd_self, List.mem_filter]
      refine ⟨h2, ?_⟩
      simp only [bne_iff_ne, ne_eq]
      intro hk; exact ht'.1 (huniq _ h2 hk)
    · simp only [upd_ne _ _ he]; exact h2
  · rcases List.mem_cons.1 ht' with rfl | ht'
    · refine ⟨fun g' k hm => ?_, fun e he ht => ?_⟩
      · refine Classical.byContradiction fun hD => ?_
        have h1 := ((h.ok t' htX).reg g' k (hsub _ _ hm) hD).2
        rw [hc] at h1; simp only [Option.some.injEq, Prod.mk.injEq] at h1
        obtain ⟨rfl, rfl⟩ := h1
        simp [upd_self] at hm
      · cases hcc : e.cancelled
        · have := ((h.ok t' htX).live e he ht hcc).1; rw [hs] at this; cases this
        · rfl
    · exact ⟨fun g' k hm => (h.det t' ht').1 g' k (hsub _ _ hm), (h.det t' ht').2⟩
  · by_cases he : g' = g
    · subst he; simp only [upd_self]
      exact (h.hnd g').sublist (List.filter_sublist.map _)
    · simp only [upd_ne _ _ he]; exact h.hnd g'
  · exact h.hlt g' p (hsub _ _ hp)
  · intro g' hg'
    obtain ⟨d1, k, u, d2, d3⟩ := h.dead g' hg'
    refine ⟨d1, k, u, ?_, fun v hv hvs => d3 v (by grind) hvs⟩
    by_cases he : g' = g
    · subst he
      simp only [upd_self, List.mem_filter]
      refine ⟨d2, ?_⟩
      simp only [bne_iff_ne, ne_eq]
      rintro rfl
      exact d3 t htX hs hc
    · simp only [upd_ne _ _ he]; exact d2

theorem unprime_core {w w' : World} {g : Trig} (h : unprime w g = some w') :
    w'.task = w.task ∧ w'.cbs = w.cbs ∧ w'.queue = w.queue ∧ w'.nEntry = w.nEntry ∧
    w'.nHandle = w.nHandle ∧ w'.stack = w.stack ∧ w'.fired = w.fired ∧ w'.current = w.current ∧
    w'.inside = w.inside ∧ w'.halted = w.halted ∧ w'.nCb = w.nCb := by
  cases g <;> simp only [unprime] at h
  case gpi n => split at h <;> simp_all; subst h; simp
  case lock l n =>
    simp only [Option.some.injEq] at h; subst h
    unfold unprimeLock; split <;> simp [World.setLock, World.addLog]
  all_goals (simp only [Option.some.injEq] at h; subst h; simp)

theorem Inv.deregister {w w' : World} {X t} (h : Inv D w X) (htX : t ∉ X)
    (hs : (w.task t).state = .pending) (hd : deregister w (w.task t).tcb = some w') :
    Inv D w' (t :: X) := by
  obtain ⟨g, hh, hc, hm⟩ := (h.ok t htX).pend hs
  have h1 := h.dropCb htX hs hc
  rw [hc] at hd
  simp only [Sched.deregister] at hd
  split at hd
  · split at hd
    · have := unprime_core hd
      exact h1.congr this.1 this.2.1 this.2.2.1 this.2.2.2.1 this.2.2.2.2.1
    · simp only [Option.some.injEq] at hd; subst hd; exact h1
  · cases hd

/-- `detach` detaches. -/
theorem Inv.detach {w w' : World} {X t} (h : Inv D w X) (htX : t ∉ X)
    (hd : detach w t = some w') : Inv D w' (t :: X) := by
  unfold Sched.detach at hd
  split at hd
  · rename_i hs; exact h.deregister htX hs hd
  · rename_i hs
    simp only [Option.some.injEq] at hd; subst hd
    exact h.cancelEntry htX hs
  · rename_i h1 h2
    simp only [Option.some.injEq] at hd; subst hd
    apply h.addX
    rintro (h | h)
    · exact h1 h
    · exact h2 h

theorem Inv.pop {w : World} {X e rest} (h : Inv D w X) (htX : e.task ∉ X)
    (hq : w.queue = e :: rest) (hc : e.cancelled = false) :
    Inv D { w with queue := rest } (e.task :: X) := by
  have hs := (h.ok _ htX).live e (by simp [hq]) rfl hc
  have hqn := h.qnd
  rw [hq] at hqn
  simp only [List.map_cons, List.nodup_cons, List.mem_map] at hqn
  refine ⟨fun t' ht' => ?_, fun t' ht' => ?_, h.hnd, h.hlt, hqn.2, fun e' he' => h.qlt e' (by simp [hq, he']),
    h.dead.mono (fun _ _ _ h => h) fun u hu hst => ⟨by grind, hst, rfl⟩⟩
  · simp only [List.mem_cons, not_or] at ht'
    obtain ⟨a1, a2, a3, a4⟩ := h.ok t' ht'.2
    refine ⟨a1, a2, fun e' he' => a3 e' (by simp [hq]; exact Or.inr he'), fun hs' => ?_⟩
    obtain ⟨e', he', h1, h2⟩ := a4 hs'
    rw [hq, List.mem_cons] at he'
    rcases he' with rfl | he'
    · exact absurd h1.symm ht'.1
    · exact ⟨e', he', h1, h2⟩
  · rcases List.mem_cons.1 ht' with rfl | ht'
    · refine ⟨fun g k hm => ?_, fun e' he' ht => ?_⟩
      · refine Classical.byContradiction fun hD => ?_
        have := ((h.ok _ htX).reg g k hm hD).1; rw [hs.1] at this; cases this
      · cases hcc : e'.cancelled
        · have := ((h.ok _ htX).live e' (by simp [hq]; exact Or.inr he') ht hcc).2
          rw [hs.2] at this; simp only [Option.some.injEq] at this
          exact absurd ⟨e', he', this.symm⟩ hqn.1
        · rfl
    · exact ⟨(h.det t' ht').1, fun e' he' => (h.det t' ht').2 e' (by simp [hq]; exact Or.inr he')⟩

theorem Inv.popCancelled {w : World} {X e rest} (h : Inv D w X)
    (hq : w.queue = e :: rest) (hc : e.cancelled = true) :
    Inv D { w with queue := rest } X := by
  have hqn := h.qnd
  rw [hq] at hqn
  simp only [List.map_cons, List.nodup_cons, List.mem_map] at hqn
  refine ⟨fun t' ht' => ?_, fun t' ht' => ?_, h.hnd, h.hlt, hqn.2, fun e' he' => h.qlt e' (by simp [hq, he']),
    h.dead.mono (fun _ _ _ h => h) fun u hu hst => ⟨by grind, hst, rfl⟩⟩
  · obtain ⟨a1, a2, a3, a4⟩ := h.ok t' ht'
    refine ⟨a1, a2, fun e' he' => a3 e' (by simp [hq]; exact Or.inr he'), fun hs' => ?_⟩
    obtain ⟨e', he', h1, h2⟩ := a4 hs'
    rw [hq, List.mem_cons] at he'
    rcases he' with rfl | he'
    · simp [hc] at h2
    · exact ⟨e', he', h1, h2⟩
  · exact ⟨(h.det t' ht').1, fun e' he' => (h.det t' ht').2 e' (by simp [hq]; exact Or.inr he')⟩

/-- Nothing is claimed about the fields of a detached task. -/
theorem Inv.setTaskX {w : World} {X t} {r : TaskRec} (h : Inv D w X) (ht : t ∈ X) :
    Inv D (w.setTask t r) X := by
  refine ⟨fun t' ht' => ?_, h.det, h.hnd, h.hlt, h.qnd, h.qlt,
    h.dead.mono (fun _ _ _ h => h) fun u hu hst => ?_⟩
  rotate_left
  · have he : u ≠ t := fun h => hu (h ▸ ht)
    simp only [World.setTask, upd_ne _ _ he] at hst ⊢; exact ⟨hu, hst, trivial⟩
  obtain ⟨a1, a2, a3, a4⟩ := h.ok t' ht'
  have he : t' ≠ t := fun h => ht' (h ▸ ht)
  refine ⟨?_, ?_, ?_, ?_⟩ <;> simp only [World.setTask, upd_ne _ _ he] <;> assumption

/-- Registration before `_prime`: the task becomes pending on `g`. -/
theorem Inv.addCb {w : World} {X t g} {r : TaskRec} (h : Inv D w (t :: X)) (htX : t ∉ X)
    (hs : r.state = .pending) (hc : r.tcb = some (g, w.nHandle)) :
    Inv D { w with
          cbs := upd w.cbs g (w.cbs g ++ [(w.nHandle, t)])
          nHandle := w.nHandle + 1
          task := upd w.task t r } X := by
  have hd := h.det t (by simp)
  have hmem : ∀ g' k t', (k, t') ∈ upd w.cbs g (w.cbs g ++ [(w.nHandle, t)]) g' ↔
      (k, t') ∈ w.cbs g' ∨ (g' = g ∧ k = w.nHandle ∧ t' = t) := by
    intro g' k t'
    by_cases he : g' = g
    · subst he; simp [upd_self]
    · simp [upd_ne _ _ he, he]
  refine ⟨fun t' ht' => ?_, fun t' ht' => ?_, fun g' => ?_, fun g' p hp => ?_, h.qnd, h.qlt, ?_⟩
  · by_cases he : t' = t
    · subst he
      refine ⟨?_, ?_, ?_, ?_⟩ <;> simp only [upd_self, hs, hc]
      · intro g' k hm hD
        rcases (hmem _ _ _).1 hm with hm | ⟨rfl, rfl, -⟩
        · exact absurd (hd.1 g' k hm) hD
        · simp
      · intro _; exact ⟨g, w.nHandle, rfl, (hmem _ _ _).2 (Or.inr ⟨rfl, rfl, rfl⟩)⟩
      · intro e he ht hcc; have := hd.2 e he ht; simp [this] at hcc
      · intro h'; cases h'
    · obtain ⟨a1, a2, a3, a4⟩ := h.ok t' (by grind)
      refine ⟨?_, ?_, ?_, ?_⟩ <;> simp only [upd_ne _ _ he]
      · intro g' k hm hD
        rcases (hmem _ _ _).1 hm with hm | ⟨-, -, h3⟩
        · exact a1 g' k hm hD
        · exact absurd h3 he
      · intro hs'
        obtain ⟨g', k, h1, h2⟩ := a2 hs'
        exact ⟨g', k, h1, (hmem _ _ _).2 (Or.inl h2)⟩
      · exact a3
      · exact a4
  · have := h.det t' (by simp [ht'])
    refine ⟨fun g' k hm => ?_, this.2⟩
    rcases (hmem _ _ _).1 hm with hm | ⟨-, -, rfl⟩
    · exact this.1 g' k hm
    · exact absurd ht' htX
  · by_cases he : g' = g
    · subst he
      simp only [upd_self, List.map_append, List.map_cons, List.map_nil]
      have h1 := h.hnd g'
      have h2 : ∀ x ∈ (w.cbs g').map Prod.fst, x < w.nHandle := by
        intro x hx; obtain ⟨p, hp, rfl⟩ := List.mem_map.1 hx; exact h.hlt g' p hp
      grind
    · simp only [upd_ne _ _ he]; exact h.hnd g'
  · obtain ⟨k, t'⟩ := p
    rcases (hmem _ _ _).1 hp with hm | ⟨-, h2, -⟩
    · exact Nat.lt_succ_of_lt (h.hlt g' _ hm)
    · subst h2; exact Nat.lt_succ_self _
  · intro g' hg'
    obtain ⟨d1, k, u, d2, d3⟩ := h.dead g' hg'
    refine ⟨d1, k, u, (hmem _ _ _).2 (Or.inl d2), fun v hv hvs => ?_⟩
    by_cases he : v = t
    · subst he
      simp only [upd_self, hc]
      have := h.hlt g' _ d2
      simp only [ne_eq, Option.some.injEq, Prod.mk.injEq, not_and]
      intro _ hk; subst hk; simp at this
    · simp only [upd_ne _ _ he] at hvs ⊢
      exact d3 v (by grind) hvs

theorem Inv.gpiDead {w : World} {X g} (h : Inv D w X) (hg : ∀ n, g ≠ .gpi n) : ¬ D g :=
  fun hD => (h.dead g hD).1.elim fun n hn => hg n hn

theorem Inv.acquireAndFire {w : World} {X} (h : Inv D w X) (hX : X.Nodup) (l n : Nat)
    (hD : ¬ D (.lock l n)) :
    Inv D (acquireAndFire w l n) X :=
  Inv.react (w := (w.setLock l { w.lock l with current := some n }).addLog (.grant l n))
    (h.congr rfl rfl rfl rfl rfl) hX hD

theorem Inv.primeLock {w : World} {X} (h : Inv D w X) (hX : X.Nodup) (l n : Nat)
    (hD : ¬ D (.lock l n)) :
    Inv D (primeLock w l n) X := by
  unfold Sched.primeLock
  split
  · exact h.acquireAndFire hX l n hD
  · exact h.congr rfl rfl rfl rfl rfl

theorem Inv.prime {w w' : World} {X g fails} (h : Inv D w X) (hX : X.Nodup)
    (hp : prime w g fails = some w') : Inv D w' X := by
  cases g <;> simp only [Sched.prime] at hp
  case gpi n =>
    split at hp
    · cases hp
    · simp only [Option.some.injEq] at hp; subst hp; exact h.congr rfl rfl rfl rfl rfl
  case lock l n =>
    simp only [Option.some.injEq] at hp; subst hp
    exact Inv.primeLock (w := w.addLog (.req l n)) (h.congr rfl rfl rfl rfl rfl) hX l n
      (h.gpiDead (by simp))
  case null n => simp only [Option.some.injEq] at hp; subst hp; exact h.react hX (h.gpiDead (by simp))
  all_goals
    simp only [Option.some.injEq] at hp; subst hp
    split
    · exact h.react hX (h.gpiDead (by simp))
    · exact h

theorem prime_ok (w : World) (g : Trig) : ∃ w', prime w g false = some w' := by
  cases g <;> simp [prime]

theorem Inv.register {w : World} {t g} (h : Inv D w [t]) (hs : (w.task t).state = .pending) :
    Inv D (register w g t false) [] := by
  have h1 := h.addCb (X := []) (g := g) (r := { w.task t with tcb := some (g, w.nHandle) })
    (by simp) hs rfl
  unfold Sched.register
  dsimp only
  split
  · generalize hw : (World.mk _ _ _ _ _ _ _ _ _ _ _ _ _ _) = w1 at h1 ⊢
    obtain ⟨w2, h2⟩ := prime_ok w1 g
    rw [h2]
    exact h1.prime (by simp) h2
  · exact h1

theorem not_waiting_of_done {s : TState} (h : s.isDone = true) : ¬ Waiting s := by
  rintro (rfl | rfl) <;> cases h

theorem Inv.setOutcome {w : World} {t s o how} (h : Inv D w [t]) (hs : s.isDone = true) :
    Inv D (setOutcome w t s o how) [] :=
  (h.setTaskIdle (r := { w.task t with state := s, outcome := some o })
    (not_waiting_of_done hs)).congr rfl rfl rfl rfl rfl

theorem Inv.resume {w : World} {t} (h : Inv D w [t]) : Inv D (resume w t) [] :=
  (h.setTaskIdle (r := { w.task t with state := .running })
    (by rintro (h | h) <;> cases h)).congr rfl rfl rfl rfl rfl

theorem Inv.bumpCancel {w : World} {X t} (h : Inv D w X) : Inv D (bumpCancel w t) X :=
  h.setTaskSame rfl rfl rfl

theorem Inv.log {w : World} {X} (h : Inv D w X) (o : Obs) : Inv D (w.addLog o) X :=
  h.congr rfl rfl rfl rfl rfl

/-- How a coroutine giving control back ends its task, if it does; `m` is `_must_cancel`. -/
def coroEnd (m : Nat) : Act → Option (TState × Outcome × How)
  | .await _ _ => if m > 0 then some (.errored, .exc .runtimeError, .resume) else none
  | .yieldBad => if m > 0 then some (.errored, .exc .runtimeError, .resume) else none
  | .ret v => if m > 0 then some (.errored, .exc .runtimeError, .resume)
              else some (.finished, .value v, .resume)
  | .raise (.fatal n) => some (.errored, .exc (.fatal n), .fatal)
  | .raise .cancelled => some (.cancelled, .exc .cancelled, .resume)
  | .raise e => if m > 0 then some (.errored, .exc .runtimeError, .resume)
              else some (.errored, .exc e, .resume)
  | _ => none

theorem coroEnd_done {m a s o how} (h : coroEnd m a = some (s, o, how)) : s.isDone = true := by
  unfold coroEnd at h
  repeat' split at h
  all_goals simp_all
  all_goals (obtain ⟨rfl, -⟩ := h; rfl)

/-- The leaves of `exec`, except the one where the simulator refuses to arm a callback. -/
inductive Step (w : World) : Act → World → Res → Prop
  | enter (hi : w.inside = false) : Step w .enter { w with inside := true } .ok
  | fire (n : Nat) (hi : w.inside = false) (hp : w.primed n = true) :
    Step w (.fire n) (react ({ w with primed := upd w.primed n false, inside := true }.addLog (.fire n)) (.gpi n)) .ok
  | popCancelled (e : Entry) (rest : List Entry) (hi : w.inside = true) (hst : w.stack = [])
      (hq : w.queue = e :: rest) (hc : e.cancelled = true) :
    Step w .pop { w with queue := rest } .ok
  | popRun (e : Entry) (rest : List Entry) (hi : w.inside = true) (hst : w.stack = [])
      (hq : w.queue = e :: rest) (hc : e.cancelled = false) :
    Step w .pop (resume { w with queue := rest } e.task) .ok
  | exit (hi : w.inside = true) (hst : w.stack = []) (hq : w.queue = []) :
    Step w .exit { w with inside := false } .ok
  | nop (a : Act) (r : Res) (hi : w.inside = true) (hr : r ≠ .bool true) : Step w a w r
  | startSoon (t : Nat) (hi : w.inside = true) (hs : (w.task t).state = .unstarted) :
    Step w (.startSoon t) ((scheduleResume w t none).addLog (.start t)) .ok
  | startNext (t : Nat) (hi : w.inside = true) (hs : (w.task t).state = .unstarted) :
    Step w (.startNext t) ((scheduleLeft w t).addLog (.start t)) .ok
  | cancelPending (t : Nat) (w1 : World) (hi : w.inside = true) (hs : (w.task t).state = .pending)
      (hd : deregister w (w.task t).tcb = some w1) :
    Step w (.cancel t) (bumpCancel (scheduleResume w1 t (some .cancelled)) t) (.bool true)
  | cancelScheduled (t : Nat) (hi : w.inside = true) (hs : (w.task t).state = .scheduled) :
    Step w (.cancel t) (bumpCancel (w.setTask t { w.task t with exc := some .cancelled }) t)
      (.bool true)
  | cancelUnstarted (t : Nat) (hi : w.inside = true) (hs : (w.task t).state = .unstarted) :
    Step w (.cancel t) ((bumpCancel (scheduleResume w t (some .cancelled)) t).addLog (.start t))
      (.bool true)
  | kill (t : Nat) (w1 : World) (hi : w.inside = true) (hnd : (w.task t).state.isDone = false)
      (hnr : (w.task t).state ≠ .running) (hd : detach w t = some w1) :
    Step w (.kill t) (setOutcome w1 t .finished .noneKilled .kill) .ok
  | cancelNow (t : Nat) (w1 : World) (hi : w.inside = true)
      (hnd : (w.task t).state.isDone = false) (hnr : (w.task t).state ≠ .running)
      (hd : detach (if (w.task t).state = .unstarted then w.addLog (.start t) else w) t = some w1) :
    Step w (.cancelNow t) (resume ((bumpCancel w1 t).setTask t
        { (bumpCancel w1 t).task t with exc := some .cancelled }) t) (.bool true)
  | uncancel (t : Nat) (hi : w.inside = true) : Step w (.uncancel t) (uncancel w t) .ok
  | addCbDone (t : Nat) (hi : w.inside = true) (hs : (w.task t).state.isDone = true) :
    Step w (.addCb t) { w with
      log := w.log ++ [.regCb t w.nCb, .doneCb t w.nCb]
      task := upd w.task t { w.task t with doneCbs := (w.task t).doneCbs ++ [w.nCb] }
      nCb := w.nCb + 1 } .ok
  | addCb (t : Nat) (hi : w.inside = true) (hs : (w.task t).state.isDone = false) :
    Step w (.addCb t) { w with
      log := w.log ++ [.regCb t w.nCb]
      task := upd w.task t { w.task t with doneCbs := (w.task t).doneCbs ++ [w.nCb] }
      nCb := w.nCb + 1 } .ok
  | setE (e : Nat) (hi : w.inside = true) : Step w (.setE e) (setEvent w e) .ok
  | clearE (e : Nat) (hi : w.inside = true) : Step w (.clearE e) (clearEvent w e) .ok
  | release (l m : Nat) (hi : w.inside = true) (hc : (w.lock l).current = some m)
      (hp : (w.lock l).pending = []) :
    Step w (.release l) ((w.setLock l { w.lock l with current := none }).addLog (.rel l)) .ok
  | releaseGrant (l m n : Nat) (ns : List Nat) (hi : w.inside = true)
      (hc : (w.lock l).current = some m) (hp : (w.lock l).pending = n :: ns) :
    Step w (.release l) (acquireAndFire
      (((w.setLock l { w.lock l with current := none }).addLog (.rel l)).setLock l
        { current := none, pending := ns }) l n) .ok
  | await (t : Nat) (rest : List Frame) (g : Trig) (fails : Bool) (hi : w.inside = true)
      (hst : w.stack = .running t :: rest) (hr : awaitRefused w g = false)
      (hm : (w.task t).mustCancel = 0) :
    Step w (.await g fails)
      { register ((World.setTask { w with stack := rest } t
          { w.task t with state := .pending }).addLog (.suspend t g)) g t false
        with current := none } .ok
  | yieldBad (t : Nat) (rest : List Frame) (hi : w.inside = true)
      (hst : w.stack = .running t :: rest) (hm : (w.task t).mustCancel = 0) :
    Step w .yieldBad
      { scheduleResume (World.addLog { w with stack := rest } (.suspendBad t)) t
          (some .typeError) with current := none } .ok
  | finish (a : Act) (t : Nat) (rest : List Frame) (s : TState) (o : Outcome) (how : How)
      (hi : w.inside = true) (hst : w.stack = .running t :: rest)
      (he : coroEnd (w.task t).mustCancel a = some (s, o, how)) :
    Step w a (setOutcome { w with stack := rest } t s o how) .ok
  | cbNext (t i : Nat) (how : How) (rest : List Frame) (c : Nat) (hi : w.inside = true)
      (hst : w.stack = .finishing t i how :: rest) (hc : (w.task t).doneCbs[i]? = some c) :
    Step w .cbStep
      (World.addLog { w with stack := .finishing t (i + 1) how :: rest } (.doneCb t c)) .ok
  | cbEnd (t i : Nat) (how : How) (rest : List Frame) (hi : w.inside = true)
      (hst : w.stack = .finishing t i how :: rest) (hc : (w.task t).doneCbs[i]? = none) :
    Step w .cbStep (finishEnd { w with stack := rest } t how) .ok

/-- Task `t` awaits simulator-backed trigger `n`, and the simulator refuses to arm it. -/
def failWorld (w : World) (t : Nat) (rest : List Frame) (n : Nat) : World :=
  { scheduleResume { w with
      stack := rest
      log := w.log ++ [.suspend t (.gpi n)]
      cbs := upd w.cbs (.gpi n) [(w.nHandle, t)]
      nHandle := w.nHandle + 1
      task := upd w.task t { w.task t with state := .pending, tcb := some (.gpi n, w.nHandle) } }
    t (some .primeError) with current := none }

inductive FailStep (w : World) : Act → World → Res → Prop
  | mk (t : Nat) (rest : List Frame) (n : Nat) (hi : w.inside = true)
      (hst : w.stack = .running t :: rest) (hm : (w.task t).mustCancel = 0)
      (hc : w.cbs (.gpi n) = []) :
    FailStep w (.await (.gpi n) true) (failWorld w t rest n) .ok

theorem register_true (w : World) (g : Trig) (t : Nat) :
    (∃ n, g = .gpi n ∧ w.cbs g = []) ∨ register w g t true = register w g t false := by
  by_cases hc : w.cbs g = []
  · cases g
    case gpi n => exact Or.inl ⟨n, rfl, hc⟩
    all_goals
      right
      unfold register
      simp only [hc, List.isEmpty_nil, if_true, prime]
  · right
    unfold register
    have : (w.cbs g).isEmpty = false := by simpa using hc
    simp only [this, Bool.false_eq_true, if_false]

theorem register_fail (w : World) (t : Nat) (rest : List Frame) (n : Nat)
    (hc : w.cbs (.gpi n) = []) :
    { register ((World.setTask { w with stack := rest } t
          { w.task t with state := .pending }).addLog (.suspend t (.gpi n))) (.gpi n) t true
        with current := none } = failWorld w t rest n := by
  have hupd : ∀ (r r' : TaskRec), upd (upd w.task t r) t r' = upd w.task t r' := by
    intro r r'; funext u; unfold upd; split <;> rfl
  simp [register, World.setTask, World.addLog, hc, prime, failWorld, upd_self, hupd]

theorem finishRaise_step {w : World} {t rest} (e : Exc) (hi : w.inside = true)
    (hst : w.stack = .running t :: rest) :
    Step w (.raise e) (finishRaise { w with stack := rest } t e) .ok := by
  cases e <;> simp only [finishRaise]
  case fatal n => exact .finish _ t rest _ _ _ hi hst rfl
  case cancelled => exact .finish _ t rest _ _ _ hi hst rfl
  all_goals
    split
    · rename_i hm
      exact .finish _ t rest _ _ _ hi hst (by simp [coroEnd, hm])
    · rename_i hm
      exact .finish _ t rest _ _ _ hi hst (by simp [coroEnd, hm])

theorem exec_step_noFail {w w' : World} {a : Act} {r : Res} (he : exec w a = some (w', r))
    (hnf : a.noFail = true) : w.halted = false ∧ Step w a w' r := by
  unfold Sched.exec at he
  split at he
  · cases he
  rename_i hh
  refine ⟨by simpa using hh, ?_⟩
  split at he
  · cases he; exact .enter ‹_›
  · split at he
    · cases he; exact .fire _ ‹_› ‹_›
    · cases he
  · split at he
    · rename_i e rest hst hq
      split at he
      · rename_i hc
        cases he; exact .popCancelled e rest ‹_› hst hq hc
      · rename_i hc
        cases he
        exact .popRun e rest ‹_› hst hq (by simpa using hc)
    · cases he
  · split at he
    · rename_i h; cases he; exact .exit ‹_› h.1 h.2
    · cases he
  · rename_i t hi
    simp only [Option.some.injEq, startSoon] at he
    split at he
    · cases he; exact .nop _ _ hi (by simp)
    · rename_i hs
      simp only [ne_eq, Decidable.not_not] at hs
      cases he; exact .startSoon t hi hs
  · rename_i t hi
    simp only [Option.some.injEq, startNext] at he
    split at he
    · cases he; exact .nop _ _ hi (by simp)
    · rename_i hs
      simp only [ne_eq, Decidable.not_not] at hs
      cases he; exact .startNext t hi hs
  · rename_i t hi
    simp only [Option.some.injEq, cancel] at he
    split at he
    · cases he; exact .nop _ _ hi (by simp)
    split at he
    · cases he; exact .nop _ _ hi (by simp)
    split at he
    · rename_i hs
      split at he
      · cases he; exact .nop _ _ hi (by simp)
      · rename_i w1 hd
        cases he; exact .cancelPending t w1 hi hs hd
    split at he
    · rename_i hs
      cases he; exact .cancelScheduled t hi hs
    · rename_i h1 h2 h3 h4
      cases he
      refine .cancelUnstarted t hi ?_
      revert h1 h2 h3 h4
      cases (w.task t).state <;> simp [TState.isDone]
  · rename_i t hi
    simp only [Option.some.injEq, kill] at he
    split at he
    · cases he; exact .nop _ _ hi (by simp)
    split at he
    · cases he; exact .nop _ _ hi (by simp)
    split at he
    · cases he; exact .nop _ _ hi (by simp)
    · rename_i h1 h2 _ w1 hd
      cases he; exact .kill t w1 hi (by simpa using h1) h2 hd
  · rename_i t hi
    simp only [Option.some.injEq, cancelNow] at he
    split at he
    · cases he; exact .nop _ _ hi (by simp)
    split at he
    · cases he; exact .nop _ _ hi (by simp)
    split at he
    · cases he; exact .nop _ _ hi (by simp)
    · rename_i h1 h2 _ w1 hd
      cases he; exact .cancelNow t w1 hi (by simpa using h1) h2 hd
  · cases he; exact .uncancel _ ‹_›
  · rename_i t hi
    simp only [Option.some.injEq, addDoneCb] at he
    split at he
    · have := Step.addCbDone (w := w) t hi ‹_›
      cases he
      simpa [World.addLog] using this
    · rename_i h1
      cases he; exact .addCb t hi (by simpa using h1)
  · cases he; exact .setE _ ‹_›
  · cases he; exact .clearE _ ‹_›
  · rename_i l hi
    simp only [Option.some.injEq, release] at he
    split at he
    · cases he; exact .nop _ _ hi (by simp)
    · rename_i hc
      obtain ⟨m, hm⟩ := Option.ne_none_iff_exists'.1 hc
      split at he
      · cases he; exact .release l m hi hm ‹_›
      · rename_i n ns hp
        cases he
        have := Step.releaseGrant (w := w) l m n ns hi hm hp
        simpa [World.setLock, World.addLog, upd_self] using this
  · rename_i hi _ _ _ _ _ _ _ _ _ _ _ _
    split at he
    · rename_i t rest hst
      unfold execCoro at he
      split at he
      · rename_i g fails
        simp only [Act.noFail, Bool.not_eq_true'] at hnf
        subst hnf
        split at he
        · cases he; exact .nop _ _ ‹_› (by simp)
        · rename_i hr
          simp only [suspendOn, Option.some.injEq] at he
          split at he
          · rename_i hm
            cases he
            exact .finish _ t rest _ _ _ ‹_› hst (by simp [coroEnd, hm])
          · rename_i hm
            cases he
            exact .await t rest _ _ ‹_› hst (by simpa using hr) (by omega)
      · simp only [suspendBad, Option.some.injEq] at he
        split at he
        · rename_i hm
          cases he
          exact .finish _ t rest _ _ _ ‹_› hst (by simp [coroEnd, hm])
        · rename_i hm
          cases he
          exact .yieldBad t rest ‹_› hst (by omega)
      · simp only [finishRet, Option.some.injEq] at he
        split at he
        · rename_i hm
          cases he
          exact .finish _ t rest _ _ _ ‹_› hst (by simp [coroEnd, hm])
        · rename_i hm
          cases he
          exact .finish _ t rest _ _ _ ‹_› hst (by simp [coroEnd, hm])
      · simp only [Option.some.injEq, Prod.mk.injEq] at he
        obtain ⟨rfl, rfl⟩ := he
        exact finishRaise_step _ ‹_› hst
      · cases he
    · rename_i t i how rest hst
      split at he
      · rename_i ha
        subst ha
        simp only [Option.some.injEq, Prod.mk.injEq] at he
        obtain ⟨rfl, rfl⟩ := he
        unfold Sched.cbStep
        split
        · exact .cbNext t i how rest _ ‹_› hst ‹_›
        · exact .cbEnd t i how rest ‹_› hst ‹_›
      · cases he
    · cases he
  · cases he

theorem Step.await_any {w w' : World} {g : Trig} {r : Res} (h : Step w (.await g false) w' r) :
    Step w (.await g true) w' r := by
  cases h with
  | nop _ _ hi hr => exact .nop _ _ hi hr
  | await t rest _ _ hi hst hr hm => exact .await t rest g true hi hst hr hm
  | finish _ t rest s o how hi hst he => exact .finish _ t rest s o how hi hst he

theorem exec_await {w w' : World} {g : Trig} {r : Res}
    (he : exec w (.await g true) = some (w', r)) :
    exec w (.await g false) = some (w', r) ∨ FailStep w (.await g true) w' r := by
  unfold Sched.exec at he ⊢
  split at he
  · cases he
  rename_i hh
  rw [if_neg hh]
  cases hi : w.inside
  · simp [hi] at he
  · simp only [hi] at he ⊢
    cases hst : w.stack with
    | nil => simp [hst] at he
    | cons f rest =>
      cases f with
      | finishing t i how => simp [hst] at he
      | running t =>
        simp only [hst, execCoro] at he ⊢
        split at he
        · left; rename_i hr; rw [if_pos hr]; exact he
        · rename_i hr
          rw [if_neg hr]
          by_cases hm : (w.task t).mustCancel > 0
          · left
            simpa [suspendOn, hm] using he
          · rcases register_true ((World.setTask { w with stack := rest } t
              { w.task t with state := .pending }).addLog (.suspend t g)) g t with ⟨n, rfl, hc⟩ | hreg
            · right
              have hc : w.cbs (.gpi n) = [] := hc
              have hf := register_fail w t rest n hc
              simp only [suspendOn, hm, if_false, Option.some.injEq, Prod.mk.injEq] at he
              obtain ⟨h1, rfl⟩ := he
              have : w' = failWorld w t rest n := by rw [← hf, ← h1]
              rw [this]
              exact .mk t rest n hi hst (by omega) hc
            · left
              simp only [suspendOn, hm, if_false] at he ⊢
              rw [← he]
              simp only [hreg]

theorem exec_step {w w' : World} {a : Act} {r : Res} (he : exec w a = some (w', r)) :
    w.halted = false ∧ (Step w a w' r ∨ FailStep w a w' r) := by
  cases hn : a.noFail
  · cases a <;> simp [Act.noFail] at hn
    subst hn
    rcases exec_await he with h | h
    · have := exec_step_noFail h rfl
      exact ⟨this.1, Or.inl this.2.await_any⟩
    · refine ⟨?_, Or.inr h⟩
      unfold Sched.exec at he
      split at he
      · cases he
      · rename_i hh; simpa using hh
  · have := exec_step_noFail he hn
    exact ⟨this.1, Or.inl this.2⟩

theorem not_waiting_unstarted : ¬ Waiting .unstarted := by rintro (h | h) <;> cases h
theorem not_waiting_running : ¬ Waiting .running := by rintro (h | h) <;> cases h

theorem Inv.finishEnd {w : World} {t how} (h : Inv D w []) : Inv D (finishEnd w t how) [] := by
  have h1 := (h.react (by simp) (g := .complete t) (h.gpiDead (by simp))).react (by simp)
    (g := .join t) (h.gpiDead (by simp))
  unfold Sched.finishEnd
  dsimp only
  split
  · exact h1
  · exact h1.congr rfl rfl rfl rfl rfl
  · exact h1.congr rfl rfl rfl rfl rfl

/-- One action preserves the wait invariant. -/
theorem Inv.step {w w' : World} {a : Act} {r : Res} (h : Inv D w [])
    (hrun : ∀ t, .running t ∈ w.stack → (w.task t).state = .running)
    (hpr : ∀ n, w.primed n = true → ¬ D (.gpi n)) (he : Step w a w' r) : Inv D w' [] := by
  have hX : ∀ t rest, w.stack = .running t :: rest → Inv D { w with stack := rest } [t] := by
    intro t rest hst
    have hs := hrun t (by simp [hst])
    exact (h.addX (t := t) (by rw [hs]; exact not_waiting_running)).congr rfl rfl rfl rfl rfl
  cases he with
  | enter => exact h.congr rfl rfl rfl rfl rfl
  | fire n hi hp =>
    exact Inv.react (w := ({ w with primed := upd w.primed n false, inside := true }.addLog (.fire n)))
      (h.congr rfl rfl rfl rfl rfl) (by simp) (hpr n hp)
  | popCancelled e rest hi hst hq hc => exact h.popCancelled hq hc
  | popRun e rest hi hst hq hc => exact (h.pop (by simp) hq hc).resume
  | exit => exact h.congr rfl rfl rfl rfl rfl
  | nop => exact h
  | startSoon t hi hs =>
    exact ((h.addX (t := t) (by rw [hs]; exact not_waiting_unstarted)).scheduleResume (by simp)).log _
  | startNext t hi hs =>
    exact ((h.addX (t := t) (by rw [hs]; exact not_waiting_unstarted)).scheduleLeft (by simp)).log _
  | cancelPending t w1 hi hs hd =>
    exact ((h.deregister (by simp) hs hd).scheduleResume (by simp)).bumpCancel
  | cancelScheduled t hi hs => exact Inv.bumpCancel (h.setTaskSame rfl rfl rfl)
  | cancelUnstarted t hi hs =>
    exact (((h.addX (t := t) (by rw [hs]; exact not_waiting_unstarted)).scheduleResume
      (by simp)).bumpCancel).log _
  | kill t w1 hi hnd hnr hd => exact (h.detach (by simp) hd).setOutcome rfl
  | cancelNow t w1 hi hnd hnr hd =>
    have h1 : Inv D w1 [t] := by
      split at hd
      · exact (h.log _).detach (by simp) hd
      · exact h.detach (by simp) hd
    exact (Inv.setTaskSame (t := t) (r := { (Sched.bumpCancel w1 t).task t with
      exc := some .cancelled }) (Inv.bumpCancel (t := t) h1) rfl rfl rfl).resume
  | uncancel => exact h.setTaskSame rfl rfl rfl
  | addCbDone t =>
    exact Inv.congr (h.setTaskSame (t := t)
        (r := { w.task t with doneCbs := (w.task t).doneCbs ++ [w.nCb] }) rfl rfl rfl)
        rfl rfl rfl rfl rfl
  | addCb t =>
    exact Inv.congr (h.setTaskSame (t := t)
        (r := { w.task t with doneCbs := (w.task t).doneCbs ++ [w.nCb] }) rfl rfl rfl)
        rfl rfl rfl rfl rfl
  | setE e =>
    exact Inv.react (w := World.addLog { w with fired := upd w.fired e true } (.setE e))
      (h.congr rfl rfl rfl rfl rfl) (by simp) (h.gpiDead (by simp))
  | clearE => exact h.congr rfl rfl rfl rfl rfl
  | release => exact h.congr rfl rfl rfl rfl rfl
  | releaseGrant l m n ns hi hc hp =>
    exact Inv.acquireAndFire (w := ((w.setLock l { w.lock l with current := none }).addLog
      (.rel l)).setLock l { current := none, pending := ns })
      (h.congr rfl rfl rfl rfl rfl) (by simp) _ _ (h.gpiDead (by simp))
  | await t rest g fails hi hst hr hm =>
    have := Inv.register (t := t) (g := g)
      (w := (World.setTask { w with stack := rest } t
          { w.task t with state := .pending }).addLog (.suspend t g))
      (Inv.log ((hX t rest hst).setTaskX (by simp)) _)
      (by simp [World.addLog, World.setTask, upd_self])
    exact this.congr rfl rfl rfl rfl rfl
  | yieldBad t rest hi hst hm =>
    exact Inv.congr (((hX t rest hst).log (.suspendBad t)).scheduleResume
      (e := some .typeError) (by simp)) rfl rfl rfl rfl rfl
  | finish _ t rest s o how hi hst he => exact (hX t rest hst).setOutcome (coroEnd_done he)
  | cbNext => exact h.congr rfl rfl rfl rfl rfl
  | cbEnd t i how rest hi hst hc =>
    exact Inv.finishEnd (w := { w with stack := rest }) (h.congr rfl rfl rfl rfl rfl)

/-- The trigger the simulator refused to arm is dead from then on. -/
theorem Inv.failStep {w : World} {t rest n} (h : Inv D w [])
    (hs : (w.task t).state = .running) (hst : w.stack = .running t :: rest)
    (hc : w.cbs (.gpi n) = []) :
    Inv (fun g => D g ∨ g = .gpi n) (failWorld w t rest n) [] := by
  have hX := (h.addX (t := t) (by rw [hs]; exact not_waiting_running))
  have h1 := hX.addCb (g := .gpi n)
    (r := { w.task t with state := .pending, tcb := some (.gpi n, w.nHandle) }) (by simp) rfl rfl
  rw [hc, List.nil_append] at h1
  have h2 : Inv (fun g => D g ∨ g = .gpi n) { w with
      cbs := upd w.cbs (.gpi n) [(w.nHandle, t)]
      nHandle := w.nHandle + 1
      task := upd w.task t { w.task t with state := .pending, tcb := some (.gpi n, w.nHandle) } }
      [t] := by
    have hnD : ¬ D (.gpi n) := by
      intro hD; obtain ⟨-, k, u, h2, -⟩ := h.dead _ hD; simp [hc] at h2
    refine ⟨fun u hu => ?_, fun u hu => ?_, h1.hnd, h1.hlt, h1.qnd, h1.qlt, ?_⟩
    · obtain ⟨a1, a2, a3, a4⟩ := h1.ok u (by simp)
      exact ⟨fun g k hm hD => a1 g k hm fun h => hD (Or.inl h), a2, a3, a4⟩
    · simp only [List.mem_singleton] at hu; subst hu
      have ho := h1.ok u (by simp)
      refine ⟨fun g k hm => ?_, fun e he ht => ?_⟩
      · refine Classical.byContradiction fun hD => ?_
        simp only [not_or] at hD
        have := (ho.reg g k hm hD.1).2
        simp only [upd_self, Option.some.injEq, Prod.mk.injEq] at this
        exact hD.2 this.1.symm
      · cases hcc : e.cancelled
        · have := (ho.live e he ht hcc).1
          simp [upd_self] at this
        · rfl
    · intro g hg
      rcases hg with hg | rfl
      · obtain ⟨d1, k, u, d2, d3⟩ := h1.dead g hg
        exact ⟨d1, k, u, d2, fun v hv => d3 v (by simp)⟩
      · refine ⟨⟨n, rfl⟩, w.nHandle, t, by simp [upd_self], fun v hv hvs => ?_⟩
        simp only [List.mem_singleton] at hv
        simp only [upd_ne _ _ hv] at hvs ⊢
        intro hcv
        obtain ⟨g', k, e1, e2⟩ := (h.ok v (by simp)).pend hvs
        rw [hcv] at e1
        simp only [Option.some.injEq, Prod.mk.injEq] at e1
        obtain ⟨rfl, rfl⟩ := e1
        have := h.hlt _ _ e2
        simp at this
  exact (Inv.scheduleResume (e := some .primeError) (h2.congr (w' := { w with
      stack := rest
      log := w.log ++ [.suspend t (.gpi n)]
      cbs := upd w.cbs (.gpi n) [(w.nHandle, t)]
      nHandle := w.nHandle + 1
      task := upd w.task t { w.task t with state := .pending, tcb := some (.gpi n, w.nHandle) } })
    rfl rfl rfl rfl rfl) (by simp)).congr rfl rfl rfl rfl rfl

end Verif.Sched
