import Verif.Model.Verilator
/-!
# C127: phases of a time step with Verilator
-/
namespace Verif

open Veri

/-- Everything that happens in an execution of `n` steps, in order. -/
def Spec.history {σ : Type} (w : World σ) (s : σ) (n : Nat) : List Ev := (run w s n).past.reverse

/-- Time goes on. -/
def Spec.IsAdvance (e : Ev) : Prop := ∃ t, e = .advance t

/-- Something that can change a value or run a callback. -/
def Spec.Activity (e : Ev) : Prop :=
  e = .eval ∨ e = .puts ∨ (∃ b, e = .value b) ∨ (∃ t, e = .timed t) ∨ (∃ c, c ≠ .finish ∧ e = .cbs c)

/-- The settling of value callbacks: called until none is left. -/
inductive Spec.Settled : List Ev → Prop where
  | last : Settled [.value false]
  | more {l : List Ev} : Settled l → Settled (.value true :: l)

/-- One evaluation: evaluate, put the values that wait, settle. -/
def Spec.Evaluation (l : List Ev) : Prop := ∃ v, Settled v ∧ l = [.eval, .clear, .puts] ++ v

/-- Evaluations until no more is needed. -/
inductive Spec.Evaluations : List Ev → Prop where
  | last {a : List Ev} : Evaluation a → Evaluations (a ++ [.need false])
  | more {a l : List Ev} : Evaluation a → Evaluations l → Evaluations (a ++ .need true :: l)

/-- Evaluations, the `ReadWrite` callbacks and the values they write. -/
def Spec.Round (l : List Ev) : Prop := ∃ a v, Evaluations a ∧ Settled v ∧ l = a ++ [.cbs .readWrite, .puts] ++ v

/-- Rounds until no more evaluation is needed. -/
inductive Spec.RoundList : List Ev → Prop where
  | last {a : List Ev} : Round a → RoundList (a ++ [.need false])
  | more {a l : List Ev} : Round a → RoundList l → RoundList (a ++ .need true :: l)

/-- A time step up to its `ReadOnly` phase. -/
def Spec.Body (l : List Ev) : Prop := ∃ r, RoundList r ∧ l = .got false :: r ++ [.endStep, .cbs .readOnly]

/-- What opens the time step at time `t`: `NextTimeStep` callbacks, then timed callbacks. -/
def Spec.Opening (t : Nat) (l : List Ev) : Prop :=
  ∃ u v, Settled u ∧ Settled v ∧ l = [.advance t, .cbs .nextTime] ++ u ++ [.timed t] ++ v

/-- Complete time steps: the first without an opening. -/
inductive Spec.Steps : List Ev → Prop where
  | first {u b : List Ev} : Settled u → Body b → Steps (.cbs .start :: u ++ b)
  | next {l o b : List Ev} {t : Nat} : Steps l → Opening t o → Body b → Steps (l ++ o ++ b)

/-- The beginning of a time step: the start of the simulation, or complete steps and an opening. -/
def Spec.Begun (l : List Ev) : Prop :=
  (∃ u, Settled u ∧ l = .cbs .start :: u) ∨ ∃ l' o t, Steps l' ∧ Opening t o ∧ l = l' ++ o

/-- What an event does to the design. -/
def Spec.effect {σ : Type} (w : World σ) (s : σ) : Ev → σ
  | .cbs c => w.cbs c s
  | .value _ => (w.valueCbs s).1
  | .eval => w.evalStep s
  | .clear => w.clearNeeded s
  | .puts => w.puts s
  | .endStep => w.endStep s
  | .timed t => w.timed t s
  | .final => w.final s
  | .got _ | .need _ | .advance _ => s

/-- What an event says about the design in its state before the event. -/
def Spec.Agrees {σ : Type} (w : World σ) (s : σ) : Ev → Prop
  | .value again => (w.valueCbs s).2 = again
  | .got finished => w.gotFinish s = finished
  | .need again => w.evalNeeded s = again
  | .advance t =>
    (w.deadline s = some t ∨ w.slot s = some t) ∧
      (∀ d, w.deadline s = some d → t ≤ d) ∧ (∀ d, w.slot s = some d → t ≤ d)
  | _ => True

open Spec

/-! ## Sequences in progress -/

/-- Evaluations after each of which another is needed. -/
inductive EvalsSo : List Ev → Prop where
  | nil : EvalsSo []
  | snoc {l a : List Ev} : EvalsSo l → Evaluation a → EvalsSo (l ++ (a ++ [.need true]))

/-- Rounds after each of which another is needed. -/
inductive RoundsSo : List Ev → Prop where
  | nil : RoundsSo []
  | snoc {l a : List Ev} : RoundsSo l → Round a → RoundsSo (l ++ (a ++ [.need true]))

theorem evals_app {l r : List Ev} (hl : EvalsSo l) : Evaluations r → Evaluations (l ++ r) := by
  induction hl generalizing r with
  | nil => intro h; exact h
  | snoc h1 h2 ih =>
    intro h
    rw [List.append_assoc]
    apply ih
    have := Evaluations.more h2 h
    simpa using this

theorem rounds_app {l r : List Ev} (hl : RoundsSo l) : RoundList r → RoundList (l ++ r) := by
  induction hl generalizing r with
  | nil => intro h; exact h
  | snoc h1 h2 ih =>
    intro h
    rw [List.append_assoc]
    apply ih
    have := RoundList.more h2 h
    simpa using this

/-- Value callbacks that were called while others were left. -/
def Busy (v : List Ev) : Prop := ∀ e ∈ v, e = .value true

theorem busy_settled {v : List Ev} (h : Busy v) : Settled (v ++ [.value false]) := by
  induction v with
  | nil => exact .last
  | cons e v ih =>
    have := h e List.mem_cons_self
    subst this
    exact .more (ih fun x hx => h x (List.mem_cons_of_mem _ hx))

theorem busy_snoc {v : List Ev} (h : Busy v) : Busy (v ++ [.value true]) := by
  intro e he
  rcases List.mem_append.1 he with he | he
  · exact h e he
  · simpa using he

theorem busy_nil : Busy [] := by intro e he; cases he

/-- What has happened when the program is at a place. -/
def Shape (t : Nat) (h : List Ev) : Pc → Prop
  | .start => h = []
  | .settle .start => ∃ v, Busy v ∧ h = .cbs .start :: v
  | .settle .eval => ∃ L R E v, Begun L ∧ RoundsSo R ∧ EvalsSo E ∧ Busy v ∧ h = L ++ .got false :: (R ++ (E ++ ([.eval, .clear, .puts] ++ v)))
  | .settle .readWrite => ∃ L R E v, Begun L ∧ RoundsSo R ∧ Evaluations E ∧ Busy v ∧
      h = L ++ .got false :: (R ++ (E ++ ([.cbs .readWrite, .puts] ++ v)))
  | .settle .nextTime => ∃ L v, Steps L ∧ Busy v ∧ h = L ++ ([.advance t, .cbs .nextTime] ++ v)
  | .settle .timed => ∃ L u v, Steps L ∧ Settled u ∧ Busy v ∧ h = L ++ ([.advance t, .cbs .nextTime] ++ u ++ [.timed t] ++ v)
  | .loop => Begun h
  | .eval => ∃ L R E, Begun L ∧ RoundsSo R ∧ EvalsSo E ∧ h = L ++ .got false :: (R ++ E)
  | .clear => ∃ L R E, Begun L ∧ RoundsSo R ∧ EvalsSo E ∧ h = L ++ .got false :: (R ++ (E ++ [.eval]))
  | .puts1 => ∃ L R E, Begun L ∧ RoundsSo R ∧ EvalsSo E ∧ h = L ++ .got false :: (R ++ (E ++ [.eval, .clear]))
  | .need1 => ∃ L R E a, Begun L ∧ RoundsSo R ∧ EvalsSo E ∧ Evaluation a ∧ h = L ++ .got false :: (R ++ (E ++ a))
  | .readWrite => ∃ L R E, Begun L ∧ RoundsSo R ∧ Evaluations E ∧ h = L ++ .got false :: (R ++ E)
  | .puts2 => ∃ L R E, Begun L ∧ RoundsSo R ∧ Evaluations E ∧ h = L ++ .got false :: (R ++ (E ++ [.cbs .readWrite]))
  | .need2 => ∃ L R a, Begun L ∧ RoundsSo R ∧ Round a ∧ h = L ++ .got false :: (R ++ a)
  | .endStep => ∃ L R, Begun L ∧ RoundList R ∧ h = L ++ .got false :: R
  | .readOnly => ∃ L R, Begun L ∧ RoundList R ∧ h = L ++ .got false :: (R ++ [.endStep])
  | .advance => Steps h
  | .nextTime => ∃ L, Steps L ∧ h = L ++ [.advance t]
  | .timed => ∃ L u, Steps L ∧ Settled u ∧ h = L ++ ([.advance t, .cbs .nextTime] ++ u)
  | .final => Steps h ∨ ∃ L, Begun L ∧ h = L ++ [.got true]
  | .wrapUp => ∃ L, (Steps L ∨ ∃ L', Begun L' ∧ L = L' ++ [.got true]) ∧ h = L ++ [.final]
  | .done => ∃ L, (Steps L ∨ ∃ L', Begun L' ∧ L = L' ++ [.got true]) ∧ h = L ++ [.final, .cbs .finish]

theorem begun_steps {L R : List Ev} (hL : Begun L) (hR : RoundList R) : Steps (L ++ .got false :: (R ++ [.endStep] ++ [.cbs .readOnly])) := by
  have hb : Body (.got false :: (R ++ [.endStep] ++ [.cbs .readOnly])) := ⟨R, hR, by simp⟩
  rcases hL with ⟨u, hu, rfl⟩ | ⟨l, o, t, hl, ho, rfl⟩
  · have := Steps.first hu hb; simpa using this
  · exact Steps.next hl ho hb

theorem shape_step {σ : Type} (w : World σ) (x : St σ) (h : Shape x.time x.past.reverse x.pc) :
    Shape (step w x).time (step w x).past.reverse (step w x).pc := by
  unfold step
  obtain ⟨pc, s, t, past⟩ := x
  simp only at h
  cases pc with
  | start =>
    simp only [Shape, List.reverse_eq_nil_iff] at h
    subst h
    exact ⟨[], busy_nil, rfl⟩
  | settle k =>
    simp only
    generalize (w.valueCbs s).2 = again
    cases again
    · simp only [Bool.false_eq_true, if_false, List.reverse_cons]
      cases k <;> simp only [Shape, After.pc] at h ⊢
      · obtain ⟨v, hv, h⟩ := h
        exact Or.inl ⟨_, busy_settled hv, by rw [h]; simp⟩
      · obtain ⟨L, R, E, v, h1, h2, h3, h4, h⟩ := h
        exact ⟨L, R, E, _, h1, h2, h3, ⟨_, busy_settled h4, rfl⟩, by rw [h]; simp⟩
      · obtain ⟨L, R, E, v, h1, h2, h3, h4, h⟩ := h
        exact ⟨L, R, _, h1, h2, ⟨_, _, h3, busy_settled h4, rfl⟩, by rw [h]; simp⟩
      · obtain ⟨L, v, h1, h2, h⟩ := h
        exact ⟨L, _, h1, busy_settled h2, by rw [h]; simp⟩
      · obtain ⟨L, u, v, h1, h2, h3, h⟩ := h
        exact Or.inr ⟨L, _, t, h1, ⟨u, _, h2, busy_settled h3, rfl⟩, by rw [h]; simp⟩
    · simp only [if_true, List.reverse_cons]
      cases k <;> simp only [Shape] at h ⊢
      · obtain ⟨v, hv, h⟩ := h
        exact ⟨_, busy_snoc hv, by rw [h]; simp⟩
      · obtain ⟨L, R, E, v, h1, h2, h3, h4, h⟩ := h
        exact ⟨L, R, E, _, h1, h2, h3, busy_snoc h4, by rw [h]; simp⟩
      · obtain ⟨L, R, E, v, h1, h2, h3, h4, h⟩ := h
        exact ⟨L, R, E, _, h1, h2, h3, busy_snoc h4, by rw [h]; simp⟩
      · obtain ⟨L, v, h1, h2, h⟩ := h
        exact ⟨L, _, h1, busy_snoc h2, by rw [h]; simp⟩
      · obtain ⟨L, u, v, h1, h2, h3, h⟩ := h
        exact ⟨L, u, _, h1, h2, busy_snoc h3, by rw [h]; simp⟩
  | loop =>
    simp only [Shape] at h
    cases w.gotFinish s
    · exact ⟨_, [], [], h, .nil, .nil, by simp⟩
    · exact Or.inr ⟨_, h, by simp⟩
  | eval =>
    obtain ⟨L, R, E, h1, h2, h3, h⟩ := h
    exact ⟨L, R, E, h1, h2, h3, by simp [h]⟩
  | clear =>
    obtain ⟨L, R, E, h1, h2, h3, h⟩ := h
    exact ⟨L, R, E, h1, h2, h3, by simp [h]⟩
  | puts1 =>
    obtain ⟨L, R, E, h1, h2, h3, h⟩ := h
    exact ⟨L, R, E, [], h1, h2, h3, busy_nil, by simp [h]⟩
  | need1 =>
    obtain ⟨L, R, E, a, h1, h2, h3, h4, h⟩ := h
    cases w.evalNeeded s
    · exact ⟨L, R, _, h1, h2, evals_app h3 (.last h4), by simp [h]⟩
    · exact ⟨L, R, _, h1, h2, .snoc h3 h4, by simp [h]⟩
  | readWrite =>
    obtain ⟨L, R, E, h1, h2, h3, h⟩ := h
    exact ⟨L, R, E, h1, h2, h3, by simp [h]⟩
  | puts2 =>
    obtain ⟨L, R, E, h1, h2, h3, h⟩ := h
    exact ⟨L, R, E, [], h1, h2, h3, busy_nil, by simp [h]⟩
  | need2 =>
    obtain ⟨L, R, a, h1, h2, h3, h⟩ := h
    cases w.evalNeeded s
    · exact ⟨L, _, h1, rounds_app h2 (.last h3), by simp [h]⟩
    · exact ⟨L, _, [], h1, .snoc h2 h3, .nil, by simp [h]⟩
  | endStep =>
    obtain ⟨L, R, h1, h2, h⟩ := h
    exact ⟨L, R, h1, h2, by simp [h]⟩
  | readOnly =>
    obtain ⟨L, R, h1, h2, h⟩ := h
    have := begun_steps h1 h2
    simp only [Shape, List.reverse_cons, h]
    simpa using this
  | advance =>
    simp only [Shape] at h
    simp only
    split
    · exact Or.inl h
    · exact ⟨_, h, by simp⟩
  | nextTime =>
    obtain ⟨L, h1, h⟩ := h
    exact ⟨L, [], h1, busy_nil, by simp [h]⟩
  | timed =>
    obtain ⟨L, u, h1, h2, h⟩ := h
    exact ⟨L, u, [], h1, h2, busy_nil, by simp [h]⟩
  | final =>
    exact ⟨_, h, by simp⟩
  | wrapUp =>
    obtain ⟨L, h1, h⟩ := h
    exact ⟨L, h1, by simp [h]⟩
  | done => exact h

theorem shape_run {σ : Type} (w : World σ) (s : σ) (n : Nat) : Shape (run w s n).time (history w s n) (run w s n).pc := by
  induction n with
  | zero => rfl
  | succ n ih => exact shape_step w _ ih

/-! ## The theorems -/

/-- C127: whatever the design and the callbacks do, when the `ReadOnly` callbacks have been called the simulation has
consisted of complete time steps: evaluations until none is needed, the `ReadWrite` callbacks, their values, all that
again until no evaluation is needed, then once the `ReadOnly` callbacks; every step but the first begins with
`NextTimeStep`, then timed callbacks. -/
theorem C127_steps {σ : Type} (w : World σ) (s : σ) (n : Nat) (h : (run w s n).pc = .advance) : Steps (history w s n) := by
  have := shape_run w s n
  rw [h] at this
  exact this

/-- C127: a simulation that is over ended after a complete time step because nothing was left to do, or at the beginning
of one because it was told to; the end was announced once, as the last thing. -/
theorem C127_end {σ : Type} (w : World σ) (s : σ) (n : Nat) (h : (run w s n).pc = .done) :
    ∃ l, (Steps l ∨ ∃ l', Begun l' ∧ l = l' ++ [.got true]) ∧ history w s n = l ++ [.final, .cbs .finish] := by
  have := shape_run w s n
  rw [h] at this
  exact this

/-- After the `ReadOnly` phase and before time goes on. -/
def frozen : List Ev → Bool
  | [] => false
  | .cbs .readOnly :: _ => true
  | .advance _ :: _ => false
  | _ :: l => frozen l

theorem frozen_run {σ : Type} (w : World σ) (s : σ) (n : Nat) :
    (frozen (run w s n).past = true → (run w s n).pc ∈ [.advance, .final, .wrapUp, .done]) ∧
    ∀ a b e, (run w s n).past = b ++ e :: a → Activity e → frozen a = false := by
  induction n with
  | zero =>
    refine ⟨fun h => (by cases h), ?_⟩
    intro a b e h
    have : ([] : List Ev) = b ++ e :: a := h
    simp at this
  | succ n ih =>
    obtain ⟨ih1, ih2⟩ := ih
    change (frozen (step w (run w s n)).past = true → (step w (run w s n)).pc ∈ _) ∧
      ∀ a b e, (step w (run w s n)).past = b ++ e :: a → Activity e → frozen a = false
    generalize run w s n = x at ih1 ih2
    obtain ⟨pc, s, t, past⟩ := x
    simp only at ih1 ih2
    -- an event that is added
    have key : ∀ (e : Ev) (pc' : Pc),
        (Activity e → frozen past = false) → (frozen (e :: past) = true → pc' ∈ [.advance, .final, .wrapUp, .done]) →
        (frozen (e :: past) = true → pc' ∈ [Pc.advance, .final, .wrapUp, .done]) ∧
          ∀ a b e', e :: past = b ++ e' :: a → Activity e' → frozen a = false := by
      intro e pc' h1 h2
      refine ⟨h2, ?_⟩
      intro a b e' h ha
      cases b with
      | nil => simp only [List.nil_append, List.cons.injEq] at h; rw [← h.2]; exact h1 (h.1 ▸ ha)
      | cons x b => simp only [List.cons_append, List.cons.injEq] at h; exact ih2 a b e' h.2 ha
    have nf : pc ∉ [Pc.advance, .final, .wrapUp, .done] → frozen past = false := by
      intro h
      cases e : frozen past
      · rfl
      · exact absurd (ih1 e) h
    unfold step
    cases pc with
    | start => exact key _ _ (fun _ => nf (by decide)) (by simp [frozen, nf (show Pc.start ∉ _ by decide)])
    | settle k =>
      have hn : frozen past = false := nf (by simp)
      simp only
      exact key _ _ (fun _ => hn) (by simp [frozen, hn])
    | loop =>
      have hn : frozen past = false := nf (by decide)
      exact key _ _ (fun _ => hn) (by simp [frozen, hn])
    | eval => exact key _ _ (fun _ => nf (by decide)) (by simp [frozen, nf (show Pc.eval ∉ _ by decide)])
    | clear => exact key _ _ (fun _ => nf (by decide)) (by simp [frozen, nf (show Pc.clear ∉ _ by decide)])
    | puts1 => exact key _ _ (fun _ => nf (by decide)) (by simp [frozen, nf (show Pc.puts1 ∉ _ by decide)])
    | need1 => exact key _ _ (fun _ => nf (by decide)) (by simp [frozen, nf (show Pc.need1 ∉ _ by decide)])
    | readWrite => exact key _ _ (fun _ => nf (by decide)) (by simp [frozen, nf (show Pc.readWrite ∉ _ by decide)])
    | puts2 => exact key _ _ (fun _ => nf (by decide)) (by simp [frozen, nf (show Pc.puts2 ∉ _ by decide)])
    | need2 => exact key _ _ (fun _ => nf (by decide)) (by simp [frozen, nf (show Pc.need2 ∉ _ by decide)])
    | endStep => exact key _ _ (fun _ => nf (by decide)) (by simp [frozen, nf (show Pc.endStep ∉ _ by decide)])
    | readOnly => exact key _ _ (fun _ => nf (by decide)) (by simp)
    | advance =>
      simp only
      split
      · exact ⟨fun _ => by simp, ih2⟩
      · exact key _ _ (by rintro (h | h | ⟨_, h⟩ | ⟨_, h⟩ | ⟨_, _, h⟩) <;> cases h) (by simp [frozen])
    | nextTime => exact key _ _ (fun _ => nf (by decide)) (by simp [frozen, nf (show Pc.nextTime ∉ _ by decide)])
    | timed => exact key _ _ (fun _ => nf (by decide)) (by simp [frozen, nf (show Pc.timed ∉ _ by decide)])
    | final => exact key _ _ (by rintro (h | h | ⟨_, h⟩ | ⟨_, h⟩ | ⟨_, _, h⟩) <;> cases h) (by simp)
    | wrapUp =>
      refine key _ _ ?_ (by simp)
      rintro (h | h | ⟨_, h⟩ | ⟨_, h⟩ | ⟨c, hc, h⟩) <;> cases h
      exact absurd rfl hc
    | done => exact ⟨ih1, ih2⟩

theorem frozen_append {l r : List Ev} (h : frozen (l ++ .cbs .readOnly :: r) = false) : ∃ e ∈ l, IsAdvance e := by
  induction l with
  | nil => simp [frozen] at h
  | cons e l ih =>
    by_cases he : IsAdvance e
    · exact ⟨e, List.mem_cons_self, he⟩
    · have : frozen (l ++ .cbs .readOnly :: r) = false := by
        cases e with
        | advance t => exact absurd ⟨t, rfl⟩ he
        | cbs c => cases c <;> simp_all [frozen]
        | _ => simpa [frozen] using h
      obtain ⟨x, hx, hx'⟩ := ih this
      exact ⟨x, List.mem_cons_of_mem _ hx, hx'⟩

/-- C127: after the `ReadOnly` callbacks nothing is evaluated or written and no callback is called before time goes
on. -/
theorem C127_read_only {σ : Type} (w : World σ) (s : σ) (n : Nat) (a b c : List Ev) (e : Ev)
    (h : history w s n = a ++ [.cbs .readOnly] ++ b ++ [e] ++ c) (he : Activity e) : ∃ x ∈ b, IsAdvance x := by
  have h' : (run w s n).past = c.reverse ++ e :: (b.reverse ++ .cbs .readOnly :: a.reverse) := by
    have := congrArg List.reverse h
    simpa [history] using this
  have := (frozen_run w s n).2 _ _ _ h' he
  obtain ⟨x, hx, hx'⟩ := frozen_append this
  exact ⟨x, by simpa using hx, hx'⟩

theorem earliest_least {a b : Option Nat} {t : Nat} (h : earliest a b = some t) :
    (a = some t ∨ b = some t) ∧ (∀ d, a = some d → t ≤ d) ∧ (∀ d, b = some d → t ≤ d) := by
  cases a <;> cases b <;> simp only [earliest, Option.some.injEq, reduceCtorEq] at h
  · subst h; simp
  · subst h; simp
  · rename_i a b
    subst h
    refine ⟨?_, ?_, ?_⟩
    · rcases Nat.le_total a b with h | h
      · left; rw [Nat.min_eq_left h]
      · right; rw [Nat.min_eq_right h]
    · intro d hd; injection hd with hd; subst hd; exact Nat.min_le_left _ _
    · intro d hd; injection hd with hd; subst hd; exact Nat.min_le_right _ _

theorem earliest_none {a b : Option Nat} (h : earliest a b = none) : a = none ∧ b = none := by
  cases a <;> cases b <;> simp_all [earliest]

/-- The event of a step, if any. -/
theorem step_event {σ : Type} (w : World σ) (x : St σ) :
    (∃ e, (step w x).past = e :: x.past ∧ (step w x).s = effect w x.s e ∧ Agrees w x.s e ∧
      (step w x).time = (match e with | .advance t => t | _ => x.time) ∧ (∀ t, e = .advance t → x.pc = .advance)) ∨
    ((step w x).past = x.past ∧ (step w x).s = x.s ∧ (step w x).time = x.time) := by
  unfold step
  obtain ⟨pc, s, t, past⟩ := x
  cases pc with
  | done => exact Or.inr ⟨rfl, rfl, rfl⟩
  | advance =>
    simp only
    split
    · exact Or.inr ⟨rfl, rfl, rfl⟩
    · rename_i h
      exact Or.inl ⟨_, rfl, rfl, earliest_least h, rfl, fun _ _ => trivial⟩
  | settle k => exact Or.inl ⟨_, rfl, rfl, rfl, rfl, fun _ h => by cases h⟩
  | loop => exact Or.inl ⟨_, rfl, rfl, rfl, rfl, fun _ h => by cases h⟩
  | need1 => exact Or.inl ⟨_, rfl, rfl, rfl, rfl, fun _ h => by cases h⟩
  | need2 => exact Or.inl ⟨_, rfl, rfl, rfl, rfl, fun _ h => by cases h⟩
  | _ => exact Or.inl ⟨_, rfl, rfl, trivial, rfl, fun _ h => by cases h⟩

/-- C127: what the history says has been done to the design, and what was learnt from it was so at the time; time went
on to the earliest of what was due, so that nothing was passed over. -/
theorem C127_faithful {σ : Type} (w : World σ) (s : σ) (n : Nat) :
    (run w s n).s = (history w s n).foldl (effect w) s ∧
    ∀ a e b, history w s n = a ++ [e] ++ b → Agrees w (a.foldl (effect w) s) e := by
  induction n with
  | zero =>
    refine ⟨rfl, ?_⟩
    intro a e b h
    have : ([] : List Ev) = a ++ [e] ++ b := h
    simp at this
  | succ n ih =>
    obtain ⟨i1, i2⟩ := ih
    simp only [history] at i1 i2 ⊢
    rw [show run w s (n + 1) = step w (run w s n) from rfl]
    rcases step_event w (run w s n) with ⟨e, h1, h2, h3, -, -⟩ | ⟨h1, h2, -⟩
    · rw [h1, h2]
      refine ⟨by rw [i1]; simp, ?_⟩
      intro a e' b h
      rcases List.eq_nil_or_concat b with rfl | ⟨b', y, rfl⟩
      · simp only [List.reverse_cons, List.append_nil] at h
        obtain ⟨ha, he⟩ := List.append_inj' h rfl
        injection he with he
        subst he
        rw [← ha, ← i1]
        exact h3
      · simp only [List.reverse_cons, List.concat_eq_append, ← List.append_assoc] at h
        obtain ⟨ha, -⟩ := List.append_inj' h rfl
        exact i2 a e' b' ha
    · rw [h1, h2]
      exact ⟨i1, i2⟩

/-- C127: the simulation ends after a time step exactly if nothing is due. -/
theorem C127_over {σ : Type} (w : World σ) (s : σ) (n : Nat) (h : (run w s n).pc = .advance) :
    ((run w s (n + 1)).pc = .final ↔ w.deadline (run w s n).s = none ∧ w.slot (run w s n).s = none) ∧
    ((run w s (n + 1)).pc = .nextTime ↔ ¬ (w.deadline (run w s n).s = none ∧ w.slot (run w s n).s = none)) := by
  rw [show run w s (n + 1) = step w (run w s n) from rfl]
  unfold step
  rw [h]
  cases hd : w.deadline (run w s n).s <;> cases hs : w.slot (run w s n).s <;> simp [earliest]

/-- The times to which time has gone on. -/
def Spec.times (l : List Ev) : List Nat := l.filterMap fun e => match e with | .advance t => some t | _ => none

/-- C127: time never goes back or stands still if what is due is always in the future. -/
theorem C127_increasing {σ : Type} (w : World σ) (s : σ)
    (hw : ∀ n t, (run w s n).pc = .advance → w.deadline (run w s n).s = some t ∨ w.slot (run w s n).s = some t →
      (run w s n).time < t) (n : Nat) : (0 :: times (history w s n)).Pairwise (· < ·) := by
  have : (0 :: times (history w s n)).Pairwise (· < ·) ∧ ∀ t ∈ times (history w s n), t ≤ (run w s n).time := by
    induction n with
    | zero => exact ⟨by simp [history, run, times], by simp [history, run, times]⟩
    | succ n ih =>
      obtain ⟨i1, i2⟩ := ih
      simp only [history] at i1 i2 ⊢
      rw [show run w s (n + 1) = step w (run w s n) from rfl]
      rcases step_event w (run w s n) with ⟨e, h1, -, h3, h4, h5⟩ | ⟨h1, -, h4⟩
      · rw [h1, h4]
        by_cases he : ∃ t, e = .advance t
        · obtain ⟨t, rfl⟩ := he
          have hlt := hw n t (h5 t rfl) h3.1
          rw [show times (.advance t :: (run w s n).past).reverse = times (run w s n).past.reverse ++ [t] by
            simp [times]]
          refine ⟨?_, ?_⟩
          · rw [← List.cons_append, List.pairwise_append]
            refine ⟨i1, by simp, ?_⟩
            intro a ha b hb
            simp only [List.mem_singleton] at hb
            subst hb
            rcases List.mem_cons.1 ha with rfl | ha
            · omega
            · have := i2 a ha; omega
          · change ∀ x ∈ _, x ≤ t
            intro x hx
            rcases List.mem_append.1 hx with hx | hx
            · have := i2 x hx; omega
            · simp at hx; omega
        · have : times (e :: (run w s n).past).reverse = times (run w s n).past.reverse := by
            cases e <;> simp_all [times]
          rw [this]
          refine ⟨i1, ?_⟩
          cases e <;> simp_all
      · rw [h1, h4]
        exact ⟨i1, i2⟩
  exact this.1

/-! ## `ReadWrite` in the same time step -/

/-- C127, full statement: a `ReadWrite` callback registered before the `ReadOnly` phase is called in this time step: none
is left when the `ReadOnly` callbacks are called. -/
def C127_read_write_full : Prop :=
  ∀ (user tick : Nat → Act) (dl sl : Vpi → Option Nat) (fin : Vpi → Bool) (v : Vpi) (n : Nat),
    (run (vpiWorld user tick dl sl fin) v n).pc = .readOnly → ∀ i, (.readWrite, i) ∉ (run (vpiWorld user tick dl sl fin) v n).s.cbs

/-- Two callbacks: the first registers the second. -/
def exUser : Nat → Act := fun i => if i = 0 then { add := [(.readWrite, 1)] } else {}

/-- `await ReadWrite()` twice without a write: the second waits for the next time step. -/
theorem C127_read_write_counterexample : ¬ C127_read_write_full := by
  intro H
  have := H exUser (fun _ => {}) (fun _ => none) (fun _ => none) (fun _ => false)
    ⟨[(.readWrite, 0)], false, false, []⟩ 13 (by decide +kernel) 1
  apply this
  decide +kernel

/-- C127: if a `ReadWrite` callback that registers another also writes a value. -/
theorem C127_read_write_partial (user tick : Nat → Act) (dl sl : Vpi → Option Nat) (fin : Vpi → Bool) (v : Vpi)
    (hu : ∀ i j, (.readWrite, j) ∈ (user i).add → (user i).write = true) (n : Nat)
    (h : (run (vpiWorld user tick dl sl fin) v n).pc = .readOnly) (i : Nat) :
    (.readWrite, i) ∉ (run (vpiWorld user tick dl sl fin) v n).s.cbs := by
  let w := vpiWorld user tick dl sl fin
  have inv : ∀ n, let x := run w v n
      (x.pc = .puts2 → (∃ i, (Cb.readWrite, i) ∈ x.s.cbs) → x.s.written = true) ∧
      (x.pc = .settle .readWrite ∨ x.pc = .need2 → (∃ i, (Cb.readWrite, i) ∈ x.s.cbs) → x.s.need = true) ∧
      (x.pc = .endStep ∨ x.pc = .readOnly → ∀ i, (Cb.readWrite, i) ∉ x.s.cbs) := by
    intro n
    induction n with
    | zero => refine ⟨?_, ?_, ?_⟩ <;> intro h <;> simp [run] at h
    | succ n ih =>
      simp only at ih ⊢
      change (((step w (run w v n)).pc = .puts2 → _) ∧ _)
      generalize hx : run w v n = x at ih
      rw [show run w v (n + 1) = step w x by rw [← hx]; rfl]
      obtain ⟨pc, s, t, past⟩ := x
      simp only at ih
      obtain ⟨i1, i2, i3⟩ := ih
      unfold step
      cases pc with
      | readWrite =>
        refine ⟨?_, by simp, by simp⟩
        rintro - ⟨i, hi⟩
        simp only [w, vpiWorld, callCbs, List.mem_append, List.mem_filter, List.mem_flatMap, List.mem_map] at hi ⊢
        rcases hi with ⟨_, hi⟩ | ⟨a, ⟨y, ⟨hy1, hy2⟩, rfl⟩, ha⟩
        · simp at hi
        · rw [Bool.or_eq_true]
          right
          rw [List.any_eq_true]
          exact ⟨user y.2, by simp only [List.mem_map, List.mem_filter]; exact ⟨y, ⟨hy1, hy2⟩, rfl⟩, hu _ _ ha⟩
      | puts2 =>
        refine ⟨by simp, ?_, by simp⟩
        rintro - hi
        have := i1 rfl hi
        simp [w, vpiWorld, this]
      | settle k =>
        simp only [w, vpiWorld, Bool.false_eq_true, if_false]
        cases k <;> simp only [After.pc] <;> refine ⟨by simp, ?_, by simp⟩
        · simp
        · simp
        · intro _; exact i2 (Or.inl rfl)
        · simp
        · simp
      | need2 =>
        cases hn : w.evalNeeded s
        · refine ⟨by simp, by simp, ?_⟩
          simp only [Bool.false_eq_true, if_false]
          rintro - i hi
          have := i2 (Or.inr rfl) ⟨i, hi⟩
          simp only [w, vpiWorld] at hn
          rw [hn] at this; cases this
        · refine ⟨by simp, by simp, by simp⟩
      | endStep =>
        refine ⟨by simp, by simp, ?_⟩
        intro _
        exact i3 (Or.inl rfl)
      | loop => cases w.gotFinish s <;> exact ⟨by simp, by simp, by simp⟩
      | need1 => cases w.evalNeeded s <;> exact ⟨by simp, by simp, by simp⟩
      | advance =>
        simp only
        split <;> exact ⟨by simp, by simp, by simp⟩
      | done => exact ⟨by simp, by simp, by simp⟩
      | _ => exact ⟨by simp, by simp, by simp⟩
  exact (inv n).2.2 (Or.inr h) i

/-- A simulation of two time steps with a `ReadWrite` callback that writes once, and one timed callback at time 5. -/
def exRun : Nat → St Vpi :=
  run (vpiWorld (fun i => if i = 0 then { write := true, add := [(.readWrite, 1)] } else {}) (fun _ => {})
    (fun v => if v.called.length < 3 then some 5 else none) (fun _ => none) (fun _ => false))
    ⟨[(.readWrite, 0), (.nextTime, 2)], false, false, []⟩

example : (exRun 43).pc = .done ∧ (exRun 43).time = 5 ∧ (exRun 43).s.called = [(.readWrite, 0), (.readWrite, 1), (.nextTime, 2)] ∧
    (exRun 43).past.reverse.filter (fun e => match e with | .cbs _ => true | .advance _ => true | .timed _ => true | _ => false) =
      [.cbs .start, .cbs .readWrite, .cbs .readWrite, .cbs .readOnly, .advance 5, .cbs .nextTime, .timed 5, .cbs .readWrite,
       .cbs .readOnly, .cbs .finish] := by decide +kernel

example : (exRun 23).pc = .advance := by decide +kernel

example : times (exRun 43).past.reverse = [5] := by decide +kernel

/-- A clock that is due after each unit of time until time 3. -/
def exClock : World Nat where
  gotFinish _ := false
  evalNeeded _ := false
  deadline s := if s < 3 then some (s + 1) else none
  slot _ := none
  evalStep s := s
  clearNeeded s := s
  puts s := s
  valueCbs s := (s, false)
  cbs _ s := s
  endStep s := s
  timed t _ := t
  final s := s

/-- It meets the hypothesis of `C127_increasing`. -/
theorem exClock_future (n t : Nat) (h : (run exClock 0 n).pc = .advance)
    (ht : exClock.deadline (run exClock 0 n).s = some t ∨ exClock.slot (run exClock 0 n).s = some t) :
    (run exClock 0 n).time < t := by
  have inv : ∀ n, (run exClock 0 n).pc ∈ [.nextTime, .settle .nextTime, .timed] ∨ (run exClock 0 n).s = (run exClock 0 n).time := by
    intro n
    induction n with
    | zero => right; rfl
    | succ n ih =>
      rw [show run exClock 0 (n + 1) = step exClock (run exClock 0 n) from rfl]
      generalize run exClock 0 n = x at ih
      obtain ⟨pc, s, t, past⟩ := x
      unfold step
      cases pc with
      | settle k => cases k <;> simp_all [exClock, After.pc]
      | advance =>
        simp only
        split <;> simp_all
      | _ => simp_all [exClock]
  rcases inv n with hi | hi
  · rw [h] at hi; simp at hi
  · rw [← hi]
    generalize (run exClock 0 n).s = s at ht
    simp only [exClock, reduceCtorEq, or_false] at ht
    split at ht <;> simp_all
    omega

example : (0 :: times (history exClock 0 70)).Pairwise (· < ·) ∧ times (history exClock 0 70) = [1, 2, 3] :=
  ⟨C127_increasing exClock 0 exClock_future 70, by decide +kernel⟩

end Verif
