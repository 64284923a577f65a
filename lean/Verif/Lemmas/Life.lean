import Verif.Spec.Life

namespace Verif.Life

open Verif.LifeSpec

/-- The transitions, one by one. -/
inductive Step (c : Cfg) (s : St) : St → Prop
  | enterQ (k : Kind) (hq : c.queued = true) (hr : s.reacting = true) (ht : s.stack = [] ∨ (inUserCode s = true ∧ ∃ h, k = .user h)) :
    Step c s { s with log := s.log ++ [.fire k], queue := s.queue ++ [k], stack := .toSim :: s.stack }
  | enterR (k : Kind) (hq : c.queued = true) (hr : s.reacting = false) (ht : s.stack = [] ∨ (inUserCode s = true ∧ ∃ h, k = .user h)) :
    Step c s { s with log := s.log ++ [.fire k], reacting := true, stack := .cb k :: .loop :: .toSim :: s.stack }
  | enterN (k : Kind) (hq : c.queued = false) (ht : s.stack = [] ∨ (inUserCode s = true ∧ ∃ h, k = .user h)) :
    Step c s { s with log := s.log ++ [.fire k], stack := .cb k :: .toSim :: s.stack }
  | stopAgain (hu : inUserCode s = true) (hf : s.finalizing = true) : Step c s { s with log := s.log ++ [.stop] }
  | stop (hu : inUserCode s = true) (hf : s.finalizing = false) :
    Step c s { s with log := s.log ++ [.stop, .simEnd], finalizing := true }
  | startup (r) (h : s.stack = .cb .startup :: r) :
    Step c s { s with stack := .startLoop c.starts :: r, log := s.log ++ [.started] }
  | shutdown (r) (h : s.stack = .cb .shutdown :: r) :
    Step c s { s with stack := .endLoop c.ends :: .finish :: r, log := s.log ++ [.ended] }
  | user (n r) (h : s.stack = .cb (.user n) :: r) :
    Step c s { s with stack := .inUser :: r, log := s.log ++ [.userCall n] }
  | startDone (r) (h : s.stack = .startLoop [] :: r) : Step c s { s with stack := r }
  | startNext (i l r) (h : s.stack = .startLoop (i :: l) :: r) :
    Step c s { s with stack := .inStart :: .startLoop l :: r, log := s.log ++ [.startCall i] }
  | endDone (r) (h : s.stack = .endLoop [] :: r) : Step c s { s with stack := r }
  | endNext (i l r) (h : s.stack = .endLoop (i :: l) :: r) :
    Step c s { s with stack := .inEnd :: .endLoop l :: r, log := s.log ++ [.endCall i] }
  | finishAgain (r) (h : s.stack = .finish :: r) (hf : s.finalizing = true) : Step c s { s with stack := r }
  | finish (r) (h : s.stack = .finish :: r) (hf : s.finalizing = false) :
    Step c s { s with stack := r, finalizing := true, log := s.log ++ [.simEnd] }
  | loopDone (r) (h : s.stack = .loop :: r) (hq : s.queue = []) : Step c s { s with reacting := false, stack := r }
  | loopNext (k q r) (h : s.stack = .loop :: r) (hq : s.queue = k :: q) :
    Step c s { s with queue := q, stack := .cb k :: .loop :: r }
  | toSimF (r) (h : s.stack = .toSim :: r) (hf : s.finalizing = true) :
    Step c s { s with stack := r, log := s.log ++ .clear :: c.finals.reverse.map .final }
  | toSim (r) (h : s.stack = .toSim :: r) (hf : s.finalizing = false) : Step c s { s with stack := r }
  | retStart (r) (h : s.stack = .inStart :: r) : Step c s { s with stack := r, log := s.log ++ [.ret false] }
  | retStartErr (r) (h : s.stack = .inStart :: r) :
    Step c s { s with stack := .endLoop c.ends :: .finish :: r, log := s.log ++ [.ret true] }
  | retUser (r) (h : s.stack = .inUser :: r) : Step c s { s with stack := r, log := s.log ++ [.ret false] }
  | retUserErr (r) (h : s.stack = .inUser :: r) :
    Step c s { s with stack := .endLoop c.ends :: .finish :: r, log := s.log ++ [.ret true] }
  | retEnd (r) (h : s.stack = .inEnd :: r) : Step c s { s with stack := r, log := s.log ++ [.ret false] }

theorem step_enter {c s k} (ht : s.stack = [] ∨ (inUserCode s = true ∧ ∃ h, k = .user h)) : Step c s (enter c k s) := by
  cases hq : c.queued
  · have := Step.enterN k hq ht
    simpa [enter, hq, St.add] using this
  · cases hr : s.reacting
    · have := Step.enterR k hq hr ht
      simpa [enter, hq, hr, St.add] using this
    · have := Step.enterQ k hq hr ht
      simpa [enter, hq, hr, St.add] using this

theorem step_tau {c s s'} (h : tau c s = some s') : Step c s s' := by
  unfold tau at h
  split at h
  case h_1 r hs => cases h; exact .startup r hs
  case h_2 r hs => cases h; exact .shutdown r hs
  case h_3 n r hs => cases h; exact .user n r hs
  case h_4 r hs => cases h; exact .startDone r hs
  case h_5 i l r hs => cases h; exact .startNext i l r hs
  case h_6 r hs => cases h; exact .endDone r hs
  case h_7 i l r hs => cases h; exact .endNext i l r hs
  case h_8 r hs =>
    cases h
    cases hf : s.finalizing
    · simpa [finish, hf] using Step.finish r hs hf
    · simpa [finish, hf] using Step.finishAgain r hs hf
  case h_9 r hs =>
    split at h
    case h_1 hq => cases h; exact .loopDone r hs hq
    case h_2 k q hq => cases h; exact .loopNext k q r hs hq
  case h_10 r hs =>
    cases h
    cases hf : s.finalizing
    · simpa [checkCleanup, hf] using Step.toSim r hs hf
    · simpa [checkCleanup, hf] using Step.toSimF r hs hf
  case h_11 => cases h

theorem step_ret {c s s' e} (h : ret c e s = some s') : Step c s s' := by
  unfold ret at h
  split at h
  case h_1 r hs =>
    cases h
    cases e
    · exact .retStart r hs
    · exact .retStartErr r hs
  case h_2 r hs =>
    cases h
    cases e
    · exact .retUser r hs
    · exact .retUserErr r hs
  case h_3 r hs =>
    cases e
    · cases h; exact .retEnd r hs
    · simp at h
  case h_4 => cases h

theorem step_of_exec {c s a s'} (h : exec c s a = some s') : Step c s s' := by
  cases a with
  | sim k =>
    unfold exec at h
    dsimp only at h
    split at h
    · cases h; exact step_enter (.inl (by assumption))
    · split at h
      · next hu =>
        split at h
        · cases h; exact step_enter (.inr ⟨hu, _, rfl⟩)
        · cases h
      · cases h
  | stop =>
    unfold exec at h
    dsimp only at h
    split at h
    · next hu =>
      cases h
      cases hf : s.finalizing
      · have := Step.stop (c := c) hu hf
        simpa [Life.finish, St.add, hf] using this
      · have := Step.stopAgain (c := c) hu hf
        simpa [Life.finish, St.add, hf] using this
    · cases h
  | ret e => exact step_ret h
  | tau => exact step_tau h

theorem run_append {c : Cfg} : ∀ (as : List Act) (s : St) (bs : List Act), run c s (as ++ bs) = (run c s as).bind (fun s' => run c s' bs)
  | [], s, bs => by simp [run]
  | a :: as, s, bs => by
    simp only [List.cons_append, run]
    cases exec c s a with
    | none => rfl
    | some s1 => simpa using run_append as s1 bs

theorem invariant {c : Cfg} {P : St → Prop} (h0 : P {}) (hs : ∀ s s', Reachable c s → P s → Step c s s' → P s') {s : St}
    (h : Reachable c s) : P s := by
  obtain ⟨as, has⟩ := h
  suffices H : ∀ (bs as : List Act) (s : St), as = bs.reverse → run c {} as = some s → P s from H as.reverse as s (by simp) has
  intro bs
  induction bs with
  | nil => intro as s e h; subst e; simp only [List.reverse_nil, run, Option.some.injEq] at h; exact h ▸ h0
  | cons b bs ih =>
    intro as s e h
    subst e
    rw [List.reverse_cons, run_append] at h
    cases hr : run c {} bs.reverse with
    | none => simp [hr] at h
    | some s1 =>
      simp only [hr, Option.bind_some, run] at h
      cases he : exec c s1 b with
      | none => simp [he] at h
      | some s2 =>
        simp only [he, Option.bind_some, Option.some.injEq] at h
        exact h ▸ hs s1 s2 ⟨_, hr⟩ (ih _ s1 rfl hr) (step_of_exec he)

theorem userStack {s : St} (h : inUserCode s = true) :
    ∃ t r, s.stack = t :: r ∧ (t = .inStart ∨ t = .inUser ∨ t = .inEnd) := by
  unfold inUserCode at h
  split at h <;> first | exact ⟨_, _, by assumption, by simp⟩ | cases h

theorem always_nil {P} : Always P [] := by intro a e b h; simp at h

theorem always_append {P} {l es : List Ev} (h : Always P l) (h' : ∀ a e b, es = a ++ e :: b → P (l ++ a) e) :
    Always P (l ++ es) := by
  intro a e b hs
  rw [List.append_eq_append_iff] at hs
  rcases hs with ⟨m, h1, h2⟩ | ⟨m, h1, h2⟩
  · subst h1; exact h' m e b h2
  · cases m with
    | nil =>
      simp only [List.append_nil] at h1; simp only [List.nil_append] at h2
      have := h' [] e b h2.symm
      simpa [h1] using this
    | cons x m =>
      simp only [List.cons_append, List.cons.injEq] at h2
      exact h a e m (by rw [h1, h2.1])

theorem always_left {P} {l es : List Ev} (h : Always P (l ++ es)) : Always P l := by
  intro a e b hs; exact h a e (b ++ es) (by simp [hs])

theorem always_one {P} {l : List Ev} {x : Ev} : Always P (l ++ [x]) ↔ Always P l ∧ P l x := by
  constructor
  · exact fun h => ⟨always_left h, h l x [] rfl⟩
  · rintro ⟨h, hx⟩
    apply always_append h
    intro a e b hs
    cases a with
    | nil => simp only [List.nil_append, List.cons.injEq] at hs; simpa [hs.1] using hs.1 ▸ hx
    | cons y a => simp at hs

theorem always_two {P} {l : List Ev} {x y : Ev} : Always P (l ++ [x, y]) ↔ Always P l ∧ P l x ∧ P (l ++ [x]) y := by
  have : l ++ [x, y] = (l ++ [x]) ++ [y] := by simp
  rw [this, always_one, always_one, and_assoc]

/-- The log only grows. -/
theorem Step.grows {c s s'} (h : Step c s s') : ∃ es, s'.log = s.log ++ es := by
  cases h <;> first | exact ⟨_, rfl⟩ | exact ⟨[], by simp⟩

/-! ## Requests to finish -/

structure EndInv (s : St) : Prop where
  count : s.log.count .simEnd = (if s.finalizing then 1 else 0)
  pending : Todo.finish ∈ s.stack → s.log.any isCause = true
  todo : s.log.any isCause = true → s.finalizing = true ∨ Todo.finish ∈ s.stack
  before : Always (fun pre e => e = .simEnd → pre.any isCause = true) s.log

theorem endInv {c s} (h : Reachable c s) : EndInv s := by
  refine invariant (P := EndInv) ⟨by simp, by simp, by simp, always_nil⟩ ?_ h
  intro s s' hr ⟨h1, h2, h3, h4⟩ st
  cases st
  case toSimF r hs hf =>
    refine ⟨?_, ?_, ?_, ?_⟩
    · simp [List.count_append, hf] at h1 ⊢
      rw [h1]; simp [List.count_eq_zero]
    · intro hm
      have := h2 (by simp_all)
      simp only [List.any_append, this, Bool.true_or]
    · exact fun _ => .inl hf
    · apply always_append h4
      intro a e b hab heq
      subst heq
      have : Ev.simEnd ∈ Ev.clear :: c.finals.reverse.map Ev.final := by rw [hab]; simp
      simp at this
  all_goals
    refine ⟨?_, ?_, ?_, ?_⟩ <;> simp [always_one, always_two, List.count_append, List.any_append, isCause] at * <;> grind

theorem finalizing_iff {c s} (h : Reachable c s) : s.finalizing = true ↔ Ev.simEnd ∈ s.log := by
  have := (endInv h).count
  rw [← List.count_pos_iff, this]
  cases s.finalizing <;> simp

/-! ## Clean-up -/

/-- A complete clean-up. -/
def pass (c : Cfg) : List Ev := .clear :: c.finals.reverse.map .final

theorem bottom {c s} (h : Reachable c s) : s.stack = [] ∨ s.stack.getLast? = some .toSim := by
  refine invariant (P := fun s => s.stack = [] ∨ s.stack.getLast? = some .toSim) (by simp) ?_ h
  intro s s' hr ih st
  cases st <;> grind

theorem toSim_mem {c s} (h : Reachable c s) (hs : s.stack ≠ []) : Todo.toSim ∈ s.stack := by
  rcases bottom h with h | h
  · exact absurd h hs
  · exact List.mem_of_getLast? h

theorem mem_pass {c : Cfg} {e : Ev} (h : e ∈ pass c) : e = .clear ∨ ∃ i ∈ c.finals, e = .final i := by
  simp only [pass, List.mem_cons, List.mem_map, List.mem_reverse] at h
  rcases h with h | ⟨i, hi, h⟩
  · exact .inl h
  · exact .inr ⟨i, hi, h.symm⟩

theorem clean_before {c s} (h : Reachable c s) :
    Always (fun pre e => (e = .clear ∨ ∃ i, e = .final i) → Ev.simEnd ∈ pre) s.log := by
  refine invariant (P := fun s => Always (fun pre e => (e = .clear ∨ ∃ i, e = .final i) → Ev.simEnd ∈ pre) s.log) always_nil ?_ h
  intro s s' hr ih st
  cases st
  case toSimF r hs hf =>
    apply always_append ih
    intro a e b hab _
    exact List.mem_append_left _ ((finalizing_iff hr).1 hf)
  all_goals simp_all [always_one, always_two]

/-- Somewhere after the request to finish there is a complete clean-up. -/
def Cleaned (c : Cfg) (log : List Ev) : Prop := ∃ pre post, log = pre ++ pass c ++ post ∧ Ev.simEnd ∈ pre

theorem Cleaned.append {c l} (h : Cleaned c l) (es : List Ev) : Cleaned c (l ++ es) := by
  obtain ⟨a, b, h1, h2⟩ := h
  exact ⟨a, b ++ es, by simp [h1], h2⟩

theorem cleaned {c s} (h : Reachable c s) : s.finalizing = true → Todo.toSim ∈ s.stack ∨ Cleaned c s.log := by
  refine invariant (P := fun s => s.finalizing = true → Todo.toSim ∈ s.stack ∨ Cleaned c s.log) (by simp) ?_ h
  intro s s' hr ih st
  have hb := toSim_mem hr
  cases st
  case toSimF r hs hf =>
    intro _
    right
    exact ⟨s.log, [], by simp [pass], (finalizing_iff hr).1 hf⟩
  case stop hu hf =>
    obtain ⟨t, r, hs, _⟩ := userStack hu
    intro _
    left
    exact hb (by simp [hs])
  case finish r hs hf =>
    intro _
    left
    have := hb (by simp [hs])
    simpa [hs] using this
  all_goals
    intro hf
    have := ih (by simpa using hf)
    rcases this with h | h
    · first | exact .inl (by simp_all) | (simp_all; done)
    · first | exact .inr h | exact .inr (h.append _)

/-- What is cleaned up, is cleaned up completely. -/
def cleanEvs (log : List Ev) : List Ev := log.filter (fun | .clear => true | .final _ => true | _ => false)

theorem passes {c s} (h : Reachable c s) : ∃ n, cleanEvs s.log = (List.replicate n (pass c)).flatten := by
  refine invariant (P := fun s => ∃ n, cleanEvs s.log = (List.replicate n (pass c)).flatten) ⟨0, by simp [cleanEvs]⟩ ?_ h
  intro s s' hr ⟨n, ih⟩ st
  cases st
  case toSimF r hs hf =>
    refine ⟨n + 1, ?_⟩
    have : cleanEvs (s.log ++ pass c) = cleanEvs s.log ++ pass c := by
      simp only [cleanEvs, List.filter_append]
      congr 1
      rw [List.filter_eq_self]
      intro e he
      rcases mem_pass he with rfl | ⟨i, _, rfl⟩ <;> rfl
    show cleanEvs (s.log ++ pass c) = _
    rw [this, ih, List.replicate_succ']
    simp
  all_goals exact ⟨n, by simpa [cleanEvs, List.filter_append] using ih⟩

/-! ## User code in progress -/

def isUserItem : Todo → Bool
  | .inStart => true
  | .inEnd => true
  | .inUser => true
  | _ => false

theorem depth {c s} (h : Reachable c s) : s.log.countP isCall = s.log.countP isRet + s.stack.countP isUserItem := by
  refine invariant (P := fun s => s.log.countP isCall = s.log.countP isRet + s.stack.countP isUserItem) (by simp) ?_ h
  intro s s' hr ih st
  cases st
  case toSimF r hs hf =>
    have h1 : (Ev.clear :: c.finals.reverse.map Ev.final).countP isCall = 0 := by
      rw [List.countP_eq_zero]; intro e he; rcases mem_pass he with rfl | ⟨i, _, rfl⟩ <;> simp [isCall]
    have h2 : (Ev.clear :: c.finals.reverse.map Ev.final).countP isRet = 0 := by
      rw [List.countP_eq_zero]; intro e he; rcases mem_pass he with rfl | ⟨i, _, rfl⟩ <;> simp [isRet]
    simp only [List.countP_append, h1, h2]
    simpa [hs, List.countP_cons, isUserItem] using ih
  all_goals simp_all [List.countP_append, List.countP_cons, isCall, isRet, isUserItem] <;> omega

theorem inProgress_eq {c s} (h : Reachable c s) : inProgress s.log = s.stack.countP isUserItem := by
  have := depth h
  unfold inProgress; omega

/-! ## Counting -/

def startItems : Todo → List Nat
  | .startLoop l => l
  | _ => []

def endItems : Todo → List Nat
  | .endLoop l => l
  | _ => []

theorem startCalls_append (a b : List Ev) : startCalls (a ++ b) = startCalls a ++ startCalls b := by
  simp [startCalls, List.filterMap_append]

theorem endCalls_append (a b : List Ev) : endCalls (a ++ b) = endCalls a ++ endCalls b := by
  simp [endCalls, List.filterMap_append]

theorem startCalls_pass (l : List Nat) : startCalls (.clear :: l.map .final) = [] := by
  simp [startCalls]

theorem endCalls_pass (l : List Nat) : endCalls (.clear :: l.map .final) = [] := by
  simp [endCalls]

theorem count_final (e : Ev) (l : List Nat) (h : ∀ i, e ≠ .final i) (hc : e ≠ .clear) : (Ev.clear :: l.map .final).count e = 0 := by
  rw [List.count_eq_zero]
  intro hm
  simp only [List.mem_cons, List.mem_map] at hm
  rcases hm with rfl | ⟨i, _, rfl⟩
  · exact hc rfl
  · exact h i rfl

theorem start_count {c s} (i : Nat) (h : Reachable c s) :
    (startCalls s.log).count i + (s.stack.flatMap startItems).count i = s.log.count .started * c.starts.count i := by
  refine invariant (P := fun s => (startCalls s.log).count i + (s.stack.flatMap startItems).count i = s.log.count .started * c.starts.count i)
    (by simp [startCalls]) ?_ h
  intro s s' hr ih st
  cases st
  case toSimF r hs hf =>
    simp only [startCalls_append, startCalls_pass, List.append_nil, List.count_append,
      count_final .started _ (by simp) (by simp), Nat.add_zero]
    simp only [hs, List.flatMap_cons, startItems, List.nil_append] at ih
    exact ih
  all_goals simp_all [startCalls_append, List.count_append, startItems, List.count_cons]
  all_goals simp_all [startCalls] <;> grind

theorem end_count {c s} (i : Nat) (h : Reachable c s) :
    (endCalls s.log).count i + (s.stack.flatMap endItems).count i = ends s.log * c.ends.count i := by
  refine invariant (P := fun s => (endCalls s.log).count i + (s.stack.flatMap endItems).count i = ends s.log * c.ends.count i)
    (by simp [endCalls, ends]) ?_ h
  intro s s' hr ih st
  unfold ends at *
  cases st
  case toSimF r hs hf =>
    simp only [endCalls_append, endCalls_pass, List.append_nil, List.count_append,
      count_final .ended _ (by simp) (by simp), count_final (.ret true) _ (by simp) (by simp), Nat.add_zero]
    simp only [hs, List.flatMap_cons, endItems, List.nil_append] at ih
    exact ih
  all_goals simp_all [endCalls_append, List.count_append, endItems, List.count_cons]
  all_goals simp_all [endCalls] <;> grind

/-! ## Callbacks within callbacks -/

/-- Either the build queues callbacks that come while another is handled, or there are none. -/
def Flat (c : Cfg) (log : List Ev) : Prop := c.queued = true ∨ NeverNested log

theorem Flat.left {c l es} (h : Flat c (l ++ es)) : Flat c l := h.imp id always_left

/-- Invariants that need a property of the history so far which holds of every earlier part of it. -/
theorem invariant_if {c : Cfg} {H : List Ev → Prop} (hH : ∀ l es, H (l ++ es) → H l) {P : St → Prop} (h0 : P {})
    (hs : ∀ s s', Reachable c s → H s'.log → P s → Step c s s' → P s') {s : St} (h : Reachable c s) (hl : H s.log) : P s := by
  refine invariant (P := fun s => H s.log → P s) (fun _ => h0) ?_ h hl
  intro s s' hr ih st hl'
  refine hs s s' hr hl' (ih ?_) st
  obtain ⟨es, he⟩ := st.grows
  exact hH _ es (he ▸ hl')

/-- What can be left to do below errors. -/
inductive Tail : List Todo → Prop
  | nil : Tail []
  | start (l) : Tail [.startLoop l]

/-- What can be left to do for one callback. -/
inductive Reg : List Todo → Prop
  | tail {t} : Tail t → Reg t
  | cb (k) : Reg [.cb k]
  | user : Reg [.inUser]
  | inStart (l) : Reg [.inStart, .startLoop l]
  | finish {t} : Tail t → Reg (.finish :: t)
  | endLoop (l) {t} : Tail t → Reg (.endLoop l :: .finish :: t)
  | inEnd (l) {t} : Tail t → Reg (.inEnd :: .endLoop l :: .finish :: t)

def base : Bool → List Todo
  | true => [.loop, .toSim]
  | false => [.toSim]

/-- The stacks and values of `reacting`. -/
inductive Shape (q : Bool) : List Todo → Bool → Prop
  | rest : Shape q [] false
  | leaving : Shape q [.toSim] false
  | busy {X} : Reg X → Shape q (X ++ base q) q
  | nested {t X} : Reg (t :: X) → isUserItem t = true → q = true → Shape q (.toSim :: t :: X ++ base q) true

theorem Shape.busy' {q X st re} (h : Reg X) (hs : st = X ++ base q) (hr : re = q) : Shape q st re := by
  subst hs; subst hr; exact .busy h

theorem base_ne (q) : base q ≠ [] := by cases q <;> simp [base]

theorem split_base {q X hd r} (h : X ++ base q = hd :: r) (h1 : hd ≠ .loop) (h2 : hd ≠ .toSim) :
    ∃ X', X = hd :: X' ∧ r = X' ++ base q := by
  cases X with
  | nil => cases q <;> simp [base] at h <;> simp_all
  | cons t X => simp only [List.cons_append, List.cons.injEq] at h; exact ⟨X, by rw [h.1], h.2.symm⟩

theorem Reg.tail_of {hd X} (h : Reg (hd :: X)) : Reg X := by
  cases h with
  | tail h => cases h; exact .tail .nil
  | cb => exact .tail .nil
  | user => exact .tail .nil
  | inStart l => exact .tail (.start l)
  | finish h => exact .tail h
  | endLoop l h => exact .finish h
  | inEnd l h => exact .endLoop l h

theorem flat_enter {c : Cfg} {s : St} {k} (hr : Reachable c s) (hf : NeverNested (s.log ++ [.fire k]))
    (ht : s.stack = [] ∨ (inUserCode s = true ∧ ∃ h, k = .user h)) : s.stack = [] := by
  rcases ht with h | ⟨h, _⟩
  · exact h
  · have := (always_one.1 hf).2 rfl
    rw [inProgress_eq hr] at this
    obtain ⟨t, r, hs, ht⟩ := userStack h
    rw [hs] at this
    rcases ht with rfl | rfl | rfl <;> simp [isUserItem] at this

theorem shape_inv {c s} (h : Reachable c s) (hf : Flat c s.log) : Shape c.queued s.stack s.reacting := by
  refine invariant_if (H := Flat c) (fun _ _ => Flat.left) (P := fun s => Shape c.queued s.stack s.reacting) .rest ?_ h hf
  intro s s' hr hf ih st
  generalize hst : s.stack = stk at ih
  generalize hre : s.reacting = re at ih
  cases ih with
  | rest =>
    cases st with
    | enterQ k hq hr' ht => simp_all
    | enterR k hq hr' ht => simpa [hst, hq, base] using Shape.busy (q := c.queued) (Reg.cb k)
    | enterN k hq ht => simpa [hst, hq, base, hre] using Shape.busy (q := c.queued) (Reg.cb k)
    | _ => first | (simp_all; done) | (simp_all [inUserCode]; done)
  | leaving =>
    cases st <;> first | (simp_all [inUserCode]; done) | skip
    case toSimF r hs _ => simp_all; exact .rest
    case toSim r hs _ => simp_all; exact .rest
  | nested hX hu hq =>
    cases st <;> first | (simp_all [inUserCode]; done) | skip
    case toSimF r hs _ =>
      rw [hst] at hs
      injection hs with _ hs
      have := Shape.busy (q := c.queued) hX
      simpa [← hs, hre, hq] using this
    case toSim r hs _ =>
      rw [hst] at hs
      injection hs with _ hs
      have := Shape.busy (q := c.queued) hX
      simpa [← hs, hre, hq] using this
  | busy hX =>
    rename_i X
    cases st
    case enterQ k hq hre' ht =>
      rcases ht with h | ⟨h, _⟩
      · rw [hst] at h; simp [base_ne] at h
      · obtain ⟨t, r, hs, ht⟩ := userStack h
        cases X with
        | nil => rw [hst, hq] at hs; rcases ht with rfl | rfl | rfl <;> simp [base] at hs
        | cons t' X =>
          rw [hst] at hs
          simp only [List.cons_append, List.cons.injEq] at hs
          obtain ⟨rfl, _⟩ := hs
          have hu : isUserItem t' = true := by rcases ht with rfl | rfl | rfl <;> rfl
          have := Shape.nested (q := c.queued) hX hu hq
          show Shape c.queued (.toSim :: s.stack) s.reacting
          rw [hst, hre']; exact this
    case enterR k hq hre' ht => rw [hre, hq] at hre'; cases hre'
    case enterN k hq ht =>
      have : NeverNested (s.log ++ [.fire k]) := by
        rcases hf with h | h
        · rw [hq] at h; cases h
        · exact h
      have := flat_enter hr this ht
      rw [hst] at this; simp [base_ne] at this
    case stopAgain => exact .busy' hX hst hre
    case stop => exact .busy' hX hst hre
    case loopDone r hs hq =>
      rw [hst] at hs
      cases hX with
      | tail h =>
        cases h
        · cases hqq : c.queued <;> simp [hqq, base] at hs
          show Shape _ r false
          rw [← hs]; exact .leaving
        · simp at hs
      | _ => simp at hs
    case loopNext k q r hs hq =>
      rw [hst] at hs
      cases hX with
      | tail h =>
        cases h
        · cases hqq : c.queued <;> simp [hqq, base] at hs
          show Shape _ (.cb k :: .loop :: r) s.reacting
          rw [← hs, hre, hqq]; exact .busy' (.cb k) rfl rfl
        · simp at hs
      | _ => simp at hs
    case toSimF r hs _ =>
      rw [hst] at hs
      cases hX with
      | tail h =>
        cases h
        · cases hqq : c.queued <;> simp [hqq, base] at hs
          show Shape _ r s.reacting
          rw [hs, hre, hqq]; exact .rest
        · simp at hs
      | _ => simp at hs
    case toSim r hs _ =>
      rw [hst] at hs
      cases hX with
      | tail h =>
        cases h
        · cases hqq : c.queued <;> simp [hqq, base] at hs
          show Shape _ r s.reacting
          rw [hs, hre, hqq]; exact .rest
        · simp at hs
      | _ => simp at hs
    case startDone r hs =>
      obtain ⟨X', rfl, rfl⟩ := split_base (hst.symm.trans hs) (by simp) (by simp)
      exact .busy' hX.tail_of rfl hre
    case endDone r hs =>
      obtain ⟨X', rfl, rfl⟩ := split_base (hst.symm.trans hs) (by simp) (by simp)
      exact .busy' hX.tail_of rfl hre
    case finishAgain r hs _ =>
      obtain ⟨X', rfl, rfl⟩ := split_base (hst.symm.trans hs) (by simp) (by simp)
      exact .busy' hX.tail_of rfl hre
    case finish r hs _ =>
      obtain ⟨X', rfl, rfl⟩ := split_base (hst.symm.trans hs) (by simp) (by simp)
      exact .busy' hX.tail_of rfl hre
    case retStart r hs =>
      obtain ⟨X', rfl, rfl⟩ := split_base (hst.symm.trans hs) (by simp) (by simp)
      exact .busy' hX.tail_of rfl hre
    case retUser r hs =>
      obtain ⟨X', rfl, rfl⟩ := split_base (hst.symm.trans hs) (by simp) (by simp)
      exact .busy' hX.tail_of rfl hre
    case retEnd r hs =>
      obtain ⟨X', rfl, rfl⟩ := split_base (hst.symm.trans hs) (by simp) (by simp)
      exact .busy' hX.tail_of rfl hre
    case startup r hs =>
      obtain ⟨X', rfl, rfl⟩ := split_base (hst.symm.trans hs) (by simp) (by simp)
      cases hX with
      | tail h => cases h
      | cb => exact .busy' (.tail (.start _)) rfl hre
    case shutdown r hs =>
      obtain ⟨X', rfl, rfl⟩ := split_base (hst.symm.trans hs) (by simp) (by simp)
      cases hX with
      | tail h => cases h
      | cb => exact .busy' (.endLoop _ .nil) rfl hre
    case user n r hs =>
      obtain ⟨X', rfl, rfl⟩ := split_base (hst.symm.trans hs) (by simp) (by simp)
      cases hX with
      | tail h => cases h
      | cb => exact .busy' .user rfl hre
    case startNext i l r hs =>
      obtain ⟨X', rfl, rfl⟩ := split_base (hst.symm.trans hs) (by simp) (by simp)
      cases hX with
      | tail h => cases h; exact .busy' (.inStart _) rfl hre
    case endNext i l r hs =>
      obtain ⟨X', rfl, rfl⟩ := split_base (hst.symm.trans hs) (by simp) (by simp)
      cases hX with
      | tail h => cases h
      | endLoop _ h => exact .busy' (.inEnd _ h) rfl hre
    case retStartErr r hs =>
      obtain ⟨X', rfl, rfl⟩ := split_base (hst.symm.trans hs) (by simp) (by simp)
      cases hX with
      | tail h => cases h
      | inStart l => exact .busy' (.endLoop _ (.start l)) rfl hre
    case retUserErr r hs =>
      obtain ⟨X', rfl, rfl⟩ := split_base (hst.symm.trans hs) (by simp) (by simp)
      cases hX with
      | tail h => cases h
      | user => exact .busy' (.endLoop _ .nil) rfl hre

/-! ## Nothing after clean-up -/

theorem not_quiet {s : St} {k} (h : QuietAfterStop (s.log ++ [.fire k])) : Ev.simEnd ∉ s.log := (always_one.1 h).2 rfl

/-- A clean-up of a callback within another one happens only if the simulator calls back after it was told to finish. -/
theorem nested_quiet {c s} (h : Reachable c s) (hf : Flat c s.log) (hq : QuietAfterStop s.log) :
    ∀ t r, s.stack = .toSim :: t :: r → s.finalizing = false := by
  refine invariant_if (H := fun l => Flat c l ∧ QuietAfterStop l) (fun _ _ h => ⟨h.1.left, always_left h.2⟩)
    (P := fun s => ∀ t r, s.stack = .toSim :: t :: r → s.finalizing = false) (by simp) ?_ h ⟨hf, hq⟩
  intro s s' hr ⟨hf, hq⟩ ih st t r hs'
  have hsh := shape_inv hr (by obtain ⟨es, he⟩ := st.grows; exact Flat.left (es := es) (he ▸ hf))
  generalize hst : s.stack = stk at hsh
  generalize hre : s.reacting = re at hsh
  cases st
  case enterQ k hqq hre' ht =>
    have := not_quiet hq
    rw [← finalizing_iff hr] at this
    simpa using this
  all_goals
    cases hsh with
    | rest => simp_all [inUserCode]
    | leaving => simp_all [inUserCode]
    | nested hX hu hq' =>
      cases hX with
      | tail h => cases h <;> simp_all [inUserCode, isUserItem, base]
      | _ => simp_all [inUserCode, isUserItem, base]
    | busy hX =>
      cases hqq : c.queued <;>
      cases hX with
      | tail h => cases h <;> simp_all [inUserCode, base]
      | cb => simp_all [inUserCode, base]
      | user => simp_all [inUserCode, base]
      | inStart => simp_all [inUserCode, base]
      | finish h => cases h <;> simp_all [inUserCode, base]
      | endLoop _ h => cases h <;> simp_all [inUserCode, base]
      | inEnd _ h => cases h <;> simp_all [inUserCode, base]

theorem after_final {c s} (h : Reachable c s) (hf : Flat c s.log) (hq : QuietAfterStop s.log) (i : Nat) (hi : Ev.final i ∈ s.log) :
    s.stack = [] := by
  refine invariant_if (H := fun l => Flat c l ∧ QuietAfterStop l) (fun _ _ h => ⟨h.1.left, always_left h.2⟩)
    (P := fun s => Ev.final i ∈ s.log → s.stack = []) (by simp) ?_ h ⟨hf, hq⟩ hi
  intro s s' hr ⟨hf, hq⟩ ih st hi
  have hf0 : Flat c s.log := by obtain ⟨es, he⟩ := st.grows; exact Flat.left (es := es) (he ▸ hf)
  have hq0 : QuietAfterStop s.log := by obtain ⟨es, he⟩ := st.grows; exact always_left (es := es) (he ▸ hq)
  have hfin : Ev.final i ∈ s.log → Ev.simEnd ∈ s.log := by
    intro hm
    obtain ⟨a, b, hab⟩ := List.append_of_mem hm
    have := clean_before hr a _ b hab (.inr ⟨i, rfl⟩)
    rw [hab]; exact List.mem_append_left _ this
  cases st
  case toSimF r hs hfz =>
    cases r with
    | nil => rfl
    | cons t r =>
      have := nested_quiet hr hf0 hq0 t r hs
      rw [hfz] at this; cases this
  case enterQ k _ _ _ =>
    exact absurd (hfin (by simpa using hi)) (not_quiet hq)
  case enterR k _ _ _ =>
    exact absurd (hfin (by simpa using hi)) (not_quiet hq)
  case enterN k _ _ =>
    exact absurd (hfin (by simpa using hi)) (not_quiet hq)
  all_goals simp_all [inUserCode]

theorem nothing_after {c s} (h : Reachable c s) (hf : Flat c s.log) (hq : QuietAfterStop s.log) : NothingAfterCleanup s.log := by
  refine invariant_if (H := fun l => Flat c l ∧ QuietAfterStop l) (fun _ _ h => ⟨h.1.left, always_left h.2⟩)
    (P := fun s => NothingAfterCleanup s.log) always_nil ?_ h ⟨hf, hq⟩
  intro s s' hr ⟨hf, hq⟩ ih st
  have hf0 : Flat c s.log := by obtain ⟨es, he⟩ := st.grows; exact Flat.left (es := es) (he ▸ hf)
  have hq0 : QuietAfterStop s.log := by obtain ⟨es, he⟩ := st.grows; exact always_left (es := es) (he ▸ hq)
  have haf := fun i => after_final hr hf0 hq0 i
  unfold NothingAfterCleanup at *
  cases st
  case toSimF r hs hfz =>
    have : r = [] := by
      cases r with
      | nil => rfl
      | cons t r =>
        have := nested_quiet hr hf0 hq0 t r hs
        rw [hfz] at this; cases this
    subst this
    apply always_append ih
    intro a e b hab
    have he := mem_pass (c := c) (e := e) (by rw [pass, hab]; simp)
    refine ⟨?_, ?_⟩
    · intro i hi
      have hd := depth hr
      simp [hs, isUserItem] at hd
      have h1 : a.countP isCall = 0 := by
        rw [List.countP_eq_zero]
        intro x hx
        rcases mem_pass (c := c) (e := x) (by rw [pass, hab]; simp [hx]) with rfl | ⟨i, _, rfl⟩ <;> simp [isCall]
      unfold inProgress
      rw [List.countP_append, List.countP_append, h1]
      omega
    · rcases he with rfl | ⟨i, _, rfl⟩ <;> simp [isCall]
  all_goals
    simp [always_one, always_two, isCall]
    try first | exact ih | refine ⟨ih, ?_⟩
  all_goals grind

/-! ## Order of start and end functions -/

theorem below {q hd r re} (h : Shape q (hd :: r) re) (h1 : hd ≠ .loop) (h2 : hd ≠ .toSim) :
    ∃ X, Reg (hd :: X) ∧ r = X ++ base q := by
  generalize hst : hd :: r = st at h
  cases h with
  | rest => cases hst
  | leaving => injection hst with h; exact absurd h h2
  | nested => injection hst with h; exact absurd h h2
  | busy hX =>
    obtain ⟨X', rfl, rfl⟩ := split_base hst.symm h1 h2
    exact ⟨X', hX, rfl⟩

theorem items_base (q) : (base q).flatMap startItems = [] ∧ (base q).flatMap endItems = [] := by
  cases q <;> simp [base, startItems, endItems]

theorem items_below_cb {q k r re} (h : Shape q (.cb k :: r) re) : r.flatMap startItems = [] ∧ r.flatMap endItems = [] := by
  obtain ⟨X, hX, rfl⟩ := below h (by simp) (by simp)
  cases hX with
  | tail h => cases h
  | cb => simpa using items_base q

theorem items_below_user {q r re} (h : Shape q (.inUser :: r) re) : r.flatMap endItems = [] := by
  obtain ⟨X, hX, rfl⟩ := below h (by simp) (by simp)
  cases hX with
  | tail h => cases h
  | user => simpa using (items_base q).2

theorem items_below_start {q r re} (h : Shape q (.inStart :: r) re) : r.flatMap endItems = [] := by
  obtain ⟨X, hX, rfl⟩ := below h (by simp) (by simp)
  cases hX with
  | tail h => cases h
  | inStart l => simpa [endItems] using (items_base q).2

theorem start_order {c s} (h : Reachable c s) (hf : Flat c s.log) :
    startCalls s.log ++ s.stack.flatMap startItems = (List.replicate (s.log.count .started) c.starts).flatten := by
  refine invariant_if (H := Flat c) (fun _ _ => Flat.left)
    (P := fun s => startCalls s.log ++ s.stack.flatMap startItems = (List.replicate (s.log.count .started) c.starts).flatten)
    (by simp [startCalls]) ?_ h hf
  intro s s' hr hf ih st
  have hsh := shape_inv hr (by obtain ⟨es, he⟩ := st.grows; exact Flat.left (es := es) (he ▸ hf))
  cases st
  case toSimF r hs hf =>
    simp only [startCalls_append, startCalls_pass, List.append_nil, List.count_append,
      count_final .started _ (by simp) (by simp), Nat.add_zero]
    simp only [hs, List.flatMap_cons, startItems, List.nil_append] at ih
    exact ih
  case startup r hs =>
    rw [hs] at hsh ih
    have := (items_below_cb hsh).1
    simp [startItems, this] at ih
    simp only [startCalls_append, List.flatMap_cons, startItems, this, List.append_nil, ih, List.count_append]
    have : startCalls [Ev.started] = [] := rfl
    simp [this, List.replicate_succ']
  all_goals simp_all [startCalls_append, List.count_append, startItems, List.count_cons]
  all_goals simp_all [startCalls] <;> grind

theorem end_order {c s} (h : Reachable c s) (hf : Flat c s.log) :
    endCalls s.log ++ s.stack.flatMap endItems = (List.replicate (ends s.log) c.ends).flatten := by
  refine invariant_if (H := Flat c) (fun _ _ => Flat.left)
    (P := fun s => endCalls s.log ++ s.stack.flatMap endItems = (List.replicate (ends s.log) c.ends).flatten)
    (by simp [endCalls, ends]) ?_ h hf
  intro s s' hr hf ih st
  have hsh := shape_inv hr (by obtain ⟨es, he⟩ := st.grows; exact Flat.left (es := es) (he ▸ hf))
  have hmore : ∀ (e : Ev) (r : List Todo), endCalls [e] = [] → ends [e] = 1 → r.flatMap endItems = [] →
      endCalls s.log = (List.replicate (ends s.log) c.ends).flatten →
      endCalls (s.log ++ [e]) ++ (Todo.endLoop c.ends :: Todo.finish :: r).flatMap endItems =
        (List.replicate (ends (s.log ++ [e])) c.ends).flatten := by
    intro e r he1 he2 hr' hih
    have : ends (s.log ++ [e]) = ends s.log + 1 := by
      simp only [ends, List.count_append] at he2 ⊢; omega
    rw [this, endCalls_append, he1, List.replicate_succ']
    simp [endItems, hr', hih]
  cases st
  case toSimF r hs hf =>
    simp only [endCalls_append, endCalls_pass, List.append_nil, List.count_append, ends,
      count_final .ended _ (by simp) (by simp), count_final (.ret true) _ (by simp) (by simp), Nat.add_zero]
    simp only [hs, List.flatMap_cons, endItems, List.nil_append] at ih
    exact ih
  case shutdown r hs =>
    rw [hs] at hsh ih
    have := (items_below_cb hsh).2
    simp [endItems, this] at ih
    exact hmore _ r rfl rfl this ih
  case retStartErr r hs =>
    rw [hs] at hsh ih
    have := items_below_start hsh
    simp [endItems, this] at ih
    exact hmore _ r rfl rfl this ih
  case retUserErr r hs =>
    rw [hs] at hsh ih
    have := items_below_user hsh
    simp [endItems, this] at ih
    exact hmore _ r rfl rfl this ih
  all_goals simp_all [endCalls_append, List.count_append, endItems, ends]
  all_goals simp_all [endCalls] <;> grind

/-! ## End functions come first -/

/-- Below every pending request to finish, all end functions were called or are going to be. -/
def Covered (es : List Nat) (log : List Ev) (stack : List Todo) : Prop :=
  ∀ up down, stack = up ++ .finish :: down → ∀ i ∈ es, Ev.endCall i ∈ log ∨ ∃ l, Todo.endLoop l ∈ up ∧ i ∈ l

theorem split_items {items r up down : List Todo} (h : items ++ r = up ++ .finish :: down) (hn : Todo.finish ∉ items) :
    ∃ m, up = items ++ m ∧ r = m ++ .finish :: down := by
  rw [List.append_eq_append_iff] at h
  rcases h with ⟨m, h1, h2⟩ | ⟨m, h1, h2⟩
  · exact ⟨m, h1, h2⟩
  · cases m with
    | nil => exact ⟨[], by simpa using h1.symm, by simpa using h2.symm⟩
    | cons x m =>
      simp only [List.cons_append, List.cons.injEq] at h2
      exact absurd (by rw [h1, ← h2.1]; simp) hn

theorem Covered.push {es log stk} (h : Covered es log stk) (items : List Todo) (hn : Todo.finish ∉ items) (evs : List Ev) :
    Covered es (log ++ evs) (items ++ stk) := by
  intro up down hs i hi
  obtain ⟨m, rfl, hm⟩ := split_items hs hn
  rcases h m down hm i hi with h | ⟨l, h1, h2⟩
  · exact .inl (by simp [h])
  · exact .inr ⟨l, by simp [h1], h2⟩

theorem Covered.swap {es log t r} (h : Covered es log (t :: r)) (items : List Todo) (hn : Todo.finish ∉ items) (evs : List Ev)
    (ht : ∀ l, t = .endLoop l → ∀ i ∈ l, Ev.endCall i ∈ evs ∨ ∃ l', Todo.endLoop l' ∈ items ∧ i ∈ l') :
    Covered es (log ++ evs) (items ++ r) := by
  intro up down hs i hi
  obtain ⟨m, rfl, hm⟩ := split_items hs hn
  rcases h (t :: m) down (by simp [hm]) i hi with h | ⟨l, h1, h2⟩
  · exact .inl (by simp [h])
  · rcases List.mem_cons.1 h1 with h1 | h1
    · rcases ht l h1.symm i h2 with h | ⟨l', h3, h4⟩
      · exact .inl (by simp [h])
      · exact .inr ⟨l', by simp [h3], h4⟩
    · exact .inr ⟨l, by simp [h1], h2⟩

theorem Covered.err {es log t r} (_ : Covered es log (t :: r)) (evs : List Ev) (_ : ∀ l, t ≠ .endLoop l) :
    Covered es (log ++ evs) (.endLoop es :: .finish :: r) := by
  intro up down hs i hi
  cases up with
  | nil => simp at hs
  | cons x up =>
    simp only [List.cons_append, List.cons.injEq] at hs
    obtain ⟨rfl, hs⟩ := hs
    exact .inr ⟨es, by simp, hi⟩

theorem ends_first {c s} (h : Reachable c s) :
    Covered c.ends s.log s.stack ∧
    Always (fun pre e => e = .simEnd → Ev.stop ∈ pre ∨ ∀ i ∈ c.ends, Ev.endCall i ∈ pre) s.log := by
  refine invariant (P := fun s => Covered c.ends s.log s.stack ∧
    Always (fun pre e => e = .simEnd → Ev.stop ∈ pre ∨ ∀ i ∈ c.ends, Ev.endCall i ∈ pre) s.log)
    ⟨by intro up; simp, always_nil⟩ ?_ h
  intro s s' hr ⟨ih1, ih2⟩ st
  constructor
  · cases st
    case enterQ => exact ih1.push [_] (by simp) _
    case enterR => exact ih1.push [_, _, _] (by simp) _
    case enterN => exact ih1.push [_, _] (by simp) _
    case stopAgain => exact ih1.push [] (by simp) _
    case stop => exact ih1.push [] (by simp) _
    case startup r hs => rw [hs] at ih1; exact ih1.swap [_] (by simp) _ (by simp)
    case shutdown r hs => rw [hs] at ih1; exact ih1.err _ (by simp)
    case user n r hs => rw [hs] at ih1; exact ih1.swap [_] (by simp) _ (by simp)
    case startDone r hs => rw [hs] at ih1; simpa using ih1.swap [] (by simp) [] (by simp)
    case startNext i l r hs => rw [hs] at ih1; exact ih1.swap [_, _] (by simp) _ (by simp)
    case endDone r hs => rw [hs] at ih1; simpa using ih1.swap [] (by simp) [] (by simp)
    case endNext i l r hs =>
      rw [hs] at ih1
      refine ih1.swap [_, _] (by simp) _ ?_
      intro l' hl' j hj
      simp only [Todo.endLoop.injEq] at hl'
      subst hl'
      rcases List.mem_cons.1 hj with rfl | hj
      · exact .inl (by simp)
      · exact .inr ⟨l, by simp, hj⟩
    case finishAgain r hs _ => rw [hs] at ih1; simpa using ih1.swap [] (by simp) [] (by simp)
    case finish r hs _ => rw [hs] at ih1; exact ih1.swap [] (by simp) _ (by simp)
    case loopDone r hs _ => rw [hs] at ih1; simpa using ih1.swap [] (by simp) [] (by simp)
    case loopNext k q r hs _ => rw [hs] at ih1; simpa using ih1.swap [.cb k, .loop] (by simp) [] (by simp)
    case toSimF r hs _ => rw [hs] at ih1; exact ih1.swap [] (by simp) _ (by simp)
    case toSim r hs _ => rw [hs] at ih1; simpa using ih1.swap [] (by simp) [] (by simp)
    case retStart r hs => rw [hs] at ih1; exact ih1.swap [] (by simp) _ (by simp)
    case retStartErr r hs => rw [hs] at ih1; exact ih1.err _ (by simp)
    case retUser r hs => rw [hs] at ih1; exact ih1.swap [] (by simp) _ (by simp)
    case retUserErr r hs => rw [hs] at ih1; exact ih1.err _ (by simp)
    case retEnd r hs => rw [hs] at ih1; exact ih1.swap [] (by simp) _ (by simp)
  · cases st
    case toSimF r hs hf =>
      apply always_append ih2
      intro a e b hab heq
      subst heq
      have := mem_pass (c := c) (e := .simEnd) (by rw [pass, hab]; simp)
      simp at this
    case finish r hs hf =>
      rw [always_one]
      refine ⟨ih2, fun _ => .inr ?_⟩
      intro i hi
      rcases ih1 [] r hs i hi with h | ⟨l, h, _⟩
      · exact h
      · cases h
    all_goals simp [always_one, always_two]
    all_goals first | exact ih2 | skip

/-! ## Libraries -/

theorem findFirst_none {c : Char} : ∀ {t : Text}, c ∉ t → findFirst c t = none
  | [], _ => rfl
  | x :: t, h => by
    simp only [List.mem_cons, not_or] at h
    simp [findFirst, Ne.symm h.1, findFirst_none h.2]

theorem findFirst_some {c : Char} : ∀ {a : Text} (b : Text), c ∉ a → findFirst c (a ++ c :: b) = some (a, b)
  | [], b, _ => by simp [findFirst]
  | x :: a, b, h => by
    simp only [List.mem_cons, not_or] at h
    simp [findFirst, Ne.symm h.1, findFirst_some b h.2]

theorem findLast_none {c : Char} : ∀ {t : Text}, c ∉ t → findLast c t = none
  | [], _ => rfl
  | x :: t, h => by
    simp only [List.mem_cons, not_or] at h
    simp [findLast, Ne.symm h.1, findLast_none h.2]

theorem findLast_some {c : Char} : ∀ (a : Text) {b : Text}, c ∉ b → findLast c (a ++ c :: b) = some (a, b)
  | [], b, h => by simp [findLast, findLast_none h]
  | x :: a, b, h => by simp [findLast, findLast_some a h]

theorem User.text_no {u : User} (h : u.Writable) : ';' ∉ u.text := by
  obtain ⟨lib, func⟩ := u
  cases func with
  | none => exact h.1
  | some f =>
    have h1 := h.1
    have h2 := h.2.1
    simp only [User.text, List.mem_append, List.mem_cons, not_or]
    exact ⟨h1, by decide, h2⟩

/-- What loading an entry does if that fails. -/
def userFailure (L : Loader) (u : User) : List LoadEv :=
  if L.opens u.lib then [.opened u.lib, .finish] else [.finish]

theorem loadUser_loads {L u} (hw : User.Writable u) (hl : u.Loads L) : loadUser L u.text = (u.events, true) := by
  obtain ⟨lib, func⟩ := u
  cases func with
  | none =>
    have := findLast_none (t := lib) hw.2
    simp [loadUser, User.text, this, hl.1, User.events]
  | some f =>
    have := findLast_some lib hw.2.2
    simp [loadUser, User.text, this, hl.1, hl.2 f rfl, User.events]

theorem loadUser_fails {L u} (hw : User.Writable u) (hl : ¬ u.Loads L) : loadUser L u.text = (userFailure L u, false) := by
  obtain ⟨lib, func⟩ := u
  cases func with
  | none =>
    have := findLast_none (t := lib) hw.2
    simp only [User.Loads, reduceCtorEq, false_implies, implies_true, and_true] at hl
    simp [loadUser, User.text, this, hl, userFailure]
  | some f =>
    have := findLast_some lib hw.2.2
    cases ho : L.opens lib
    · simp [loadUser, User.text, this, ho, userFailure]
    · have hsym : L.sym lib f = false := by
        cases hs : L.sym lib f
        · rfl
        · exact absurd ⟨ho, by intro g hg; cases hg; exact hs⟩ hl
      simp [loadUser, User.text, this, ho, hsym, userFailure]

theorem loadUsersGo_one {L u} (hw : User.Writable u) : loadUsersGo L u.text = loadUser L u.text := by
  rw [loadUsersGo]
  split
  · rfl
  · next h => rw [findFirst_none (User.text_no hw)] at h; cases h

theorem loadUsersGo_cons {L u} (hw : User.Writable u) (rest : Text) :
    loadUsersGo L (u.text ++ ';' :: rest) =
      (match loadUser L u.text with
       | (evs, false) => (evs, false)
       | (evs, true) => (evs ++ (loadUsersGo L rest).1, (loadUsersGo L rest).2)) := by
  rw [loadUsersGo]
  have hf := findFirst_some rest (User.text_no hw)
  split
  · next h => rw [hf] at h; cases h
  · next a b h =>
    rw [hf] at h
    cases h
    rfl

/-- Entries up to the first that cannot be loaded. -/
theorem loadUsers_all {L : Loader} : ∀ {us : List User}, us ≠ [] → (∀ u ∈ us, u.Writable) → (∀ u ∈ us, u.Loads L) →
    loadUsersGo L (joinWith ';' (us.map User.text)) = (us.flatMap User.events, true)
  | [], h, _, _ => absurd rfl h
  | [u], _, hw, hl => by
    simp only [List.map_cons, List.map_nil, joinWith, List.flatMap_cons, List.flatMap_nil, List.append_nil]
    rw [loadUsersGo_one (hw u (by simp)), loadUser_loads (hw u (by simp)) (hl u (by simp))]
  | u :: u' :: us, _, hw, hl => by
    have ih := loadUsers_all (us := u' :: us) (by simp) (fun x hx => hw x (by simp [hx])) (fun x hx => hl x (by simp [hx]))
    simp only [List.map_cons, joinWith] at ih ⊢
    rw [loadUsersGo_cons (hw u (by simp)), loadUser_loads (hw u (by simp)) (hl u (by simp)), ih]
    simp

theorem loadUsers_first {L : Loader} : ∀ {us : List User} {u : User} {vs : List User}, (∀ x ∈ us, x.Writable) → u.Writable →
    (∀ x ∈ us, x.Loads L) → ¬ u.Loads L →
    loadUsersGo L (joinWith ';' ((us ++ u :: vs).map User.text)) = (us.flatMap User.events ++ userFailure L u, false)
  | [], u, [], _, hw, _, hf => by
    simp only [List.nil_append, List.map_cons, List.map_nil, joinWith, List.flatMap_nil]
    rw [loadUsersGo_one hw, loadUser_fails hw hf]
  | [], u, v :: vs, _, hw, _, hf => by
    simp only [List.nil_append, List.map_cons, joinWith, List.flatMap_nil]
    rw [loadUsersGo_cons hw, loadUser_fails hw hf]
  | x :: us, u, vs, hws, hw, hl, hf => by
    have ih := loadUsers_first (us := us) (u := u) (vs := vs) (fun y hy => hws y (by simp [hy])) hw
      (fun y hy => hl y (by simp [hy])) hf
    have hj : joinWith ';' ((x :: us ++ u :: vs).map User.text) = x.text ++ ';' :: joinWith ';' ((us ++ u :: vs).map User.text) := by
      cases us <;> simp [joinWith]
    rw [hj, loadUsersGo_cons (hws x (by simp)), loadUser_loads (hws x (by simp)) (hl x (by simp)), ih]
    simp

theorem Extra.text_no {x : Extra} (h : x.Writable) : ',' ∉ x.text := by
  simp only [Extra.text, List.mem_append, List.mem_cons, not_or]
  exact ⟨h.1, by decide, h.2.1⟩

theorem Extra.text_ne (x : Extra) : x.text ≠ [] := by simp [Extra.text]

theorem splitExtra_cons {x : Text} (h : ',' ∉ x) (rest : Text) : splitExtra (x ++ ',' :: rest) = x :: splitExtra rest := by
  rw [splitExtra]
  have hf := findFirst_some rest h
  split
  · next h' => rw [hf] at h'; cases h'
  · next a b h' => rw [hf] at h'; cases h'; rfl

theorem splitExtra_one {x : Text} (h : ',' ∉ x) : splitExtra x = if x = [] then [] else [x] := by
  rw [splitExtra]
  split
  · rfl
  · next h' => rw [findFirst_none h] at h'; cases h'

theorem splitExtra_join : ∀ {xs : List Extra}, (∀ x ∈ xs, x.Writable) → ∀ t, (t = [] ∨ (t = [','] ∧ xs ≠ [])) →
    splitExtra (joinWith ',' (xs.map Extra.text) ++ t) = xs.map Extra.text
  | [], _, t, ht => by
    rcases ht with rfl | ⟨_, h⟩
    · simp [joinWith, splitExtra_one]
    · exact absurd rfl h
  | [x], hw, t, ht => by
    rcases ht with rfl | ⟨rfl, _⟩
    · simp [joinWith, splitExtra_one (Extra.text_no (hw x (by simp))), Extra.text_ne]
    · simp only [List.map_cons, List.map_nil, joinWith]
      rw [splitExtra_cons (Extra.text_no (hw x (by simp))), splitExtra_one (by simp)]
      simp
  | x :: x' :: xs, hw, t, ht => by
    have ih := splitExtra_join (xs := x' :: xs) (fun y hy => hw y (by simp [hy])) t (ht.imp id (fun h => ⟨h.1, by simp⟩))
    simp only [List.map_cons, joinWith, List.append_assoc, List.cons_append] at ih ⊢
    rw [splitExtra_cons (Extra.text_no (hw x (by simp))), ih]

theorem loadLibs_all {L : Loader} : ∀ {xs : List Extra}, (∀ x ∈ xs, x.Writable) → (∀ x ∈ xs, x.Loads L) →
    loadLibs L (xs.map Extra.text) = (xs.flatMap Extra.events, true)
  | [], _, _ => rfl
  | x :: xs, hw, hl => by
    have ih := loadLibs_all (xs := xs) (fun y hy => hw y (by simp [hy])) (fun y hy => hl y (by simp [hy]))
    have hf := findLast_some x.lib (hw x (by simp)).2.2
    simp [loadLibs, Extra.text, hf, (hl x (by simp)).1, (hl x (by simp)).2, Extra.events] at ih ⊢
    simp [ih]

theorem loadLibs_first {L : Loader} {x : Extra} {ts : List Text} (hx : x.Writable) (hf : ¬ x.Loads L) :
    ∀ {xs : List Extra}, (∀ x ∈ xs, x.Writable) → (∀ x ∈ xs, x.Loads L) →
    ∃ es, loadLibs L (xs.map Extra.text ++ x.text :: ts) = (xs.flatMap Extra.events ++ es ++ [.exit], false) ∧
      (es = [] ∨ es = [.opened x.lib])
  | [], _, _ => by
    have hl := findLast_some x.lib hx.2.2
    cases ho : L.opens x.lib
    · exact ⟨[], by simp [loadLibs, Extra.text, hl, ho], .inl rfl⟩
    · have : L.sym x.lib x.func = false := by
        cases hs : L.sym x.lib x.func
        · rfl
        · exact absurd ⟨ho, hs⟩ hf
      exact ⟨[.opened x.lib], by simp [loadLibs, Extra.text, hl, ho, this], .inr rfl⟩
  | y :: xs, hw, hl => by
    obtain ⟨es, ih, he⟩ := loadLibs_first hx hf (xs := xs) (ts := ts) (fun z hz => hw z (by simp [hz])) (fun z hz => hl z (by simp [hz]))
    have hfl := findLast_some y.lib (hw y (by simp)).2.2
    refine ⟨es, ?_, he⟩
    simp only [List.map_cons, List.cons_append, loadLibs]
    simp only [Extra.text] at ih ⊢
    simp [hfl, (hl y (by simp)).1, (hl y (by simp)).2, Extra.events, ih]

theorem registerImpl_fold : ∀ (ns acc : List Text), ns.foldl (fun l n => (registerImpl l n).1) acc = firsts acc ns
  | [], acc => rfl
  | n :: ns, acc => by
    simp only [List.foldl_cons, firsts]
    rw [registerImpl_fold ns]
    by_cases h : n ∈ acc
    · simp [registerImpl, h]
    · simp [registerImpl, h]

/-! ## Order of callbacks -/

/-- Callbacks about to be handled. -/
def pend : List Todo → List Kind
  | [] => []
  | .cb k :: r => k :: pend r
  | _ :: r => pend r

theorem pend_tail {l : List Todo} (h : pend l = []) : pend l.tail = [] := by
  cases l with
  | nil => rfl
  | cons t r => cases t <;> simp_all [pend]

theorem handled_pass (l : List Nat) : handled (.clear :: l.map .final) = [] := by
  simp [handled, List.filterMap_eq_nil_iff]

theorem arrivals_pass (l : List Nat) : arrivals (.clear :: l.map .final) = [] := by
  simp [arrivals, List.filterMap_eq_nil_iff]

theorem handled_append (a b : List Ev) : handled (a ++ b) = handled a ++ handled b := by simp [handled]
theorem arrivals_append (a b : List Ev) : arrivals (a ++ b) = arrivals a ++ arrivals b := by simp [arrivals]

/-- What was called back for has been handled, is about to be handled, or waits in the queue. -/
structure OrderInv (c : Cfg) (s : St) : Prop where
  top : pend s.stack.tail = []
  plain : c.queued = false → s.reacting = false
  idle : s.reacting = false → s.queue = []
  loop : s.reacting = true → Todo.loop ∈ s.stack
  order : arrivals s.log = handled s.log ++ pend s.stack ++ s.queue

theorem OrderInv.quiet {c : Cfg} {s : St} {k : Kind} (h : OrderInv c s)
    (ht : s.stack = [] ∨ (inUserCode s = true ∧ ∃ h, k = .user h)) : pend s.stack = [] := by
  rcases ht with h0 | ⟨hu, _⟩
  · simp [h0, pend]
  · obtain ⟨t, r, hs, ht⟩ := userStack hu
    have := h.top
    rw [hs] at this ⊢
    rcases ht with rfl | rfl | rfl <;> simpa [pend] using this

theorem orderInv {c s} (h : Reachable c s) : OrderInv c s := by
  refine invariant (P := OrderInv c) ⟨by simp [pend], by simp, by simp, by simp, by simp [arrivals, handled, pend]⟩ ?_ h
  intro s s' hr ih st
  have hqt := @OrderInv.quiet c s
  obtain ⟨h1, h0, h2, h3, h4⟩ := ih
  cases st
  case enterQ k hq hre ht =>
    have := hqt ⟨h1, h0, h2, h3, h4⟩ ht
    refine ⟨by simpa using this, by simp [hq], by simp [hre], by simp [h3 hre], ?_⟩
    rw [arrivals_append, handled_append, h4]
    simp [arrivals, handled, pend]
  case enterR k hq hre ht =>
    have := hqt ⟨h1, h0, h2, h3, h4⟩ ht
    refine ⟨by simpa [pend] using this, by simp [hq], by simp, by simp, ?_⟩
    rw [arrivals_append, handled_append, h4]
    simp [arrivals, handled, pend, this, h2 hre]
  case enterN k hq ht =>
    have := hqt ⟨h1, h0, h2, h3, h4⟩ ht
    refine ⟨by simpa [pend] using this, h0, h2, by simpa using h3, ?_⟩
    rw [arrivals_append, handled_append, h4]
    simp [arrivals, handled, pend, this, h2 (h0 hq)]
  case toSimF r hs hf =>
    rw [hs] at h1 h3 h4
    refine ⟨pend_tail h1, h0, h2, by simpa using h3, ?_⟩
    rw [arrivals_append, handled_append, h4, handled_pass, arrivals_pass]; simp [pend]
  all_goals
    refine ⟨?_, ?_, ?_, ?_, ?_⟩ <;>
      first
      | (simp_all [pend, pend_tail]; done)
      | (simp_all [arrivals_append, handled_append, pend]; simp [arrivals, handled]; done)
      | grind

theorem calls_alone_items {q hd r re} (h : Shape q (hd :: r) re) (h1 : hd ≠ .loop) (h2 : hd ≠ .toSim) (h3 : isUserItem hd = false) :
    r.countP isUserItem = 0 := by
  generalize hst : hd :: r = st at h
  have hb : (base q).countP isUserItem = 0 := by cases q <;> simp [base, isUserItem]
  cases h with
  | rest => cases hst
  | leaving => cases hst; exact absurd rfl h2
  | nested => cases hst; exact absurd rfl h2
  | busy hX =>
    rename_i X
    obtain ⟨X', rfl, rfl⟩ := split_base hst.symm h1 h2
    rw [List.countP_append, hb]
    cases hX with
    | tail ht => cases ht; simp
    | cb k => simp
    | user => simp [isUserItem] at h3
    | inStart l => simp [isUserItem] at h3
    | finish ht => cases ht <;> simp [isUserItem]
    | endLoop l ht => cases ht <;> simp [isUserItem]
    | inEnd l ht => simp [isUserItem] at h3

theorem calls_alone {c s} (h : Reachable c s) (hf : Flat c s.log) :
    Always (fun before e => isCall e = true → inProgress before = 0) s.log := by
  refine invariant_if (H := Flat c) (fun _ _ => Flat.left)
    (P := fun s => Always (fun before e => isCall e = true → inProgress before = 0) s.log) always_nil ?_ h hf
  intro s s' hr hf' ih st
  have hsh := shape_inv hr (by obtain ⟨es, he⟩ := st.grows; exact Flat.left (he ▸ hf'))
  have hin := inProgress_eq hr
  have key : ∀ hd r, s.stack = hd :: r → hd ≠ .loop → hd ≠ .toSim → isUserItem hd = false → inProgress s.log = 0 := by
    intro hd r hs h1 h2 h3
    rw [hs] at hsh hin
    rw [hin, List.countP_cons, h3, calls_alone_items hsh h1 h2 h3]; simp
  cases st
  case toSimF r hs hf =>
    apply always_append ih
    intro a e b hab hc
    have : e ∈ pass c := by unfold pass; rw [hab]; simp
    rcases mem_pass this with rfl | ⟨i, _, rfl⟩ <;> simp [isCall] at hc
  case user n r hs => exact always_one.2 ⟨ih, fun _ => key _ _ hs (by simp) (by simp) rfl⟩
  case startNext i l r hs => exact always_one.2 ⟨ih, fun _ => key _ _ hs (by simp) (by simp) rfl⟩
  case endNext i l r hs => exact always_one.2 ⟨ih, fun _ => key _ _ hs (by simp) (by simp) rfl⟩
  all_goals first
    | exact ih
    | exact always_one.2 ⟨ih, nofun⟩
    | exact always_two.2 ⟨ih, nofun, nofun⟩

end Verif.Life
