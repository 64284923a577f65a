import Verif.Spec.Embed
/-!
# Lemmas about the embedded interpreter
-/
namespace Verif.Embed
open Verif Verif.EmbedSpec

theorem running_append (a b : List Ev) : running (a ++ b) = b.foldl track (running a) := by
  simp [running, List.foldl_append]

/-- Every end of Python code is followed by its report. -/
def Rep (tr : List Ev) : Prop := ∀ a f r b, tr = a ++ Ev.left f r :: b → report f r <+: b

/-- No error indicator is set when Python code is called. -/
def Clean (tr : List Ev) : Prop := ∀ f p, Ev.enter f p ∈ tr → p = false

theorem Rep.append {tr l : List Ev} (h : Rep tr) (hl : ∀ f r, Ev.left f r ∉ l) : Rep (tr ++ l) := by
  intro a f r b e
  rw [List.append_eq_append_iff] at e
  rcases e with ⟨c, e1, e2⟩ | ⟨c, e1, e2⟩
  · exact absurd (by rw [e2]; simp) (hl f r)
  · cases c with
    | nil => exact absurd (by rw [← List.nil_append l, ← e2]; simp) (hl f r)
    | cons x c =>
      simp only [List.cons_append, List.cons.injEq] at e2
      obtain ⟨rfl, rfl⟩ := e2
      exact List.IsPrefix.trans (h a f r c e1) (List.prefix_append _ _)

theorem report_noleft (f : Frame) (r : Res) : ∀ g q, Ev.left g q ∉ report f r := by
  intro g q
  cases f <;> cases r <;> simp [report]

theorem Rep.block {tr : List Ev} (h : Rep tr) (f : Frame) (r : Res) : Rep (tr ++ (Ev.left f r :: report f r)) := by
  intro a g q b e
  rw [List.append_eq_append_iff] at e
  rcases e with ⟨c, e1, e2⟩ | ⟨c, e1, e2⟩
  · cases c with
    | nil =>
      simp only [List.nil_append, List.cons.injEq, Ev.left.injEq] at e2
      obtain ⟨⟨rfl, rfl⟩, rfl⟩ := e2
      exact List.prefix_rfl
    | cons x c =>
      simp only [List.cons_append, List.cons.injEq] at e2
      exact absurd (by rw [e2.2]; simp) (report_noleft f r g q)
  · cases c with
    | nil =>
      simp only [List.nil_append, List.cons.injEq, Ev.left.injEq] at e2
      obtain ⟨⟨rfl, rfl⟩, rfl⟩ := e2
      exact List.prefix_rfl
    | cons x c =>
      simp only [List.cons_append, List.cons.injEq] at e2
      obtain ⟨rfl, rfl⟩ := e2
      exact List.IsPrefix.trans (h a g q c e1) (List.prefix_append _ _)

theorem running_report (a : List Ev) (f : Frame) (r : Res) : running (a ++ (Ev.left f r :: report f r)) = (running a).tail := by
  rw [running_append]
  cases f <;> cases r <;> simp [report, track]

/-- The end of Python code. -/
theorem conclude_eq (s : St) (f : Frame) (fs : List Frame) (r : Res) (he : s.err = none) (hc : s.debug = true → s.ctx ≠ 0) :
    conclude ({ s.emit (.left f r) with frames := fs }) f r =
      { s with
        frames := fs, trace := s.trace ++ (Ev.left f r :: report f r), ctx := if s.debug then s.ctx - 1 else s.ctx } := by
  obtain ⟨d, c, ic, sc, ip, hk, ev, er, fr, de, tr⟩ := s
  simp only at he hc
  subst he
  cases d <;> cases f <;> cases r <;> simp_all [conclude, errPrint, pythonToC, St.emit, report]

/-! ### Histories with the guarantees of the GPI -/

structure Inv (s : St) : Prop where
  frames : s.frames = running s.trace
  rep : Rep s.trace
  clean : Clean s.trace
  crash : Ev.crash ∉ s.trace
  exit : s.dead = false → Ev.exit ∉ s.trace
  err : s.dead = false → s.err = none
  ctxOn : s.dead = false → s.debug = true → s.ctx = s.frames.length
  ctxOff : s.dead = false → s.debug = false → s.ctx = 0
  on : s.frames ≠ [] → s.dead = false → s.interp = .on
  ev : s.eventFn.isSome = true → s.dead = false → s.interp = .on
  gone : s.interp = .gone → Ev.stopped ∈ s.trace
  off : s.interp = .off → (∀ p, Ev.enter .load p ∉ s.trace) ∧ s.hooks = 0
  stop : Ev.stopped ∈ s.trace → s.interp = .gone
  fresh : s.initCalled = false → s.interp = .off

theorem inv_init : Inv {} := by
  constructor <;> simp [running, Rep, Clean]

/-- The call of Python code by an interpreter that runs. -/
theorem call_eq (s : St) (f : Frame) (h : Inv s) (hd : s.dead = false) (hi : s.interp = .on) :
    call s f =
      if s.debug = true ∧ s.frames ≠ [] then s.die .exit
      else { s with
        frames := f :: s.frames, trace := s.trace ++ [.enter f false], ctx := if s.debug then s.ctx + 1 else s.ctx } := by
  have he := h.err hd
  have h1 := h.ctxOn hd
  obtain ⟨d, c, ic, sc, ip, hk, ev, er, fr, de, tr⟩ := s
  simp only at *
  subst hd hi he
  cases d
  · simp [call, cToPython, St.emit]
  · have := h1 rfl
    subst this
    cases fr <;> simp [call, cToPython, St.emit, St.die]

theorem inv_die {s : St} (h : Inv s) : Inv (s.die .exit) := by
  have hl : ∀ f r, Ev.left f r ∉ [Ev.exit] := by simp
  constructor <;> simp only [St.die, St.emit]
  · rw [running_append]; exact h.frames
  · exact h.rep.append hl
  · intro f p hm
    exact h.clean f p (by simpa using hm)
  · simp [h.crash]
  · simp
  · simp
  · simp
  · simp
  · simp
  · simp
  · intro e; simp [h.gone e]
  · intro e; simpa using h.off e
  · intro e; exact h.stop (by simpa using e)
  · exact h.fresh

theorem inv_call {s : St} (h : Inv s) (f : Frame) (hd : s.dead = false) (hi : s.interp = .on) : Inv (call s f) := by
  rw [call_eq s f h hd hi]
  split
  · exact inv_die h
  · next hn =>
    have hl : ∀ g r, Ev.left g r ∉ [Ev.enter f false] := by simp
    constructor <;> simp only
    · rw [running_append]; simp [h.frames, track]
    · exact h.rep.append hl
    · intro g p hm
      rcases List.mem_append.1 hm with hm | hm
      · exact h.clean g p hm
      · simp at hm; exact hm.2
    · simp [h.crash]
    · intro _; simp [h.exit hd]
    · intro _; exact h.err hd
    · intro _ e; simp [e, h.ctxOn hd e]
    · intro _ e; simp [e, h.ctxOff hd e]
    · intro _ _; exact hi
    · intro _ _; exact hi
    · intro e; rw [hi] at e; cases e
    · intro e; rw [hi] at e; cases e
    · intro e; exact h.stop (by simpa using e)
    · exact h.fresh

theorem inv_debug {s : St} (h : Inv s) (hr : s.frames = []) (b : Bool) :
    Inv (if b then { s with debug := true } else s) := by
  cases b
  · simpa using h
  · obtain ⟨h1, h2, h3, h4, h5, h6, h7, h8, h9, h10, h11, h12, h13, h14⟩ := h
    constructor <;> simp only [if_true] <;> try assumption
    · intro hd _
      rcases Bool.eq_false_or_eq_true s.debug with e | e
      · exact h7 hd e
      · rw [h8 hd e, hr]; rfl
    · intro _ e; cases e

theorem inv_initPygpi {s : St} (h : Inv s) (w : World) (hd : s.dead = false) (hr : s.frames = []) : Inv (initPygpi s w) := by
  have hg := inv_debug h hr (debugOn w.debug)
  have hd' : (if debugOn w.debug then { s with debug := true } else s).dead = false := by split <;> exact hd
  have hr' : (if debugOn w.debug then { s with debug := true } else s).frames = [] := by split <;> exact hr
  unfold initPygpi
  generalize (if debugOn w.debug then { s with debug := true } else s) = t at hg hd' hr'
  simp only
  clear h hd hr
  split
  · exact hg
  · next hic =>
    have hoff := hg.fresh (by simpa using hic)
    have hst : Ev.stopped ∉ t.trace := fun e => by rw [hg.stop e] at hoff; cases hoff
    have h0 : Inv { t with initCalled := true } := by
      obtain ⟨h1, h2, h3, h4, h5, h6, h7, h8, h9, h10, h11, h12, h13, h14⟩ := hg
      constructor <;> first | assumption | simp
    have key : ∀ l : List Ev, (∀ e ∈ l, (∃ p, e = .started p) ∨ e = .hooked ∨ ∃ n, e = .paused n) →
        Inv { t with initCalled := true, interp := .on, hooks := t.hooks + 1, trace := t.trace ++ l } := by
      intro l hl
      have hno : ∀ e ∈ l, ∀ f p, e ≠ Ev.enter f p ∧ ∀ r, e ≠ Ev.left f r := by
        intro e he f p
        rcases hl e he with ⟨q, rfl⟩ | rfl | ⟨n, rfl⟩ <;> simp
      have hx : ∀ e ∈ l, e ≠ Ev.crash ∧ e ≠ Ev.exit ∧ e ≠ Ev.stopped := by
        intro e he
        rcases hl e he with ⟨q, rfl⟩ | rfl | ⟨n, rfl⟩ <;> simp
      have hrun : ∀ (l : List Ev), (∀ e ∈ l, (∃ p, e = .started p) ∨ e = .hooked ∨ ∃ n, e = .paused n) → ∀ st,
          l.foldl track st = st := by
        intro l hl
        induction l with
        | nil => intro st; rfl
        | cons x l ih =>
          intro st
          rw [List.foldl_cons]
          rw [show track st x = st by rcases hl x (by simp) with ⟨q, rfl⟩ | rfl | ⟨n, rfl⟩ <;> rfl]
          exact ih (fun e he => hl e (by simp [he])) st
      constructor <;> simp only
      · rw [running_append, hrun l hl]; exact hg.frames
      · exact hg.rep.append fun f r hm => (hno _ hm f true).2 r rfl
      · intro f p hm
        rcases List.mem_append.1 hm with hm | hm
        · exact hg.clean f p hm
        · exact absurd rfl (hno _ hm f p).1
      · intro hm
        rcases List.mem_append.1 hm with hm | hm
        · exact hg.crash hm
        · exact (hx _ hm).1 rfl
      · intro hd hm
        rcases List.mem_append.1 hm with hm | hm
        · exact hg.exit hd hm
        · exact (hx _ hm).2.1 rfl
      · exact hg.err
      · exact hg.ctxOn
      · exact hg.ctxOff
      · simp
      · simp
      · intro e; cases e
      · intro e; cases e
      · intro hm
        rcases List.mem_append.1 hm with hm | hm
        · exact absurd hm hst
        · exact absurd rfl (hx _ hm).2.2
      · intro e; cases e
    split
    · exact h0
    · next path _ =>
      split
      · exact h0
      · split
        · exact h0
        · split
          · have := key [.started path, .hooked] (by simp)
            simpa [St.emit] using this
          · next n _ =>
            have := key [.started path, .hooked, .paused n] (by simp)
            simpa [St.emit] using this

theorem inv_concl {s : St} (h : Inv s) (hd : s.dead = false) (f : Frame) (fs : List Frame) (hf : s.frames = f :: fs) (r : Res) :
    Inv (conclude ({ s.emit (.left f r) with frames := fs }) f r) := by
  rw [conclude_eq s f fs r (h.err hd) (fun e => by rw [h.ctxOn hd e, hf]; simp)]
  have hne : s.frames ≠ [] := by rw [hf]; simp
  have hon := h.on hne hd
  have hmem : ∀ e ∈ Ev.left f r :: report f r, (∀ g p, e ≠ Ev.enter g p) ∧ e ≠ .crash ∧ e ≠ .exit ∧ e ≠ .stopped := by
    intro e he
    cases f <;> cases r <;> simp [report] at he <;> rcases he with rfl | rfl | rfl <;> simp
  constructor <;> simp only
  · rw [running_report, ← h.frames, hf]; rfl
  · exact h.rep.block f r
  · intro g p hm
    rcases List.mem_append.1 hm with hm | hm
    · exact h.clean g p hm
    · exact absurd rfl ((hmem _ hm).1 g p)
  · intro hm
    rcases List.mem_append.1 hm with hm | hm
    · exact h.crash hm
    · exact (hmem _ hm).2.1 rfl
  · intro hd hm
    rcases List.mem_append.1 hm with hm | hm
    · exact h.exit hd hm
    · exact (hmem _ hm).2.2.1 rfl
  · exact h.err
  · intro _ e
    rw [if_pos e, h.ctxOn hd e, hf]; simp
  · intro _ e
    simp [e, h.ctxOff hd e]
  · intros; exact hon
  · intros; exact hon
  · intro e; rw [hon] at e; cases e
  · intro e; rw [hon] at e; cases e
  · intro hm
    rcases List.mem_append.1 hm with hm | hm
    · exact h.stop hm
    · exact absurd rfl (hmem _ hm).2.2.2
  · exact h.fresh

/-- Events that are neither calls nor ends of Python code, nor ends of anything else. -/
theorem inv_emit {s : St} (h : Inv s) (e : Ev)
    (he : (∀ g p, e ≠ Ev.enter g p) ∧ (∀ g r, e ≠ Ev.left g r) ∧ e ≠ .crash ∧ e ≠ .exit ∧ e ≠ .stopped) : Inv (s.emit e) := by
  obtain ⟨e1, e2, e3, e4, e5⟩ := he
  have hr : track (running s.trace) e = running s.trace := by
    cases e <;> simp_all [track]
  constructor <;> simp only [St.emit]
  · rw [running_append]
    simp only [List.foldl_cons, List.foldl_nil]
    rw [hr]; exact h.frames
  · exact h.rep.append fun f r hm => e2 f r (by simpa using Eq.symm (by simpa using hm))
  · intro f p hm
    rcases List.mem_append.1 hm with hm | hm
    · exact h.clean f p hm
    · exact absurd (by simpa using Eq.symm (by simpa using hm)) (e1 f p)
  · intro hm
    rcases List.mem_append.1 hm with hm | hm
    · exact h.crash hm
    · exact e3 (by simpa using Eq.symm (by simpa using hm))
  · intro hd hm
    rcases List.mem_append.1 hm with hm | hm
    · exact h.exit hd hm
    · exact e4 (by simpa using Eq.symm (by simpa using hm))
  · exact h.err
  · exact h.ctxOn
  · exact h.ctxOff
  · exact h.on
  · exact h.ev
  · intro e; simp [h.gone e]
  · intro e
    refine ⟨fun p hm => ?_, (h.off e).2⟩
    rcases List.mem_append.1 hm with hm | hm
    · exact (h.off e).1 p hm
    · exact absurd (by simpa using Eq.symm (by simpa using hm)) (e1 .load p)
  · intro hm
    rcases List.mem_append.1 hm with hm | hm
    · exact h.stop hm
    · exact absurd (by simpa using Eq.symm (by simpa using hm)) e5
  · exact h.fresh

theorem inv_final {s : St} (h : Inv s) (hd : s.dead = false) (hr : s.frames = []) : Inv (finalize s) := by
  unfold finalize
  split
  case isFalse => exact h
  next hon =>
  have h0 : finalize s = { s with trace := s.trace ++ [.stopped], eventFn := none, interp := .gone } := by
    have h1 := h.ctxOn hd
    have h2 := h.ctxOff hd
    rw [hr] at h1
    obtain ⟨d, c, ic, sc, ip, hk, ev, er, fr, de, tr⟩ := s
    simp only at *
    subst hd hon hr
    cases d
    · simp [finalize, cToPython, pythonToC, St.emit]
    · have := h1 rfl
      subst this
      simp [finalize, cToPython, pythonToC, St.emit]
  have h1 : Inv { s with trace := s.trace ++ [.stopped], eventFn := none, interp := .gone } := by
    constructor <;> simp only
    · rw [running_append]; simp [track, h.frames]
    · exact h.rep.append (by simp)
    · intro f p hm
      exact h.clean f p (by simpa using hm)
    · simp [h.crash]
    · intro _; simp [h.exit hd]
    · exact h.err
    · exact h.ctxOn
    · exact h.ctxOff
    · intro e; exact absurd hr e
    · simp
    · simp
    · intro e; cases e
    · simp
    · intro e; rw [h.fresh e] at hon; cases hon
  rw [← h0] at h1
  unfold finalize at h1
  rw [if_pos hon] at h1
  exact h1

theorem inv_start {s : St} (h : Inv s) (hd : s.dead = false) (hr : s.frames = []) (hon : s.interp = .on) (imp : Res) :
    Inv (startOfSim s imp) := by
  unfold startOfSim
  split
  · exact inv_emit h _ (by simp)
  · have h0 : Inv { s with startCalled := true } := by
      obtain ⟨h1, h2, h3, h4, h5, h6, h7, h8, h9, h10, h11, h12, h13, h14⟩ := h
      constructor <;> assumption
    have hd0 : ({ s with startCalled := true } : St).dead = false := hd
    have hr0 : ({ s with startCalled := true } : St).frames = [] := hr
    have hon0 : ({ s with startCalled := true } : St).interp = .on := hon
    generalize ({ s with startCalled := true } : St) = t at h0 hd0 hr0 hon0
    clear h hd hr hon
    have he := h0.err hd0
    have h1 := h0.ctxOn hd0
    have h2 := h0.ctxOff hd0
    rw [hr0] at h1
    cases imp
    · exact inv_call h0 _ hd0 hon0
    · have : (let s := cToPython t
          if s.dead then s
          else if s.interp ≠ .on then s.die .crash
          else
            let s := errPrint { s with err := some .sysExit }
            if s.dead then s else pythonToC (s.emit (.result .load (-1)))) =
            { t with err := some .sysExit, ctx := (cToPython t).ctx, trace := t.trace ++ [.exit], dead := true } := by
        obtain ⟨d, c, ic, sc, ip, hk, ev, er, fr, de, tr⟩ := t
        simp only at *
        subst hd0 hon0 hr0 he
        cases d
        · simp [cToPython, pythonToC, St.emit, St.die, errPrint]
        · have := h1 rfl
          subst this
          simp [cToPython, pythonToC, St.emit, St.die, errPrint]
      simp only at this ⊢
      rw [this]
      have hx := inv_die h0
      obtain ⟨h1, h2, h3, h4, h5, h6, h7, h8, h9, h10, h11, h12, h13, h14⟩ := hx
      constructor <;> simp_all [St.die, St.emit]
    · have : (let s := cToPython t
          if s.dead then s
          else if s.interp ≠ .on then s.die .crash
          else
            let s := errPrint { s with err := some .exc }
            if s.dead then s else pythonToC (s.emit (.result .load (-1)))) =
            (t.emit .printed).emit (.result .load (-1)) := by
        obtain ⟨d, c, ic, sc, ip, hk, ev, er, fr, de, tr⟩ := t
        simp only at *
        subst hd0 hon0 hr0 he
        cases d
        · simp [cToPython, pythonToC, St.emit, St.die, errPrint]
        · have := h1 rfl
          subst this
          simp [cToPython, pythonToC, St.emit, St.die, errPrint]
      simp only at this ⊢
      rw [this]
      exact inv_emit (inv_emit h0 _ (by simp)) _ (by simp)

theorem inv_step {s : St} (h : Inv s) (o : Op) (hm : May s.trace o) : Inv (step s o) := by
  unfold step
  split
  · exact h
  next hdd =>
  have hd : s.dead = false := by simpa using hdd
  cases o with
  | init w => exact inv_initPygpi h w hd (h.frames.trans hm)
  | start imp =>
    simp only
    split
    · exact h
    · next hk =>
      have hon : s.interp = .on := by
        cases e : s.interp with
        | off => exact absurd (h.off e).2 hk
        | on => rfl
        | gone => exact absurd (h.gone e) hm.2
      exact inv_start h hd (h.frames.trans hm.1) hon imp
  | endSim =>
    simp only
    split
    · exact h
    · unfold endOfSim
      split
      · exact h
      · next fn e => exact inv_call h _ hd (h.ev (by rw [e]; rfl) hd)
  | final =>
    simp only
    split
    · exact h
    · exact inv_final h hd (h.frames.trans hm)
  | callback fn =>
    have hon : s.interp = .on := by
      cases e : s.interp with
      | off => exact absurd hm.1.choose_spec ((h.off e).1 _)
      | on => rfl
      | gone => exact absurd (h.gone e) hm.2
    exact inv_call h _ hd hon
  | setEvent fn =>
    simp only
    split
    · exact h
    · next hf =>
      split
      · exact inv_emit h _ (by simp)
      · have h1 := inv_emit h (.eventSet fn) (by simp)
        obtain ⟨h1, h2, h3, h4, h5, h6, h7, h8, h9, h10, h11, h12, h13, h14⟩ := h1
        constructor <;> first | assumption | skip
        intro _ _
        exact h.on hf hd
  | ret r =>
    simp only
    split
    · exact h
    · next f fs e => exact inv_concl h hd f fs e r

theorem gpiOk_prefix {a b : List Op} (h : GpiOk (a ++ b)) : GpiOk a := by
  intro x o y e
  exact h x o (y ++ b) (by rw [e]; simp)

theorem run_snoc (h : List Op) (o : Op) : run (h ++ [o]) = step (run h) o := by simp [run]

/-- Induction over histories from the end. -/
theorem snocInd {P : List Op → Prop} (h0 : P []) (h1 : ∀ h o, P h → P (h ++ [o])) (h : List Op) : P h := by
  rw [← List.reverse_reverse h]
  generalize h.reverse = l
  induction l with
  | nil => exact h0
  | cons o l ih => rw [List.reverse_cons]; exact h1 _ _ ih

theorem inv_run (h : List Op) (hk : GpiOk h) : Inv (run h) := by
  revert hk
  induction h using snocInd with
  | h0 => intro _; exact inv_init
  | h1 h o ih =>
    intro hk
    rw [run_snoc]
    exact inv_step (ih (gpiOk_prefix hk)) o (hk h o [] rfl)

/-! ### Histories given by lists -/

instance (tr : List Ev) (o : Op) : Decidable (May tr o) := by
  cases o <;> unfold May <;> infer_instance

theorem gpiOk_of {h : List Op} (hh : ∀ i : Fin h.length, May (run (h.take i)).trace h[i]) : GpiOk h := by
  intro a o b e
  have hl : a.length < h.length := by rw [e]; simp
  have := hh ⟨a.length, hl⟩
  have h1 : h.take a.length = a := by rw [e]; simp
  have h2 : h[a.length] = o := by simp [e]
  simp only [Fin.getElem_fin] at this
  rw [h1, h2] at this
  exact this

/-! ### What is added to the events -/

theorem cToPython_fields (s : St) : (cToPython s).initCalled = s.initCalled ∧ (cToPython s).startCalled = s.startCalled ∧
    (cToPython s).hooks = s.hooks ∧ (cToPython s).interp = s.interp ∧ (cToPython s).frames = s.frames ∧
    (cToPython s).eventFn = s.eventFn ∧
    ((cToPython s).trace = s.trace ∨ (cToPython s).trace = s.trace ++ [.exit]) := by
  unfold cToPython
  split
  · split <;> simp [St.die, St.emit]
  · simp

theorem pythonToC_fields (s : St) : (pythonToC s).initCalled = s.initCalled ∧ (pythonToC s).startCalled = s.startCalled ∧
    (pythonToC s).hooks = s.hooks ∧ (pythonToC s).interp = s.interp ∧ (pythonToC s).frames = s.frames ∧
    (pythonToC s).eventFn = s.eventFn ∧
    ((pythonToC s).trace = s.trace ∨ (pythonToC s).trace = s.trace ++ [.exit]) := by
  unfold pythonToC
  split
  · split <;> simp [St.die, St.emit]
  · simp

def isLoad : Ev → Bool
  | .enter .load _ => true
  | _ => false

/-- `s'` comes after `s`: the flags stay set, and what they exclude is not done again. -/
structure Grow (s s' : St) : Prop where
  init : s.initCalled = true → s'.initCalled = true
  start : s.startCalled = true → s'.startCalled = true
  trace : ∃ l, s'.trace = s.trace ++ l ∧
    (s.initCalled = true → ∀ e ∈ l, e ≠ .hooked ∧ ∀ p, e ≠ .started p) ∧
    (s.startCalled = true → l.countP isLoad = 0) ∧
    (l.countP isLoad ≤ 1) ∧ (l.countP isLoad ≠ 0 → s'.startCalled = true)

theorem Grow.refl (s : St) : Grow s s := ⟨id, id, [], by simp⟩

theorem Grow.trans {a b c : St} (h1 : Grow a b) (h2 : Grow b c) : Grow a c := by
  obtain ⟨i1, s1, l1, e1, a1, b1, c1, d1⟩ := h1
  obtain ⟨i2, s2, l2, e2, a2, b2, c2, d2⟩ := h2
  refine ⟨i2 ∘ i1, s2 ∘ s1, l1 ++ l2, by rw [e2, e1]; simp, ?_, ?_, ?_, ?_⟩
  · intro h e he
    rcases List.mem_append.1 he with he | he
    · exact a1 h e he
    · exact a2 (i1 h) e he
  · intro h; simp [b1 h, b2 (s1 h)]
  · rw [List.countP_append]
    rcases Nat.eq_zero_or_pos (l1.countP isLoad) with h | h
    · omega
    · have := b2 (d1 (by omega)); omega
  · rw [List.countP_append]
    intro h
    rcases Nat.eq_zero_or_pos (l1.countP isLoad) with h' | h'
    · exact d2 (by omega)
    · exact s2 (d1 (by omega))

/-- Something unsuspicious is added. -/
theorem grow_of {s s' : St} (l : List Ev) (ht : s'.trace = s.trace ++ l) (hi : s'.initCalled = s.initCalled)
    (hs : s.startCalled = true → s'.startCalled = true)
    (hl : ∀ e ∈ l, isLoad e = false ∧ e ≠ .hooked ∧ ∀ p, e ≠ .started p) : Grow s s' := by
  have : l.countP isLoad = 0 := by
    rw [List.countP_eq_zero]
    intro e he
    simp [(hl e he).1]
  refine ⟨fun h => hi.trans h, hs, l, ht, fun _ e he => (hl e he).2, fun _ => this, by omega, by omega⟩

theorem grow_cToPython (s : St) : Grow s (cToPython s) := by
  obtain ⟨h1, h2, -, -, -, -, h | h⟩ := cToPython_fields s
  · exact grow_of [] (by simp [h]) h1 (fun e => h2.trans e) (by simp)
  · exact grow_of [.exit] h h1 (fun e => h2.trans e) (by simp [isLoad])

theorem grow_pythonToC (s : St) : Grow s (pythonToC s) := by
  obtain ⟨h1, h2, -, -, -, -, h | h⟩ := pythonToC_fields s
  · exact grow_of [] (by simp [h]) h1 (fun e => h2.trans e) (by simp)
  · exact grow_of [.exit] h h1 (fun e => h2.trans e) (by simp [isLoad])

theorem grow_call (s : St) (f : Frame) (hf : f ≠ .load) : Grow s (call s f) := by
  refine (grow_cToPython s).trans ?_
  unfold call
  generalize cToPython s = t
  simp only
  split
  · exact Grow.refl _
  · split
    · exact grow_of [.crash] rfl rfl (fun e => e) (by simp [isLoad])
    · refine grow_of [.enter f t.err.isSome] rfl rfl (fun e => e) ?_
      cases f <;> simp_all [isLoad]

theorem grow_errPrint (s : St) : Grow s (errPrint s) := by
  unfold errPrint
  split
  · exact grow_of [.exit] rfl rfl (fun e => e) (by simp [isLoad])
  · exact grow_of [.printed] rfl rfl (fun e => e) (by simp [isLoad])

theorem grow_conclude (s : St) (f : Frame) (r : Res) : Grow s (conclude s f r) := by
  unfold conclude
  simp only
  refine Grow.trans ?_ (grow_pythonToC _)
  have h1 : Grow s (if r ≠ .ok then { s with err := some r } else s) := by
    split
    · exact grow_of [] (by simp) rfl (fun e => e) (by simp)
    · exact Grow.refl _
  refine h1.trans ?_
  generalize (if r ≠ .ok then { s with err := some r } else s) = t1
  have h2 : Grow t1 (if r ≠ .ok ∧ t1.err ≠ some .sysExit then errPrint t1 else t1) := by
    split
    · exact grow_errPrint _
    · exact Grow.refl _
  refine h2.trans ?_
  generalize (if r ≠ .ok ∧ t1.err ≠ some .sysExit then errPrint t1 else t1) = t2
  have h3 : Grow t2 (if r ≠ .ok then { t2 with err := none } else t2) := by
    split
    · exact grow_of [] (by simp) rfl (fun e => e) (by simp)
    · exact Grow.refl _
  refine h3.trans ?_
  generalize (if r ≠ .ok then { t2 with err := none } else t2) = t3
  split
  · split
    · exact grow_of [.complain] rfl rfl (fun e => e) (by simp [isLoad])
    · exact Grow.refl _
  · exact grow_of [.result f (if r ≠ .ok then -1 else 0)] rfl rfl (fun e => e) (by simp [isLoad])

theorem grow_initPygpi (s : St) (w : World) : Grow s (initPygpi s w) := by
  have h1 : Grow s (if debugOn w.debug then { s with debug := true } else s) := by
    split
    · exact grow_of [] (by simp) rfl (fun e => e) (by simp)
    · exact Grow.refl _
  refine h1.trans ?_
  unfold initPygpi
  generalize (if debugOn w.debug then { s with debug := true } else s) = t
  simp only
  have h0 : t.initCalled = false → Grow t { t with initCalled := true } := by
    intro h
    exact ⟨fun _ => rfl, fun e => e, [], by simp⟩
  split
  · exact Grow.refl _
  · next hi =>
    have hi : t.initCalled = false := by simpa using hi
    split
    · exact h0 hi
    · next path _ =>
      split
      · exact h0 hi
      · split
        · exact h0 hi
        · split
          · exact ⟨fun _ => rfl, fun e => e, [.started path, .hooked], by simp [St.emit, hi, isLoad]⟩
          · next n _ =>
            exact ⟨fun _ => rfl, fun e => e, [.started path, .hooked, .paused n], by simp [St.emit, hi, isLoad]⟩

theorem grow_startOfSim (s : St) (imp : Res) : Grow s (startOfSim s imp) := by
  unfold startOfSim
  split
  · exact grow_of [.result .load (-1)] rfl rfl (fun e => e) (by simp [isLoad])
  · next hs =>
    have hs : s.startCalled = false := by simpa using hs
    have h0 : Grow s { s with startCalled := true } := grow_of [] (by simp) rfl (fun _ => rfl) (by simp)
    have hbad : ∀ r, Grow s (let s := cToPython { s with startCalled := true }
        if s.dead then s
        else if s.interp ≠ .on then s.die .crash
        else
          let s := errPrint { s with err := some r }
          if s.dead then s else pythonToC (s.emit (.result .load (-1)))) := by
      intro r
      refine h0.trans ((grow_cToPython _).trans ?_)
      generalize cToPython { s with startCalled := true } = t
      simp only
      split
      · exact Grow.refl _
      · split
        · exact grow_of [.crash] rfl rfl (fun e => e) (by simp [isLoad])
        · refine Grow.trans (grow_of (s' := { t with err := some r }) [] (by simp) rfl (fun e => e) (by simp)) ?_
          refine (grow_errPrint _).trans ?_
          split
          · exact Grow.refl _
          · refine Grow.trans ?_ (grow_pythonToC _)
            exact grow_of [.result .load (-1)] rfl rfl (fun e => e) (by simp [isLoad])
    split
    · unfold call
      simp only
      obtain ⟨h1, h2, -, -, -, -, h3⟩ := cToPython_fields { s with startCalled := true }
      generalize cToPython { s with startCalled := true } = t at h1 h2 h3
      simp only at h1 h2 h3
      have ht : Grow s t := by
        rcases h3 with h3 | h3
        · exact grow_of [] (by simp [h3]) h1 (fun _ => h2) (by simp)
        · exact grow_of [.exit] h3 h1 (fun _ => h2) (by simp [isLoad])
      split
      · exact ht
      · split
        · exact ht.trans (grow_of [.crash] rfl rfl (fun e => e) (by simp [isLoad]))
        · rcases h3 with h3 | h3
          · exact ⟨fun e => h1.trans e, fun _ => h2, [.enter .load t.err.isSome], by simp [St.emit, h3, isLoad, hs, h2]⟩
          · exact ⟨fun e => h1.trans e, fun _ => h2, [.exit, .enter .load t.err.isSome],
              by simp [St.emit, h3, isLoad, hs, h2]⟩
    · exact hbad _

theorem grow_step (s : St) (o : Op) : Grow s (step s o) := by
  unfold step
  split
  · exact Grow.refl _
  cases o with
  | init w => exact grow_initPygpi s w
  | start imp =>
    simp only
    split
    · exact Grow.refl _
    · exact grow_startOfSim s imp
  | endSim =>
    simp only
    split
    · exact Grow.refl _
    · unfold endOfSim
      split
      · exact Grow.refl _
      · exact grow_call s _ (by simp)
  | final =>
    simp only
    split
    · exact Grow.refl _
    · unfold finalize
      split
      · refine (grow_cToPython s).trans ?_
        generalize cToPython s = t
        simp only
        split
        · exact Grow.refl _
        · refine Grow.trans ?_ (grow_pythonToC _)
          exact grow_of [.stopped] rfl rfl (fun e => e) (by simp [isLoad])
      · exact Grow.refl _
  | callback fn => exact grow_call s _ (by simp)
  | setEvent fn =>
    simp only
    split
    · exact Grow.refl _
    · split
      · exact grow_of [.eventRefused fn] rfl rfl (fun e => e) (by simp [isLoad])
      · exact grow_of [.eventSet fn] rfl rfl (fun e => e) (by simp [isLoad])
  | ret r =>
    simp only
    split
    · exact Grow.refl _
    · next f fs _ =>
      refine Grow.trans ?_ (grow_conclude _ f r)
      exact grow_of [.left f r] rfl rfl (fun e => e) (by simp [isLoad])

theorem grow_foldl (h : List Op) (s : St) : Grow s (h.foldl step s) := by
  induction h generalizing s with
  | nil => exact Grow.refl _
  | cons o h ih => exact (grow_step s o).trans (ih _)

theorem grow_run (a b : List Op) : Grow (run a) (run (a ++ b)) := by
  rw [run, run, List.foldl_append]
  exact grow_foldl b _

/-- Python code ends only when it does so itself. -/
theorem noleft_step (s : St) (o : Op) (ho : ∀ q, o ≠ .ret q) :
    ∃ l, (step s o).trace = s.trace ++ l ∧ ∀ g q, Ev.left g q ∉ l := by
  have hc : ∀ s : St, ∃ l, (cToPython s).trace = s.trace ++ l ∧ ∀ g q, Ev.left g q ∉ l := by
    intro s
    obtain ⟨-, -, -, -, -, -, h | h⟩ := cToPython_fields s
    · exact ⟨[], by simp [h]⟩
    · exact ⟨[.exit], by simp [h]⟩
  have hp : ∀ s : St, ∃ l, (pythonToC s).trace = s.trace ++ l ∧ ∀ g q, Ev.left g q ∉ l := by
    intro s
    obtain ⟨-, -, -, -, -, -, h | h⟩ := pythonToC_fields s
    · exact ⟨[], by simp [h]⟩
    · exact ⟨[.exit], by simp [h]⟩
  have hcall : ∀ (s : St) f, ∃ l, (call s f).trace = s.trace ++ l ∧ ∀ g q, Ev.left g q ∉ l := by
    intro s f
    obtain ⟨l, h1, h2⟩ := hc s
    simp only [call]
    split
    · exact ⟨l, h1, h2⟩
    · split
      · exact ⟨l ++ [.crash], by simp [St.die, St.emit, h1], by simpa using h2⟩
      · exact ⟨l ++ [.enter f (cToPython s).err.isSome], by simp [St.emit, h1], by simpa using h2⟩
  unfold step
  split
  · exact ⟨[], by simp⟩
  cases o with
  | init w =>
    simp only [initPygpi]
    obtain ⟨d, c, ic, sc, ip, hk, ev, er, fr, de, tr⟩ := s
    cases debugOn w.debug <;> cases ic <;> cases interpreterPath w.bin <;> cases w.argvOk <;> cases w.initOk <;>
      cases attachPause w.erange w.attach <;> simp [St.emit] <;>
      first
        | exact ⟨[], by simp⟩
        | (next x => exact ⟨[.started x, .hooked], by simp⟩)
        | (next x n => exact ⟨[.started x, .hooked, .paused n], by simp⟩)
  | start imp =>
    simp only
    split
    · exact ⟨[], by simp⟩
    · unfold startOfSim
      split
      · exact ⟨[.result .load (-1)], by simp [St.emit]⟩
      · split
        · exact hcall _ _
        · simp only
          obtain ⟨l, h1, h2⟩ := hc { s with startCalled := true }
          generalize cToPython { s with startCalled := true } = t at h1 ⊢
          simp only at h1 ⊢
          split
          · exact ⟨l, h1, h2⟩
          · split
            · exact ⟨l ++ [.crash], by simp [St.die, St.emit, h1], by simpa using h2⟩
            · have h3 : ∃ l, (errPrint { t with err := some imp }).trace = s.trace ++ l ∧ ∀ g q, Ev.left g q ∉ l := by
                unfold errPrint
                split
                · exact ⟨l ++ [.exit], by simp [St.die, St.emit, h1], by simpa using h2⟩
                · exact ⟨l ++ [.printed], by simp [St.emit, h1], by simpa using h2⟩
              obtain ⟨l3, h4, h5⟩ := h3
              split
              · exact ⟨l3, h4, h5⟩
              · obtain ⟨l4, h6, h7⟩ := hp ((errPrint { t with err := some imp }).emit (.result .load (-1)))
                refine ⟨l3 ++ [.result .load (-1)] ++ l4, ?_, ?_⟩
                · rw [h6]; simp [St.emit, h4]
                · simpa using fun g q => ⟨h5 g q, h7 g q⟩
  | endSim =>
    simp only
    split
    · exact ⟨[], by simp⟩
    · unfold endOfSim
      split
      · exact ⟨[], by simp⟩
      · exact hcall _ _
  | final =>
    simp only
    split
    · exact ⟨[], by simp⟩
    · unfold finalize
      split
      · obtain ⟨l, h1, h2⟩ := hc s
        generalize cToPython s = t at h1 ⊢
        simp only
        split
        · exact ⟨l, h1, h2⟩
        · obtain ⟨l4, h6, h7⟩ := hp { t.emit .stopped with eventFn := none, interp := .gone }
          refine ⟨l ++ [.stopped] ++ l4, ?_, ?_⟩
          · rw [h6]; simp [St.emit, h1]
          · simpa using fun g q => ⟨h2 g q, h7 g q⟩
      · exact ⟨[], by simp⟩
  | callback fn => exact hcall _ _
  | setEvent fn =>
    simp only
    split
    · exact ⟨[], by simp⟩
    · split
      · exact ⟨[.eventRefused fn], by simp [St.emit]⟩
      · exact ⟨[.eventSet fn], by simp [St.emit]⟩
  | ret r => exact absurd rfl (ho r)

/-! ### Debugging -/

/-- The same without debugging. -/
def undeb (s : St) : St := { s with debug := false, ctx := 0 }

theorem inv_undeb {s : St} (h : Inv s) : Inv (undeb s) := by
  obtain ⟨h1, h2, h3, h4, h5, h6, h7, h8, h9, h10, h11, h12, h13, h14⟩ := h
  constructor <;> simp only [undeb] <;> first | assumption | simp

/-- Python code is called. -/
def callsIn (s : St) : Op → Bool
  | .start .ok => !s.startCalled && decide (s.hooks ≠ 0)
  | .endSim => s.eventFn.isSome && decide (s.hooks ≠ 0)
  | .callback _ => true
  | _ => false

theorem undeb_call {s : St} (h : Inv s) (hd : s.dead = false) (hi : s.interp = .on) (hf : s.frames = []) (f : Frame) :
    call (undeb s) f = undeb (call s f) := by
  rw [call_eq s f h hd hi, call_eq (undeb s) f (inv_undeb h) hd hi]
  simp [undeb, hf]

/-- What a first initialization does. -/
def inits (w : World) : Option (List Ev) :=
  match interpreterPath w.bin with
  | none => none
  | some path =>
    if w.argvOk = false then none
    else if w.initOk = false then none
    else
      match attachPause w.erange w.attach with
      | none => some [.started path, .hooked]
      | some n => some [.started path, .hooked, .paused n]

theorem initPygpi_eq (s : St) (w : World) :
    initPygpi s w =
      if s.initCalled then { s with debug := s.debug || debugOn w.debug }
      else
        match inits w with
        | none => { s with debug := s.debug || debugOn w.debug, initCalled := true }
        | some l =>
          { s with
            debug := s.debug || debugOn w.debug, initCalled := true, interp := .on, hooks := s.hooks + 1,
            trace := s.trace ++ l } := by
  have h0 : (if debugOn w.debug then { s with debug := true } else s) = { s with debug := s.debug || debugOn w.debug } := by
    cases debugOn w.debug <;> simp
  unfold initPygpi
  rw [h0]
  simp only
  split
  · rfl
  · unfold inits
    cases interpreterPath w.bin with
    | none => rfl
    | some path =>
      simp only
      by_cases h1 : w.argvOk = false
      · simp [h1]
      · by_cases h2 : w.initOk = false
        · simp [h2]
        · rw [if_neg h1, if_neg h1, if_neg h2, if_neg h2]
          cases attachPause w.erange w.attach <;> simp [St.emit]

theorem undeb_step {s : St} (h : Inv s) (o : Op) (hm : May s.trace o) (hc : callsIn s o = true → s.dead = false → s.frames = []) :
    step (undeb s) (undebug o) = undeb (step s o) := by
  rcases Bool.eq_false_or_eq_true s.dead with hd | hd
  · simp [step, undeb, hd]
  have hd' : (undeb s).dead = false := hd
  unfold step
  rw [hd, hd']
  simp only [Bool.false_eq_true, if_false]
  cases o with
  | init w =>
    show initPygpi (undeb s) { w with debug := none } = undeb (initPygpi s w)
    rw [initPygpi_eq, initPygpi_eq, show inits { w with debug := none } = inits w from rfl]
    show (if s.initCalled then _ else _) = _
    split
    · rfl
    · cases inits w <;> rfl
  | start imp =>
    show (if s.hooks = 0 then undeb s else startOfSim (undeb s) imp) = _
    simp only
    split
    · rfl
    · next hk =>
      have hon : s.interp = .on := by
        cases e : s.interp with
        | off => exact absurd (h.off e).2 hk
        | on => rfl
        | gone => exact absurd (h.gone e) hm.2
      have hf : s.frames = [] := h.frames.trans hm.1
      have he := h.err hd
      have h1 := h.ctxOn hd
      have h2 := h.ctxOff hd
      rw [hf] at h1
      obtain ⟨d, c, ic, sc, ip, hk, ev, er, fr, de, tr⟩ := s
      simp only at *
      subst hd hon hf he
      have hcc : c = 0 := by
        cases d
        · exact h2 rfl
        · exact h1 rfl
      subst hcc
      cases d <;> cases sc <;> cases imp <;>
        simp [startOfSim, call, cToPython, pythonToC, errPrint, undeb, St.emit, St.die]
  | endSim =>
    show (if s.hooks = 0 then undeb s else endOfSim (undeb s)) = _
    simp only
    split
    · rfl
    · next hk =>
      show (match s.eventFn with | none => undeb s | some fn => call (undeb s) (.event fn)) = undeb (endOfSim s)
      unfold endOfSim
      cases e : s.eventFn with
      | none => rfl
      | some fn =>
        exact undeb_call h hd (h.ev (by rw [e]; rfl) hd) (hc (by simp [callsIn, e, hk]) hd) _
  | final =>
    show (if s.hooks = 0 then undeb s else finalize (undeb s)) = _
    simp only
    split
    · rfl
    · have hf : s.frames = [] := h.frames.trans hm
      have h1 := h.ctxOn hd
      have h2 := h.ctxOff hd
      rw [hf] at h1
      obtain ⟨d, c, ic, sc, ip, hk, ev, er, fr, de, tr⟩ := s
      simp only at *
      subst hd hf
      have hcc : c = 0 := by
        cases d
        · exact h2 rfl
        · exact h1 rfl
      subst hcc
      cases d <;> cases ip <;> simp [finalize, cToPython, pythonToC, undeb, St.emit, St.die]
  | callback fn =>
    have hon : s.interp = .on := by
      cases e : s.interp with
      | off => exact absurd hm.1.choose_spec ((h.off e).1 _)
      | on => rfl
      | gone => exact absurd (h.gone e) hm.2
    exact undeb_call h hd hon (hc rfl hd) _
  | setEvent fn =>
    show (if s.frames = [] then undeb s
      else if s.eventFn.isSome then (undeb s).emit (.eventRefused fn)
      else { (undeb s).emit (.eventSet fn) with eventFn := some fn }) = _
    simp only
    split
    · rfl
    · split <;> rfl
  | ret r =>
    show (match s.frames with
      | [] => undeb s
      | f :: fs => conclude ({ (undeb s).emit (.left f r) with frames := fs }) f r) = _
    cases hf : s.frames with
    | nil => rfl
    | cons f fs =>
      simp only
      rw [conclude_eq (undeb s) f fs r (h.err hd) (by simp [undeb]),
        conclude_eq s f fs r (h.err hd) (fun e => by rw [h.ctxOn hd e, hf]; simp)]
      simp [undeb]

/-- Python code that is called while other Python code runs is seen. -/
theorem nested_seen {s : St} (h : Inv s) (hb : s.debug = false) (o : Op) (hm : May s.trace o) (hc : callsIn s o = true)
    (hd : s.dead = false) : ∃ f, (step s o).trace = s.trace ++ [.enter f false] := by
  cases o with
  | start imp =>
    cases imp with
    | ok =>
      simp [callsIn] at hc
      have hon : s.interp = .on := by
        cases e : s.interp with
        | off => exact absurd (h.off e).2 hc.2
        | on => rfl
        | gone => exact absurd (h.gone e) hm.2
      refine ⟨.load, ?_⟩
      simp [step, hd, hc, startOfSim, call, cToPython, hb, hon, St.emit, h.err hd]
    | sysExit => cases hc
    | exc => cases hc
  | endSim =>
    simp [callsIn] at hc
    cases e : s.eventFn with
    | none => rw [e] at hc; simp at hc
    | some fn =>
      have hon := h.ev (by rw [e]; rfl) hd
      refine ⟨.event fn, ?_⟩
      simp [step, hd, hc, endOfSim, e, call, cToPython, hb, hon, St.emit, h.err hd]
  | callback fn =>
    have hon : s.interp = .on := by
      cases e : s.interp with
      | off => exact absurd hm.1.choose_spec ((h.off e).1 _)
      | on => rfl
      | gone => exact absurd (h.gone e) hm.2
    refine ⟨.callback fn, ?_⟩
    simp [step, hd, call, cToPython, hb, hon, St.emit, h.err hd]
  | _ => cases hc

theorem undeb_run (h : List Op) (hk : GpiOk h) (hn : NeverNested (run (h.map undebug)).trace) :
    run (h.map undebug) = undeb (run h) := by
  revert hk hn
  induction h using snocInd with
  | h0 => intro _ _; rfl
  | h1 h o ih =>
    intro hk hn
    have hp := gpiOk_prefix hk
    have hm := hk h o [] rfl
    have hi := inv_run h hp
    rw [List.map_append, List.map_cons, List.map_nil] at hn ⊢
    have hn' : NeverNested (run (h.map undebug)).trace := by
      obtain ⟨-, -, l, hl, -⟩ := grow_run (h.map undebug) [undebug o]
      intro a f p b e
      exact hn a f p (b ++ l) (by rw [hl, e]; simp)
    have e := ih hp hn'
    rw [run_snoc, e, run_snoc]
    refine undeb_step hi o hm ?_
    intro hc hd
    have hu : ∃ f, (step (undeb (run h)) (undebug o)).trace = (undeb (run h)).trace ++ [.enter f false] := by
      cases o with
      | start imp => exact nested_seen (inv_undeb hi) rfl _ hm hc hd
      | endSim => exact nested_seen (inv_undeb hi) rfl _ hm hc hd
      | callback fn => exact nested_seen (inv_undeb hi) rfl _ hm hc hd
      | _ => cases hc
    obtain ⟨f, hf⟩ := hu
    rw [run_snoc, e] at hn
    have := hn _ f false [] hf
    rw [hi.frames]; exact this

/-- Without debugging and without an import that raises SystemExit the process goes on. -/
theorem alive_step {s : St} (h : Inv s) (hd : s.dead = false) (hb : s.debug = false) (o : Op) (hm : May s.trace o)
    (h1 : ∀ w, o = .init w → debugOn w.debug = false) (h2 : o ≠ .start .sysExit) :
    (step s o).dead = false ∧ (step s o).debug = false := by
  have hcall : ∀ f, s.interp = .on → (call s f).dead = false ∧ (call s f).debug = false := by
    intro f hi
    rw [call_eq s f h hd hi]
    simp [hb, hd]
  unfold step
  rw [hd]
  simp only [Bool.false_eq_true, if_false]
  cases o with
  | init w =>
    have := h1 w rfl
    obtain ⟨d, c, ic, sc, ip, hk, ev, er, fr, de, tr⟩ := s
    simp only at hd hb
    subst hd hb
    simp only [initPygpi, this]
    cases ic <;> cases interpreterPath w.bin <;> cases w.argvOk <;> cases w.initOk <;>
      cases attachPause w.erange w.attach <;> simp [St.emit]
  | start imp =>
    simp only
    split
    · exact ⟨hd, hb⟩
    · next hk =>
      have hon : s.interp = .on := by
        cases e : s.interp with
        | off => exact absurd (h.off e).2 hk
        | on => rfl
        | gone => exact absurd (h.gone e) hm.2
      have he := h.err hd
      obtain ⟨d, c, ic, sc, ip, hk, ev, er, fr, de, tr⟩ := s
      simp only at *
      subst hd hon hb he
      cases sc <;> cases imp <;>
        simp_all [startOfSim, call, cToPython, pythonToC, errPrint, St.emit, St.die]
  | endSim =>
    simp only
    split
    · exact ⟨hd, hb⟩
    · unfold endOfSim
      split
      · exact ⟨hd, hb⟩
      · next fn e => exact hcall _ (h.ev (by rw [e]; rfl) hd)
  | final =>
    simp only
    split
    · exact ⟨hd, hb⟩
    · unfold finalize
      split
      · simp [cToPython, pythonToC, hb, hd, St.emit]
      · exact ⟨hd, hb⟩
  | callback fn =>
    have hon : s.interp = .on := by
      cases e : s.interp with
      | off => exact absurd hm.1.choose_spec ((h.off e).1 _)
      | on => rfl
      | gone => exact absurd (h.gone e) hm.2
    exact hcall _ hon
  | setEvent fn =>
    simp only
    split
    · exact ⟨hd, hb⟩
    · split <;> exact ⟨hd, hb⟩
  | ret r =>
    simp only
    split
    · exact ⟨hd, hb⟩
    · next f fs e =>
      rw [conclude_eq s f fs r (h.err hd) (fun x => by rw [hb] at x; cases x)]
      exact ⟨hd, hb⟩

theorem alive_run (h : List Op) (hk : GpiOk h) (h1 : ∀ w, .init w ∈ h → debugOn w.debug = false) (h2 : .start .sysExit ∉ h) :
    (run h).dead = false ∧ (run h).debug = false := by
  revert hk h1 h2
  induction h using snocInd with
  | h0 => intro _ _ _; exact ⟨rfl, rfl⟩
  | h1 h o ih =>
    intro hk h1 h2
    have hp := gpiOk_prefix hk
    obtain ⟨hd, hb⟩ := ih hp (fun w hw => h1 w (by simp [hw])) (fun hw => h2 (by simp [hw]))
    rw [run_snoc]
    exact alive_step (inv_run h hp) hd hb o (hk h o [] rfl) (fun w e => h1 w (by simp [e])) (fun e => h2 (by simp [e]))

/-! ### The event function -/

structure EvInv (s : St) : Prop where
  evs : s.dead = false → ∀ fn, s.eventFn = some fn ↔ Ev.eventSet fn ∈ s.trace ∧ Ev.stopped ∉ s.trace
  called : ∀ a fn p b, s.trace = a ++ Ev.enter (.event fn) p :: b → Ev.eventSet fn ∈ a ∧ Ev.stopped ∉ a
  hooks : s.interp = .on → s.hooks ≠ 0
  uniq : ∀ f g, Ev.eventSet f ∈ s.trace → Ev.eventSet g ∈ s.trace → f = g

theorem evInv_same {s s' : St} (h : EvInv s) (l : List Ev) (ht : s'.trace = s.trace ++ l) (he : s'.eventFn = s.eventFn)
    (hd : s'.dead = false → s.dead = false) (hh : s'.interp = .on → s'.hooks ≠ 0)
    (hl : ∀ e ∈ l, e ≠ .stopped ∧ ∀ fn, e ≠ .eventSet fn ∧ ∀ p, e ≠ .enter (.event fn) p) : EvInv s' := by
  refine ⟨?_, ?_, hh, ?_⟩
  rotate_left 2
  · intro f g h1 h2
    rw [ht] at h1 h2
    rcases List.mem_append.1 h1 with h1 | h1
    · rcases List.mem_append.1 h2 with h2 | h2
      · exact h.uniq f g h1 h2
      · exact absurd rfl ((hl _ h2).2 g).1
    · exact absurd rfl ((hl _ h1).2 f).1
  · intro hd' fn
    rw [he, h.evs (hd hd') fn, ht]
    constructor
    · rintro ⟨h1, h2⟩
      refine ⟨List.mem_append_left _ h1, fun hm => ?_⟩
      rcases List.mem_append.1 hm with hm | hm
      · exact h2 hm
      · exact (hl _ hm).1 rfl
    · rintro ⟨h1, h2⟩
      refine ⟨?_, fun hm => h2 (List.mem_append_left _ hm)⟩
      rcases List.mem_append.1 h1 with hm | hm
      · exact hm
      · exact absurd rfl ((hl _ hm).2 fn).1
  · intro a fn p b e
    rw [ht, List.append_eq_append_iff] at e
    rcases e with ⟨c, e1, e2⟩ | ⟨c, e1, e2⟩
    · exact absurd rfl (((hl (.enter (.event fn) p) (by rw [e2]; simp)).2 fn).2 p)
    · cases c with
      | nil => exact absurd rfl (((hl (.enter (.event fn) p) (by rw [← List.nil_append l, ← e2]; simp)).2 fn).2 p)
      | cons x c =>
        simp only [List.cons_append, List.cons.injEq] at e2
        obtain ⟨rfl, rfl⟩ := e2
        exact h.called a fn p c e1

theorem evInv_die {s : St} (h : EvInv s) (e : Ev) (he : e = .exit ∨ e = .crash) : EvInv (s.die e) :=
  evInv_same h [e] rfl rfl (by simp [St.die]) h.hooks (by rcases he with rfl | rfl <;> simp)

theorem evInv_call {s : St} (h : EvInv s) (hi : Inv s) (hd : s.dead = false) (hon : s.interp = .on) (f : Frame)
    (hf : ∀ fn, f = .event fn → s.eventFn = some fn) : EvInv (call s f) := by
  rw [call_eq s f hi hd hon]
  split
  · exact evInv_die h _ (.inl rfl)
  · refine ⟨?_, ?_, h.hooks, by simpa using h.uniq⟩
    · intro _ fn
      rw [h.evs hd fn]
      simp
    · intro a fn p b e
      simp only at e
      rw [List.append_eq_append_iff] at e
      rcases e with ⟨c, e1, e2⟩ | ⟨c, e1, e2⟩
      · cases c with
        | nil =>
          simp only [List.nil_append, List.cons.injEq, Ev.enter.injEq] at e2
          obtain ⟨⟨rfl, -⟩, -⟩ := e2
          have := (h.evs hd fn).1 (hf fn rfl)
          rw [e1, List.append_nil]; exact this
        | cons x c =>
          simp at e2
      · cases c with
        | nil =>
          simp only [List.nil_append, List.cons.injEq, Ev.enter.injEq] at e2
          obtain ⟨⟨rfl, -⟩, -⟩ := e2
          have := (h.evs hd fn).1 (hf fn rfl)
          rw [show a = s.trace by rw [e1]; simp]; exact this
        | cons x c =>
          simp only [List.cons_append, List.cons.injEq] at e2
          obtain ⟨rfl, rfl⟩ := e2
          exact h.called a fn p c e1

theorem evInv_step {s : St} (h : EvInv s) (hi : Inv s) (o : Op) (hm : May s.trace o) : EvInv (step s o) := by
  unfold step
  split
  · exact h
  next hdd =>
  have hd : s.dead = false := by simpa using hdd
  cases o with
  | init w =>
    have hf := hi.fresh
    obtain ⟨d, c, ic, sc, ip, hk, ev, er, fr, de, tr⟩ := s
    simp only [initPygpi]
    cases debugOn w.debug <;> cases ic <;> cases interpreterPath w.bin <;> cases w.argvOk <;> cases w.initOk <;>
      cases attachPause w.erange w.attach <;> simp only [St.emit, if_true, if_false, Bool.false_eq_true, reduceCtorEq] <;>
      first
        | exact evInv_same h [] (by simp) rfl (fun e => e) h.hooks (by simp)
        | (next x => exact evInv_same h [.started x, .hooked] (by simp) rfl (fun e => e) (by simp) (by simp))
        | (next x n => exact evInv_same h [.started x, .hooked, .paused n] (by simp) rfl (fun e => e) (by simp) (by simp))
  | start imp =>
    simp only
    split
    · exact h
    · next hk =>
      have hon : s.interp = .on := by
        cases e : s.interp with
        | off => exact absurd (hi.off e).2 hk
        | on => rfl
        | gone => exact absurd (hi.gone e) hm.2
      unfold startOfSim
      split
      · exact evInv_same h [.result .load (-1)] rfl rfl (fun e => e) h.hooks (by simp)
      · have h0 : EvInv { s with startCalled := true } := ⟨h.evs, h.called, h.hooks, h.uniq⟩
        have hi0 : Inv { s with startCalled := true } := by
          obtain ⟨h1, h2, h3, h4, h5, h6, h7, h8, h9, h10, h11, h12, h13, h14⟩ := hi
          constructor <;> assumption
        cases imp with
        | ok => exact evInv_call h0 hi0 hd hon _ (by intro fn e; cases e)
        | sysExit =>
          have hf : s.frames = [] := hi.frames.trans hm.1
          have he := hi.err hd
          have h1 := hi.ctxOn hd
          rw [hf] at h1
          refine evInv_same h [.exit] ?_ ?_ (fun _ => hd) ?_ (by simp)
          all_goals
            clear h0 hi0 h hi hm
            obtain ⟨d, c, ic, sc, ip, hk, ev, er, fr, de, tr⟩ := s
            simp only at *
            subst hd hon he
            cases d
            · simp [cToPython, pythonToC, St.emit, St.die, errPrint, hk]
            · have := h1 rfl
              subst this
              simp [cToPython, pythonToC, St.emit, St.die, errPrint, hk]
        | exc =>
          have hf : s.frames = [] := hi.frames.trans hm.1
          have he := hi.err hd
          have h1 := hi.ctxOn hd
          rw [hf] at h1
          refine evInv_same h [.printed, .result .load (-1)] ?_ ?_ (fun _ => hd) ?_ (by simp)
          all_goals
            clear h0 hi0 h hi hm
            obtain ⟨d, c, ic, sc, ip, hk, ev, er, fr, de, tr⟩ := s
            simp only at *
            subst hd hon he
            cases d
            · simp [cToPython, pythonToC, St.emit, St.die, errPrint, hk]
            · have := h1 rfl
              subst this
              simp [cToPython, pythonToC, St.emit, St.die, errPrint, hk]
  | endSim =>
    simp only
    split
    · exact h
    · unfold endOfSim
      split
      · exact h
      · next fn e =>
        exact evInv_call h hi hd (hi.ev (by rw [e]; rfl) hd) _ (by intro g eg; cases eg; exact e)
  | final =>
    simp only
    split
    · exact h
    · have hf : s.frames = [] := hi.frames.trans hm
      have h1 := hi.ctxOn hd
      rw [hf] at h1
      by_cases hon : s.interp = .on
      · have : finalize s = { s with trace := s.trace ++ [.stopped], eventFn := none, interp := .gone } := by
          clear h hi hm hdd
          obtain ⟨d, c, ic, sc, ip, hk, ev, er, fr, de, tr⟩ := s
          simp only at *
          subst hd hon hf
          cases d
          · simp [finalize, cToPython, pythonToC, St.emit]
          · have := h1 rfl
            subst this
            simp [finalize, cToPython, pythonToC, St.emit]
        rw [this]
        refine ⟨?_, ?_, by (intro e; cases e), by simpa using h.uniq⟩
        · intro _ fn; simp
        · intro a fn p b e
          simp only at e
          rw [List.append_eq_append_iff] at e
          rcases e with ⟨c, e1, e2⟩ | ⟨c, e1, e2⟩
          · cases c <;> simp at e2
          · cases c with
            | nil => simp at e2
            | cons x c =>
              simp only [List.cons_append, List.cons.injEq] at e2
              obtain ⟨rfl, rfl⟩ := e2
              exact h.called a fn p c e1
      · unfold finalize
        rw [if_neg hon]; exact h
  | callback fn =>
    have hon : s.interp = .on := by
      cases e : s.interp with
      | off => exact absurd hm.1.choose_spec ((hi.off e).1 _)
      | on => rfl
      | gone => exact absurd (hi.gone e) hm.2
    exact evInv_call h hi hd hon _ (by intro g e; cases e)
  | setEvent fn =>
    simp only
    split
    · exact h
    · next hf =>
      have hon := hi.on hf hd
      have hns : Ev.stopped ∉ s.trace := fun e => by rw [hi.stop e] at hon; cases hon
      cases hev : s.eventFn with
      | some g =>
        simp only [Option.isSome_some, if_true]
        exact evInv_same h [.eventRefused fn] rfl rfl (fun e => e) h.hooks (by simp)
      | none =>
        simp only [Option.isSome_none, Bool.false_eq_true, if_false]
        have hg : ∀ g, Ev.eventSet g ∉ s.trace := fun g e => by
          have := (h.evs hd g).2 ⟨e, hns⟩
          rw [hev] at this; cases this
        refine ⟨?_, ?_, h.hooks, ?_⟩
        rotate_left 2
        · intro f g h1 h2
          simp [St.emit, hg] at h1 h2
          rw [h1, h2]
        · intro _ g
          simp [St.emit, hns, hg, eq_comm]
        · intro a g p b e
          simp only [St.emit] at e
          rw [List.append_eq_append_iff] at e
          rcases e with ⟨c, e1, e2⟩ | ⟨c, e1, e2⟩
          · cases c <;> simp at e2
          · cases c with
            | nil => simp at e2
            | cons x c =>
              simp only [List.cons_append, List.cons.injEq] at e2
              obtain ⟨rfl, rfl⟩ := e2
              exact h.called a g p c e1
  | ret r =>
    simp only
    split
    · exact h
    · next f fs e =>
      rw [conclude_eq s f fs r (hi.err hd) (fun x => by rw [hi.ctxOn hd x, e]; simp)]
      refine evInv_same h (.left f r :: report f r) rfl rfl (fun e => e) h.hooks ?_
      intro x hx
      cases f <;> cases r <;> simp [report] at hx <;> rcases hx with rfl | rfl | rfl <;> simp

theorem evInv_run (h : List Op) (hk : GpiOk h) : EvInv (run h) := by
  revert hk
  induction h using snocInd with
  | h0 => intro _; constructor <;> simp [run]
  | h1 h o ih =>
    intro hk
    rw [run_snoc]
    have hp := gpiOk_prefix hk
    exact evInv_step (ih hp) (inv_run h hp) o (hk h o [] rfl)

end Verif.Embed
