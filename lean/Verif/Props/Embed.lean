import Verif.Lemmas.Embed
/-!
# C151, C152 and C154: Python inside a simulator
-/
namespace Verif
open Verif.Embed Verif.EmbedSpec

namespace Embed

/-! ### The path -/

theorem wcs_short {t : Text} (hz : 0 ∉ t) (hl : t.length < pathMax) :
    interpreterPath (some (some t)) = some t := by
  have h1 : t.take pathMax = t := List.take_of_length_le (by omega)
  have h2 : (wcsncpy pathMax t)[pathMax - 1]?.getD 0 = 0 := by
    unfold wcsncpy
    rw [h1, List.getElem?_append_right (by omega)]
    rw [List.getElem?_replicate]
    split <;> rfl
  have h3 : wcs (wcsncpy pathMax t) = t := by
    unfold wcs wcsncpy
    rw [h1, show pathMax - t.length = (pathMax - t.length - 1) + 1 by omega, List.replicate_succ]
    rw [List.takeWhile_append_of_pos]
    · simp
    · intro c hc
      simp only [bne_iff_ne, ne_eq]
      intro e; exact hz (e ▸ hc)
  simp only [interpreterPath, h2, h3]
  simp

theorem wcs_long {t : Text} (hz : 0 ∉ t) (hl : pathMax ≤ t.length) : interpreterPath (some (some t)) = none := by
  have h2 : (wcsncpy pathMax t)[pathMax - 1]?.getD 0 ≠ 0 := by
    unfold wcsncpy
    have hp : pathMax - 1 < (t.take pathMax).length := by
      rw [List.length_take]; simp only [pathMax] at *; omega
    rw [List.getElem?_append_left hp, List.getElem?_eq_getElem hp]
    intro e
    refine hz ?_
    have : (t.take pathMax)[pathMax - 1] ∈ t := List.mem_of_mem_take (List.getElem_mem hp)
    simp only [Option.getD_some] at e
    rw [e] at this
    exact this
  simp only [interpreterPath]
  rw [if_pos h2]

theorem path_none {w : World} (hz : NoZero w) (hn : ¬ ∃ p, Path w p) : interpreterPath w.bin = none := by
  unfold NoZero at hz
  unfold Path at hn
  cases hb : w.bin with
  | none => rfl
  | some o =>
    cases o with
    | none => rfl
    | some t =>
      apply wcs_long (hz t hb)
      apply Nat.le_of_not_lt
      intro hl
      exact hn ⟨t, hb, hl⟩

/-- The state in which nothing can happen. -/
structure Idle (s : St) : Prop where
  init : s.initCalled = true
  interp : s.interp = .off
  hooks : s.hooks = 0
  frames : s.frames = []
  ev : s.eventFn = none
  trace : ∀ e ∈ s.trace, e = .exit ∨ e = .crash

theorem idle_step {s : St} (h : Idle s) (o : Op) : Idle (step s o) := by
  unfold step
  split
  · exact h
  cases o with
  | init w =>
    have h1 := h.init
    simp only [initPygpi]
    cases debugOn w.debug
    · simpa [h1] using h
    · simp only [if_true, h1]
      exact ⟨rfl, h.interp, h.hooks, h.frames, h.ev, h.trace⟩
  | start imp => simpa [h.hooks] using h
  | endSim => simpa [h.hooks] using h
  | final => simpa [h.hooks] using h
  | callback fn =>
    obtain ⟨h1, h2, h3, h4, h5, h6, h7⟩ := cToPython_fields s
    simp only [call]
    generalize cToPython s = t at *
    have ht : Idle t := by
      refine ⟨h1.trans h.init, h4.trans h.interp, h3.trans h.hooks, h5.trans h.frames, h6.trans h.ev, ?_⟩
      rcases h7 with e | e
      · rw [e]; exact h.trace
      · rw [e]
        intro x hx
        rcases List.mem_append.1 hx with hx | hx
        · exact h.trace x hx
        · left; simpa using hx
    split
    · exact ht
    · rw [if_pos (by rw [ht.interp]; simp)]
      refine ⟨ht.init, ht.interp, ht.hooks, ht.frames, ht.ev, ?_⟩
      intro x hx
      rcases List.mem_append.1 hx with hx | hx
      · exact ht.trace x hx
      · right; simpa using hx
  | setEvent fn => simpa [h.frames] using h
  | ret r => simpa [h.frames] using h

theorem idle_foldl (h : List Op) {s : St} (hs : Idle s) : Idle (h.foldl step s) := by
  induction h generalizing s with
  | nil => exact hs
  | cons o h ih => exact ih (idle_step hs o)

end Embed

open Verif.Embed

/-- **C151** If the path in `PYGPI_PYTHON_BIN` can be used when the library is initialized, Python is started with
exactly this path, and its functions are registered with the GPI; whatever happens then, further initializations
included, this is not done again. -/
theorem C151_started (w : World) (p : Text) (hz : NoZero w) (hs : Starts w p) (rest : List Op) :
    ∃ tail, (run (.init w :: rest)).trace = .started p :: .hooked :: tail ∧
      ∀ e ∈ tail, e ≠ .hooked ∧ ∀ q, e ≠ .started q := by
  obtain ⟨⟨hb, hl⟩, ha, hi⟩ := hs
  have hp : interpreterPath w.bin = some p := by rw [hb]; exact wcs_short (hz p hb) hl
  have h0 : ∃ t1, (step {} (.init w)).trace = .started p :: .hooked :: t1 ∧ (step {} (.init w)).initCalled = true ∧
      ∀ e ∈ t1, e ≠ .hooked ∧ ∀ q, e ≠ .started q := by
    simp only [step, initPygpi, hp, ha, hi]
    cases debugOn w.debug <;> cases attachPause w.erange w.attach <;> simp [St.emit]
  obtain ⟨t1, e1, e2, e3⟩ := h0
  obtain ⟨-, -, l, hl1, hl2, -⟩ := grow_foldl rest (step {} (.init w))
  refine ⟨t1 ++ l, ?_, ?_⟩
  · show (List.foldl step (step {} (.init w)) rest).trace = _
    rw [hl1, e1]; simp
  · intro e he
    rcases List.mem_append.1 he with he | he
    · exact e3 e he
    · exact hl2 e2 e he

/-- **C151** If it cannot be used, or Python cannot be started, Python is not started, no function is registered with
the GPI and no Python code runs, whatever happens then, further initializations included. -/
theorem C151_refused (w : World) (hz : NoZero w) (hn : ¬ ∃ p, Starts w p) (rest : List Op) :
    ∀ e ∈ (run (.init w :: rest)).trace, e ≠ .hooked ∧ (∀ q, e ≠ .started q) ∧ ∀ f p, e ≠ .enter f p := by
  have h0 : Idle (step {} (.init w)) := by
    have : step {} (.init w) = { debug := debugOn w.debug, initCalled := true } := by
      simp only [step, initPygpi]
      cases hp : interpreterPath w.bin with
      | none => cases debugOn w.debug <;> simp
      | some path =>
        cases ha : w.argvOk with
        | false => cases debugOn w.debug <;> simp
        | true =>
          cases hi : w.initOk with
          | false => cases debugOn w.debug <;> simp
          | true =>
            exfalso
            have hx : ∃ p, Path w p := Classical.byContradiction fun hc => by rw [path_none hz hc] at hp; cases hp
            exact hn ⟨hx.choose, hx.choose_spec, ha, hi⟩
    rw [this]
    constructor <;> simp
  have h1 := idle_foldl rest h0
  intro e he
  rcases h1.trace e he with rfl | rfl <;> simp

/-- A world in which Python can be started. -/
def goodWorld : World :=
  { bin := some (some (ofStr "/usr/bin/python3".toList)), argvOk := true, initOk := true, debug := none, attach := none,
    erange := false }

example : Starts goodWorld (ofStr "/usr/bin/python3".toList) := by
  refine ⟨⟨rfl, ?_⟩, rfl, rfl⟩; decide
example : NoZero goodWorld := by
  intro t h
  simp only [goodWorld, Option.some.injEq] at h
  subst h; decide
example : ¬ ∃ p, Starts { goodWorld with bin := none } p := by rintro ⟨p, ⟨h, -⟩, -⟩; cases h
example : (run [.init { goodWorld with attach := some (ofStr "30".toList) }, .init goodWorld, .start .ok]).trace =
    [.started (ofStr "/usr/bin/python3".toList), .hooked, .paused 30, .enter .load false] := by decide +kernel

/-- What is documented of text variables: blanks around the path do not matter. -/
def C151_trim_full : Prop :=
  ∀ (w : World) (v p : Text), NoZero w → w.bin = some (some v) → EnvSpec.Trimmed v p → p ≠ [] → p.length < 4096 →
    v.length < 4096 → w.argvOk = true → w.initOk = true → Ev.started p ∈ (run [.init w]).trace

theorem C151_trim_counterexample : ¬ C151_trim_full := by
  intro h
  have := h { goodWorld with bin := some (some (ofStr " python3".toList)) } (ofStr " python3".toList) (ofStr "python3".toList)
    (by intro t ht; simp only [goodWorld, Option.some.injEq] at ht; subst ht; decide) rfl
    ⟨[32], [], by decide, by decide, by decide, by decide, by decide⟩ (by decide) (by decide) (by decide) rfl rfl
  revert this
  decide +kernel

/-! ### C152 -/

/-- **C152** Whenever Python code called from the simulator ends, what follows is exactly what its end calls for: an
exception is printed unless it is SystemExit, and the GPI is told if the code failed. -/
theorem C152_report (h : List Op) (hk : GpiOk h) (a b : List Ev) (f : Frame) (r : Res)
    (e : (run h).trace = a ++ Ev.left f r :: b) : report f r <+: b ∧ (running a).head? = some f := by
  refine ⟨(inv_run h hk).rep a f r b e, ?_⟩
  revert a b f r hk
  induction h using snocInd with
  | h0 => intro _ a b f r e; simp [run] at e
  | h1 h o ih =>
    intro hk a b f r e
    have hp := gpiOk_prefix hk
    have hi := inv_run h hp
    rw [run_snoc] at e
    have hgen : ∀ l, (step (run h) o).trace = (run h).trace ++ l → (∀ g q, Ev.left g q ∉ l) →
        (running a).head? = some f := by
      intro l hl hno
      rw [hl, List.append_eq_append_iff] at e
      rcases e with ⟨c, e1, e2⟩ | ⟨c, e1, e2⟩
      · exact absurd (by rw [e2]; simp) (hno f r)
      · cases c with
        | nil => exact absurd (by rw [← List.nil_append l, ← e2]; simp) (hno f r)
        | cons x c =>
          simp only [List.cons_append, List.cons.injEq] at e2
          obtain ⟨rfl, rfl⟩ := e2
          exact ih hp a c f r e1
    by_cases hr : ∃ q, o = .ret q
    · obtain ⟨q, rfl⟩ := hr
      unfold step at e hgen
      by_cases hd : (run h).dead = true
      · rw [if_pos hd] at e
        exact ih hp a b f r e
      · rw [if_neg hd] at e
        have hd' : (run h).dead = false := by simpa using hd
        cases hf : (run h).frames with
        | nil =>
          simp only [hf] at e
          exact ih hp a b f r e
        | cons g fs =>
          simp only [hf] at e
          rw [conclude_eq (run h) g fs q (hi.err hd') (fun x => by rw [hi.ctxOn hd' x, hf]; simp)] at e
          simp only at e
          rw [List.append_eq_append_iff] at e
          rcases e with ⟨c, e1, e2⟩ | ⟨c, e1, e2⟩
          · cases c with
            | nil =>
              simp only [List.nil_append, List.cons.injEq, Ev.left.injEq] at e2
              obtain ⟨⟨rfl, rfl⟩, rfl⟩ := e2
              rw [e1, List.append_nil, ← hi.frames, hf]; rfl
            | cons x c =>
              simp only [List.cons_append, List.cons.injEq] at e2
              exact absurd (by rw [e2.2]; simp) (report_noleft g q f r)
          · cases c with
            | nil =>
              simp only [List.nil_append, List.cons.injEq, Ev.left.injEq] at e2
              obtain ⟨⟨rfl, rfl⟩, rfl⟩ := e2
              rw [show a = (run h).trace by rw [e1]; simp, ← hi.frames, hf]; rfl
            | cons x c =>
              simp only [List.cons_append, List.cons.injEq] at e2
              obtain ⟨rfl, rfl⟩ := e2
              exact ih hp a c f r e1
    · obtain ⟨l, hl, hno⟩ := noleft_step (run h) o (fun q e => hr ⟨q, e⟩)
      exact hgen l hl hno

/-- **C152** No exception of earlier Python code is left when Python code is called. -/
theorem C152_clean (h : List Op) (hk : GpiOk h) (f : Frame) (p : Bool) (hm : Ev.enter f p ∈ (run h).trace) : p = false :=
  (inv_run h hk).clean f p hm

/-- **C152** The entry points are run at most once, however often the simulator announces its start. -/
theorem C152_once (h : List Op) (a b c : List Ev) (p q : Bool) :
    (run h).trace ≠ a ++ Ev.enter .load p :: b ++ Ev.enter .load q :: c := by
  intro e
  obtain ⟨-, -, l, hl, -, -, h1, -⟩ := grow_foldl h {}
  have h2 : (run h).trace.countP isLoad ≤ 1 := by
    show (List.foldl step {} h).trace.countP isLoad ≤ 1
    rw [hl]; simpa using h1
  rw [e] at h2
  simp [isLoad, List.countP_append, List.countP_cons] at h2
  omega

/-- **C152** Python code is not called when Python does not run: the process does not crash. -/
theorem C152_alive (h : List Op) (hk : GpiOk h) : Ev.crash ∉ (run h).trace := (inv_run h hk).crash

/-- Python code never ends the process, not by SystemExit either. -/
def C152_survives_full : Prop :=
  ∀ h, GpiOk h → (∀ w, .init w ∈ h → w.debug = none) → Ev.exit ∉ (run h).trace

/-- If the import of `pygpi.entry` raises SystemExit, printing it ends the process. -/
theorem C152_survives_counterexample : ¬ C152_survives_full := by
  intro h
  refine h [.init goodWorld, .start .sysExit] (gpiOk_of (by decide +kernel)) ?_ (by decide +kernel)
  intro w hw
  simp at hw
  rw [hw]; rfl

/-- **C152** Python code never ends the process, not by SystemExit either. Missing: an import of `pygpi.entry` that
raises SystemExit; what `PYGPI_DEBUG` adds is the subject of C154. -/
theorem C152_survives_partial (h : List Op) (hk : GpiOk h) (hd : ∀ w, .init w ∈ h → w.debug = none)
    (hi : .start .sysExit ∉ h) : Ev.exit ∉ (run h).trace :=
  (inv_run h hk).exit (alive_run h hk (fun w hw => by rw [hd w hw]; rfl) hi).1

/-- **C152** The function given to `set_sim_event_callback` is called whenever the end of the simulation is announced,
until clean-up. -/
theorem C152_event (h : List Op) (hk : GpiOk h) (hd : ∀ w, .init w ∈ h → w.debug = none) (hi : .start .sysExit ∉ h)
    (fn : Nat) (h1 : Ev.eventSet fn ∈ (run h).trace) (h2 : Ev.stopped ∉ (run h).trace) :
    (run (h ++ [.endSim])).trace = (run h).trace ++ [.enter (.event fn) false] := by
  have hinv := inv_run h hk
  obtain ⟨ha, hb⟩ := alive_run h hk (fun w hw => by rw [hd w hw]; rfl) hi
  have hev := ((evInv_run h hk).evs ha fn).2 ⟨h1, h2⟩
  have hon := hinv.ev (by rw [hev]; rfl) ha
  rw [run_snoc]
  simp [step, ha, (evInv_run h hk).hooks hon, endOfSim, hev, call, cToPython, hb, hon, St.emit, hinv.err ha]

/-- **C152** Only the function that was accepted is called for the event, and not after clean-up; at most one is
accepted. -/
theorem C152_event_only (h : List Op) (hk : GpiOk h) (a b : List Ev) (fn : Nat) (p : Bool)
    (e : (run h).trace = a ++ Ev.enter (.event fn) p :: b) :
    Ev.eventSet fn ∈ a ∧ Ev.stopped ∉ a ∧ ∀ g, Ev.eventSet g ∈ a → g = fn := by
  have h1 := (evInv_run h hk).called a fn p b e
  refine ⟨h1.1, h1.2, fun g hg => (evInv_run h hk).uniq g fn ?_ ?_⟩
  · rw [e]; exact List.mem_append_left _ hg
  · rw [e]; exact List.mem_append_left _ h1.1

/-- A session: the entry points set the event function, a callback fails, the simulation ends, clean-up. -/
def session : List Op :=
  [.init goodWorld, .start .ok, .setEvent 3, .ret .ok, .callback 7, .ret .exc, .callback 8, .ret .sysExit, .endSim, .ret .ok, .final,
    .endSim]

example : GpiOk session := gpiOk_of (by decide +kernel)

/-- What is seen of it. -/
def sessionTrace : List Ev :=
    [.started (ofStr "/usr/bin/python3".toList), .hooked, .enter .load false, .eventSet 3, .left .load .ok, .result .load 0,
      .enter (.callback 7) false, .left (.callback 7) .exc, .printed, .result (.callback 7) (-1), .enter (.callback 8) false,
      .left (.callback 8) .sysExit, .result (.callback 8) (-1), .enter (.event 3) false, .left (.event 3) .ok, .stopped]

example : (run session).trace = sessionTrace := by decide +kernel

/-! ### C154 -/

/-- `PYGPI_DEBUG` changes nothing but the log. -/
def C154_debug_full : Prop := ∀ h, GpiOk h → (run h).trace = (run (h.map undebug)).trace

/-- A session with debugging in which the simulator calls back while Python code runs. -/
def nested : List Op := [.init { goodWorld with debug := some [49] }, .start .ok, .callback 1]

/-- Python code that is called while other Python code runs ends the process. -/
theorem C154_debug_counterexample : ¬ C154_debug_full := by
  intro h
  have := h nested (gpiOk_of (by decide +kernel))
  revert this
  decide +kernel

/-- **C154** `PYGPI_DEBUG` changes nothing but the log. Missing: histories in which the simulator calls back while
Python code runs. -/
theorem C154_debug_partial (h : List Op) (hk : GpiOk h) (hn : NeverNested (run (h.map undebug)).trace) :
    (run h).trace = (run (h.map undebug)).trace := by
  rw [undeb_run h hk hn]; rfl

theorem neverNested_of {tr : List Ev}
    (h : ∀ i : Fin tr.length, (∃ f p, tr[i] = Ev.enter f p) → running (tr.take i) = []) : NeverNested tr := by
  intro a f p b e
  have hl : a.length < tr.length := by rw [e]; simp
  have := h ⟨a.length, hl⟩ ⟨f, p, by simp [e]⟩
  simpa [e] using this

example : NeverNested (run session).trace := by
  apply neverNested_of
  intro i
  revert i
  rw [show (run session).trace = sessionTrace by decide +kernel]
  have : ∀ i : Fin sessionTrace.length, (match sessionTrace[i] with | .enter _ _ => true | _ => false) = true →
      running (sessionTrace.take i) = [] := by decide +kernel
  intro i hi
  obtain ⟨f, p, e⟩ := hi
  exact this i (by rw [e])

/-- The same session with debugging. -/
def debugSession : List Op := .init { goodWorld with debug := some [49] } :: session.drop 1

example : debugSession.map undebug = session := by decide +kernel
example : GpiOk debugSession := gpiOk_of (by decide +kernel)

end Verif
