import Verif.Model.Handle
import Verif.Lemmas.Vhpi
import Verif.Model.Fli
/-!
# C126: constants are not assigned
-/
namespace Verif

open Hdl

/-! ## Python -/

/-- The values written and to be written. -/
def Spec.written (s : HS) : List Call := s.driven ++ s.pend

/-- C126, full statement: whatever is assigned, no constant is written. -/
def C126_handle_full : Prop :=
  ∀ (env : Env) (ops : List Op) (r : Ref), env.isConst r = true → ∀ c ∈ Spec.written (run env ops HS.init), c.ref ≠ r

section
variable (env : Env) (P : Ref → Prop)

/-- All values are for objects with `P`. -/
def OnlyTo (s : HS) : Prop := ∀ c ∈ Spec.written s, P c.ref

theorem onlyTo_write {c : Call} {s : HS} (hc : P c.ref) (hs : OnlyTo P s) : OnlyTo P (write env c s).2 := by
  unfold write
  split
  · exact hs
  · intro x hx
    simp only [Spec.written, List.mem_append, List.mem_singleton] at hx
    rcases hx with (hx | rfl) | hx
    · exact hs x (List.mem_append_left _ hx)
    · exact hc
    · exact hs x (List.mem_append_right _ hx)

theorem onlyTo_put {c : Call} {s : HS} (hc : P c.ref) (hs : OnlyTo P s) (b : Bool) :
    OnlyTo P { s with pend := dictPut c s.pend, cb := b } := by
  intro x hx
  simp only [Spec.written, dictPut, List.mem_append, List.mem_filter, List.mem_singleton] at hx
  rcases hx with hx | ⟨hx, _⟩ | rfl
  · exact hs x (List.mem_append_left _ hx)
  · exact hs x (List.mem_append_right _ hx)
  · exact hc

theorem onlyTo_schedule {c : Call} {s : HS} (hc : P c.ref) (hs : OnlyTo P s) : OnlyTo P (scheduleWrite env c s).2 := by
  unfold scheduleWrite
  split
  · exact onlyTo_write env P hc hs
  · split
    · exact onlyTo_write env P hc hs
    · split
      · split
        · exact onlyTo_put P hc hs s.cb
        · split
          · exact onlyTo_put P hc hs true
          · exact onlyTo_put P hc hs s.cb
      · exact onlyTo_write env P hc hs

theorem onlyTo_elems {f : PyVal → Int → HS → PyM Unit × HS} (hf : ∀ v i s, OnlyTo P s → OnlyTo P (f v i s).2) :
    ∀ (l : List (PyVal × Int)) (s : HS), OnlyTo P s → OnlyTo P (setElems f l s).2 := by
  intro l
  induction l with
  | nil => intro s hs; exact hs
  | cons x t ih =>
    intro s hs
    unfold setElems
    have := hf x.1 x.2 s hs
    split
    · rename_i u s' e
      rw [e] at this
      exact ih s' this
    · exact this

theorem onlyTo_setValue (ty : Ty) : ∀ (ref : Ref) (v : PyVal) (a : SetAct) (s : HS),
    (∀ t, (t = [] → ∃ l, ty = .leaf l) → P ⟨ref.sig, ref.idx ++ t⟩) → OnlyTo P s → OnlyTo P (setValue env ty ref v a s).2 := by
  induction ty with
  | leaf l =>
    intro ref v a s hP hs
    unfold setValue
    split
    · exact hs
    · refine onlyTo_schedule env P ?_ hs
      have := hP [] fun _ => ⟨l, rfl⟩
      simpa using this
  | arr lf d rt e ih =>
    intro ref v a s hP hs
    unfold setValue
    split
    · exact hs
    · split
      · exact hs
      · refine onlyTo_elems P ?_ _ _ hs
        intro v i s' hs'
        split
        · exact hs'
        · refine ih _ _ _ _ ?_ hs'
          intro t _
          have := hP (i :: t) (by simp)
          simpa [Ref.child] using this

theorem onlyTo_dispatch (sim : Sim) (o : Obj) (arg : Arg) (s : HS)
    (hP : ∀ t, (t = [] → ∃ l, o.ty = .leaf l) → P ⟨o.ref.sig, o.ref.idx ++ t⟩) (hs : OnlyTo P s) :
    OnlyTo P (dispatch env sim o s arg).2 := by
  have hc : ∀ a, OnlyTo P (setCurrent env sim o a s).2 := by
    intro a
    unfold setCurrent
    split
    · exact hs
    · exact onlyTo_setValue env P _ _ _ _ _ hP hs
  cases arg <;> unfold dispatch <;>
    first
    | exact onlyTo_setValue env P _ _ _ _ _ hP hs
    | exact hc _

theorem onlyTo_all : ∀ (l : List Call) (s : HS), (∀ c ∈ l, P c.ref) → OnlyTo P s → OnlyTo P (writeAll env l s).2 := by
  intro l
  induction l with
  | nil => intro s _ hs; exact hs
  | cons c cs ih =>
    intro s hl hs
    unfold writeAll
    have := onlyTo_write env P (hl c List.mem_cons_self) hs
    split
    · rename_i u s' e
      rw [e] at this
      exact ih s' (fun x hx => hl x (List.mem_cons_of_mem _ hx)) this
    · exact this

theorem onlyTo_react (p : Phase) (s : HS) (hs : OnlyTo P s) : OnlyTo P (react env p s).2 := by
  unfold react
  split
  · unfold applyScheduled
    split
    · exact hs
    · have := onlyTo_all env P s.pend { s with phase := .readWrite } (fun c hc => hs c (List.mem_append_right _ hc)) hs
      unfold finishApply
      split
      · rename_i u s' e
        rw [e] at this
        intro x hx
        simp only [Spec.written, List.append_nil] at hx
        exact this x (List.mem_append_left _ hx)
      · exact this
  · exact hs

/-- Steps that may write only objects with `P`. -/
theorem onlyTo_run (hP : ∀ o : Obj, env.isConst o.ref = false → ∀ t, (t = [] → ∃ l, o.ty = .leaf l) → P ⟨o.ref.sig, o.ref.idx ++ t⟩) :
    ∀ (ops : List Op) (s : HS), OnlyTo P s → OnlyTo P (run env ops s) := by
  have hv : ∀ sim o arg s, OnlyTo P s → OnlyTo P (valueSet env sim o arg s).2 := by
    intro sim o arg s hs
    unfold valueSet
    split
    · exact hs
    · split
      · exact hs
      · rename_i h
        exact onlyTo_dispatch env P sim o arg s (hP o (by simpa using h)) hs
  intro ops
  induction ops with
  | nil => intro s hs; exact hs
  | cons op ops ih =>
    intro s hs
    refine ih _ ?_
    cases op with
    | set o arg sim => exact hv _ _ _ _ hs
    | setImmediate o arg sim => exact hv _ _ _ _ hs
    | react p => exact onlyTo_react env P p s hs

end

theorem onlyTo_init (P : Ref → Prop) : OnlyTo P HS.init := by intro c hc; cases hc

/-- C126: an array of which an element is constant is constant. -/
theorem C126_handle_partial (env : Env) (hE : ∀ ref i, env.isConst (ref.child i) = true → env.isConst ref = true)
    (ops : List Op) (r : Ref) (hr : env.isConst r = true) : ∀ c ∈ Spec.written (run env ops HS.init), c.ref ≠ r := by
  have hdown : ∀ (t : List Int) (sig : Nat) (idx : List Int), env.isConst ⟨sig, idx⟩ = false → env.isConst ⟨sig, idx ++ t⟩ = false := by
    intro t
    induction t with
    | nil => intro sig idx h; simpa using h
    | cons i t ih =>
      intro sig idx h
      have h1 : env.isConst ⟨sig, idx ++ [i]⟩ = false := by
        cases e : env.isConst ⟨sig, idx ++ [i]⟩
        · rfl
        · rw [hE ⟨sig, idx⟩ i e] at h; cases h
      have := ih sig (idx ++ [i]) h1
      simpa using this
  have := onlyTo_run env (fun x => env.isConst x = false) (fun o ho t _ => hdown t _ _ ho) ops HS.init (onlyTo_init _)
  intro c hc e
  have h := this c hc
  rw [e, hr] at h; cases h

/-- C126: objects that are not elements of arrays. -/
theorem C126_handle_whole_partial (env : Env) (ops : List Op) (r : Ref) (hr : env.isConst r = true) (hw : r.idx = []) :
    ∀ c ∈ Spec.written (run env ops HS.init), c.ref ≠ r := by
  refine onlyTo_run env (fun x => x ≠ r) ?_ ops HS.init (onlyTo_init _)
  intro o ho t ht e
  have h1 : o.ref.idx ++ t = [] := by rw [← hw, ← e]
  obtain ⟨h2, h3⟩ := List.append_eq_nil_iff.1 h1
  have : o.ref = r := by
    rw [← e, h3]; simp
  rw [this, hr] at ho; cases ho

/-- A constant array that is not called a constant. -/
def exConstEnv : Env := { isConst := fun r => r.idx ≠ [], missing := fun _ => false, refuses := fun _ _ => none, primes := true, trust := false }

/-- Assigning to a constant array writes its elements. -/
theorem C126_handle_counterexample : ¬ C126_handle_full := by
  intro H
  have := H exConstEnv
    [.set ⟨⟨0, []⟩, .arr 0 .to 0 (.leaf (.integer 32 .signed))⟩ (.immediate (.list [.int 5])) (fun _ => ⟨[], 0, 0, []⟩)]
    ⟨0, [0]⟩ rfl ⟨⟨0, [0]⟩, .noDelay, .int 5⟩ (by decide +kernel)
  exact this rfl

/-- A constant and a signal with elements. -/
def exConstEnv2 : Env := { exConstEnv with isConst := fun r => r.sig = 1 }

example : (∀ ref i, exConstEnv2.isConst (ref.child i) = true → exConstEnv2.isConst ref = true) ∧
    exConstEnv2.isConst ⟨1, []⟩ = true ∧
    Spec.written (run exConstEnv2 [.set ⟨⟨1, []⟩, .leaf (.integer 32 .signed)⟩ (.immediate (.int 5)) (fun _ => ⟨[], 0, 0, []⟩),
      .set ⟨⟨0, []⟩, .leaf (.integer 32 .signed)⟩ (.immediate (.int 6)) (fun _ => ⟨[], 0, 0, []⟩)] HS.init) =
      [⟨⟨0, []⟩, .noDelay, .int 6⟩] :=
  ⟨fun _ _ h => h, rfl, by decide +kernel⟩

/-! ## VHPI and FLI -/

open Vhpi

/-- The object is a constant or generic, or a part of one. -/
def Spec.Constant (V : Vhpi) (h : H) : Prop := ∃ k ∈ V.chain h, V.kind k = .constDecl ∨ V.kind k = .genericDecl

/-- C126, full statement for VHPI: exactly the constants are called constants. -/
def C126_vhpi_full : Prop :=
  ∀ (c : Flavor) (V : Vhpi) (h : H) (name full : Text) (o : Vhpi.Obj), createObj c V h name full = some o →
    o.type ∉ [.genArray, .module, .structure] → (o.const = true ↔ Spec.Constant V h)

theorem isConst_iff (V : Vhpi) (h : H) : isConst V h = true ↔ Spec.Constant V h := by
  simp [isConst, Spec.Constant, List.any_eq_true]

/-- C126: everything but arrays of other things than bits and characters. -/
theorem C126_vhpi_partial {c : Flavor} {V : Vhpi} {h : H} {name full : Text} {o : Vhpi.Obj}
    (ho : createObj c V h name full = some o) (ht : o.type ∉ [.genArray, .module, .structure, .array]) :
    o.const = true ↔ Spec.Constant V h := by
  rw [← isConst_iff]
  have hw : ∀ o : Vhpi.Obj, (withRange c V o).const = o.const ∧ (withRange c V o).type = o.type := by
    intro o; unfold withRange; split <;> exact ⟨rfl, rfl⟩
  have hs : ∀ o' : Vhpi.Obj, initSignal c V o' = some o → o.const = o'.const := by
    intro o' h
    unfold initSignal at h
    split at h <;> cases h <;> first | rfl | exact (hw _).1
  have hl : ∀ o' : Vhpi.Obj, initLogic c V o' = some o → o.const = o'.const := by
    intro o' h
    unfold initLogic at h
    split at h <;> cases h <;> first | rfl | exact (hw _).1
  unfold createObj at ho
  split at ho
  · cases ho
  · split at ho
    · cases ho
    · split at ho
      · unfold initArray at ho
        split at ho
        · cases ho
        · split at ho
          · cases ho
          · cases ho; simp at ht
      · cases ho; simp at ht
      · cases ho; simp at ht
      · cases ho; simp at ht
      · rw [hl _ ho]
      · rw [hl _ ho]
      · rw [hs _ ho]
      · rw [hs _ ho]
      · rw [hs _ ho]
      · rw [hs _ ho]

/-- `constant a : int_vector (0 to 0)` (0) with its element (1). -/
def exConst : Vhpi where
  kind h := if h = 0 then .constDecl else .indexedName
  ty h := if h = 0 then some (.array (some .other)) else some .int
  caseName _ := some (str "a")
  numDim h := if h = 0 then 1 else 0
  baseCons _ := []
  subCons h := if h = 0 then [{ left := 0, right := 0, up := true }] else []
  byIndex h i := if h = 0 ∧ i = 0 then some 1 else none
  byName _ := none
  iter _ _ := none
  chain h := if h = 0 then [0] else [1, 0]
  static _ := false
  format _ := some .int
  size _ := 1
  entity _ := none
  root := none

/-- A constant array is not called a constant. -/
theorem C126_vhpi_counterexample : ¬ C126_vhpi_full := by
  intro H
  obtain ⟨o, ho⟩ : ∃ o, createObj {} exConst 0 (str "a") (str "a") = some o := ⟨_, rfl⟩
  have h1 : (createObj {} exConst 0 (str "a") (str "a")).map (fun o => (o.const, o.type)) = some (false, .array) := by decide +kernel
  rw [ho] at h1
  simp only [Option.map_some, Option.some.injEq, Prod.mk.injEq] at h1
  have := (H {} exConst 0 (str "a") (str "a") o ho (by rw [h1.2]; decide)).2 ⟨0, by decide, Or.inl rfl⟩
  rw [h1.1] at this; cases this

example : ∃ o e, createObj {} exConst 0 (str "a") (str "a") = some o ∧ vhpiByIndex {} exConst 0 o = some e ∧
    e.type = .integer ∧ e.const = true ∧ o.const = false := by
  refine ⟨_, _, rfl, rfl, ?_⟩
  decide +kernel

/-- C126, full statement for the FLI: exactly the variables that are constants are called constants. -/
def C126_fli_full : Prop :=
  ∀ (F : Fli.Fli) (h : H) (name full : Text) (o : Fli.Obj), Fli.createObj F h name full = some o → F.value h = true →
    o.type ≠ .structure → (o.const = true ↔ F.signal h = false ∧ F.const h = true)

/-- C126: everything but arrays of other things than bits and characters. -/
theorem C126_fli_partial {F : Fli.Fli} {h : H} {name full : Text} {o : Fli.Obj} (ho : Fli.createObj F h name full = some o)
    (hv : F.value h = true) (ht : o.type ∉ [.structure, .array]) : o.const = true ↔ F.signal h = false ∧ F.const h = true := by
  have hb : ∀ (t : Fli.Ty) (o : Fli.Obj), (Fli.withBounds t o).const = o.const ∧ (Fli.withBounds t o).type = o.type := by
    intro t o; unfold Fli.withBounds; split <;> exact ⟨rfl, rfl⟩
  unfold Fli.createObj at ho
  split at ho
  · cases ho
  · simp only [hv, Bool.not_true, Bool.false_eq_true, if_false] at ho
    split at ho
    · cases ho
    · cases ho
      rw [(hb _ _).2] at ht
      rw [(hb _ _).1]
      simp only [List.mem_cons, List.not_mem_nil, or_false, not_or] at ht
      simp [ht.1, ht.2]

/-- A constant array is not called a constant. -/
theorem C126_fli_counterexample : ¬ C126_fli_full := by
  intro H
  let F : Fli.Fli :=
    { vhdl := fun _ => true, value := fun _ => true, signal := fun _ => false, const := fun _ => true, forGen := fun _ => false
      ty := fun h => if h = 0 then .array 0 0 .up 1 .other else .scalar
      regionName := fun _ => [], fullName := fun _ => [], region := fun _ => none, sig := fun _ => none, var := fun _ => none
      lower := fun _ => [], subs := fun _ => [1], tops := [] }
  have := (H F 0 [] [] _ rfl rfl (by decide)).2 ⟨rfl, rfl⟩
  cases this

end Verif
