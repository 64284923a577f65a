import Verif.Spec.Handle
import Verif.Lemmas.Range
import Verif.Lemmas.LogicArray
/-!
# Lemmas about reading and writing simulator objects
-/
namespace Verif.Hdl
open Verif Verif.Spec

theorem keepLast_sub (l : List Call) : (keepLast l).Sublist l := by
  induction l with
  | nil => simp [keepLast]
  | cons c cs ih =>
    unfold keepLast
    split
    · exact ih.cons _
    · exact ih.cons₂ _

theorem keepLast_mem_ref (l : List Call) (r : Ref) :
    r ∈ (keepLast l).map Call.ref ↔ r ∈ l.map Call.ref := by
  induction l with
  | nil => simp [keepLast]
  | cons c cs ih =>
    unfold keepLast
    split
    · rename_i h
      rw [ih]; simp only [List.map_cons, List.mem_cons]
      constructor
      · intro hr; exact Or.inr hr
      · rintro (rfl | hr)
        · exact h
        · exact hr
    · simp only [List.map_cons, List.mem_cons, ih]

theorem keepLast_nodup (l : List Call) : ((keepLast l).map Call.ref).Nodup := by
  induction l with
  | nil => simp [keepLast]
  | cons c cs ih =>
    unfold keepLast
    split
    · exact ih
    · rename_i h
      rw [List.map_cons, List.nodup_cons, keepLast_mem_ref]
      exact ⟨h, ih⟩

theorem keepLast_append (l : List Call) (c : Call) :
    keepLast (l ++ [c]) = dictPut c (keepLast l) := by
  induction l with
  | nil => simp [keepLast, dictPut]
  | cons x xs ih =>
    have e : keepLast (x :: xs ++ [c]) =
        if x.ref ∈ (xs ++ [c]).map Call.ref then keepLast (xs ++ [c]) else x :: keepLast (xs ++ [c]) := rfl
    rw [e, ih]
    have e2 : keepLast (x :: xs) = if x.ref ∈ xs.map Call.ref then keepLast xs else x :: keepLast xs := rfl
    rw [e2]
    by_cases h1 : x.ref ∈ xs.map Call.ref
    · rw [if_pos h1, if_pos (by rw [List.map_append]; exact List.mem_append_left _ h1)]
    · rw [if_neg h1]
      by_cases h2 : x.ref = c.ref
      · rw [if_pos (by simp [h2])]
        simp [dictPut, h2]
      · rw [if_neg (by rw [List.map_append, List.mem_append]; simp only [List.map_cons, List.map_nil, List.mem_singleton]; exact fun h => h.elim h1 h2)]
        simp [dictPut, h2]

theorem mem_keepLast (l : List Call) (c : Call) :
    c ∈ keepLast l ↔ ∃ a b, l = a ++ c :: b ∧ c.ref ∉ b.map Call.ref := by
  induction l with
  | nil => simp [keepLast]
  | cons x xs ih =>
    unfold keepLast
    split
    · rename_i h
      rw [ih]
      constructor
      · rintro ⟨a, b, rfl, hb⟩; exact ⟨x :: a, b, rfl, hb⟩
      · rintro ⟨a, b, e, hb⟩
        cases a with
        | nil => cases e; exact absurd h hb
        | cons y a => cases e; exact ⟨a, b, rfl, hb⟩
    · rename_i h
      rw [List.mem_cons, ih]
      constructor
      · rintro (rfl | ⟨a, b, rfl, hb⟩)
        · exact ⟨[], xs, rfl, h⟩
        · exact ⟨x :: a, b, rfl, hb⟩
      · rintro ⟨a, b, e, hb⟩
        cases a with
        | nil => cases e; exact Or.inl rfl
        | cons y a => cases e; exact Or.inr ⟨a, b, rfl, hb⟩

/-! ## One assignment as a sequence of signal writes -/

/-- Effect of a sequence of scheduled writes. -/
def schedAll (env : Env) (cs : List Call) (s : HS) : HS :=
  cs.foldl (fun s c => (scheduleWrite env c s).2) s

theorem schedAll_append (env : Env) (a b : List Call) (s : HS) :
    schedAll env (a ++ b) s = schedAll env b (schedAll env a s) := by
  simp [schedAll, List.foldl_append]

theorem write_plain {env : Env} (h : Plain env) (c : Call) (s : HS) :
    write env c s = (.ok (), { s with driven := s.driven ++ [c] }) := by
  simp [write, h.accepts]

theorem scheduleWrite_ok {env : Env} (h : Plain env) (c : Call) (s : HS) :
    (scheduleWrite env c s).1 = .ok () := by
  simp only [scheduleWrite, h.defers, write_plain h, h.primes]
  repeat' split
  all_goals first | rfl | contradiction

theorem setElems_spec {env : Env} (f : PyVal → Int → HS → PyM Unit × HS)
    (g : PyVal → Int → List Call × Bool)
    (H : ∀ v i s, (f v i s).2 = schedAll env (g v i).1 s ∧
      ((f v i s).1.succeeds = (g v i).2)) (l : List (PyVal × Int)) (s : HS) :
    (setElems f l s).2 = schedAll env (andThen (l.map fun p => g p.1 p.2)).1 s ∧
      (setElems f l s).1.succeeds = (andThen (l.map fun p => g p.1 p.2)).2 := by
  induction l generalizing s with
  | nil => simp [setElems, andThen, schedAll, Except.succeeds]
  | cons p t ih =>
    obtain ⟨v, i⟩ := p
    have hf := H v i s
    rcases hr : f v i s with ⟨r, s'⟩
    rcases hg : g v i with ⟨cs, b⟩
    rw [hr, hg] at hf
    simp only [setElems, hr, List.map_cons, hg]
    cases r with
    | error e =>
      have hb : b = false := by simpa [Except.succeeds] using hf.2.symm
      subst hb
      simp only [andThen]
      exact ⟨hf.1, by simp [Except.succeeds]⟩
    | ok u =>
      have hb : b = true := by simpa [Except.succeeds] using hf.2.symm
      subst hb
      simp only [andThen]
      have := ih s'
      rw [schedAll_append, ← hf.1]
      exact this

theorem range_len (l : Int) (d : Dir) (r : Int) :
    (Range.mk3 l d r).items.length = (Range.mk3 l d r).len := by
  simp [Range.items, PyRange.items, Range.len]

theorem setValue_spec {env : Env} (h : Plain env) (ty : Ty) (ref : Ref) (v : PyVal) (a : SetAct)
    (s : HS) :
    (setValue env ty ref v a s).2 = schedAll env (requested env ty ref v a).1 s ∧
      (setValue env ty ref v a s).1.succeeds = (requested env ty ref v a).2 := by
  induction ty generalizing ref v s with
  | leaf l =>
    simp only [setValue, requested]
    cases leafDatum l v with
    | error e => simp [schedAll, Except.succeeds]
    | ok d =>
      have := scheduleWrite_ok h ⟨ref, a, d⟩ s
      simp [schedAll, this, Except.succeeds]
  | arr lf d rt e ih =>
    simp only [setValue, requested, ← Range.items_mk3, range_len]
    cases v.elems with
    | none => simp [schedAll, Except.succeeds]
    | some vs =>
      dsimp only
      split
      · simp [schedAll, Except.succeeds]
      · exact setElems_spec _ (fun v i => if env.missing (ref.child i) then ([], false)
          else requested env e (ref.child i) v a) (fun v i s => by
            by_cases hm : env.missing (ref.child i)
            · simp [hm, schedAll, Except.succeeds]
            · simp only [hm]; exact ih (ref.child i) v s) _ s

/-- Effect of one event. -/
def stepEv (env : Env) (s : HS) : Ev → HS
  | .write c => if s.phase = .readOnly then s else (scheduleWrite env c s).2
  | .phase p => (react env p s).2

theorem scheduleWrite_phase (env : Env) (c : Call) (s : HS) :
    (scheduleWrite env c s).2.phase = s.phase := by
  unfold scheduleWrite write
  repeat' split
  all_goals rfl

theorem foldl_writes (env : Env) (cs : List Call) (s : HS) :
    (cs.map Ev.write).foldl (stepEv env) s = if s.phase = .readOnly then s else schedAll env cs s := by
  induction cs generalizing s with
  | nil => simp [schedAll]
  | cons c cs ih =>
    rw [List.map_cons, List.foldl_cons, ih]
    by_cases hp : s.phase = .readOnly
    · simp [stepEv, hp]
    · simp only [stepEv, hp, if_false, scheduleWrite_phase, schedAll, List.foldl_cons]

theorem dispatch_spec {env : Env} (h : Plain env) (sim : Sim) (o : Obj) (arg : Arg) (s : HS) :
    (dispatch env sim o s arg).2 = schedAll env (match (intent (getValue env sim o.ty o.ref) arg).1 with
      | .error _ => []
      | .ok v => (requested env o.ty o.ref v (intent (getValue env sim o.ty o.ref) arg).2).1) s := by
  cases arg <;> simp only [dispatch, intent, setCurrent, (setValue_spec h _ _ _ _ _).1]
  all_goals
    generalize getValue env sim o.ty o.ref = g
    cases g <;> simp [schedAll, (setValue_spec h _ _ _ _ _).1]

theorem valueSet_spec {env : Env} (h : Plain env) (sim : Sim) (o : Obj) (arg : Arg) (s : HS) :
    (valueSet env sim o arg s).2 =
      if s.phase = .readOnly then s else schedAll env (requestedBy env sim o arg) s := by
  unfold valueSet requestedBy
  split
  · rfl
  · split
    · simp [schedAll]
    · exact dispatch_spec h sim o arg s

theorem step_spec {env : Env} (h : Plain env) (op : Op) (s : HS) :
    (step env op s).2 = (events env op).foldl (stepEv env) s := by
  cases op with
  | set o arg sim => simp only [step, events, foldl_writes, valueSet_spec h]
  | setImmediate o arg sim =>
    simp only [step, events, foldl_writes, setImmediateValue, valueSet_spec h]
  | react p => simp [step, events, stepEv]

theorem run_spec {env : Env} (h : Plain env) (ops : List Op) (s : HS) :
    run env ops s = (ops.flatMap (events env)).foldl (stepEv env) s := by
  induction ops generalizing s with
  | nil => rfl
  | cons op ops ih => rw [run, ih, step_spec h, List.flatMap_cons, List.foldl_append]

/-! ## Refinement to the specification -/

theorem writeAll_plain {env : Env} (h : Plain env) (cs : List Call) (s : HS) :
    writeAll env cs s = (.ok (), { s with driven := s.driven ++ cs }) := by
  induction cs generalizing s with
  | nil => simp [writeAll]
  | cons c cs ih => simp only [writeAll, write_plain h, ih, List.append_assoc, List.singleton_append]

theorem react_rw {env : Env} (h : Plain env) (s : HS) :
    react env .readWrite s = (.ok (), ⟨.readWrite, [], false, s.driven ++ s.pend⟩) := by
  simp [react, applyScheduled, h.defers, writeAll_plain h, finishApply]

/-- State after a sequence of events from `s` whose deferred writes so far are `later`. -/
theorem refine_ev {env : Env} (h : Plain env) (evs : List Ev) (s : HS) (later : List Call)
    (hp : s.pend = keepLast later) :
    (evs.foldl (stepEv env) s).driven = s.driven ++ drives s.phase later evs := by
  induction evs generalizing s later with
  | nil => cases hph : s.phase <;> simp [drives]
  | cons ev evs ih =>
    rw [List.foldl_cons]
    cases ev with
    | phase p =>
      cases p with
      | readWrite =>
        simp only [stepEv, react_rw h]
        rw [ih _ [] (by rfl)]
        cases hph : s.phase <;> simp [drives, hp]
      | readOnly =>
        simp only [stepEv, react]
        rw [ih _ later (by exact hp)]
        cases hph : s.phase <;> simp [drives]
      | other =>
        simp only [stepEv, react]
        rw [ih _ later (by exact hp)]
        cases hph : s.phase <;> simp [drives]
    | write c =>
      cases hph : s.phase with
      | readOnly =>
        have : stepEv env s (.write c) = s := by simp [stepEv, hph]
        rw [this, ih s later hp, hph]; simp [drives]
      | readWrite =>
        have : stepEv env s (.write c) = { s with driven := s.driven ++ [c] } := by
          simp [stepEv, hph, scheduleWrite, h.defers, write_plain h]
        rw [this, ih _ later (by exact hp)]; simp [drives, hph]
      | other =>
        by_cases ha : c.act = .deposit
        · have e : ∃ b, stepEv env s (.write c) = { s with pend := dictPut c s.pend, cb := b } := by
            simp only [stepEv, hph, scheduleWrite, h.defers, h.primes, ha]
            cases hb : s.cb
            · exact ⟨true, by simp⟩
            · exact ⟨true, by simp⟩
          obtain ⟨b, e⟩ := e
          rw [e, ih _ (later ++ [c]) (by simp [hp, keepLast_append])]
          simp [drives, hph, ha]
        · have : stepEv env s (.write c) = { s with driven := s.driven ++ [c] } := by
            simp [stepEv, hph, scheduleWrite, h.defers, write_plain h, ha]
          rw [this, ih _ later (by exact hp)]; simp [drives, hph, ha]

theorem refine_run {env : Env} (h : Plain env) (ops : List Op) (s : HS) (hp : s.pend = []) :
    (run env ops s).driven = s.driven ++ drives s.phase [] (ops.flatMap (events env)) := by
  rw [run_spec h, refine_ev h _ s [] (by simpa [keepLast] using hp)]

/-! ## Keys of the dictionary are unique and the callback is registered while it has entries -/

theorem pend_inv {env : Env} (h : Plain env) (ops : List Op) (s : HS)
    (hs : (s.pend ≠ [] → s.cb = true) ∧ (s.cb = true → s.pend ≠ [])) :
    ((run env ops s).pend ≠ [] → (run env ops s).cb = true) ∧
      ((run env ops s).cb = true → (run env ops s).pend ≠ []) := by
  rw [run_spec h]
  generalize ops.flatMap (events env) = evs
  induction evs generalizing s with
  | nil => exact hs
  | cons ev evs ih =>
    rw [List.foldl_cons]
    apply ih
    cases ev with
    | phase p =>
      cases p with
      | readWrite => simp [stepEv, react_rw h]
      | readOnly => simpa [stepEv, react] using hs
      | other => simpa [stepEv, react] using hs
    | write c =>
      simp only [stepEv]
      split
      · exact hs
      · simp only [scheduleWrite, h.defers, h.primes, write_plain h]
        by_cases h1 : s.phase = .readWrite
        · simpa [h1] using hs
        · by_cases h2 : c.act = .deposit
          · cases hcb : s.cb <;> simp [h1, h2, hcb, dictPut]
          · simpa [h1, h2] using hs

/-! ## Sequences of writes with the same kind of action -/

theorem andThen_act (a : SetAct) (l : List (List Call × Bool)) (H : ∀ p ∈ l, ∀ c ∈ p.1, c.act = a) :
    ∀ c ∈ (andThen l).1, c.act = a := by
  induction l with
  | nil => simp [andThen]
  | cons p t ih =>
    obtain ⟨cs, b⟩ := p
    have h1 := H (cs, b) (by simp)
    have h2 := ih fun p hp => H p (List.mem_cons_of_mem _ hp)
    cases b with
    | false => simpa [andThen] using h1
    | true =>
      intro c hc
      simp only [andThen, List.mem_append] at hc
      exact hc.elim (h1 c) (h2 c)

theorem requested_act (env : Env) (ty : Ty) (ref : Ref) (v : PyVal) (a : SetAct) :
    ∀ c ∈ (requested env ty ref v a).1, c.act = a := by
  induction ty generalizing ref v with
  | leaf l => simp only [requested]; cases leafDatum l v <;> simp
  | arr lf d rt e ih =>
    simp only [requested]
    cases v.elems with
    | none => simp
    | some vs =>
      dsimp only
      split
      · simp
      · apply andThen_act
        intro p hp
        obtain ⟨q, -, rfl⟩ := List.mem_map.1 hp
        split
        · simp
        · exact ih _ _

theorem requestedBy_act (env : Env) (sim : Sim) (o : Obj) (arg : Arg) :
    ∀ c ∈ requestedBy env sim o arg, c.act = (intent (getValue env sim o.ty o.ref) arg).2 := by
  unfold requestedBy
  split
  · simp
  · split
    · simp
    · exact requested_act env _ _ _ _

theorem schedAll_deposits {env : Env} (h : Plain env) (cs : List Call) (s : HS)
    (hs : s.phase ≠ .readWrite) (hc : ∀ c ∈ cs, c.act = .deposit) :
    (schedAll env cs s).phase = s.phase ∧ (schedAll env cs s).driven = s.driven := by
  induction cs generalizing s with
  | nil => exact ⟨rfl, rfl⟩
  | cons c cs ih =>
    have e : ((scheduleWrite env c s).2).driven = s.driven := by
      simp only [scheduleWrite, h.defers, h.primes, hs, hc c (by simp)]
      cases s.cb <;> simp
    have := ih (scheduleWrite env c s).2 (by rw [scheduleWrite_phase]; exact hs)
      fun c h => hc c (List.mem_cons_of_mem _ h)
    rw [scheduleWrite_phase, e] at this
    exact this

theorem schedAll_direct {env : Env} (h : Plain env) (cs : List Call) (s : HS)
    (hc : ∀ c ∈ cs, c.act ≠ .deposit) :
    schedAll env cs s = { s with driven := s.driven ++ cs } := by
  induction cs generalizing s with
  | nil => simp [schedAll]
  | cons c cs ih =>
    have e : (scheduleWrite env c s).2 = { s with driven := s.driven ++ [c] } := by
      simp [scheduleWrite, h.defers, hc c (by simp), write_plain h]
    have : schedAll env (c :: cs) s = schedAll env cs (scheduleWrite env c s).2 := rfl
    rw [this, e, ih _ fun c h => hc c (List.mem_cons_of_mem _ h)]
    simp

theorem schedAll_rw {env : Env} (h : Plain env) (cs : List Call) (s : HS)
    (hs : s.phase = .readWrite) :
    schedAll env cs s = { s with driven := s.driven ++ cs } := by
  induction cs generalizing s with
  | nil => simp [schedAll]
  | cons c cs ih =>
    have e : (scheduleWrite env c s).2 = { s with driven := s.driven ++ [c] } := by
      simp [scheduleWrite, h.defers, hs, write_plain h]
    have : schedAll env (c :: cs) s = schedAll env cs (scheduleWrite env c s).2 := rfl
    rw [this, e, ih _ (by exact hs)]
    simp

/-- Events that neither write `r` nor reach the read-write phase keep the entry of `r`. -/
theorem foldl_keeps {env : Env} (h : Plain env) (r : Ref) (evs : List Ev) (s : HS)
    (hw : ∀ c, Ev.write c ∈ evs → c.ref ≠ r) (hp : Ev.phase .readWrite ∉ evs)
    (hs : s.phase ≠ .readWrite) :
    (evs.foldl (stepEv env) s).phase ≠ .readWrite ∧
      (evs.foldl (stepEv env) s).pend.filter (fun c => c.ref = r) =
        s.pend.filter fun c => c.ref = r := by
  induction evs generalizing s with
  | nil => exact ⟨hs, rfl⟩
  | cons ev evs ih =>
    rw [List.foldl_cons]
    have e : (stepEv env s ev).phase ≠ .readWrite ∧
        (stepEv env s ev).pend.filter (fun c => c.ref = r) = s.pend.filter fun c => c.ref = r := by
      cases ev with
      | phase p => cases p <;> simp [stepEv, react] at hp ⊢
      | write c =>
        have hc := hw c (by simp)
        simp only [stepEv]
        split
        · exact ⟨hs, rfl⟩
        · refine ⟨by rw [scheduleWrite_phase]; exact hs, ?_⟩
          simp only [scheduleWrite, h.defers, h.primes, hs, write_plain h]
          by_cases ha : c.act = .deposit
          · have key : (dictPut c s.pend).filter (fun c => c.ref = r) =
                s.pend.filter fun c => c.ref = r := by
              rw [dictPut, List.filter_append, List.filter_filter]
              have : [c].filter (fun c => decide (c.ref = r)) = [] := by simp [hc]
              rw [this, List.append_nil]
              apply List.filter_congr
              intro x _
              by_cases hx : x.ref = r
              · simp [hx, Ne.symm hc]
              · simp [hx]
            cases s.cb <;> simpa [ha] using key
          · simp [ha]
    have := ih (stepEv env s ev) (fun c hc => hw c (List.mem_cons_of_mem _ hc))
      (fun hc => hp (List.mem_cons_of_mem _ hc)) e.1
    exact ⟨this.1, this.2.trans e.2⟩

end Verif.Hdl
