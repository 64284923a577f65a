import Verif.Spec.TaskLocals
import Mathlib.Data.List.Induction
/-!
# C186: variables of tasks
-/
namespace Verif
open TaskLocals Spec.Locals

namespace TaskLocalsL

theorem run_snoc (evs : List Ev) (e : Ev) : run (evs ++ [e]) = (step (run evs) e).1 := by
  unfold run
  rw [List.foldl_append]
  rfl

theorem view_snoc (evs : List Ev) (e : Ev) : viewOf (evs ++ [e]) = (viewOf evs).after e := by
  unfold viewOf
  rw [List.foldl_append]
  rfl

/-- The effect of one event on the value. -/
def effect (k x : Nat) (w : View) (v : Option Int) : Ev → Option Int
  | .set t y u => if w.meant t = some k ∧ y = x then some u else v
  | .del t y => if w.meant t = some k ∧ y = x then none else v
  | _ => v

theorem last_snoc (k x : Nat) (e : Ev) : ∀ (evs : List Ev) (w : View) (v : Option Int),
    lastValue k x w v (evs ++ [e]) = effect k x (evs.foldl View.after w) (lastValue k x w v evs) e
  | [], w, v => by cases e <;> rfl
  | a :: evs, w, v => last_snoc k x e evs _ _

theorem remove_get (d : Space) (x y : Nat) (hd : (d.map (·.1)).Nodup) : dictGet (remove d x) y = if x = y then none else dictGet d y := by
  induction d with
  | nil => rw [show remove [] x = [] from rfl]; split <;> rfl
  | cons p d ih =>
    obtain ⟨z, v⟩ := p
    have hd' := List.nodup_cons.1 hd
    unfold remove
    by_cases hz : z = x
    · rw [if_pos hz]
      by_cases h : x = y
      · rw [if_pos h]
        exact dictGet_none_iff.2 (by rw [← h, ← hz]; exact hd'.1)
      · rw [if_neg h]
        show _ = if z = y then some v else dictGet d y
        rw [if_neg (by rw [hz]; exact h)]
    · rw [if_neg hz]
      show (if z = y then some v else dictGet (remove d x) y) = if x = y then none else if z = y then some v else dictGet d y
      by_cases hzy : z = y
      · rw [if_pos hzy, if_pos hzy, if_neg (by rw [← hzy]; exact fun e => hz e.symm)]
      · rw [if_neg hzy, if_neg hzy, ih hd'.2]

theorem remove_keys (d : Space) (x : Nat) : ((remove d x).map (·.1)).Sublist (d.map (·.1)) := by
  induction d with
  | nil => exact List.Sublist.refl _
  | cons p d ih =>
    obtain ⟨z, v⟩ := p
    unfold remove
    by_cases hz : z = x
    · rw [if_pos hz]; exact List.sublist_cons_self _ _
    · rw [if_neg hz]; exact ih.cons_cons _

theorem set_nodup (d : Space) (x : Nat) (v : Int) (h : (d.map (·.1)).Nodup) : ((dictSet d x v).map (·.1)).Nodup := by
  induction d with
  | nil => exact List.nodup_cons.2 ⟨List.not_mem_nil, List.nodup_nil⟩
  | cons p d ih =>
    obtain ⟨z, w⟩ := p
    have h' := List.nodup_cons.1 h
    unfold dictSet
    by_cases hz : z = x
    · rw [if_pos hz]; exact h
    · rw [if_neg hz]
      refine List.nodup_cons.2 ⟨fun hm => ?_, ih h'.2⟩
      have hn : dictGet d z = none := dictGet_none_iff.2 h'.1
      have : dictGet (dictSet d x v) z = none := by rw [dictGet_set, if_neg (fun e => hz e.symm), hn]
      exact dictGet_none_iff.1 this hm

theorem target_meant (s : St) (w : View) (h1 : s.tasks.length = w.count) (h2 : s.current = w.running) (t : Option Nat) :
    target s t = match w.meant t with | some k => .ok k | none => .error .runtimeError := by
  cases t with
  | none =>
    unfold target View.meant
    rw [← h2]
    dsimp only
    cases s.current <;> rfl
  | some k =>
    unfold target View.meant
    rw [← h1]
    dsimp only
    by_cases h : k < s.tasks.length
    · rw [if_pos h, if_pos h]
    · rw [if_neg h, if_neg h]

/-- The invariant. -/
structure Inv (evs : List Ev) : Prop where
  count : (run evs).tasks.length = (viewOf evs).count
  current : (run evs).current = (viewOf evs).running
  bound : ∀ k, (viewOf evs).running = some k → k < (viewOf evs).count
  nodup : ∀ (k : Nat) (d : Space), (run evs).tasks[k]? = some d → (d.map (·.1)).Nodup
  value : ∀ k x, dictGet (((run evs).tasks[k]?).getD []) x = lastValue k x ⟨0, none⟩ none evs

theorem meant_bound {evs : List Ev} (I : Inv evs) {t : Option Nat} {k : Nat} (h : (viewOf evs).meant t = some k) :
    k < (run evs).tasks.length := by
  rw [I.count]
  cases t with
  | none => exact I.bound k h
  | some j =>
    unfold View.meant at h
    dsimp only at h
    split at h
    · cases h; assumption
    · cases h

/-- Events that change one variable. -/
theorem inv_modify {evs : List Ev} {e : Ev} {t : Option Nat} {y j : Nat} {f : Space → Space} {nv : Option Int} (I : Inv evs)
    (hm : (viewOf evs).meant t = some j) (hw : (viewOf evs).after e = viewOf evs)
    (hr : (step (run evs) e).1 = { run evs with tasks := (run evs).tasks.modify j f })
    (hn : ∀ d : Space, (d.map (·.1)).Nodup → ((f d).map (·.1)).Nodup)
    (hf : ∀ d : Space, (d.map (·.1)).Nodup → ∀ x, dictGet (f d) x = if y = x then nv else dictGet d x)
    (he : ∀ k x v, effect k x (viewOf evs) v e = if (viewOf evs).meant t = some k ∧ y = x then nv else v) : Inv (evs ++ [e]) := by
  have hb := meant_bound I hm
  have hview := view_snoc evs e
  rw [hw] at hview
  refine ⟨?_, ?_, ?_, ?_, ?_⟩
  · rw [run_snoc, hr, hview]
    show ((run evs).tasks.modify j f).length = _
    rw [List.length_modify]
    exact I.count
  · rw [run_snoc, hr, hview]
    exact I.current
  · rw [hview]; exact I.bound
  · intro k d hk
    rw [run_snoc, hr] at hk
    have hk' : ((run evs).tasks.modify j f)[k]? = some d := hk
    rw [List.getElem?_modify] at hk'
    cases hg : (run evs).tasks[k]? with
    | none => rw [hg] at hk'; cases hk'
    | some d0 =>
      rw [hg] at hk'
      injection hk' with hk'
      dsimp only at hk'
      have h0 := I.nodup k d0 hg
      by_cases hj : j = k
      · rw [if_pos hj] at hk'; rw [← hk']; exact hn d0 h0
      · rw [if_neg hj] at hk'; rw [← hk']; exact h0
  · intro k x
    rw [run_snoc, hr, last_snoc]
    have hfold : evs.foldl View.after ⟨0, none⟩ = viewOf evs := rfl
    rw [hfold, he, ← I.value k x, hm]
    show dictGet ((((run evs).tasks.modify j f)[k]?).getD []) x = _
    rw [List.getElem?_modify]
    by_cases hj : j = k
    · subst hj
      rw [List.getElem?_eq_getElem hb]
      show dictGet (if j = j then f _ else _) x = _
      rw [if_pos rfl]
      rw [hf _ (I.nodup j _ (List.getElem?_eq_getElem hb))]
      by_cases hx : y = x
      · rw [if_pos hx, if_pos ⟨rfl, hx⟩]
      · rw [if_neg hx, if_neg (fun h => hx h.2)]
        rfl
    · rw [if_neg (fun h => hj (Option.some.inj h.1))]
      cases (run evs).tasks[k]? with
      | none => rfl
      | some d0 =>
        show dictGet (if j = k then f d0 else d0) x = _
        rw [if_neg hj]
        rfl

/-- Events that change no variable and no task. -/
theorem inv_same {evs : List Ev} {e : Ev} (I : Inv evs) (hw : (viewOf evs).after e = viewOf evs) (hr : (step (run evs) e).1 = run evs)
    (he : ∀ k x, effect k x (viewOf evs) (lastValue k x ⟨0, none⟩ none evs) e = lastValue k x ⟨0, none⟩ none evs) : Inv (evs ++ [e]) := by
  have hview := view_snoc evs e
  rw [hw] at hview
  have hrun := run_snoc evs e
  rw [hr] at hrun
  refine ⟨by rw [hrun, hview]; exact I.count, by rw [hrun, hview]; exact I.current, by rw [hview]; exact I.bound, by rw [hrun]; exact I.nodup, ?_⟩
  intro k x
  rw [hrun, last_snoc]
  have hfold : evs.foldl View.after ⟨0, none⟩ = viewOf evs := rfl
  rw [hfold, he]
  exact I.value k x

theorem inv (evs : List Ev) : Inv evs := by
  induction evs using List.reverseRecOn with
  | nil => exact ⟨rfl, rfl, (fun k h => nomatch h), (fun k d h => nomatch h), fun k x => rfl⟩
  | append_singleton evs e I =>
    cases e with
    | create =>
      have hrun := run_snoc evs .create
      have hview := view_snoc evs .create
      refine ⟨?_, ?_, ?_, ?_, ?_⟩
      · rw [hrun, hview]
        show ((run evs).tasks ++ [[]]).length = (viewOf evs).count + 1
        rw [List.length_append, I.count]
        rfl
      · rw [hrun, hview]; exact I.current
      · rw [hview]
        intro k hk
        exact Nat.lt_succ_of_lt (I.bound k hk)
      · intro k d hk
        rw [hrun] at hk
        have hk' : ((run evs).tasks ++ [[]])[k]? = some d := hk
        rcases List.mem_append.1 (List.mem_of_getElem? hk') with hm | hm
        · obtain ⟨i, hi⟩ := List.mem_iff_getElem?.1 hm
          exact I.nodup i d hi
        · rw [List.mem_singleton.1 hm]; exact List.nodup_nil
      · intro k x
        rw [hrun, last_snoc]
        show dictGet ((((run evs).tasks ++ [[]])[k]?).getD []) x = lastValue k x ⟨0, none⟩ none evs
        rw [← I.value k x]
        by_cases hk : k < (run evs).tasks.length
        · rw [List.getElem?_append_left hk]
        · rw [List.getElem?_append_right (Nat.le_of_not_lt hk), List.getElem?_eq_none (Nat.le_of_not_lt hk)]
          cases k - (run evs).tasks.length <;> rfl
    | resume j =>
      have hrun := run_snoc evs (.resume j)
      have hview := view_snoc evs (.resume j)
      by_cases hj : j < (run evs).tasks.length
      · have hr : run (evs ++ [.resume j]) = { run evs with current := some j } := by rw [hrun]; exact if_pos hj
        have hv : viewOf (evs ++ [.resume j]) = { viewOf evs with running := some j } := by rw [hview]; exact if_pos (I.count ▸ hj)
        refine ⟨by rw [hr, hv]; exact I.count, by rw [hr, hv], ?_, by rw [hr]; exact I.nodup, ?_⟩
        · rw [hv]
          intro k hk
          injection hk with hk
          subst hk
          exact I.count ▸ hj
        · intro k x
          rw [hr, last_snoc]
          exact I.value k x
      · exact inv_same I (if_neg (I.count ▸ hj)) (if_neg hj) (fun _ _ => rfl)
    | suspend =>
      have hrun := run_snoc evs .suspend
      have hview := view_snoc evs .suspend
      refine ⟨by rw [hrun, hview]; exact I.count, by rw [hrun, hview]; rfl, ?_, by rw [hrun]; exact I.nodup, ?_⟩
      · rw [hview]
        intro k hk
        cases hk
      · intro k x
        rw [hrun, last_snoc]
        exact I.value k x
    | get t y =>
      refine inv_same I rfl ?_ (fun _ _ => rfl)
      unfold step
      dsimp only
      split
      · rfl
      · split <;> rfl
    | set t y v =>
      have ht := target_meant (run evs) (viewOf evs) I.count I.current t
      cases hm : (viewOf evs).meant t with
      | none =>
        rw [hm] at ht
        refine inv_same I rfl ?_ (fun k x => if_neg (fun h => by rw [hm] at h; cases h.1))
        unfold step
        dsimp only
        rw [ht]
      | some j =>
        rw [hm] at ht
        refine inv_modify (t := t) (y := y) (nv := some v) (f := fun d => dictSet d y v) I hm rfl ?_ (fun d hd => set_nodup d y v hd)
          (fun d _ x => dictGet_set d y x v) (fun _ _ _ => rfl)
        unfold step
        dsimp only
        rw [ht]
    | del t y =>
      have ht := target_meant (run evs) (viewOf evs) I.count I.current t
      cases hm : (viewOf evs).meant t with
      | none =>
        rw [hm] at ht
        refine inv_same I rfl ?_ (fun k x => if_neg (fun h => by rw [hm] at h; cases h.1))
        unfold step
        dsimp only
        rw [ht]
      | some j =>
        rw [hm] at ht
        cases hg : dictGet (((run evs).tasks[j]?).getD []) y with
        | none =>
          refine inv_same I rfl ?_ (fun k x => ?_)
          · unfold step
            dsimp only
            rw [ht]
            dsimp only
            rw [hg]
          · show (if (viewOf evs).meant t = some k ∧ y = x then none else _) = _
            by_cases h : (viewOf evs).meant t = some k ∧ y = x
            · rw [if_pos h, ← I.value k x]
              rw [hm] at h
              rw [← Option.some.inj h.1, ← h.2, hg]
            · rw [if_neg h]
        | some v =>
          refine inv_modify (t := t) (y := y) (nv := none) (f := fun d => remove d y) I hm rfl ?_
            (fun d hd => hd.sublist (remove_keys d y)) (fun d hd x => remove_get d y x hd) (fun _ _ _ => rfl)
          unfold step
          dsimp only
          rw [ht]
          dsimp only
          rw [hg]

end TaskLocalsL
open TaskLocalsL

/-- **C186.** In all histories, the variable `x` of a task, reached as `task.locals` or as `current_task().locals` while it runs, has the value it
was given last for this very task, whatever other tasks did with variables of the same name; reading it raises AttributeError if it has no
value. Without a running task `current_task()` raises RuntimeError. -/
theorem C186_locals (evs : List Ev) (t : Option Nat) (x : Nat) :
    (step (run evs) (.get t x)).2 =
      match (viewOf evs).meant t with
      | none => .error .runtimeError
      | some k =>
        match lastValue k x ⟨0, none⟩ none evs with
        | none => .error .attributeError
        | some v => .ok (some v) := by
  have I := inv evs
  have ht := target_meant (run evs) (viewOf evs) I.count I.current t
  unfold step
  dsimp only
  cases hm : (viewOf evs).meant t with
  | none => rw [hm] at ht; rw [ht]
  | some k =>
    rw [hm] at ht
    rw [ht]
    dsimp only
    rw [I.value k x]
    cases lastValue k x ⟨0, none⟩ none evs <;> rfl

/-- Two tasks with a variable of the same name. -/
def exLocals : List Ev :=
  [.create, .create, .resume 0, .set none 7 1, .suspend, .resume 1, .set none 7 2, .set (some 0) 8 5, .suspend, .resume 0]

example : (step (run exLocals) (.get none 7)).2 = .ok (some 1) ∧ (step (run exLocals) (.get (some 1) 7)).2 = .ok (some 2) ∧
    (step (run exLocals) (.get none 8)).2 = .ok (some 5) ∧ (step (run exLocals) (.get none 9)).2 = .error .attributeError ∧
    (step (run (exLocals ++ [.suspend])) (.get none 7)).2 = .error .runtimeError := by decide

/-- **C186.** Setting a variable fails only without a task, deleting one also if it has no value; reading changes nothing. -/
theorem C186_access (evs : List Ev) (t : Option Nat) (x : Nat) (v : Int) :
    ((step (run evs) (.set t x v)).2 = if (viewOf evs).meant t = none then .error .runtimeError else .ok none) ∧
    ((step (run evs) (.del t x)).2 =
      match (viewOf evs).meant t with
      | none => .error .runtimeError
      | some k => if lastValue k x ⟨0, none⟩ none evs = none then .error .attributeError else .ok none) ∧
    (step (run evs) (.get t x)).1 = run evs := by
  have I := inv evs
  have ht := target_meant (run evs) (viewOf evs) I.count I.current t
  unfold step
  dsimp only
  cases hm : (viewOf evs).meant t with
  | none => rw [hm] at ht; rw [ht]; exact ⟨rfl, rfl, rfl⟩
  | some k =>
    rw [hm] at ht
    rw [ht]
    dsimp only
    rw [I.value k x]
    cases lastValue k x ⟨0, none⟩ none evs <;> exact ⟨rfl, rfl, rfl⟩

example : (step (run exLocals) (.del none 7)).2 = .ok none ∧ (step (run exLocals) (.del none 9)).2 = .error .attributeError := by decide

end Verif
