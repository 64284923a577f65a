import Verif.Spec.TaskRepr
/-!
# C167: the text of a task
-/
namespace Verif
open TaskRepr TaskReprS

namespace TaskReprL

theorem occurs_group (u : Nat) (n : PyStr) (os : List Obj) : Occurs u (.group n os) ↔ ∃ o ∈ os, Occurs u o := by
  constructor
  · intro h; cases h with
    | group _ _ o h1 h2 => exact ⟨o, h1, h2⟩
  · rintro ⟨o, h1, h2⟩; exact .group n os o h1 h2

mutual
theorem obj_iff (N : Nat → PyStr) (T : Nat → Option PyStr) : ∀ o, (∃ s, reprObj N T o = some s) ↔
    ∀ u, Occurs u o → ∃ s, T u = some s
  | .leaf t => by
    simp only [reprObj]
    exact ⟨fun _ u h => (by cases h), fun _ => ⟨_, rfl⟩⟩
  | .join t => by
    simp only [reprObj]
    exact ⟨fun _ u h => (by cases h), fun _ => ⟨_, rfl⟩⟩
  | .task t => by
    simp only [reprObj]
    exact ⟨fun h u hu => by cases hu; exact h, fun h => h t .task⟩
  | .group n os => by
    have ih := objs_iff N T os
    simp only [reprObj]
    constructor
    · rintro ⟨s, hs⟩ u hu
      obtain ⟨o, h1, h2⟩ := (occurs_group u n os).1 hu
      cases he : reprObjs N T os with
      | none => rw [he] at hs; cases hs
      | some t => exact (ih.1 ⟨t, he⟩) o h1 u h2
    · intro h
      obtain ⟨t, ht⟩ := ih.2 (fun o ho u hu => h u (.group n os o ho hu))
      rw [ht]; exact ⟨_, rfl⟩

theorem objs_iff (N : Nat → PyStr) (T : Nat → Option PyStr) : ∀ os, (∃ s, reprObjs N T os = some s) ↔
    ∀ o ∈ os, ∀ u, Occurs u o → ∃ s, T u = some s
  | [] => by
    simp only [reprObjs]
    exact ⟨fun _ o h => (by cases h), fun _ => ⟨_, rfl⟩⟩
  | [o] => by
    have ih := obj_iff N T o
    simp only [reprObjs]
    rw [ih]
    simp
  | o :: o' :: os => by
    have ih := obj_iff N T o
    have ih' := objs_iff N T (o' :: os)
    rw [List.forall_mem_cons, ← ih, ← ih']
    simp only [reprObjs]
    constructor
    · rintro ⟨s, hs⟩
      cases h1 : reprObj N T o with
      | none => simp [h1] at hs
      | some t =>
        cases h2 : reprObjs N T (o' :: os) with
        | none => simp [h1, h2] at hs
        | some ts => exact ⟨⟨t, rfl⟩, ts, rfl⟩
    · rintro ⟨⟨t, h1⟩, ts, h2⟩
      rw [h1, h2]
      exact ⟨_, rfl⟩
end

mutual
theorem obj_mono (N : Nat → PyStr) (T T' : Nat → Option PyStr) (h : ∀ u s, T u = some s → T' u = some s) :
    ∀ o s, reprObj N T o = some s → reprObj N T' o = some s
  | .leaf t, s, e => by simpa only [reprObj] using e
  | .join t, s, e => by simpa only [reprObj] using e
  | .task t, s, e => by
    simp only [reprObj] at e ⊢
    exact h _ _ e
  | .group n os, s, e => by
    have ih := objs_mono N T T' h os
    simp only [reprObj] at e ⊢
    cases he : reprObjs N T os with
    | none => rw [he] at e; cases e
    | some t => rw [he] at e; rw [ih t he]; exact e

theorem objs_mono (N : Nat → PyStr) (T T' : Nat → Option PyStr) (h : ∀ u s, T u = some s → T' u = some s) :
    ∀ os s, reprObjs N T os = some s → reprObjs N T' os = some s
  | [], s, e => by simpa only [reprObjs] using e
  | [o], s, e => by
    simp only [reprObjs] at e ⊢
    exact obj_mono N T T' h o s e
  | o :: o' :: os, s, e => by
    have ih := obj_mono N T T' h o
    have ih' := objs_mono N T T' h (o' :: os)
    simp only [reprObjs] at e ⊢
    cases h1 : reprObj N T o with
    | none => simp [h1] at e
    | some t =>
      cases h2 : reprObjs N T (o' :: os) with
      | none => simp [h1, h2] at e
      | some ts => rw [ih t h1, ih' ts h2]; simpa [h1, h2] using e
end

theorem mono_succ (g : Nat → Info) : ∀ n t s, reprTask g n t = some s → reprTask g (n + 1) t = some s
  | 0, _, _, e => by cases e
  | n + 1, t, s, e => by
    unfold reprTask at e ⊢
    cases hs : (g t).state with
    | pending trig =>
      simp only [hs] at e ⊢
      cases ho : reprObj (fun u => (g u).name) (reprTask g n) trig with
      | none => rw [ho] at e; cases e
      | some x =>
        rw [obj_mono _ _ _ (fun u s => mono_succ g n u s) trig x ho]
        rw [ho] at e; exact e
    | _ => simp only [hs] at e ⊢; exact e

theorem mono (g : Nat → Info) {n m : Nat} (h : n ≤ m) {t : Nat} {s : PyStr} (e : reprTask g n t = some s) :
    reprTask g m t = some s := by
  induction h with
  | refl => exact e
  | step _ ih => exact mono_succ g _ _ _ ih

theorem prints_unique (g : Nat → Info) {t : Nat} {s s' : PyStr} (h : Prints g t s) (h' : Prints g t s') : s = s' := by
  obtain ⟨n, hn⟩ := h
  obtain ⟨m, hm⟩ := h'
  have a := mono g (Nat.le_max_left n m) hn
  have b := mono g (Nat.le_max_right n m) hm
  rw [a] at b; exact Option.some.inj b

mutual
theorem obj_fin : ∀ o : Obj, ∃ l : List Nat, ∀ u, Occurs u o → u ∈ l
  | .leaf _ => ⟨[], fun u h => by cases h⟩
  | .join _ => ⟨[], fun u h => by cases h⟩
  | .task t => ⟨[t], fun u h => by cases h; simp⟩
  | .group n os => by
    obtain ⟨l, hl⟩ := objs_fin os
    exact ⟨l, fun u h => by
      obtain ⟨o, h1, h2⟩ := (occurs_group u n os).1 h
      exact hl o h1 u h2⟩

theorem objs_fin : ∀ os : List Obj, ∃ l : List Nat, ∀ o ∈ os, ∀ u, Occurs u o → u ∈ l
  | [] => ⟨[], fun o h => by cases h⟩
  | o :: os => by
    obtain ⟨l, hl⟩ := obj_fin o
    obtain ⟨l', hl'⟩ := objs_fin os
    exact ⟨l ++ l', fun p hp u hu => by
      rcases List.mem_cons.1 hp with rfl | hp
      · exact List.mem_append.2 (Or.inl (hl u hu))
      · exact List.mem_append.2 (Or.inr (hl' p hp u hu))⟩
end

/-- A bound for finitely many tasks. -/
theorem bound (g : Nat → Info) (P : Nat → Prop) (h : ∀ u, P u → ∃ n s, reprTask g n u = some s) :
    ∀ l : List Nat, ∃ n, ∀ u ∈ l, P u → ∃ s, reprTask g n u = some s
  | [] => ⟨0, fun u h => by cases h⟩
  | x :: l => by
    obtain ⟨n, hn⟩ := bound g P h l
    by_cases hx : P x
    · obtain ⟨m, s, hm⟩ := h x hx
      refine ⟨max n m, fun u hu hp => ?_⟩
      rcases List.mem_cons.1 hu with rfl | hu
      · exact ⟨s, mono g (Nat.le_max_right n m) hm⟩
      · obtain ⟨s', hs'⟩ := hn u hu hp
        exact ⟨s', mono g (Nat.le_max_left n m) hs'⟩
    · refine ⟨n, fun u hu hp => ?_⟩
      rcases List.mem_cons.1 hu with rfl | hu
      · exact absurd hp hx
      · exact hn u hu hp

theorem acc_of (g : Nat → Info) : ∀ n t s, reprTask g n t = some s → Acc (WaitsOn g) t
  | 0, _, _, e => by cases e
  | n + 1, t, s, e => by
    refine Acc.intro t fun u hu => ?_
    obtain ⟨trig, h1, h2⟩ := hu
    unfold reprTask at e
    simp only [h1] at e
    cases ho : reprObj (fun u => (g u).name) (reprTask g n) trig with
    | none => rw [ho] at e; cases e
    | some x =>
      obtain ⟨y, hy⟩ := (obj_iff _ _ trig).1 ⟨x, ho⟩ u h2
      exact acc_of g n u y hy

theorem of_acc (g : Nat → Info) {t : Nat} (h : Acc (WaitsOn g) t) : ∃ n s, reprTask g n t = some s := by
  induction h with
  | intro t _ ih =>
    cases hs : (g t).state with
    | pending trig =>
      obtain ⟨l, hl⟩ := obj_fin trig
      obtain ⟨n, hn⟩ := bound g (fun u => Occurs u trig) (fun u hu => ih u ⟨trig, hs, hu⟩) l
      obtain ⟨x, hx⟩ := (obj_iff (fun u => (g u).name) (reprTask g n) trig).2 (fun u hu => hn u (hl u hu) hu)
      refine ⟨n + 1, ?_⟩
      unfold reprTask
      simp only [hs, hx]
      exact ⟨_, rfl⟩
    | _ =>
      refine ⟨1, ?_⟩
      unfold reprTask
      simp only [hs]
      exact ⟨_, rfl⟩

theorem walk_app (pre : List Link) (h : ∀ x ∈ pre, x ≠ .other) (l : List Link) : walk (pre ++ l) = walk pre ++ walk l := by
  induction pre with
  | nil => rfl
  | cons x pre ih =>
    have := ih (fun y hy => h y (by simp [hy]))
    cases x with
    | other => exact absurd rfl (h .other (by simp))
    | coro f => cases f <;> simp [walk, this]

theorem walk_fin (fin : List Link) (h : ∀ x ∈ fin, x = .coro none) : walk fin = [] := by
  induction fin with
  | nil => rfl
  | cons x fin ih => rw [h x (by simp)]; exact ih fun y hy => h y (by simp [hy])

theorem innermost_last (l : List Link) (f : PyStr) (h : Innermost l f) : (walk l).getLast? = some f := by
  obtain ⟨pre, post, rfl, h1, fin, rest, rfl, h2, h3⟩ := h
  rw [walk_app pre h1]
  have hf : ∀ x ∈ fin, x ≠ .other := by intro x hx; rw [h2 x hx]; simp
  have : walk (.coro (some f) :: (fin ++ rest)) = [f] := by
    show f :: walk (fin ++ rest) = [f]
    rw [walk_app fin hf, walk_fin fin h2]
    cases rest with
    | nil => rfl
    | cons x r => rw [h3 x r rfl]; rfl
  rw [this]
  simp

end TaskReprL
open TaskReprL

/-- C167: for every task there is a text. False: see the counterexample. -/
def C167_total_full : Prop := ∀ (g : Nat → Info) (t : Nat), ∃ s, Prints g t s

/-- Two tasks: `main` waits with `gather` for `watchdog`, which waits with `select` for `main` and a timer. -/
def C167_pair : Nat → Info := fun t =>
  if t = 0 then ⟨"main".toList, true, [], some "main".toList, "coroutine".toList,
    .pending (.group "gather".toList [.task 1])⟩
  else ⟨"watchdog".toList, true, [], some "watchdog".toList, "coroutine".toList,
    .pending (.group "select".toList [.task 0, .leaf "<Timer>".toList])⟩

/-- C167: the text of a task that waits, with `gather`, `select`, `wait`, `Combine` or `First`, for a task that waits in the same way
for the first one contains itself: `repr` does not return. -/
theorem C167_total_counterexample : ¬ C167_total_full := by
  intro h
  obtain ⟨s, n, hs⟩ := h C167_pair 0
  have hacc := acc_of C167_pair n 0 s hs
  have h01 : WaitsOn C167_pair 1 0 := ⟨_, rfl, .group _ _ (.task 1) (by simp) .task⟩
  have h10 : WaitsOn C167_pair 0 1 := ⟨_, rfl, .group _ _ (.task 0) (by simp) .task⟩
  have key : ∀ t, Acc (WaitsOn C167_pair) t → t = 0 ∨ t = 1 → False := by
    intro t ht
    induction ht with
    | intro t _ ih =>
      rintro (rfl | rfl)
      · exact ih 1 h01 (Or.inr rfl)
      · exact ih 0 h10 (Or.inl rfl)
  exact key 0 hacc (Or.inl rfl)

/-- C167: the text of a task exists exactly when following what tasks wait for, from this task on, comes to an end on every path; and
there is only one. Missing compared with `C167_total_full`: tasks that wait for one another. -/
theorem C167_total_partial (g : Nat → Info) (t : Nat) :
    ((∃ s, Prints g t s) ↔ Acc (WaitsOn g) t) ∧ ∀ s s', Prints g t s → Prints g t s' → s = s' :=
  ⟨⟨fun ⟨s, n, h⟩ => acc_of g n t s h, fun h => by
      obtain ⟨n, s, hs⟩ := of_acc g h
      exact ⟨s, n, hs⟩⟩, fun _ _ => prints_unique g⟩

/-- C167: a task that waits for nothing, for something without tasks, or only with `await task` for others, can always be printed,
whatever other tasks do. -/
theorem C167_alone (g : Nat → Info) (t : Nat) (h : ∀ trig, (g t).state = .pending trig → ∀ u, ¬ Occurs u trig) :
    ∃ s, Prints g t s :=
  (C167_total_partial g t).1.2 (Acc.intro t fun u ⟨trig, h1, h2⟩ => absurd h2 (h trig h1 u))

/-- C167: the text starts with the name of the task, its state and the coroutine function that is suspended or running innermost; for a
coroutine that has finished this is the coroutine of the task itself. -/
theorem C167_shown (g : Nat → Info) (t : Nat) (s : PyStr) (h : Prints g t s) :
    ∃ c rest, s = "<".toList ++ (g t).name ++ " ".toList ++ (word (g t).state).toList ++ " coro=".toList ++ c ++ rest ∧
    ((g t).native = true → ∀ f, Innermost (g t).chain f → f ≠ "__await__".toList → c = f) ∧
    ((g t).native = true → (∀ x ∈ (g t).chain, x = .coro none) → ∀ n, (g t).coroName = some n → c = n) ∧
    ((g t).native = false → c = (g t).typeName) := by
  refine ⟨shownCoro (g t), ?_⟩
  have key : ∃ rest, s = "<".toList ++ (g t).name ++ " ".toList ++ (word (g t).state).toList ++ " coro=".toList ++
      shownCoro (g t) ++ rest := by
    obtain ⟨n, hn⟩ := h
    have hlt : "<".toList = ['<'] := by decide
    have hsp : " ".toList = [' '] := by decide
    rw [hlt, hsp]
    cases n with
    | zero => cases hn
    | succ n =>
      unfold reprTask at hn
      cases hs : (g t).state with
      | pending trig =>
        simp only [hs] at hn
        cases ho : reprObj (fun u => (g u).name) (reprTask g n) trig with
        | none => rw [ho] at hn; cases hn
        | some x =>
          rw [ho] at hn
          refine ⟨"() trigger=".toList ++ x ++ ['>'], ?_⟩
          simp only [Option.some.injEq] at hn
          rw [← hn]; simp only [word, List.append_assoc]
      | running => simp only [hs, Option.some.injEq] at hn; exact ⟨"()>".toList, by rw [← hn]; simp only [word]⟩
      | scheduled => simp only [hs, Option.some.injEq] at hn; exact ⟨"()>".toList, by rw [← hn]; simp only [word]⟩
      | unstarted => simp only [hs, Option.some.injEq] at hn; exact ⟨"()>".toList, by rw [← hn]; simp only [word]⟩
      | finished o =>
        simp only [hs, Option.some.injEq] at hn
        exact ⟨"() outcome=".toList ++ o ++ ['>'], by rw [← hn]; simp only [word, List.append_assoc]⟩
      | errored o =>
        simp only [hs, Option.some.injEq] at hn
        exact ⟨"() outcome=".toList ++ o ++ ['>'], by rw [← hn]; simp only [word, List.append_assoc]⟩
      | cancelled o =>
        simp only [hs, Option.some.injEq] at hn
        exact ⟨" with=".toList ++ o, by rw [← hn]; simp only [word, List.append_assoc]⟩
  obtain ⟨rest, hr⟩ := key
  refine ⟨rest, hr, ?_, ?_, ?_⟩
  · intro hn f hf hne
    have hw := innermost_last _ _ hf
    unfold shownCoro coroStack
    rw [if_pos hn]
    simp only [hw, if_neg (show ¬ some f = some "__await__".toList from fun e => hne (Option.some.inj e))]
  · intro hn hc n hname
    have hw := walk_fin _ hc
    unfold shownCoro coroStack
    rw [if_pos hn, hw]
    simp [hname]
  · intro hn
    unfold shownCoro
    rw [hn]; rfl

/-- C167: the text ends with `>`. False: see the counterexample. -/
def C167_closed_full : Prop := ∀ (g : Nat → Info) (t : Nat) (s : PyStr), Prints g t s → s.getLast? = some '>'

/-- C167: the text of a cancelled task does not end with `>`. -/
theorem C167_closed_counterexample : ¬ C167_closed_full := by
  intro h
  have := h (fun _ => ⟨"Task 1".toList, true, [], some "f".toList, "coroutine".toList,
    .cancelled "Error(CancelledError())".toList⟩) 0 _ ⟨1, rfl⟩
  exact absurd this (by decide +kernel)

/-- C167: for tasks that were not cancelled it does. Missing compared with `C167_closed_full`: cancelled tasks. -/
theorem C167_closed_partial (g : Nat → Info) (t : Nat) (s : PyStr) (h : Prints g t s)
    (hc : ∀ o, (g t).state ≠ .cancelled o) : s.getLast? = some '>' := by
  have hp : "()>".toList = ['(', ')'] ++ ['>'] := by decide
  obtain ⟨n, hn⟩ := h
  cases n with
  | zero => cases hn
  | succ n =>
    unfold reprTask at hn
    rw [hp] at hn
    cases hs : (g t).state with
    | pending trig =>
      simp only [hs] at hn
      cases ho : reprObj (fun u => (g u).name) (reprTask g n) trig with
      | none => rw [ho] at hn; cases hn
      | some x =>
        rw [ho] at hn
        simp only [Option.some.injEq] at hn
        rw [← hn]; simp only [List.getLast?_concat]
    | cancelled o => exact absurd hs (hc o)
    | _ =>
      simp only [hs, Option.some.injEq] at hn
      rw [← hn]
      simp only [← List.append_assoc, List.getLast?_concat]

/-- A task that waits for another one, which has called two coroutine functions and waits for a trigger. -/
example :
    let g : Nat → Info := fun t =>
      if t = 0 then ⟨"a".toList, true, [.coro (some "f".toList), .other], some "f".toList, "coroutine".toList,
        .pending (.group "gather".toList [.task 1, .leaf "X".toList])⟩
      else ⟨"b".toList, true, [.coro (some "g".toList), .coro (some "h".toList), .other], some "g".toList,
        "coroutine".toList, .pending (.join 0)⟩
    Prints g 0 "<a pending coro=f() trigger=gather(<b pending coro=h() trigger=TaskComplete(<a>)>, X)>".toList ∧
    Acc (WaitsOn g) 0 ∧ Innermost (g 1).chain "h".toList := by
  refine ⟨⟨2, by decide +kernel⟩, acc_of _ 2 0 _ (by rfl), ?_⟩
  exact ⟨[.coro (some "g".toList)], [.other], rfl, by simp, [], [.other], rfl, by simp, by
    intro x r e; cases e; rfl⟩

/-- C167: if the innermost function is `__await__` of a trigger, the function that awaits the trigger is shown. -/
theorem C167_await (i : Info) (hn : i.native = true) (pre : List Link) (f : PyStr) (hp : ∀ x ∈ pre, x ≠ .other)
    (hc : i.chain = pre ++ [.coro (some f), .coro (some "__await__".toList), .other]) : shownCoro i = f := by
  have hw : ∃ fs, walk i.chain = fs ++ [f, "__await__".toList] := by
    rw [hc]
    clear hc
    induction pre with
    | nil => exact ⟨[], rfl⟩
    | cons x pre ih =>
      obtain ⟨fs, h⟩ := ih fun y hy => hp y (List.mem_cons_of_mem _ hy)
      rw [List.cons_append]
      cases x with
      | other => exact absurd rfl (hp .other List.mem_cons_self)
      | coro o =>
        cases o with
        | none => exact ⟨fs, h⟩
        | some g => exact ⟨g :: fs, by rw [walk, h]; rfl⟩
  obtain ⟨fs, h⟩ := hw
  have e : fs ++ [f, "__await__".toList] = (fs ++ [f]) ++ ["__await__".toList] := by rw [List.append_assoc]; rfl
  unfold shownCoro coroStack
  rw [if_pos hn, h, e]
  dsimp only
  rw [List.getLast?_concat, if_pos rfl, List.dropLast_concat, List.getLast?_concat]

example : shownCoro ⟨[], true, [.coro (some "f".toList), .coro (some "g".toList), .coro (some "__await__".toList), .other],
    none, [], .running⟩ = "g".toList := by decide +kernel

end Verif
