import Verif.Spec.TaskName
import Mathlib.Data.List.Induction
/-!
# C182: names and loggers of tasks
-/
namespace Verif
open Spec TaskName

namespace TaskNameL

theorem run_snoc (evs : List Ev) (e : Ev) : run (evs ++ [e]) = step (run evs) e := by
  unfold run
  rw [List.foldl_append]
  rfl

theorem created_snoc (evs : List Ev) (e : Ev) : created (evs ++ [e]) = created evs + creates e := by
  unfold created
  rw [List.map_append, List.sum_append]
  rfl

theorem given_snoc' (k : Nat) (e : Ev) : ∀ (evs : List Ev) (n : Nat) (v : Option PyStr),
    given k n v (evs ++ [e]) = (names k (n + created evs) e).or (given k n v evs)
  | [], n, v => rfl
  | x :: evs, n, v => by
    show given k (n + creates x) ((names k n x).or v) (evs ++ [e]) = _
    rw [given_snoc' k e evs]
    have : n + creates x + created evs = n + created (x :: evs) := by
      unfold created
      rw [List.map_cons, List.sum_cons]
      omega
    rw [this]
    rfl

theorem given_snoc (k : Nat) (evs : List Ev) (e : Ev) :
    given k 0 none (evs ++ [e]) = (names k (created evs) e).or (given k 0 none evs) := by
  rw [given_snoc', Nat.zero_add]

theorem tasks_length (evs : List Ev) : (run evs).tasks.length = created evs := by
  induction evs using List.reverseRecOn with
  | nil => rfl
  | append_singleton evs e ih =>
    rw [run_snoc, created_snoc, ← ih]
    cases e with
    | create c n => cases c <;> simp [step, bump, creates]
    | setName k v => simp [step, creates]
    | log k =>
      unfold step
      dsimp only
      split <;> simp [creates]

theorem logger_name (t : T) : (logger t).1.name = t.name := by
  unfold logger
  split <;> rfl

/-- The number that a task of the class `c` would get now. -/
def nums : List Ev → St → List Nat
  | [], _ => []
  | .create c n :: es, s => count s c :: nums es (step s (.create c n))
  | e :: es, s => nums es (step s e)

theorem nums_snoc (e : Ev) : ∀ (evs : List Ev) (s : St), nums (evs ++ [e]) s = nums evs s ++ nums [e] (evs.foldl step s)
  | [], s => rfl
  | .create c n :: es, s => by
    show count s c :: nums (es ++ [e]) _ = _
    rw [nums_snoc e es]
    rfl
  | .setName k v :: es, s => by
    show nums (es ++ [e]) _ = _
    rw [nums_snoc e es]
    rfl
  | .log k :: es, s => by
    show nums (es ++ [e]) _ = _
    rw [nums_snoc e es]
    rfl

theorem nums_length (evs : List Ev) : (nums evs start).length = created evs := by
  induction evs using List.reverseRecOn with
  | nil => rfl
  | append_singleton evs e ih =>
    rw [nums_snoc, created_snoc, List.length_append, ih]
    cases e <;> rfl

theorem given_fresh (evs : List Ev) (k : Nat) (h : created evs ≤ k) : given k 0 none evs = none := by
  induction evs using List.reverseRecOn with
  | nil => rfl
  | append_singleton evs e ih =>
    rw [created_snoc] at h
    rw [given_snoc, ih (by omega)]
    cases e with
    | create c n =>
      cases n with
      | none => rfl
      | some v =>
        have : creates (.create c (some v)) = 1 := rfl
        unfold names
        dsimp only
        rw [if_neg (by omega)]
        rfl
    | setName j v =>
      unfold names
      dsimp only
      rw [if_neg (by intro h'; omega)]
      rfl
    | log j => rfl

/-- All names, and all cached loggers. -/
theorem inv (evs : List Ev) (k : Nat) (t : T) (h : (run evs).tasks[k]? = some t) :
    (∃ n, (nums evs start)[k]? = some n ∧ t.name = (given k 0 none evs).getD (defaultName n)) ∧
    (∀ l, t.log = some l → l = loggerName t.name) := by
  induction evs using List.reverseRecOn generalizing t with
  | nil => cases h
  | append_singleton evs e ih =>
    have hk := (List.getElem?_eq_some_iff.1 h).1
    rw [tasks_length, created_snoc] at hk
    rw [run_snoc] at h
    rw [nums_snoc, given_snoc]
    have hr : evs.foldl step start = run evs := rfl
    rw [hr]
    cases e with
    | create c n =>
      have ht : (step (run evs) (.create c n)).tasks = (run evs).tasks ++ [⟨n.getD (defaultName (count (run evs) c)), none⟩] := by cases c <;> cases n <;> rfl
      rw [ht] at h
      by_cases hlt : k < (run evs).tasks.length
      · rw [List.getElem?_append_left hlt] at h
        obtain ⟨⟨m, h1, h2⟩, h3⟩ := ih t h
        rw [tasks_length] at hlt
        refine ⟨⟨m, ?_, ?_⟩, h3⟩
        · rw [List.getElem?_append_left (by rw [nums_length]; exact hlt), h1]
        · have : names k (created evs) (.create c n) = none := by
            cases n with
            | none => rfl
            | some v => unfold names; dsimp only; rw [if_neg (by omega)]
          rw [this, h2]
          rfl
      · have hc : creates (.create c n) = 1 := rfl
        rw [tasks_length] at hlt
        have hk' : k = created evs := by omega
        subst hk'
        rw [List.getElem?_append_right (by rw [tasks_length]; exact Nat.le_refl _), tasks_length, Nat.sub_self] at h
        injection h with h
        subst h
        refine ⟨⟨count (run evs) c, ?_, ?_⟩, fun l hl => by cases hl⟩
        · rw [List.getElem?_append_right (by rw [nums_length]; exact Nat.le_refl _), nums_length, Nat.sub_self]
          rfl
        · rw [given_fresh evs _ (Nat.le_refl _)]
          cases n with
          | none => rfl
          | some v => unfold names; dsimp only; rw [if_pos rfl]; rfl
    | setName j v =>
      have hc : creates (.setName j v) = 0 := rfl
      have ht : (step (run evs) (.setName j v)).tasks = (run evs).tasks.modify j fun t => setName t v := rfl
      have hn : nums [.setName j v] (run evs) = [] := rfl
      rw [ht, List.getElem?_modify] at h
      rw [hn, List.append_nil]
      cases hg : (run evs).tasks[k]? with
      | none => rw [hg] at h; cases h
      | some u =>
        rw [hg] at h
        injection h with h
        dsimp only at h
        obtain ⟨⟨m, h1, h2⟩, h3⟩ := ih u hg
        by_cases hj : j = k
        · rw [if_pos hj] at h
          subst h
          refine ⟨⟨m, h1, ?_⟩, fun l hl => by cases hl⟩
          unfold names
          dsimp only
          rw [if_pos ⟨hj, by omega⟩]
          rfl
        · rw [if_neg hj] at h
          subst h
          refine ⟨⟨m, h1, ?_⟩, h3⟩
          unfold names
          dsimp only
          rw [if_neg (fun h' => hj h'.1)]
          exact h2
    | log j =>
      have hn : nums [.log j] (run evs) = [] := rfl
      rw [hn, List.append_nil]
      show (∃ n, _ ∧ t.name = ((none : Option PyStr).or (given k 0 none evs)).getD _) ∧ _
      rw [Option.none_or]
      unfold step at h
      dsimp only at h
      cases hg : (run evs).tasks[j]? with
      | none => rw [hg] at h; exact ih t h
      | some u =>
        rw [hg] at h
        dsimp only at h
        rw [List.getElem?_set] at h
        by_cases hj : j = k
        · subst hj
          rw [if_pos rfl, if_pos (List.getElem?_eq_some_iff.1 hg).1] at h
          injection h with h
          subst h
          obtain ⟨⟨m, h1, h2⟩, h3⟩ := ih u hg
          refine ⟨⟨m, h1, by rw [logger_name]; exact h2⟩, ?_⟩
          rw [logger_name]
          intro l hl
          unfold logger at hl
          cases hu : u.log with
          | none => rw [hu] at hl; injection hl with hl; exact hl.symm
          | some l' => rw [hu] at hl; exact h3 l hl
        · rw [if_neg hj] at h
          exact ih t h

theorem logger_out (evs : List Ev) (k : Nat) (t : T) (h : (run evs).tasks[k]? = some t) : (logger t).2 = loggerName t.name := by
  unfold logger
  cases hl : t.log with
  | none => rfl
  | some l => exact (inv evs k t h).2 l hl

theorem nums_plain (evs : List Ev) (h : ∀ e ∈ evs, ¬ derived e) :
    nums evs start = List.range (created evs) ∧ (run evs).base = created evs := by
  induction evs using List.reverseRecOn with
  | nil => exact ⟨rfl, rfl⟩
  | append_singleton evs e ih =>
    obtain ⟨h1, h2⟩ := ih fun x hx => h x (List.mem_append_left _ hx)
    rw [nums_snoc, created_snoc, run_snoc, h1]
    have hr : evs.foldl step start = run evs := rfl
    rw [hr]
    cases e with
    | create c n =>
      cases c with
      | some j => exact absurd trivial (h (.create (some j) n) (List.mem_append_right _ (List.mem_singleton.2 rfl)))
      | none =>
        have hc : creates (.create none n) = 1 := rfl
        rw [hc, List.range_succ, ← h2]
        exact ⟨rfl, rfl⟩
    | setName j v => exact ⟨List.append_nil _, h2⟩
    | log j =>
      refine ⟨List.append_nil _, ?_⟩
      unfold step
      dsimp only
      split
      · exact h2
      · exact h2

theorem ofClass_append (c : Option Nat) (b : List Ev) : ∀ a, ofClass c (a ++ b) = ofClass c a + ofClass c b
  | [] => (Nat.zero_add _).symm
  | .create d n :: es => by
    show _ + ofClass c (es ++ b) = (_ + ofClass c es) + _
    rw [ofClass_append c b es]
    omega
  | .setName k v :: es => ofClass_append c b es
  | .log k :: es => ofClass_append c b es

theorem before_append (k : Nat) (b : List Ev) : ∀ a, before k (a ++ b) = before k a + if ofClass (some k) a = 0 then before k b else 0
  | [] => (Nat.zero_add _).symm
  | .create none n :: es => by
    show 1 + before k (es ++ b) = (1 + before k es) + if (if none = some k then 1 else 0) + ofClass (some k) es = 0 then _ else _
    have hn : (if (none : Option Nat) = some k then 1 else 0) = 0 := rfl
    rw [before_append k b es, hn, Nat.zero_add]
    omega
  | .create (some j) n :: es => by
    show (if j = k then 0 else before k (es ++ b)) = (if j = k then 0 else before k es) + if (if some j = some k then 1 else 0) + ofClass (some k) es = 0 then _ else _
    by_cases h : j = k
    · rw [if_pos h, if_pos h, if_pos (congrArg some h), if_neg (by omega)]
    · rw [if_neg h, if_neg h, if_neg (fun h' => h (Option.some.inj h')), Nat.zero_add]
      exact before_append k b es
  | .setName j v :: es => before_append k b es
  | .log j :: es => before_append k b es

theorem before_all (k : Nat) : ∀ a, ofClass (some k) a = 0 → before k a = ofClass none a
  | [], _ => rfl
  | .create none n :: es, h => by
    have h' : (if (none : Option Nat) = some k then 1 else 0) + ofClass (some k) es = 0 := h
    show 1 + before k es = (if (none : Option Nat) = none then 1 else 0) + ofClass none es
    rw [if_pos rfl, before_all k es (by omega)]
  | .create (some j) n :: es, h => by
    have h' : (if some j = some k then 1 else 0) + ofClass (some k) es = 0 := h
    show (if j = k then 0 else before k es) = (if some j = none then 1 else 0) + ofClass none es
    by_cases hj : j = k
    · rw [if_pos (congrArg some hj)] at h'
      omega
    · rw [if_neg hj, if_neg (by intro h; cases h), Nat.zero_add]
      exact before_all k es (by omega)
  | .setName j v :: es, h => before_all k es h
  | .log j :: es, h => before_all k es h

theorem counts (evs : List Ev) :
    (run evs).base = ofClass none evs ∧
    ∀ k, (run evs).subs k = if ofClass (some k) evs = 0 then none else some (number evs (some k)) := by
  induction evs using List.reverseRecOn with
  | nil => exact ⟨rfl, fun _ => rfl⟩
  | append_singleton evs e ih =>
    obtain ⟨h1, h2⟩ := ih
    rw [run_snoc, ofClass_append]
    cases e with
    | setName j v =>
      refine ⟨h1, fun k => ?_⟩
      have := h2 k
      unfold number at this ⊢
      dsimp only at this ⊢
      rw [ofClass_append, before_append]
      show (run evs).subs k = if ofClass (some k) evs + 0 = 0 then none else some (before k evs + (if _ then 0 else 0) + (ofClass (some k) evs + 0))
      rw [ite_self]
      exact this
    | log j =>
      have hs : (step (run evs) (.log j)).base = (run evs).base ∧ (step (run evs) (.log j)).subs = (run evs).subs := by
        unfold step
        dsimp only
        split <;> exact ⟨rfl, rfl⟩
      rw [hs.1, hs.2]
      refine ⟨h1, fun k => ?_⟩
      have := h2 k
      unfold number at this ⊢
      dsimp only at this ⊢
      rw [ofClass_append, before_append]
      show (run evs).subs k = if ofClass (some k) evs + 0 = 0 then none else some (before k evs + (if _ then 0 else 0) + (ofClass (some k) evs + 0))
      rw [ite_self]
      exact this
    | create c n =>
      cases c with
      | none =>
        refine ⟨?_, fun k => ?_⟩
        · show (run evs).base + 1 = _
          rw [h1]
          rfl
        · show (run evs).subs k = _
          rw [h2 k]
          unfold number
          dsimp only
          rw [ofClass_append, before_append]
          have e1 : ofClass (some k) [.create none n] = 0 := rfl
          rw [e1, Nat.add_zero]
          by_cases h : ofClass (some k) evs = 0
          · rw [if_pos h, if_pos h]
          · rw [if_neg h, if_neg h, if_neg h, Nat.add_zero]
      | some j =>
        refine ⟨h1, fun k => ?_⟩
        show (if k = j then some (count (run evs) (some j) + 1) else (run evs).subs k) = _
        unfold number
        dsimp only
        rw [ofClass_append, before_append]
        by_cases hk : k = j
        · subst hk
          have e1 : ofClass (some k) [.create (some k) n] = 1 := by
            show (if some k = some k then 1 else 0) + 0 = 1
            rw [if_pos rfl]
          have e2 : before k [.create (some k) n] = 0 := by
            show (if k = k then 0 else 0) = 0
            rw [ite_self]
          rw [e1, e2, if_pos rfl, if_neg (by omega), ite_self]
          unfold count
          dsimp only
          rw [h2 k, h1]
          by_cases h : ofClass (some k) evs = 0
          · rw [if_pos h, h]
            show some (ofClass none evs + 1) = _
            have : before k evs = ofClass none evs := before_all k evs h
            rw [this]
          · rw [if_neg h]
            show some (before k evs + ofClass (some k) evs + 1) = _
            congr 1
        · rw [if_neg hk, h2 k]
          have e1 : ofClass (some k) [.create (some j) n] = 0 := by
            show (if some j = some k then 1 else 0) + 0 = 0
            rw [if_neg (fun h => hk (Option.some.inj h).symm)]
          have e2 : before k [.create (some j) n] = 0 := by
            show (if j = k then 0 else 0) = 0
            rw [ite_self]
          rw [e1, e2, ite_self]
          rfl

theorem count_number (evs : List Ev) (c : Option Nat) : count (run evs) c = number evs c := by
  cases c with
  | none => exact (counts evs).1
  | some k =>
    unfold count
    dsimp only
    rw [(counts evs).2 k, (counts evs).1]
    by_cases h : ofClass (some k) evs = 0
    · rw [if_pos h]
      unfold number
      dsimp only
      rw [h, before_all k evs h]
      rfl
    · rw [if_neg h]
      rfl

theorem nums_append (b : List Ev) : ∀ (a : List Ev) (s : St), nums (a ++ b) s = nums a s ++ nums b (a.foldl step s)
  | [], s => rfl
  | .create c n :: es, s => by
    show count s c :: nums (es ++ b) _ = _
    rw [nums_append b es]
    rfl
  | .setName k v :: es, s => by
    show nums (es ++ b) _ = _
    rw [nums_append b es]
    rfl
  | .log k :: es, s => by
    show nums (es ++ b) _ = _
    rw [nums_append b es]
    rfl

theorem created_append (a b : List Ev) : created (a ++ b) = created a + created b := by
  unfold created
  rw [List.map_append, List.sum_append]

end TaskNameL
open TaskNameL

/-- C182: the name of a task is the one given last, at its creation or with `set_name`. -/
theorem C182_name (evs : List Ev) (k : Nat) (v : PyStr) (hg : given k 0 none evs = some v) (hk : k < created evs) :
    getName (run evs) k = some v := by
  have hlt : k < (run evs).tasks.length := by rw [tasks_length]; exact hk
  obtain ⟨⟨n, -, h⟩, -⟩ := inv evs k _ (List.getElem?_eq_getElem hlt)
  unfold getName
  rw [List.getElem?_eq_getElem hlt, Option.map_some, h, hg]
  rfl

example : getName (run [.create none none, .create none (some "a".toList), .setName 0 "b".toList, .setName 0 "c".toList]) 0 =
    some "c".toList := by decide +kernel

/-- C182: a message of a task goes to the logger of the name that the task has then. -/
theorem C182_logger (evs : List Ev) (k : Nat) (name : PyStr) (h : getName (run evs) k = some name) :
    (run (evs ++ [.log k])).msgs = (run evs).msgs ++ [(k, "cocotb.task.".toList ++ name)] ∧
    ∀ j, getName (run (evs ++ [.log k])) j = getName (run evs) j := by
  unfold getName at h
  cases ht : (run evs).tasks[k]? with
  | none => rw [ht] at h; cases h
  | some t =>
    rw [ht] at h
    injection h with h
    rw [run_snoc]
    have hs : step (run evs) (.log k) = { run evs with tasks := (run evs).tasks.set k (logger t).1, msgs := (run evs).msgs ++ [(k, (logger t).2)] } := by
      unfold step
      dsimp only
      rw [ht]
    rw [hs]
    refine ⟨by rw [logger_out evs k t ht, h]; rfl, ?_⟩
    intro j
    unfold getName
    dsimp only
    rw [List.getElem?_set]
    by_cases hj : k = j
    · subst hj
      rw [if_pos rfl, if_pos (List.getElem?_eq_some_iff.1 ht).1, ht, Option.map_some, Option.map_some, logger_name]
    · rw [if_neg hj]

example : (run [.create none none, .log 0, .setName 0 "b".toList, .log 0]).msgs =
    [(0, "cocotb.task.Task 0".toList), (0, "cocotb.task.b".toList)] := by decide +kernel

/-- C182: tasks that were never given a name have different names. -/
def C182_distinct_full : Prop :=
  ∀ (evs : List Ev) (j k : Nat), j < created evs → k < created evs → given j 0 none evs = none → given k 0 none evs = none →
    getName (run evs) j = getName (run evs) k → j = k

/-- The code violates it: the first task of a class derived from `Task` counts for that class only, so the next task gets the same number. -/
theorem C182_distinct_counterexample : ¬ C182_distinct_full := by
  intro h
  exact absurd (h [.create (some 0) none, .create none none] 0 1 (by decide) (by decide) rfl rfl (by decide +kernel)) (by decide)

/-- C182 (partial): they have if all tasks are of the class `Task`. -/
theorem C182_distinct_partial (evs : List Ev) (hd : ∀ e ∈ evs, ¬ derived e) (j k : Nat) (hj : j < created evs) (hk : k < created evs)
    (gj : given j 0 none evs = none) (gk : given k 0 none evs = none) (h : getName (run evs) j = getName (run evs) k) : j = k := by
  have key : ∀ i, i < created evs → given i 0 none evs = none → getName (run evs) i = some (defaultName i) := by
    intro i hi gi
    have hlt : i < (run evs).tasks.length := by rw [tasks_length]; exact hi
    obtain ⟨⟨n, h1, h2⟩, -⟩ := inv evs i _ (List.getElem?_eq_getElem hlt)
    rw [(nums_plain evs hd).1, List.getElem?_range hi] at h1
    injection h1 with h1
    subst h1
    unfold getName
    rw [List.getElem?_eq_getElem hlt, Option.map_some, h2, gi]
    rfl
  rw [key j hj gj, key k hk gk] at h
  injection h with h
  exact decStr_inj (List.append_cancel_left h)

example : (List.range 3).map (getName (run [.create none none, .create none none, .setName 0 "x".toList, .create none none])) =
    [some "x".toList, some "Task 1".toList, some "Task 2".toList] := by decide +kernel

/-- **C182.** A task that was never given a name: its number is how many tasks of its class were created before it, and for a class derived from
`Task` also the tasks of the class `Task` that were created before the first one of that class. -/
theorem C182_default (evs rest : List Ev) (c : Option Nat) (h : given (created evs) 0 none (evs ++ .create c none :: rest) = none) :
    getName (run (evs ++ .create c none :: rest)) (created evs) = some ("Task ".toList ++ decStr (number evs c)) := by
  have hlt : created evs < (run (evs ++ .create c none :: rest)).tasks.length := by
    rw [tasks_length, created_append]
    have : created (.create c none :: rest) = 1 + created rest := rfl
    omega
  obtain ⟨⟨n, h1, h2⟩, -⟩ := inv _ _ _ (List.getElem?_eq_getElem hlt)
  rw [nums_append, List.getElem?_append_right (by rw [nums_length]; exact Nat.le_refl _), nums_length, Nat.sub_self] at h1
  have h3 : some (count (run evs) c) = some n := h1
  injection h3 with h3
  rw [count_number] at h3
  subst h3
  unfold getName
  rw [List.getElem?_eq_getElem hlt, Option.map_some, h2, h]
  rfl

example : (List.range 6).map (getName (run [.create none none, .create none none, .create (some 0) none, .create (some 0) none, .create none none,
      .create (some 1) none])) =
    ["Task 0", "Task 1", "Task 2", "Task 3", "Task 2", "Task 3"].map fun s => some s.toList := by decide +kernel

/-- C182 (partial): two tasks of the same class, derived or not, that were never given a name have different names. -/
theorem C182_class_partial (a b d : List Ev) (c : Option Nat)
    (h1 : given (created a) 0 none (a ++ .create c none :: (b ++ .create c none :: d)) = none)
    (h2 : given (created (a ++ .create c none :: b)) 0 none (a ++ .create c none :: (b ++ .create c none :: d)) = none) :
    getName (run (a ++ .create c none :: (b ++ .create c none :: d))) (created a) ≠
    getName (run (a ++ .create c none :: (b ++ .create c none :: d))) (created (a ++ .create c none :: b)) := by
  rw [C182_default a _ c h1]
  have e : a ++ .create c none :: (b ++ .create c none :: d) = (a ++ .create c none :: b) ++ .create c none :: d := by simp
  rw [e] at h2 ⊢
  rw [C182_default _ d c h2]
  intro h
  injection h with h
  have h := decStr_inj (List.append_cancel_left h)
  have hc : ofClass c (.create c none :: b) = 1 + ofClass c b := by
    show (if c = c then 1 else 0) + _ = _
    rw [if_pos rfl]
  cases c with
  | none =>
    have h' : ofClass none a = ofClass none (a ++ .create none none :: b) := h
    rw [ofClass_append, hc] at h'
    omega
  | some k =>
    have h' : before k a + ofClass (some k) a = before k (a ++ .create (some k) none :: b) + ofClass (some k) (a ++ .create (some k) none :: b) := h
    rw [ofClass_append, hc, before_append] at h'
    omega

example : given 0 0 none [.create (some 0) none, .create none none, .create (some 0) none] = none ∧
    given 2 0 none [.create (some 0) none, .create none none, .create (some 0) none] = none := by decide +kernel

end Verif
