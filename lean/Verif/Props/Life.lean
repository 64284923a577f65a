import Verif.Lemmas.Life

/-!
Start and end of a simulation: C112–C118.
-/
namespace Verif

open Verif.Life Verif.LifeSpec

/-- A library with two users: number 0 (PyGPI) and number 1. -/
def lifeCfg (queued : Bool) : Cfg := ⟨queued, [0, 1], [0, 1], [0, 1]⟩

/-- Start-up in which start function 1 fails: end functions, request to finish, clean-up. -/
def lifeFail : List Act :=
  [.sim .startup, .tau, .tau, .ret false, .tau, .ret true, .tau, .ret false, .tau, .ret false, .tau, .tau, .tau, .tau, .tau]

/-! ## C112: requests to finish -/

/-- **C112.** The simulator is told to finish at most once, whatever happens and however often. -/
theorem C112_stop_once (c : Cfg) (s : St) (h : Reachable c s) : s.log.count .simEnd ≤ 1 := by
  rw [(endInv h).count]; split <;> simp

/-- **C112.** It is told so only if there was a reason: the end of the simulation, an error of user code, or a request
of user code. -/
theorem C112_stop_has_cause (c : Cfg) (s : St) (h : Reachable c s) :
    Always (fun before e => e = .simEnd → before.any isCause = true) s.log := (endInv h).before

/-- **C112.** If there was a reason, it has been told so when control is back in the simulator. -/
theorem C112_stop_follows (c : Cfg) (s : St) (h : Reachable c s) (hrest : s.stack = []) (hc : s.log.any isCause = true) :
    Ev.simEnd ∈ s.log := by
  rcases (endInv h).todo hc with hf | hf
  · exact (finalizing_iff h).1 hf
  · rw [hrest] at hf; cases hf

/-- The hypotheses are met: the second start function fails. -/
example : ∃ s, run (lifeCfg true) {} lifeFail = some s ∧ s.stack = [] ∧ s.log.any isCause = true ∧ s.log.count .simEnd = 1 :=
  ⟨_, rfl, rfl, rfl, by decide⟩

/-- **C112.** The request of user code is passed on at once. -/
theorem C112_stop_at_once (c : Cfg) (s s' : St) (h : Reachable c s) (he : exec c s .stop = some s') : Ev.simEnd ∈ s'.log := by
  unfold exec at he
  dsimp only at he
  split at he
  · cases he
    cases hf : s.finalizing
    · simp [Life.finish, St.add, hf]
    · simp [Life.finish, St.add, hf, (finalizing_iff h).1 hf]
  · cases he

example : ∃ s s', run (lifeCfg true) {} [.sim .startup, .tau, .tau] = some s ∧ exec (lifeCfg true) s .stop = some s' ∧
    Ev.simEnd ∉ s.log := ⟨_, _, rfl, rfl, by decide⟩

/-! ## C113: clean-up -/

/-- **C113.** Handles are deleted and finalize functions are called only after the simulator was told to finish. -/
theorem C113_cleanup_after_stop (c : Cfg) (s : St) (h : Reachable c s) :
    Always (fun before e => (e = .clear ∨ ∃ i, e = .final i) → Ev.simEnd ∈ before) s.log := clean_before h

/-- **C113.** When control is back in the simulator after it was told to finish, the handles were deleted and all
finalize functions were called, the last registered first. -/
theorem C113_cleanup_complete (c : Cfg) (s : St) (h : Reachable c s) (hrest : s.stack = []) (he : Ev.simEnd ∈ s.log) :
    ∃ before after, s.log = before ++ (.clear :: c.finals.reverse.map .final) ++ after ∧ Ev.simEnd ∈ before := by
  rcases cleaned h ((finalizing_iff h).2 he) with ht | hc
  · rw [hrest] at ht; cases ht
  · exact hc

/-- Each finalize function is called once. -/
def C113_once_full : Prop := ∀ (c : Cfg) (s : St) (i : Nat), Reachable c s → c.finals.count i ≤ 1 → s.log.count (.final i) ≤ 1

/-- A callback after the request to finish cleans up again. -/
theorem C113_once_counterexample : ¬ C113_once_full := by
  intro h
  have := h (lifeCfg true) _ 0 ⟨lifeFail ++ [.sim (.user 0), .tau, .ret false, .tau, .tau], rfl⟩ (by decide)
  revert this
  decide

/-- **C113 (partial).** Clean-ups are complete each time: what is cleaned up are copies of the whole. Missing: there may be
more than one. -/
theorem C113_cleanup_partial (c : Cfg) (s : St) (h : Reachable c s) :
    ∃ n, s.log.filter (fun | .clear => true | .final _ => true | _ => false) =
      (List.replicate n (Ev.clear :: c.finals.reverse.map .final)).flatten := passes h

example : ∃ s, run (lifeCfg true) {} lifeFail = some s ∧ s.stack = [] ∧ Ev.simEnd ∈ s.log ∧
    s.log.count (.final 0) = 1 := ⟨_, rfl, rfl, by decide, by decide⟩

/-! ## C114: no user code during or after clean-up -/

/-- No user code is running when the finalize functions are called (Python is shut down), and none is called later. -/
def C114_nothing_after_full : Prop := ∀ (c : Cfg) (s : St), Reachable c s → NothingAfterCleanup s.log

/-- With or without a queue: a callback of the user that comes after the request to finish is called although Python is
shut down. -/
theorem C114_nothing_after_counterexample : ¬ C114_nothing_after_full := by
  intro h
  have := h (lifeCfg true) _ ⟨[.sim (.user 0), .tau, .stop, .ret false, .tau, .tau, .sim (.user 5), .tau], rfl⟩
  have h2 := (this [.fire (.user 0), .userCall 0, .stop, .simEnd, .ret false, .clear, .final 1, .final 0, .fire (.user 5)]
    (.userCall 5) [] rfl).2 rfl 0
  revert h2
  decide

/-- With a queue: user code that stops the simulator and then writes to a signal that has a callback is still running
while Python is shut down. -/
theorem C114_nothing_after_nested_counterexample :
    ∃ s, run (lifeCfg true) {} [.sim (.user 0), .tau, .stop, .sim (.user 1), .tau] = some s ∧ inProgress s.log = 1 ∧
      Ev.final 0 ∈ s.log := ⟨_, rfl, by decide, by decide⟩

/-- Without a queue: a callback within user code stops the simulator. -/
theorem C114_nothing_after_unqueued_counterexample :
    ∃ s, run (lifeCfg false) {} [.sim (.user 0), .tau, .sim (.user 1), .tau, .stop, .ret false, .tau] = some s ∧
      inProgress s.log = 1 ∧ Ev.final 0 ∈ s.log := ⟨_, rfl, by decide, by decide⟩

/-- **C114 (partial).** If the simulator does not call back after it was told to finish, and if callbacks within user
code are queued or there are none, then no user code is running during clean-up and none is called later. -/
theorem C114_nothing_after_partial (c : Cfg) (s : St) (h : Reachable c s) (hq : QuietAfterStop s.log)
    (hn : c.queued = true ∨ NeverNested s.log) : NothingAfterCleanup s.log := nothing_after h hn hq

/-- Callbacks within user code before the end, and errors, do no harm. -/
example : ∃ s, run (lifeCfg true) {} [.sim (.user 0), .tau, .sim (.user 1), .tau, .ret false, .tau, .tau, .ret true, .tau,
      .ret false, .tau, .ret false, .tau, .tau, .tau, .tau] = some s ∧ s.stack = [] ∧ Ev.final 0 ∈ s.log ∧
      s.log.countP isFire = 2 := ⟨_, rfl, rfl, by decide, by decide⟩

/-! ## C115: start and end functions -/

/-- **C115.** When control is back in the simulator, every start function was called once for each start of the
simulation, errors of others notwithstanding. -/
theorem C115_starts (c : Cfg) (s : St) (h : Reachable c s) (hrest : s.stack = []) (i : Nat) :
    (startCalls s.log).count i = s.log.count .started * c.starts.count i := by
  have := start_count i h
  simpa [hrest] using this

/-- **C115.** They were called in the order of registration. -/
theorem C115_start_order (c : Cfg) (s : St) (h : Reachable c s) (hrest : s.stack = [])
    (hn : c.queued = true ∨ NeverNested s.log) :
    startCalls s.log = (List.replicate (s.log.count .started) c.starts).flatten := by
  have := start_order h hn
  simpa [hrest] using this

/-- When the simulation has ended, every end function was called once. -/
def C115_ends_full : Prop := ∀ (c : Cfg) (s : St) (i : Nat), Reachable c s → s.stack = [] → Ev.simEnd ∈ s.log →
  (endCalls s.log).count i = c.ends.count i

/-- If user code asks for the end of the simulation, end functions are not called. -/
theorem C115_ends_counterexample : ¬ C115_ends_full := by
  intro h
  have := h (lifeCfg true) _ 0 ⟨[.sim (.user 0), .tau, .stop, .ret false, .tau, .tau], rfl⟩ rfl (by decide)
  revert this
  decide

/-- If two start functions fail, end functions are called twice. -/
theorem C115_ends_twice_counterexample :
    ∃ s, run (lifeCfg true) {} [.sim .startup, .tau, .tau, .ret true, .tau, .ret false, .tau, .ret false, .tau, .tau, .tau, .ret true,
      .tau, .ret false, .tau, .ret false, .tau, .tau, .tau, .tau, .tau] = some s ∧ s.stack = [] ∧ endCalls s.log = [0, 1, 0, 1] :=
  ⟨_, rfl, rfl, by decide⟩

/-- **C115 (partial).** Every end function was called once for each end by the simulator or by an error. -/
theorem C115_ends_partial (c : Cfg) (s : St) (h : Reachable c s) (hrest : s.stack = []) (i : Nat) :
    (endCalls s.log).count i = (s.log.count .ended + s.log.count (.ret true)) * c.ends.count i := by
  have := end_count i h
  simpa [hrest, ends] using this

/-- **C115.** They were called in the order of registration. -/
theorem C115_end_order (c : Cfg) (s : St) (h : Reachable c s) (hrest : s.stack = [])
    (hn : c.queued = true ∨ NeverNested s.log) :
    endCalls s.log = (List.replicate (s.log.count .ended + s.log.count (.ret true)) c.ends).flatten := by
  have := end_order h hn
  simpa [hrest, ends] using this

/-- **C115.** Unless user code asked for the end before, all end functions are called before the simulator is told to
finish. -/
theorem C115_ends_before_stop (c : Cfg) (s : St) (h : Reachable c s) :
    Always (fun before e => e = .simEnd → Ev.stop ∈ before ∨ ∀ i ∈ c.ends, Ev.endCall i ∈ before) s.log := (ends_first h).2

example : ∃ s, run (lifeCfg true) {} lifeFail = some s ∧ s.stack = [] ∧ startCalls s.log = [0, 1] ∧
    endCalls s.log = [0, 1] ∧ Ev.stop ∉ s.log := ⟨_, rfl, rfl, by decide, by decide, by decide⟩

/-! ## C116: GPI_USERS -/

/-- **C116.** The libraries of `GPI_USERS` are loaded in order, each followed by the call of its function. -/
theorem C116_users_loaded (L : Loader) (us : List User) (hne : us ≠ []) (hw : ∀ u ∈ us, u.Writable) (hl : ∀ u ∈ us, u.Loads L) :
    loadUsers L (some (joinWith ';' (us.map User.text))) = (us.flatMap User.events, true) := loadUsers_all hne hw hl

/-- **C116.** At the first that cannot be loaded, loading ends and the simulator is told to finish; those before it were
loaded, those after it are not. -/
theorem C116_users_failure (L : Loader) (us vs : List User) (u : User) (hw : ∀ x ∈ us, x.Writable) (hu : u.Writable)
    (hl : ∀ x ∈ us, x.Loads L) (hf : ¬ u.Loads L) :
    ∃ es, (es = [] ∨ es = [.opened u.lib]) ∧
      loadUsers L (some (joinWith ';' ((us ++ u :: vs).map User.text))) = (us.flatMap User.events ++ es ++ [.finish], false) := by
  have := loadUsers_first (vs := vs) hw hu hl hf
  simp only [loadUsers, this, userFailure]
  split
  · exact ⟨[.opened u.lib], .inr rfl, by simp⟩
  · exact ⟨[], .inl rfl, by simp⟩

/-- Two users; the second library has no function `g`. -/
example : ∃ (L : Loader) (a b : User), a.Writable ∧ b.Writable ∧ a.Loads L ∧ ¬ b.Loads L ∧
    a.text = "a:/x,f".toList ∧ b.text = "b,g".toList :=
  ⟨⟨fun _ => true, fun l _ => l == "a:/x".toList⟩, ⟨"a:/x".toList, some ['f']⟩, ⟨['b'], some ['g']⟩,
    ⟨by decide, by decide, by decide⟩, ⟨by decide, by decide, by decide⟩, ⟨rfl, by simp⟩,
    by simp [User.Loads], rfl, rfl⟩

/-- If not everything was loaded, the simulator is told to finish. -/
def C116_failure_stops_full : Prop := ∀ (L : Loader) (users : Option Text), (loadUsers L users).2 = false →
  LoadEv.finish ∈ (loadUsers L users).1

/-- Without `GPI_USERS` the simulation goes on without cocotb. -/
theorem C116_failure_stops_counterexample : ¬ C116_failure_stops_full := by
  intro h
  have := h ⟨fun _ => true, fun _ _ => true⟩ none rfl
  cases this

theorem loadUser_finish (L : Loader) (u : Text) : (loadUser L u).2 = false → LoadEv.finish ∈ (loadUser L u).1 := by
  unfold loadUser
  split
  · split <;> simp
  · split
    · split <;> simp
    · simp

/-- **C116 (partial).** This is so for any text `GPI_USERS` is set to. -/
theorem C116_failure_stops_partial (L : Loader) (t : Text) (h : (loadUsers L (some t)).2 = false) :
    LoadEv.finish ∈ (loadUsers L (some t)).1 := by
  simp only [loadUsers] at h ⊢
  generalize hn : t.length = n
  induction n using Nat.strongRecOn generalizing t with
  | ind n ih =>
    rw [loadUsersGo] at h ⊢
    split at h
    · exact loadUser_finish L t h
    · next u r hf =>
      have hlen := findFirst_length hf
      split at h
      · next evs he =>
        have := loadUser_finish L u (by rw [he])
        rw [he] at this
        exact this
      · next evs he =>
        have := ih r.length (by omega) r h rfl
        simp [this]

example : (loadUsers ⟨fun l => l == ['a'], fun _ _ => true⟩ (some "a;b;c".toList)).2 = false := by
  simp [loadUsers, loadUsersGo, findFirst, loadUser, findLast]

/-- Entries written down with `;` at the end are those without. -/
def C116_trailing_full : Prop := ∀ (L : Loader) (us : List User), us ≠ [] → (∀ u ∈ us, u.Writable) → (∀ u ∈ us, u.Loads L) →
  (loadUsers L (some (joinWith ';' (us.map User.text) ++ [';']))).2 = true

/-- An empty entry is the library with the empty name. -/
theorem C116_trailing_counterexample : ¬ C116_trailing_full := by
  intro h
  have := h ⟨fun l => l == ['a'], fun _ _ => true⟩ [⟨['a'], none⟩] (by simp)
    (by simp [User.Writable]) (by simp [User.Loads])
  simp [loadUsers, loadUsersGo, joinWith, User.text, findFirst, loadUser, findLast] at this

/-! ## C117: GPI_EXTRA -/

/-- **C117.** The libraries of `GPI_EXTRA` are loaded in order, each followed by the call of its entry function, and all
of them before those of `GPI_USERS`; a comma at the end makes no difference. -/
theorem C117_extra_loaded (L : Loader) (xs : List Extra) (users : Option Text) (tail : Text)
    (ht : tail = [] ∨ (tail = [','] ∧ xs ≠ [])) (hw : ∀ x ∈ xs, x.Writable) (hl : ∀ x ∈ xs, x.Loads L) :
    entryPoint L (some (joinWith ',' (xs.map Extra.text) ++ tail)) users =
      (xs.flatMap Extra.events ++ (loadUsers L users).1, (loadUsers L users).2) := by
  simp only [entryPoint, splitExtra_join hw tail ht, loadLibs_all hw hl]

/-- **C117.** At the first that cannot be loaded the program exits; no user library is loaded. -/
theorem C117_extra_failure (L : Loader) (xs ys : List Extra) (x : Extra) (users : Option Text)
    (hw : ∀ y ∈ xs ++ x :: ys, y.Writable) (hl : ∀ y ∈ xs, y.Loads L) (hf : ¬ x.Loads L) :
    ∃ es, (es = [] ∨ es = [.opened x.lib]) ∧
      entryPoint L (some (joinWith ',' ((xs ++ x :: ys).map Extra.text))) users =
        (xs.flatMap Extra.events ++ es ++ [.exit], false) := by
  have hs := splitExtra_join hw [] (.inl rfl)
  rw [List.append_nil] at hs
  obtain ⟨es, h1, h2⟩ := loadLibs_first (ts := ys.map Extra.text) (hw x (by simp)) hf (xs := xs)
    (fun y hy => hw y (by simp [hy])) hl
  refine ⟨es, h2, ?_⟩
  have : (xs ++ x :: ys).map Extra.text = xs.map Extra.text ++ x.text :: ys.map Extra.text := by simp
  simp only [entryPoint, hs]
  rw [this, h1]

/-- **C117.** Without `GPI_EXTRA` only user libraries are loaded. -/
theorem C117_no_extra (L : Loader) (users : Option Text) : entryPoint L none users = loadUsers L users := rfl

example : ∃ (L : Loader) (a b : Extra), a.Writable ∧ b.Writable ∧ a.Loads L ∧ ¬ b.Loads L ∧
    a.text = "C:/a:f".toList ∧ b.text = "b:g".toList :=
  ⟨⟨fun l => l == "C:/a".toList, fun _ _ => true⟩, ⟨"C:/a".toList, ['f']⟩, ⟨['b'], ['g']⟩,
    ⟨by decide, by decide, by decide⟩, ⟨by decide, by decide, by decide⟩, ⟨rfl, rfl⟩,
    by simp [Extra.Loads], rfl, rfl⟩

/-- **C117.** Interfaces are kept in the order of their first registration, one of each name; the first registered stays
the first, the one that stands for the simulator. -/
theorem C117_interfaces (names : List Text) :
    names.foldl (fun l n => (registerImpl l n).1) [] = firsts [] names := registerImpl_fold names []

theorem firsts_nodup : ∀ (ns acc : List Text), acc.Nodup → (firsts acc ns).Nodup
  | [], _, h => h
  | n :: ns, acc, h => by
    unfold firsts
    split
    · exact firsts_nodup ns acc h
    · next hn =>
      apply firsts_nodup ns
      rw [List.nodup_append]
      refine ⟨h, by simp, ?_⟩
      intro a ha b hb
      simp only [List.mem_cons, List.not_mem_nil, or_false] at hb
      rintro rfl
      exact hn (hb ▸ ha)

theorem firsts_prefix : ∀ (ns acc : List Text), ∃ l, firsts acc ns = acc ++ l
  | [], acc => ⟨[], by simp [firsts]⟩
  | n :: ns, acc => by
    unfold firsts
    split
    · exact firsts_prefix ns acc
    · obtain ⟨l, hl⟩ := firsts_prefix ns (acc ++ [n])
      exact ⟨n :: l, by simp [hl]⟩

/-- **C117.** No name is registered twice, and the first interface stays in front. -/
theorem C117_interfaces_distinct (n : Text) (names : List Text) :
    let r := (n :: names).foldl (fun l n => (registerImpl l n).1) []
    r.Nodup ∧ r.head? = some n ∧ ∀ m, m ∈ r ↔ m ∈ n :: names := by
  intro r
  have hr : r = firsts [n] names := by
    show (n :: names).foldl _ [] = _
    rw [registerImpl_fold]; simp [firsts]
  refine ⟨?_, ?_, ?_⟩
  · rw [hr]; exact firsts_nodup _ _ (by simp)
  · rw [hr]; obtain ⟨l, hl⟩ := firsts_prefix names [n]; simp [hl]
  · have hmem : ∀ (ns acc : List Text) (m : Text), m ∈ firsts acc ns ↔ m ∈ acc ∨ m ∈ ns := by
      intro ns
      induction ns with
      | nil => intro acc m; simp [firsts]
      | cons x ns ih =>
        intro acc m
        unfold firsts
        split
        · rw [ih, List.mem_cons]; grind
        · rw [ih, List.mem_append, List.mem_cons]; grind
    intro m
    rw [hr, hmem]; simp

example : ([['V'], ['H'], ['V'], ['F']].foldl (fun l n => (registerImpl l n).1) []) = [['V'], ['H'], ['F']] := by decide

/-! ## C118: order of callbacks -/

/-- **C118.** Callbacks are handled in the order in which they arrive, each at most once. -/
theorem C118_in_order (c : Cfg) (s : St) (h : Reachable c s) : handled s.log <+: arrivals s.log := by
  rw [(orderInv h).order, List.append_assoc]; exact List.prefix_append _ _

/-- **C118.** None is lost: when control is back in the simulator all of them have been handled. -/
theorem C118_none_lost (c : Cfg) (s : St) (h : Reachable c s) (hrest : s.stack = []) : handled s.log = arrivals s.log := by
  have o := orderInv h
  have hr : s.reacting = false := by
    cases hre : s.reacting with
    | false => rfl
    | true => have := o.loop hre; rw [hrest] at this; cases this
  rw [o.order, hrest, o.idle hr]; simp [pend]

/-- **C118.** With a queue, no function of the user is called while another is running. -/
theorem C118_one_at_a_time (c : Cfg) (s : St) (h : Reachable c s) (hq : c.queued = true) :
    Always (fun before e => isCall e = true → inProgress before = 0) s.log := calls_alone h (.inl hq)

/-- Without a queue, not so. -/
def C118_one_at_a_time_full : Prop :=
  ∀ (c : Cfg) (s : St), Reachable c s → Always (fun before e => isCall e = true → inProgress before = 0) s.log

/-- A value written without delay within a callback starts another. -/
theorem C118_one_at_a_time_counterexample : ¬ C118_one_at_a_time_full := by
  intro h
  have := h (lifeCfg false) _ ⟨[.sim (.user 1), .tau, .sim (.user 2), .tau], rfl⟩
    [.fire (.user 1), .userCall 1, .fire (.user 2)] (.userCall 2) [] rfl rfl
  revert this; decide

/-- **C118.** Unless the simulator calls back only when no user code is running. -/
theorem C118_one_at_a_time_partial (c : Cfg) (s : St) (h : Reachable c s) (hn : NeverNested s.log) :
    Always (fun before e => isCall e = true → inProgress before = 0) s.log := calls_alone h (.inr hn)

/-- Two callbacks within a third: handled after it, in order. -/
example : ∃ s, run (lifeCfg true) {} [.sim (.user 1), .tau, .sim (.user 2), .tau, .sim (.user 3), .tau, .ret false, .tau, .tau,
    .ret false, .tau, .tau, .ret false, .tau, .tau] = some s ∧ s.stack = [] ∧
    handled s.log = [.user 1, .user 2, .user 3] := ⟨_, rfl, rfl, by decide⟩

end Verif
