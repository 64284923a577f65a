import Verif.Model.MainFix
/-!
# C187: asynchronous fixtures and tests of the main process
-/
namespace Verif
open MainFix

namespace MainFixL

/-- The same events, and the same values of all fixtures that are not skipped. -/
def Same (F : Nat → Fixture) (a b : St) : Prop :=
  a.evs = b.evs ∧ ∀ n, skips (F n) = false → a.cache n = b.cache n

/-- Skipped fixtures have no value, or `None`. -/
def Quiet (F : Nat → Fixture) (a : St) : Prop := ∀ n, skips (F n) = true → a.cache n = none ∨ a.cache n = some (.ok .none)

theorem getAll_same {F : Nat → Fixture} {a b : St} (h : Same F a b) : ∀ ns : List Nat, (∀ n ∈ ns, skips (F n) = false) → getAll a ns = getAll b ns
  | [], _ => rfl
  | n :: ns, hn => by
    have h1 : getValue a n = getValue b n := by
      unfold getValue
      rw [h.2 n (hn n List.mem_cons_self)]
    unfold getAll
    rw [h1, getAll_same h ns (fun m hm => hn m (List.mem_cons_of_mem _ hm))]

theorem set_same {F : Nat → Fixture} {a b : St} (h : Same F a b) (n : Nat) (r : Res) : Same F (a.set n r) (b.set n r) := by
  refine ⟨h.1, fun m hm => ?_⟩
  show (if m = n then some r else a.cache m) = if m = n then some r else b.cache m
  rw [h.2 m hm]

theorem set_quiet {F : Nat → Fixture} {a : St} (h : Quiet F a) (n : Nat) (r : Res) (hn : skips (F n) = false) : Quiet F (a.set n r) := by
  intro m hm
  have hmn : m ≠ n := by
    intro e
    rw [e, hn] at hm
    cases hm
  have : (a.set n r).cache m = a.cache m := if_neg hmn
  rw [this]
  exact h m hm

theorem evs_same {F : Nat → Fixture} {a b : St} (h : Same F a b) (e : Ev) :
    Same F { a with evs := a.evs ++ [e] } { b with evs := b.evs ++ [e] } :=
  ⟨by show a.evs ++ [e] = b.evs ++ [e]; rw [h.1], h.2⟩

/-- A fixture that is not skipped. -/
theorem execute_same {F : Nat → Fixture} {a b : St} {n : Nat} (h : Same F a b) (hq : Quiet F a) (hn : skips (F n) = false)
    (ha : ∀ m ∈ (F n).args, skips (F m) = false) :
    Same F (execute F n a).1 (execute F n b).1 ∧ (execute F n a).2 = (execute F n b).2 ∧ Quiet F (execute F n a).1 := by
  unfold execute
  rw [← h.2 n hn]
  cases hc : a.cache n with
  | some r => cases r <;> exact ⟨h, rfl, hq⟩
  | none =>
    dsimp only
    rw [hn, ← getAll_same h _ ha, if_neg Bool.false_ne_true, if_neg Bool.false_ne_true]
    cases getAll a (F n).args with
    | error e => exact ⟨set_same h _ _, rfl, set_quiet hq _ _ hn⟩
    | ok vs =>
      dsimp only
      by_cases hs : (F n).async = true
      · rw [if_pos hs, if_pos hs]
        exact ⟨set_same h _ _, rfl, set_quiet hq _ _ hn⟩
      · rw [if_neg hs, if_neg hs]
        cases (F n).code vs with
        | ok v => exact ⟨set_same (evs_same h _) _ _, rfl, set_quiet (a := { a with evs := _ }) hq _ _ hn⟩
        | error e => exact ⟨set_same (evs_same h _) _ _, rfl, set_quiet (a := { a with evs := _ }) hq _ _ hn⟩

/-- A fixture that is skipped. -/
theorem execute_skip {F : Nat → Fixture} {a b : St} {n : Nat} (h : Same F a b) (hq : Quiet F a) (hn : skips (F n) = true) :
    Same F (execute F n a).1 b ∧ (execute F n a).2 = true ∧ Quiet F (execute F n a).1 := by
  unfold execute
  rcases hq n hn with hc | hc
  · rw [hc]
    dsimp only
    rw [if_pos hn]
    refine ⟨⟨h.1, fun m hm => ?_⟩, rfl, fun m hm => ?_⟩
    · have hmn : m ≠ n := by
        intro e
        rw [e, hn] at hm
        cases hm
      show (if m = n then some _ else a.cache m) = _
      rw [if_neg hmn]
      exact h.2 m hm
    · show (if m = n then some _ else a.cache m) = none ∨ (if m = n then some _ else a.cache m) = _
      by_cases e : m = n
      · rw [if_pos e]; exact Or.inr rfl
      · rw [if_neg e]; exact hq m hm
  · rw [hc]
    exact ⟨h, rfl, hq⟩

theorem executeAll_same {F : Nat → Fixture} (need : Nat → Bool) : ∀ (ns : List Nat) (a b : St), Same F a b → Quiet F a →
    (∀ n ∈ ns, need n = !skips (F n)) → (∀ n ∈ ns, skips (F n) = false → ∀ m ∈ (F n).args, skips (F m) = false) →
    Same F (executeAll F ns a).1 (executeAll F (ns.filter need) b).1 ∧ (executeAll F ns a).2 = (executeAll F (ns.filter need) b).2 ∧
      Quiet F (executeAll F ns a).1
  | [], a, b, h, hq, _, _ => ⟨h, rfl, hq⟩
  | n :: ns, a, b, h, hq, hne, ha => by
    have ih := fun a b h hq => executeAll_same need ns a b h hq (fun m hm => hne m (List.mem_cons_of_mem _ hm)) (fun m hm => ha m (List.mem_cons_of_mem _ hm))
    have hn := hne n List.mem_cons_self
    cases hs : skips (F n) with
    | true =>
      rw [hs] at hn
      have hx := execute_skip h hq hs
      rw [List.filter_cons_of_neg (by rw [hn]; exact Bool.false_ne_true)]
      have he : executeAll F (n :: ns) a = executeAll F ns (execute F n a).1 := by
        show (match execute F n a with | (s, true) => executeAll F ns s | (s, false) => (s, false)) = _
        rcases hx' : execute F n a with ⟨s, r⟩
        rw [hx'] at hx
        cases hx.2.1
        rfl
      rw [he]
      exact ih _ _ hx.1 hx.2.2
    | false =>
      rw [hs] at hn
      have hx := execute_same h hq hs (ha n List.mem_cons_self hs)
      rw [List.filter_cons_of_pos hn]
      unfold executeAll
      rcases hx1 : execute F n a with ⟨s, r⟩
      rcases hx2 : execute F n b with ⟨s', r'⟩
      rw [hx1, hx2] at hx
      dsimp only at hx
      cases hx.2.1
      cases r with
      | true => exact ih _ _ hx.1 hx.2.2
      | false => exact ⟨hx.1, rfl, hx.2.2⟩

theorem end_same {F : Nat → Fixture} {a b : St} (h : Same F a b) : Same F (endTest F a) (endTest F b) := by
  refine ⟨h.1, fun n hn => ?_⟩
  show (if (F n).wide then a.cache n else none) = if (F n).wide then b.cache n else none
  rw [h.2 n hn]

theorem end_quiet {F : Nat → Fixture} {a : St} (h : Quiet F a) : Quiet F (endTest F a) := by
  intro n hn
  show (if (F n).wide then a.cache n else none) = none ∨ (if (F n).wide then a.cache n else none) = _
  cases (F n).wide
  · exact Or.inl rfl
  · exact h n hn

theorem runTest_same {F : Nat → Fixture} (need : Nat → Bool) (k : Nat) (t : Test) (a b : St) (h : Same F a b) (hq : Quiet F a)
    (hne : ∀ n ∈ t.fixtures, need n = !skips (F n))
    (ha : ∀ n ∈ t.fixtures, skips (F n) = false → ∀ m ∈ (F n).args, skips (F m) = false) (ht : ∀ n ∈ t.args, skips (F n) = false) :
    Same F (runTest F k t a) (runTest F k { t with fixtures := t.fixtures.filter need } b) ∧ Quiet F (runTest F k t a) := by
  have hx := executeAll_same need t.fixtures a b h hq hne ha
  unfold runTest
  dsimp only
  rcases hx1 : executeAll F t.fixtures a with ⟨s, r⟩
  rcases hx2 : executeAll F (t.fixtures.filter need) b with ⟨s', r'⟩
  rw [hx1, hx2] at hx
  dsimp only at hx
  cases hx.2.1
  cases r with
  | false => exact ⟨end_same (evs_same hx.1 _), end_quiet (a := { s with evs := _ }) hx.2.2⟩
  | true =>
    dsimp only
    rw [← getAll_same hx.1 t.args ht]
    cases getAll s t.args with
    | error e => exact ⟨end_same (evs_same hx.1 _), end_quiet (a := { s with evs := _ }) hx.2.2⟩
    | ok vs => exact ⟨end_same (evs_same hx.1 _), end_quiet (a := { s with evs := _ }) hx.2.2⟩

theorem runFrom_same {F : Nat → Fixture} (need : Test → Nat → Bool) : ∀ (ts : List Test) (k : Nat) (a b : St), Same F a b → Quiet F a →
    (∀ t ∈ ts, ∀ n ∈ t.fixtures, need t n = !skips (F n)) →
    (∀ t ∈ ts, ∀ n ∈ t.fixtures, skips (F n) = false → ∀ m ∈ (F n).args, skips (F m) = false) →
    (∀ t ∈ ts, ∀ n ∈ t.args, skips (F n) = false) →
    Same F (runFrom F k ts a) (runFrom F k (ts.map fun t => { t with fixtures := t.fixtures.filter (need t) }) b)
  | [], _, _, _, h, _, _, _, _ => h
  | t :: ts, k, a, b, h, hq, hne, ha, ht => by
    have hx := runTest_same (need t) k t a b h hq (hne t List.mem_cons_self) (ha t List.mem_cons_self) (ht t List.mem_cons_self)
    exact runFrom_same need ts (k + 1) _ _ hx.1 hx.2 (fun u hu => hne u (List.mem_cons_of_mem _ hu)) (fun u hu => ha u (List.mem_cons_of_mem _ hu))
      (fun u hu => ht u (List.mem_cons_of_mem _ hu))

/-- Only code of fixtures that are no coroutines has run. -/
def Plain (F : Nat → Fixture) (s : St) : Prop := ∀ n vs, Ev.fixture n vs ∈ s.evs → (F n).async = false

theorem execute_plain {F : Nat → Fixture} {n : Nat} {s : St} (h : Plain F s) : Plain F (execute F n s).1 := by
  have hp : (F n).async ≠ true → ∀ vs, Plain F { s with evs := s.evs ++ [.fixture n vs] } := by
    intro ha vs m us hm
    rcases List.mem_append.1 hm with hm | hm
    · exact h m us hm
    · cases List.mem_singleton.1 hm
      exact Bool.eq_false_iff.2 ha
  unfold execute
  split
  · exact h
  · exact h
  · split
    · exact h
    · split
      · exact h
      · split
        · exact h
        · rename_i vs _ ha
          split
          · exact hp ha vs
          · exact hp ha vs

theorem executeAll_plain {F : Nat → Fixture} : ∀ (ns : List Nat) (s : St), Plain F s → Plain F (executeAll F ns s).1
  | [], _, h => h
  | n :: ns, s, h => by
    have hx := execute_plain (n := n) h
    unfold executeAll
    rcases hx1 : execute F n s with ⟨s', r⟩
    rw [hx1] at hx
    cases r with
    | true => exact executeAll_plain ns s' hx
    | false => exact hx

theorem snoc_plain {F : Nat → Fixture} {s : St} {e : Ev} (h : Plain F s) (he : ∀ n vs, e ≠ .fixture n vs) : Plain F { s with evs := s.evs ++ [e] } := by
  intro n vs hm
  rcases List.mem_append.1 hm with hm | hm
  · exact h n vs hm
  · exact absurd (List.mem_singleton.1 hm).symm (he n vs)

theorem runTest_plain {F : Nat → Fixture} {k : Nat} {t : Test} {s : St} (h : Plain F s) : Plain F (runTest F k t s) := by
  have hx := executeAll_plain t.fixtures s h
  unfold runTest
  rcases hx1 : executeAll F t.fixtures s with ⟨s', r⟩
  rw [hx1] at hx
  cases r with
  | false => exact snoc_plain hx (fun _ _ => Ev.noConfusion)
  | true =>
    dsimp only
    cases getAll s' t.args with
    | error e => exact snoc_plain hx (fun _ _ => Ev.noConfusion)
    | ok vs => exact snoc_plain hx (fun _ _ => Ev.noConfusion)

theorem runFrom_plain {F : Nat → Fixture} : ∀ (ts : List Test) (k : Nat) (s : St), Plain F s → Plain F (runFrom F k ts s)
  | [], _, _, h => h
  | t :: ts, k, s, h => runFrom_plain ts (k + 1) _ (runTest_plain h)

/-- The values of asynchronous fixtures. -/
def Kinds (F : Nat → Fixture) (s : St) : Prop :=
  ∀ n v, s.cache n = some (.ok v) → (F n).async = true → v = if (F n).autouse then .none else .coroutine n

theorem set_kinds {F : Nat → Fixture} {s : St} {n : Nat} {r : Res} (h : Kinds F s)
    (hr : ∀ v, r = .ok v → (F n).async = true → v = if (F n).autouse then .none else .coroutine n) : Kinds F (s.set n r) := by
  intro m v hm ha
  have hm' : (if m = n then some r else s.cache m) = some (.ok v) := hm
  by_cases e : m = n
  · rw [if_pos e] at hm'
    rw [e] at ha ⊢
    exact hr v (Option.some.inj hm') ha
  · rw [if_neg e] at hm'
    exact h m v hm' ha

theorem execute_kinds {F : Nat → Fixture} {n : Nat} {s : St} (h : Kinds F s) : Kinds F (execute F n s).1 := by
  unfold execute
  split
  · exact h
  · exact h
  · split
    · rename_i hs
      refine set_kinds h fun v hv _ => ?_
      injection hv with hv
      have hs' : ((F n).autouse && (F n).async) = true := hs
      rw [Bool.and_eq_true] at hs'
      rw [if_pos hs'.1, hv]
    · rename_i hs
      split
      · exact set_kinds h fun v hv _ => by cases hv
      · split
        · rename_i ha
          refine set_kinds h fun v hv _ => ?_
          injection hv with hv
          have hs' : ¬ ((F n).autouse && (F n).async) = true := hs
          rw [Bool.and_eq_true] at hs'
          rw [if_neg (fun hc => hs' ⟨hc, ha⟩), hv]
        · rename_i ha
          split
          · exact set_kinds (s := { s with evs := _ }) h fun v _ hc => absurd hc ha
          · exact set_kinds (s := { s with evs := _ }) h fun v _ hc => absurd hc ha

theorem executeAll_kinds {F : Nat → Fixture} : ∀ (ns : List Nat) (s : St), Kinds F s → Kinds F (executeAll F ns s).1
  | [], _, h => h
  | n :: ns, s, h => by
    have hx := execute_kinds (n := n) h
    unfold executeAll
    rcases hx1 : execute F n s with ⟨s', r⟩
    rw [hx1] at hx
    cases r with
    | true => exact executeAll_kinds ns s' hx
    | false => exact hx

/-- No test is called while fixtures are set up. -/
theorem execute_tests {F : Nat → Fixture} {n : Nat} {s : St} {k : Nat} {vs : List Val} (h : Ev.test k vs ∈ (execute F n s).1.evs) :
    Ev.test k vs ∈ s.evs := by
  have hp : ∀ us : List Val, Ev.test k vs ∈ s.evs ++ [.fixture n us] → Ev.test k vs ∈ s.evs := by
    intro us hm
    rcases List.mem_append.1 hm with hm | hm
    · exact hm
    · cases List.mem_singleton.1 hm
  unfold execute at h
  split at h
  · exact h
  · exact h
  · split at h
    · exact h
    · split at h
      · exact h
      · split at h
        · exact h
        · split at h
          · exact hp _ h
          · exact hp _ h

theorem executeAll_tests {F : Nat → Fixture} {k : Nat} {vs : List Val} : ∀ (ns : List Nat) (s : St),
    Ev.test k vs ∈ (executeAll F ns s).1.evs → Ev.test k vs ∈ s.evs
  | [], _, h => h
  | n :: ns, s, h => by
    unfold executeAll at h
    rcases hx1 : execute F n s with ⟨s', r⟩
    rw [hx1] at h
    have hs : Ev.test k vs ∈ s'.evs → Ev.test k vs ∈ s.evs := by
      intro hm
      refine execute_tests (n := n) (F := F) ?_
      rw [hx1]
      exact hm
    cases r with
    | true => exact hs (executeAll_tests ns s' h)
    | false => exact hs h

/-- What the arguments of a test are. -/
def ArgsOk (F : Nat → Fixture) (args : List Nat) (vs : List Val) : Prop :=
  vs.length = args.length ∧
    ∀ (i n : Nat), args[i]? = some n → (F n).async = true → vs[i]? = some (if (F n).autouse then Val.none else Val.coroutine n)

theorem getAll_ok {F : Nat → Fixture} {s : St} (h : Kinds F s) : ∀ (ns : List Nat) (vs : List Val), getAll s ns = .ok vs → ArgsOk F ns vs
  | [], vs, hg => by
    injection hg with hg
    subst hg
    exact ⟨rfl, fun i n hi => nomatch hi⟩
  | m :: ns, vs, hg => by
    unfold getAll at hg
    cases hv : getValue s m with
    | error e => rw [hv] at hg; cases hg
    | ok v =>
      rw [hv] at hg
      dsimp only at hg
      cases hr : getAll s ns with
      | error e => rw [hr] at hg; cases hg
      | ok us =>
        rw [hr] at hg
        injection hg with hg
        subst hg
        have ih := getAll_ok h ns us hr
        refine ⟨by rw [List.length_cons, List.length_cons, ih.1], ?_⟩
        intro i n hi ha
        cases i with
        | zero =>
          injection hi with hi
          subst hi
          unfold getValue at hv
          cases hc : s.cache m with
          | none => rw [hc] at hv; cases hv
          | some r =>
            rw [hc] at hv
            dsimp only at hv
            rw [hv] at hc
            exact congrArg some (h m v hc ha)
        | succ i => exact ih.2 i n hi ha

theorem end_kinds {F : Nat → Fixture} {s : St} (h : Kinds F s) : Kinds F (endTest F s) := by
  intro n v hn ha
  have hn' : (if (F n).wide then s.cache n else none) = some (.ok v) := hn
  split at hn'
  · exact h n v hn' ha
  · cases hn'

theorem runTest_kinds {F : Nat → Fixture} {k : Nat} {t : Test} {s : St} (h : Kinds F s) :
    Kinds F (runTest F k t s) ∧ ∀ j vs, Ev.test j vs ∈ (runTest F k t s).evs → Ev.test j vs ∈ s.evs ∨ (j = k ∧ ArgsOk F t.args vs) := by
  have hx := executeAll_kinds t.fixtures s h
  have ht := fun (j : Nat) (vs : List Val) => executeAll_tests (F := F) (k := j) (vs := vs) t.fixtures s
  unfold runTest
  rcases hx1 : executeAll F t.fixtures s with ⟨s', r⟩
  rw [hx1] at hx ht
  have herr : Kinds F (endTest F { s' with evs := s'.evs ++ [.error k] }) ∧
      ∀ j vs, Ev.test j vs ∈ (endTest F { s' with evs := s'.evs ++ [.error k] }).evs → Ev.test j vs ∈ s.evs ∨ (j = k ∧ ArgsOk F t.args vs) := by
    refine ⟨end_kinds (s := { s' with evs := _ }) hx, fun j vs hm => ?_⟩
    rcases List.mem_append.1 hm with hm | hm
    · exact Or.inl (ht j vs hm)
    · cases List.mem_singleton.1 hm
  cases r with
  | false => exact herr
  | true =>
    dsimp only
    cases hg : getAll s' t.args with
    | error e => exact herr
    | ok us =>
      refine ⟨end_kinds (s := { s' with evs := _ }) hx, fun j vs hm => ?_⟩
      rcases List.mem_append.1 hm with hm | hm
      · exact Or.inl (ht j vs hm)
      · cases List.mem_singleton.1 hm
        exact Or.inr ⟨rfl, getAll_ok hx _ _ hg⟩

theorem runFrom_kinds {F : Nat → Fixture} : ∀ (ts : List Test) (k : Nat) (s : St), Kinds F s → ∀ j vs, Ev.test j vs ∈ (runFrom F k ts s).evs →
    Ev.test j vs ∈ s.evs ∨ ∃ i t, ts[i]? = some t ∧ j = k + i ∧ ArgsOk F t.args vs
  | [], _, _, _, _, _, hm => Or.inl hm
  | t :: ts, k, s, h, j, vs, hm => by
    have hx := runTest_kinds (k := k) (t := t) h
    rcases runFrom_kinds ts (k + 1) _ hx.1 j vs hm with h1 | ⟨i, u, hi, hj, hu⟩
    · rcases hx.2 j vs h1 with h2 | ⟨h2, h3⟩
      · exact Or.inl h2
      · exact Or.inr ⟨0, t, rfl, h2, h3⟩
    · exact Or.inr ⟨i + 1, u, hi, by rw [hj, Nat.add_assoc, Nat.add_comm 1], hu⟩

end MainFixL
open MainFixL

/-- **C187.** The main process runs no code of asynchronous fixtures, whatever requests them. -/
theorem C187_never_run (F : Nat → Fixture) (ts : List Test) (n : Nat) (vs : List Val) (h : Ev.fixture n vs ∈ session F ts) : (F n).async = false :=
  runFrom_plain ts 0 _ (fun _ _ hm => absurd hm List.not_mem_nil) n vs h

/-- **C187.** A test of the main process that is called gets `None` for an asynchronous fixture with `autouse` and a coroutine that nobody awaits for
any other asynchronous one, whatever ran before. -/
theorem C187_values (F : Nat → Fixture) (ts : List Test) (k : Nat) (vs : List Val) (h : Ev.test k vs ∈ session F ts) :
    ∃ t, ts[k]? = some t ∧ vs.length = t.args.length ∧
      ∀ (i n : Nat), t.args[i]? = some n → (F n).async = true → vs[i]? = some (if (F n).autouse then Val.none else Val.coroutine n) := by
  rcases runFrom_kinds ts 0 ⟨fun _ => none, []⟩ (fun n v hc _ => nomatch hc) k vs h with h | ⟨i, t, hi, hj, ha⟩
  · exact absurd h List.not_mem_nil
  · rw [Nat.zero_add] at hj
    subst hj
    exact ⟨t, hi, ha.1, ha.2⟩

/-- An asynchronous fixture with `autouse`, one without, and a plain one that requests both. -/
def exMainFixtures3 : Nat → Fixture
  | 0 => ⟨true, true, true, [], fun _ => .error 1⟩
  | 1 => ⟨true, false, false, [], fun _ => .error 1⟩
  | _ => ⟨false, false, false, [0, 1], fun vs => .ok (.user vs.length)⟩

example : session exMainFixtures3 [⟨[0], []⟩, ⟨[0, 1, 2], [2, 0, 1]⟩] =
    [.test 0 [], .fixture 2 [.none, .coroutine 1], .test 1 [.user 2, .none, .coroutine 1]] := by decide

/-- The fixtures a test needs: its arguments, those with `autouse` that are no coroutines, and what these request. -/
inductive NeedsFixture (F : Nat → Fixture) (t : Test) : Nat → Prop where
  | arg {n : Nat} : n ∈ t.args → NeedsFixture F t n
  | auto {n : Nat} : n ∈ t.fixtures → (F n).autouse = true → (F n).async = false → NeedsFixture F t n
  | dep {n m : Nat} : NeedsFixture F t n → m ∈ (F n).args → NeedsFixture F t m

/-- The full claim: asynchronous fixtures with `autouse`, meant for cocotb tests, do not matter to tests of the main process that do not request
them. Such a session is the one in which only fixtures are set up that its tests need. -/
def C187_unaffected_full : Prop :=
  ∀ (F : Nat → Fixture) (ts : List Test) (need : Test → Nat → Bool),
    (∀ t ∈ ts, ∀ n, need t n = true ↔ NeedsFixture F t n) →
    (∀ t ∈ ts, ∀ n, NeedsFixture F t n → ((F n).autouse && (F n).async) = false) →
    session F ts = session F (ts.map fun t => { t with fixtures := t.fixtures.filter (need t) })

/-- Fixture 0 raises in the main process (it wants a simulator); fixture 1 is an asynchronous one with `autouse` that requests it. -/
def exMainFixtures : Nat → Fixture
  | 0 => ⟨false, false, false, [], fun _ => .error 7⟩
  | 1 => ⟨true, true, false, [0], fun _ => .ok (.user 1)⟩
  | _ => ⟨false, false, false, [], fun _ => .ok (.user 2)⟩

/-- An ordinary test without arguments. -/
def exMainTest : Test := ⟨[0, 1], []⟩

/-- False of the code: what a skipped fixture requests is set up all the same, and if that raises the test fails. -/
theorem C187_unaffected_counterexample : ¬ C187_unaffected_full := by
  intro h
  have hnone : ∀ n, ¬ NeedsFixture exMainFixtures exMainTest n := by
    intro n hn
    induction hn with
    | arg hm => exact absurd hm List.not_mem_nil
    | @auto n hm ha hs =>
      rcases List.mem_cons.1 hm with rfl | hm
      · cases ha
      · cases List.mem_singleton.1 hm
        cases hs
    | dep _ _ ih => exact ih
  have := h exMainFixtures [exMainTest] (fun _ _ => false)
    (fun t ht n => by cases List.mem_singleton.1 ht; exact ⟨fun h => (Bool.false_ne_true h).elim, fun hn => absurd hn (hnone n)⟩)
    (fun t ht n hn => by cases List.mem_singleton.1 ht; exact absurd hn (hnone n))
  revert this
  decide

/-- **C187, part.** It holds if whatever the skipped fixtures request is needed by the test anyway. -/
theorem C187_unaffected_partial (F : Nat → Fixture) (ts : List Test) (need : Test → Nat → Bool)
    (hneed : ∀ t ∈ ts, ∀ n, need t n = true ↔ NeedsFixture F t n)
    (hskip : ∀ t ∈ ts, ∀ n, NeedsFixture F t n → ((F n).autouse && (F n).async) = false)
    (honly : ∀ t ∈ ts, ∀ n ∈ t.fixtures, NeedsFixture F t n ∨ ((F n).autouse && (F n).async) = true) :
    session F ts = session F (ts.map fun t => { t with fixtures := t.fixtures.filter (need t) }) := by
  refine (runFrom_same need ts 0 ⟨fun _ => none, []⟩ ⟨fun _ => none, []⟩ ⟨rfl, fun _ _ => rfl⟩ (fun _ _ => Or.inl rfl) ?_ ?_ ?_).1
  · intro t ht n hn
    rcases honly t ht n hn with h | h
    · rw [(hneed t ht n).2 h, show skips (F n) = false from hskip t ht n h]
      rfl
    · rw [show skips (F n) = true from h]
      refine Bool.eq_false_iff.2 fun hc => ?_
      rw [hskip t ht n ((hneed t ht n).1 hc)] at h
      cases h
  · intro t ht n hn hs m hm
    rcases honly t ht n hn with h | h
    · exact hskip t ht m (.dep h hm)
    · rw [show skips (F n) = _ from h] at hs
      cases hs
  · intro t ht n hn
    exact hskip t ht n (.arg hn)

/-- Fixture 1 is asynchronous with `autouse` and requests fixture 0, which the test needs too. -/
def exMainFixtures2 : Nat → Fixture
  | 0 => ⟨false, false, true, [], fun _ => .ok (.user 5)⟩
  | _ => ⟨true, true, false, [0], fun _ => .error 3⟩

example : session exMainFixtures2 [⟨[0, 1], [0]⟩, ⟨[0, 1], [0]⟩] = [.fixture 0 [], .test 0 [.user 5], .test 1 [.user 5]] ∧
    session exMainFixtures2 [⟨[0], [0]⟩, ⟨[0], [0]⟩] = [.fixture 0 [], .test 0 [.user 5], .test 1 [.user 5]] := by decide

example : NeedsFixture exMainFixtures2 ⟨[0, 1], [0]⟩ 0 ∧ ((exMainFixtures2 1).autouse && (exMainFixtures2 1).async) = true :=
  ⟨.arg List.mem_cons_self, rfl⟩

example : session exMainFixtures [exMainTest] = [.fixture 0 [], .error 0] := by decide

end Verif
