import Verif.Spec.PytestFix
/-!
# Values of fixtures, reports and captured log messages under pytest
-/
namespace Verif
open PytestFix PytestFixSpec

/-! ## C158 -/

namespace PytestFix

mutual
theorem has_det {F : Nat → Fixture} {n : Nat} {v v' : Val} : Has F n v → Has F n v' → v = v'
  | .intro _ _ vs h e, h2 => by
    obtain ⟨_, _, vs', h', e'⟩ := h2
    have := hasAll_det h h'
    subst this
    rw [e] at e'; cases e'; rfl

theorem hasAll_det {F : Nat → Fixture} {ns : List Nat} {vs vs' : List Val} : HasAll F ns vs → HasAll F ns vs' → vs = vs'
  | .nil, h => by cases h; rfl
  | .cons n v ns vs a b, h => by
    obtain _ | ⟨_, v', _, vs', a', b'⟩ := h
    rw [has_det a a', hasAll_det b b']
end

/-- What is known about an entry of the cache. -/
def Entry (F : Nat → Fixture) (n : Nat) : Cached → Prop
  | .plain (.ok v) => (F n).async = false ∧ Has F n v
  | .plain (.error _) => (F n).async = false
  | .task none => (F n).async = true
  | .task (some (.ok v)) => (F n).async = true ∧ Has F n v
  | .task (some (.error _)) => (F n).async = true

/-- The cache is right. -/
def Inv (F : Nat → Fixture) (s : St) : Prop := ∀ n c, s.cache n = some c → Entry F n c

theorem Inv.set {F : Nat → Fixture} {s : St} (h : Inv F s) {n : Nat} {c : Cached} (hc : Entry F n c) : Inv F (s.set n c) := by
  intro m d hd
  simp only [St.set] at hd
  split at hd
  · rename_i e; cases hd; subst e; exact hc
  · exact h m d hd

theorem Inv.endTest {F : Nat → Fixture} {s : St} (h : Inv F s) : Inv F (endTest F s) := by
  intro m d hd
  simp only [PytestFix.endTest] at hd
  split at hd
  · exact h m d hd
  · cases hd

theorem has_user {F : Nat → Fixture} (ho : OwnValues F) {n : Nat} {v : Val} (h : Has F n v) : ∃ u, v = .user u := by
  obtain ⟨_, _, vs, _, e⟩ := h
  exact ho n vs v e

theorem getAll_hasAll {F : Nat → Fixture} {f : Nat → Res} : ∀ {ns : List Nat} {vs : List Val},
    (∀ n ∈ ns, ∀ v, f n = .ok v → Has F n v) → getAll f ns = .ok vs → HasAll F ns vs
  | [], vs, _, h => by simp only [getAll] at h; cases h; exact .nil
  | n :: ns, vs, hf, h => by
    simp only [getAll] at h
    split at h
    · cases h
    · rename_i v hv
      split at h
      · cases h
      · rename_i vs' hvs
        cases h
        exact .cons _ _ _ _ (hf n List.mem_cons_self v hv)
          (getAll_hasAll (fun m hm => hf m (List.mem_cons_of_mem _ hm)) hvs)

/-- The value of a fixture that is no coroutine. -/
theorem getValue_sync {F : Nat → Fixture} {s : St} (h : Inv F s) {n : Nat} (hn : (F n).async = false) {v : Val}
    (hv : getValue s n = .ok v) : Has F n v := by
  unfold getValue at hv
  cases hc : s.cache n with
  | none => rw [hc] at hv; cases hv
  | some c =>
    rw [hc] at hv
    have he := h n c hc
    match c, he, hv with
    | .plain (.ok w), he, hv => simp only [Cached.value] at hv; cases hv; exact he.2
    | .task none, he, _ => simp only [Entry] at he; rw [hn] at he; cases he
    | .task (some (.ok w)), he, _ => have := he.1; rw [hn] at this; cases this

theorem getResolved_has {F : Nat → Fixture} (ho : OwnValues F) {s : St} (h : Inv F s) {n : Nat} {v : Val}
    (hv : getResolved s n = .ok v) : Has F n v := by
  unfold getResolved getValue at hv
  cases hc : s.cache n with
  | none => rw [hc] at hv; cases hv
  | some c =>
    rw [hc] at hv
    have he := h n c hc
    match c, hc, he, hv with
    | .plain (.ok w), _, he, hv =>
      obtain ⟨u, rfl⟩ := has_user ho he.2
      simp only [Cached.value, resolve] at hv; cases hv; exact he.2
    | .task none, hc, _, hv => simp only [Cached.value, resolve, hc] at hv; cases hv
    | .task (some (.ok w)), _, he, hv =>
      obtain ⟨u, rfl⟩ := has_user ho he.2
      simp only [Cached.value, resolve] at hv; cases hv; exact he.2

theorem execute_inv {F : Nat → Fixture} (hs : SyncFirst F) {n : Nat} {s : St} {w : List Nat} (h : Inv F s)
    (P : Call → Prop) (hP : ∀ n vs, HasAll F (F n).args vs → P (.fixture n vs)) (hc : ∀ c ∈ s.calls, P c) :
    Inv F (execute F n s w).1 ∧ ∀ c ∈ (execute F n s w).1.calls, P c := by
  unfold execute
  split
  · split
    · exact ⟨h, hc⟩
    · exact ⟨h, hc⟩
  · split
    · rename_i ha
      exact ⟨h.set ha, hc⟩
    · rename_i ha
      have ha : (F n).async = false := by simpa using ha
      split
      · exact ⟨h.set ha, hc⟩
      · rename_i vs hvs
        have hv : HasAll F (F n).args vs := getAll_hasAll (fun m hm v hv => getValue_sync h (hs n ha m hm) hv) hvs
        refine ⟨?_, ?_⟩
        · refine Inv.set (s := ⟨s.cache, s.calls ++ [.fixture n vs]⟩) h ?_
          cases e : (F n).code vs with
          | ok v => exact ⟨ha, .intro _ _ _ hv e⟩
          | error _ => exact ha
        · intro c hm
          simp only [St.set, List.mem_append, List.mem_singleton] at hm
          rcases hm with hm | rfl
          · exact hc c hm
          · exact hP _ _ hv

theorem executeAll_inv {F : Nat → Fixture} (hs : SyncFirst F) (P : Call → Prop)
    (hP : ∀ n vs, HasAll F (F n).args vs → P (.fixture n vs)) :
    ∀ {ns : List Nat} {s : St} {w : List Nat}, Inv F s → (∀ c ∈ s.calls, P c) →
      Inv F (executeAll F ns s w).1 ∧ ∀ c ∈ (executeAll F ns s w).1.calls, P c
  | [], _, _, h, hc => ⟨h, hc⟩
  | n :: ns, s, w, h, hc => by
    have he := execute_inv hs (n := n) (w := w) h P hP hc
    unfold executeAll
    split
    · rename_i s' w' e
      rw [e] at he
      exact executeAll_inv hs P hP he.1 he.2
    · rename_i s' w' e
      rw [e] at he
      exact he

theorem runSetup_inv {F : Nat → Fixture} (ho : OwnValues F) {n : Nat} {s : St} (hn : (F n).async = true) (h : Inv F s)
    (P : Call → Prop) (hP : ∀ n vs, HasAll F (F n).args vs → P (.fixture n vs)) (hc : ∀ c ∈ s.calls, P c) :
    Inv F (runSetup F n s).1 ∧ ∀ c ∈ (runSetup F n s).1.calls, P c := by
  unfold runSetup
  split
  · exact ⟨h.set hn, hc⟩
  · rename_i vs hvs
    have hv : HasAll F (F n).args vs := getAll_hasAll (fun m _ v hv => getResolved_has ho h hv) hvs
    refine ⟨?_, ?_⟩
    · refine Inv.set (s := ⟨s.cache, s.calls ++ [.fixture n vs]⟩) h ?_
      cases e : (F n).code vs with
      | ok v => exact ⟨hn, .intro _ _ _ hv e⟩
      | error _ => exact hn
    · intro c hm
      simp only [St.set, List.mem_append, List.mem_singleton] at hm
      rcases hm with hm | rfl
      · exact hc c hm
      · exact hP _ _ hv

theorem runSetups_inv {F : Nat → Fixture} (ho : OwnValues F) (P : Call → Prop)
    (hP : ∀ n vs, HasAll F (F n).args vs → P (.fixture n vs)) :
    ∀ {ns : List Nat} {s : St}, (∀ n ∈ ns, (F n).async = true) → Inv F s → (∀ c ∈ s.calls, P c) →
      Inv F (runSetups F ns s).1 ∧ ∀ c ∈ (runSetups F ns s).1.calls, P c
  | [], _, _, h, hc => ⟨h, hc⟩
  | n :: ns, s, hn, h, hc => by
    have he := runSetup_inv ho (hn n List.mem_cons_self) h P hP hc
    unfold runSetups
    split
    · rename_i s' e
      rw [e] at he
      exact runSetups_inv ho P hP (fun m hm => hn m (List.mem_cons_of_mem _ hm)) he.1 he.2
    · rename_i s' e
      rw [e] at he
      exact he

theorem executeAll_waiting {F : Nat → Fixture} : ∀ {ns : List Nat} {s : St} {w : List Nat},
    (∀ n ∈ w, (F n).async = true) → ∀ n ∈ (executeAll F ns s w).2.1, (F n).async = true
  | [], _, _, h => h
  | m :: ns, s, w, h => by
    have he : ∀ n ∈ (execute F m s w).2.1, (F n).async = true := by
      unfold execute
      split
      · split <;> exact h
      · split
        · rename_i ha
          intro n hn
          rcases List.mem_append.1 hn with hn | hn
          · exact h n hn
          · rw [List.mem_singleton.1 hn]; exact ha
        · split <;> exact h
    unfold executeAll
    split
    · rename_i s' w' e
      rw [e] at he
      exact executeAll_waiting he
    · rename_i s' w' e
      rw [e] at he
      exact he

/-- A value found at the setup, resolved later. -/
theorem late_has {F : Nat → Fixture} (ho : OwnValues F) {s s' : St} (h : Inv F s) (h' : Inv F s') {n : Nat} {v v' : Val}
    (hv : getValue s n = .ok v) (hv' : resolve s' v = .ok v') : Has F n v' := by
  unfold getValue at hv
  cases hc : s.cache n with
  | none => rw [hc] at hv; cases hv
  | some c =>
    rw [hc] at hv
    have he := h n c hc
    match c, he, hv with
    | .plain (.ok w), he, hv =>
      obtain ⟨u, rfl⟩ := has_user ho he.2
      simp only [Cached.value] at hv; cases hv
      simp only [resolve] at hv'; cases hv'; exact he.2
    | .task none, he, hv =>
      simp only [Cached.value] at hv; cases hv
      simp only [resolve] at hv'
      split at hv'
      · rename_i r hr
        subst hv'
        exact (h' n _ hr).2
      · cases hv'
    | .task (some (.ok w)), he, hv =>
      obtain ⟨u, rfl⟩ := has_user ho he.2
      simp only [Cached.value] at hv; cases hv
      simp only [resolve] at hv'; cases hv'; exact he.2

theorem late_hasAll {F : Nat → Fixture} (ho : OwnValues F) {s s' : St} (h : Inv F s) (h' : Inv F s') :
    ∀ {ns : List Nat} {vs vs' : List Val}, getAll (getValue s) ns = .ok vs → getAll (resolve s') vs = .ok vs' →
      HasAll F ns vs'
  | [], vs, vs', e, e' => by
    simp only [getAll] at e; cases e
    simp only [getAll] at e'; cases e'; exact .nil
  | n :: ns, vs, vs', e, e' => by
    simp only [getAll] at e
    split at e
    · cases e
    · rename_i v hv
      split at e
      · cases e
      · rename_i us hus
        cases e
        simp only [getAll] at e'
        split at e'
        · cases e'
        · rename_i v' hv'
          split at e'
          · cases e'
          · rename_i us' hus'
            cases e'
            exact .cons _ _ _ _ (late_has ho h h' hv hv') (late_hasAll ho h h' hus hus')

theorem runTest_inv {F : Nat → Fixture} (ho : OwnValues F) (hs : SyncFirst F) (k : Nat) (t : Test) {s : St} (h : Inv F s)
    (P : Call → Prop) (hP : ∀ n vs, HasAll F (F n).args vs → P (.fixture n vs))
    (hT : ∀ vs, HasAll F t.args vs → P (.test k vs)) (hc : ∀ c ∈ s.calls, P c) :
    Inv F (runTest F k t s) ∧ ∀ c ∈ (runTest F k t s).calls, P c := by
  have h1 := executeAll_inv hs P hP (ns := t.fixtures) (w := []) h hc
  have h2 := executeAll_waiting (F := F) (ns := t.fixtures) (s := s) (w := []) (by simp)
  unfold runTest
  split
  · rename_i s1 w e
    rw [e] at h1
    exact ⟨h1.1.endTest, h1.2⟩
  · rename_i s1 w e
    rw [e] at h1 h2
    split
    · exact ⟨h1.1.endTest, h1.2⟩
    · rename_i fa hfa
      have h3 := runSetups_inv ho P hP h2 h1.1 h1.2
      split
      · rename_i s2 e2
        rw [e2] at h3
        exact ⟨h3.1.endTest, h3.2⟩
      · rename_i s2 e2
        rw [e2] at h3
        unfold runBody
        split
        · exact ⟨h3.1.endTest, h3.2⟩
        · rename_i vs hvs
          refine ⟨Inv.endTest (s := ⟨s2.cache, _⟩) h3.1, ?_⟩
          intro c hm
          simp only [endTest, List.mem_append, List.mem_singleton] at hm
          rcases hm with hm | rfl
          · exact h3.2 c hm
          · exact hT _ (late_hasAll ho h1.1 h3.1 hfa hvs)

end PytestFix

/-- Fixtures and tests are called with the values of the fixtures they request. -/
def C158_args_full : Prop :=
  ∀ (F : Nat → Fixture) (ts : List Test), OwnValues F → (∀ t ∈ ts, Ordered F t) → ∀ c ∈ session F ts, Right F ts c

/-- **C158** Fixtures and tests are called with the values of the fixtures they request. Missing: functions as fixtures that
request a coroutine. -/
theorem C158_args_partial (F : Nat → Fixture) (ts : List Test) (ho : OwnValues F) (hs : SyncFirst F) :
    ∀ c ∈ session F ts, Right F ts c := by
  have key : ∀ (us : List Test) (k : Nat) (s : St), (∀ i t, us[i]? = some t → ts[k + i]? = some t) → Inv F s →
      (∀ c ∈ s.calls, Right F ts c) → ∀ c ∈ (runFrom F k us s).calls, Right F ts c := by
    intro us
    induction us with
    | nil => intro k s _ _ hc; exact hc
    | cons t us ih =>
      intro k s hk hi hc
      have := runTest_inv ho hs k t hi (Right F ts) (fun _ _ h => h) (fun vs hv => ⟨t, hk 0 t rfl, hv⟩) hc
      refine ih (k + 1) _ (fun i u hu => ?_) this.1 this.2
      have := hk (i + 1) u (by simpa using hu)
      rwa [show k + 1 + i = k + (i + 1) by omega]
  exact key ts 0 _ (fun i t h => by simpa using h) (fun n c h => by cases h) (by simp)

namespace PytestFix

/-- Fixtures for the examples: 0 is a coroutine; 1 a function that requests it; 2 a coroutine that fails; 3 a coroutine
with a wide scope; 4 a coroutine that requests 3 and the function 5. -/
def exFixtures : Nat → Fixture
  | 0 => ⟨true, false, [], fun _ => .ok (.user 10)⟩
  | 1 => ⟨false, false, [0], fun _ => .ok (.user 11)⟩
  | 2 => ⟨true, false, [], fun _ => .error (.user 1)⟩
  | 3 => ⟨true, true, [], fun _ => .ok (.user 13)⟩
  | 4 => ⟨true, false, [3, 5], fun vs => .ok (.user (20 + vs.length))⟩
  | _ => ⟨false, true, [], fun _ => .ok (.user 15)⟩

theorem exFixtures_own : OwnValues exFixtures := by
  intro n vs v h
  unfold exFixtures at h
  split at h <;> cases h <;> exact ⟨_, rfl⟩

end PytestFix

/-- A function that requests a coroutine gets the object that is to run the coroutine. -/
theorem C158_args_counterexample : ¬ C158_args_full := by
  intro h
  have := h exFixtures [⟨[0, 1], [1]⟩] exFixtures_own (by
    intro t ht
    rw [List.mem_singleton.1 ht]
    refine ⟨?_, by simp⟩
    intro pre n post e a ha
    match pre, e with
    | [], e => cases e; cases ha
    | [x], e => cases e; simpa [exFixtures] using ha
    | x :: y :: pre, e => simp at e) (.fixture 1 [.manager 0]) (by decide)
  obtain _ | ⟨_, _, _, _, h0, _⟩ := this
  obtain ⟨_, _, vs, _, e⟩ := h0
  cases e

/-- A test gets its values. -/
example : session exFixtures [⟨[3, 5, 4], [4, 5]⟩, ⟨[3], [3]⟩] =
    [.fixture 5 [], .fixture 3 [], .fixture 4 [.user 13, .user 15], .test 0 [.user 22, .user 15], .test 1 [.user 13]] := by
  decide

/-- **C158** Each test is called at most once, in order. -/
theorem C158_once (F : Nat → Fixture) (ts : List Test) : ((session F ts).filterMap testNumber).Pairwise (· < ·) := by
  have ex : ∀ n s w, ((execute F n s w).1.calls.filterMap testNumber) = s.calls.filterMap testNumber := by
    intro n s w
    unfold execute
    split
    · split <;> rfl
    · split
      · rfl
      · split
        · rfl
        · simp [St.set, testNumber]
  have exs : ∀ ns s w, ((executeAll F ns s w).1.calls.filterMap testNumber) = s.calls.filterMap testNumber := by
    intro ns
    induction ns with
    | nil => intro s w; rfl
    | cons n ns ih =>
      intro s w
      have := ex n s w
      unfold executeAll
      split
      · rename_i s' w' e
        rw [e] at this
        rw [ih, this]
      · rename_i s' w' e
        rw [e] at this
        exact this
  have rs : ∀ ns s, ((runSetups F ns s).1.calls.filterMap testNumber) = s.calls.filterMap testNumber := by
    intro ns
    induction ns with
    | nil => intro s; rfl
    | cons n ns ih =>
      intro s
      have : ((runSetup F n s).1.calls.filterMap testNumber) = s.calls.filterMap testNumber := by
        unfold runSetup
        split
        · rfl
        · simp [St.set, testNumber]
      unfold runSetups
      split
      · rename_i s' e
        rw [e] at this
        rw [ih, this]
      · rename_i s' e
        rw [e] at this
        exact this
  have rt : ∀ k t s, ((runTest F k t s).calls.filterMap testNumber) = s.calls.filterMap testNumber ∨
      ((runTest F k t s).calls.filterMap testNumber) = s.calls.filterMap testNumber ++ [k] := by
    intro k t s
    have h1 := exs t.fixtures s []
    unfold runTest
    split
    · rename_i s1 w e
      rw [e] at h1
      exact .inl h1
    · rename_i s1 w e
      rw [e] at h1
      split
      · exact .inl h1
      · have h2 := rs w s1
        split
        · rename_i s2 e2
          rw [e2] at h2
          exact .inl (h2.trans h1)
        · rename_i s2 e2
          rw [e2] at h2
          unfold runBody
          split
          · exact .inl (h2.trans h1)
          · right
            simp only [endTest, List.filterMap_append]
            rw [← h1, ← h2]
            rfl
  have key : ∀ ts k s, (s.calls.filterMap testNumber).Pairwise (· < ·) → (∀ j ∈ s.calls.filterMap testNumber, j < k) →
      ((runFrom F k ts s).calls.filterMap testNumber).Pairwise (· < ·) := by
    intro ts
    induction ts with
    | nil => intro k s h _; exact h
    | cons t ts ih =>
      intro k s h hk
      unfold runFrom
      rcases rt k t s with e | e
      · exact ih _ _ (by rw [e]; exact h) (by rw [e]; exact fun j hj => Nat.lt_succ_of_lt (hk j hj))
      · refine ih _ _ ?_ ?_
        · rw [e, List.pairwise_append]
          exact ⟨h, by simp, fun a ha b hb => by rw [List.mem_singleton.1 hb]; exact hk a ha⟩
        · rw [e]
          intro j hj
          rcases List.mem_append.1 hj with hj | hj
          · exact Nat.lt_succ_of_lt (hk j hj)
          · rw [List.mem_singleton.1 hj]; exact Nat.lt_succ_self k
  exact key ts 0 _ List.Pairwise.nil (by simp)

/-- A test whose fixtures have values is called. -/
def C158_runs_full : Prop :=
  ∀ (F : Nat → Fixture) (ts : List Test), OwnValues F → SyncFirst F → (∀ t ∈ ts, Ordered F t) →
    ∀ k t, ts[k]? = some t → Sound F t → ∃ vs, HasAll F t.args vs ∧ Call.test k vs ∈ session F ts

/-- A coroutine with a wide scope that waits while another one fails is never started; no test that requests it is
called. -/
theorem C158_runs_counterexample : ¬ C158_runs_full := by
  intro h
  let F : Nat → Fixture := fun n => if n = 2 then ⟨true, false, [], fun _ => .error (.user 1)⟩ else ⟨true, true, [], fun _ => .ok (.user 13)⟩
  obtain ⟨vs, h1, h2⟩ := h F [⟨[2, 3], [2, 3]⟩, ⟨[3], [3]⟩]
    (by
      intro n vs v e
      simp only [F] at e
      split at e <;> cases e
      exact ⟨_, rfl⟩)
    (by intro n e; simp only [F] at e; split at e <;> cases e)
    (by
      intro t ht
      refine ⟨fun pre n post e a ha => ?_, ?_⟩
      · simp only [F] at ha
        split at ha <;> cases ha
      · simp only [List.mem_cons, List.not_mem_nil, or_false] at ht
        rcases ht with rfl | rfl <;> simp)
    1 ⟨[3], [3]⟩ rfl (by
      intro n hn
      rw [List.mem_singleton.1 hn]
      exact ⟨.user 13, .intro _ _ [] .nil rfl⟩)
  have : session F [⟨[2, 3], [2, 3]⟩, ⟨[3], [3]⟩] = [.fixture 2 []] := by decide
  rw [this] at h2
  simp at h2

namespace PytestFix

/-- A result without exception. -/
def Good : Cached → Prop
  | .plain (.ok _) => True
  | .task (some (.ok _)) => True
  | _ => False

/-- Nothing has failed; `w` are the coroutines that wait. -/
structure Fine (F : Nat → Fixture) (s : St) (w : List Nat) : Prop where
  inv : Inv F s
  good : ∀ n c, s.cache n = some c → Good c ∨ (c = .task none ∧ n ∈ w)
  wait : ∀ n ∈ w, s.cache n = some (.task none)
  nodup : w.Nodup
  order : ∀ w1 n w2, w = w1 ++ n :: w2 → ∀ a ∈ (F n).args, ∃ c, s.cache a = some c ∧ (c = .task none → a ∈ w1)

theorem getAll_ok {α : Type} {f : α → Res} : ∀ {ns : List α}, (∀ n ∈ ns, ∃ v, f n = .ok v) → ∃ vs, getAll f ns = .ok vs
  | [], _ => ⟨[], rfl⟩
  | n :: ns, h => by
    obtain ⟨v, hv⟩ := h n List.mem_cons_self
    obtain ⟨vs, hvs⟩ := getAll_ok fun m hm => h m (List.mem_cons_of_mem _ hm)
    exact ⟨v :: vs, by simp only [getAll, hv, hvs]⟩

theorem code_ok {F : Nat → Fixture} {n : Nat} {v : Val} (h : Has F n v) {vs : List Val} (hv : HasAll F (F n).args vs) :
    (F n).code vs = .ok v := by
  obtain ⟨_, _, vs', h', e⟩ := h
  rw [hasAll_det hv h']
  exact e

theorem execute_fine {F : Nat → Fixture} (hs : SyncFirst F) {n : Nat} {s : St} {w : List Nat} (h : Fine F s w)
    (hn : ∃ v, Has F n v) (ha : ∀ a ∈ (F n).args, s.cache a ≠ none) :
    (execute F n s w).2.2 = true ∧ Fine F (execute F n s w).1 (execute F n s w).2.1 ∧
      (execute F n s w).1.cache n ≠ none ∧ ∀ m, s.cache m ≠ none → (execute F n s w).1.cache m ≠ none := by
  obtain ⟨v, hv⟩ := hn
  unfold execute
  split
  · rename_i c hc
    have hg := h.good n c hc
    split
    · exact ⟨rfl, h, by simp [hc], fun _ h => h⟩
    · rename_i e he
      match c, hg, he with
      | .plain (.ok _), _, he => cases he
      | .task (some (.ok _)), _, he => cases he
      | .task none, _, he => cases he
      | .plain (.error _), hg, _ => rcases hg with hg | hg; cases hg; cases hg.1
      | .task (some (.error _)), hg, _ => rcases hg with hg | hg; cases hg; cases hg.1
  · rename_i hc
    have hne : ∀ {m}, s.cache m ≠ none → m ≠ n := by intro m hm e; exact hm (e ▸ hc)
    split
    · rename_i hasync
      refine ⟨rfl, ⟨h.inv.set hasync, ?_, ?_, ?_, ?_⟩, by simp [St.set], ?_⟩
      · intro m c hm
        simp only [St.set] at hm
        split at hm
        · rename_i e; cases hm; exact .inr ⟨rfl, by simp [e]⟩
        · rcases h.good m c hm with g | g
          · exact .inl g
          · exact .inr ⟨g.1, List.mem_append_left _ g.2⟩
      · intro m hm
        simp only [St.set]
        rcases List.mem_append.1 hm with hm | hm
        · rw [if_neg (hne (by rw [h.wait m hm]; simp))]; exact h.wait m hm
        · rw [if_pos (List.mem_singleton.1 hm)]
      · rw [List.nodup_append]
        refine ⟨h.nodup, by simp, fun a ha' b hb e => ?_⟩
        rw [List.mem_singleton.1 hb] at e
        exact hne (by rw [h.wait a ha']; simp) e
      · intro w1 m w2 e a ham
        simp only [St.set]
        rcases List.eq_nil_or_concat w2 with rfl | ⟨w3, x, rfl⟩
        · have := List.append_inj' e rfl
          obtain ⟨rfl, e2⟩ := this
          cases e2
          have h1 := ha a ham
          obtain ⟨c, hca⟩ := Option.ne_none_iff_exists'.1 h1
          refine ⟨c, by rw [if_neg (hne h1)]; exact hca, ?_⟩
          intro e3
          rcases h.good a c hca with g | g
          · rw [e3] at g; cases g
          · exact g.2
        · have e' : w ++ [n] = (w1 ++ m :: w3) ++ [x] := by rw [show w ++ [n] = _ from e]; simp
          have := List.append_inj' e' rfl
          obtain ⟨c, hca, hc2⟩ := h.order w1 m w3 this.1 a ham
          exact ⟨c, by rw [if_neg (hne (by rw [hca]; simp))]; exact hca, hc2⟩
      · intro m hm
        simp only [St.set]
        rw [if_neg (hne hm)]; exact hm
    · rename_i hsync
      have hsync : (F n).async = false := by simpa using hsync
      have hget : ∀ a ∈ (F n).args, ∃ v, getValue s a = .ok v := by
        intro a haa
        obtain ⟨c, hca⟩ := Option.ne_none_iff_exists'.1 (ha a haa)
        unfold getValue
        rw [hca]
        have hg := h.good a c hca
        match c, hg with
        | .plain (.ok v), _ => exact ⟨v, rfl⟩
        | .task (some (.ok v)), _ => exact ⟨v, rfl⟩
        | .task none, _ => exact ⟨.manager a, rfl⟩
        | .plain (.error _), hg => rcases hg with hg | hg; cases hg; cases hg.1
        | .task (some (.error _)), hg => rcases hg with hg | hg; cases hg; cases hg.1
      obtain ⟨vs, hvs⟩ := getAll_ok hget
      have hall : HasAll F (F n).args vs := getAll_hasAll (fun m hm v hv => getValue_sync h.inv (hs n hsync m hm) hv) hvs
      rw [hvs]
      simp only [code_ok hv hall]
      refine ⟨trivial, ⟨Inv.set (s := ⟨s.cache, s.calls ++ [.fixture n vs]⟩) h.inv ⟨hsync, hv⟩, ?_, ?_, h.nodup, ?_⟩,
        by simp [St.set], ?_⟩
      · intro m c hm
        simp only [St.set] at hm
        split at hm
        · cases hm; exact .inl trivial
        · exact h.good m c hm
      · intro m hm
        simp only [St.set]
        rw [if_neg (hne (by rw [h.wait m hm]; simp))]; exact h.wait m hm
      · intro w1 m w2 e a ham
        obtain ⟨c, hca, hc2⟩ := h.order w1 m w2 e a ham
        exact ⟨c, by simp only [St.set]; rw [if_neg (hne (by rw [hca]; simp))]; exact hca, hc2⟩
      · intro m hm
        simp only [St.set]
        rw [if_neg (hne hm)]; exact hm

theorem executeAll_fine {F : Nat → Fixture} (hs : SyncFirst F) : ∀ {ns pre : List Nat} {s : St} {w : List Nat},
    Fine F s w → (∀ n ∈ ns, ∃ v, Has F n v) → (∀ a ∈ pre, s.cache a ≠ none) →
    (∀ p n q, pre ++ ns = p ++ n :: q → ∀ a ∈ (F n).args, a ∈ p) →
    (executeAll F ns s w).2.2 = true ∧ Fine F (executeAll F ns s w).1 (executeAll F ns s w).2.1 ∧
      ∀ a ∈ pre ++ ns, (executeAll F ns s w).1.cache a ≠ none
  | [], pre, s, w, h, _, hp, _ => ⟨rfl, h, by simpa [executeAll] using hp⟩
  | n :: ns, pre, s, w, h, hv, hp, ho => by
    have he := execute_fine hs (n := n) h (hv n List.mem_cons_self) (fun a ha => hp a (ho pre n ns rfl a ha))
    unfold executeAll
    split
    · rename_i s' w' e
      rw [e] at he
      have := executeAll_fine hs (pre := pre ++ [n]) (ns := ns) he.2.1 (fun m hm => hv m (List.mem_cons_of_mem _ hm))
        (by
          intro a ha
          rcases List.mem_append.1 ha with ha | ha
          · exact he.2.2.2 a (hp a ha)
          · rw [List.mem_singleton.1 ha]; exact he.2.2.1)
        (by intro p m q e a ha; exact ho p m q (by rw [← e]; simp) a ha)
      rwa [List.append_assoc] at this
    · rename_i s' w' e
      rw [e] at he
      cases he.1

theorem runSetups_fine {F : Nat → Fixture} (ho : OwnValues F) : ∀ {w : List Nat} {s : St}, Fine F s w →
    (∀ n ∈ w, ∃ v, Has F n v) →
    (runSetups F w s).2 = true ∧ Fine F (runSetups F w s).1 [] ∧ ∀ m, s.cache m ≠ none → (runSetups F w s).1.cache m ≠ none
  | [], s, h, _ => ⟨rfl, h, fun _ h => h⟩
  | n :: w, s, h, hv => by
    obtain ⟨v, hv0⟩ := hv n List.mem_cons_self
    have hn : (F n).async = true := h.inv n _ (h.wait n List.mem_cons_self)
    have hget : ∀ a ∈ (F n).args, ∃ v, getResolved s a = .ok v := by
      intro a haa
      obtain ⟨c, hca, hc2⟩ := h.order [] n w rfl a haa
      have hg := h.good a c hca
      have hi := h.inv a c hca
      unfold getResolved getValue
      rw [hca]
      match c, hg, hi, hc2 with
      | .plain (.ok v), _, hi, _ =>
        obtain ⟨u, rfl⟩ := has_user ho hi.2
        exact ⟨.user u, rfl⟩
      | .task (some (.ok v)), _, hi, _ =>
        obtain ⟨u, rfl⟩ := has_user ho hi.2
        exact ⟨.user u, rfl⟩
      | .task none, _, _, hc2 => exact absurd (hc2 rfl) (by simp)
      | .plain (.error _), hg, _, _ => rcases hg with hg | hg; cases hg; cases hg.1
      | .task (some (.error _)), hg, _, _ => rcases hg with hg | hg; cases hg; cases hg.1
    obtain ⟨vs, hvs⟩ := getAll_ok hget
    have hall : HasAll F (F n).args vs := getAll_hasAll (fun m _ v hv => getResolved_has ho h.inv hv) hvs
    have hr : runSetup F n s = (({ s with calls := s.calls ++ [.fixture n vs] } : St).set n (.task (some (.ok v))), true) := by
      unfold runSetup
      rw [hvs]
      simp only [code_ok hv0 hall]
    have hnd := List.nodup_cons.1 h.nodup
    have hf : Fine F (({ s with calls := s.calls ++ [.fixture n vs] } : St).set n (.task (some (.ok v)))) w := by
      refine ⟨Inv.set (s := ⟨s.cache, s.calls ++ [.fixture n vs]⟩) h.inv ⟨hn, hv0⟩, ?_, ?_, hnd.2, ?_⟩
      · intro m c hm
        simp only [St.set] at hm
        split at hm
        · cases hm; exact .inl trivial
        · rename_i hmn
          rcases h.good m c hm with g | g
          · exact .inl g
          · exact .inr ⟨g.1, (List.mem_cons.1 g.2).resolve_left hmn⟩
      · intro m hm
        simp only [St.set]
        rw [if_neg (fun e : m = n => hnd.1 (e ▸ hm))]
        exact h.wait m (List.mem_cons_of_mem _ hm)
      · intro w1 m w2 e a ham
        obtain ⟨c, hca, hc2⟩ := h.order (n :: w1) m w2 (by rw [e]; rfl) a ham
        simp only [St.set]
        by_cases han : a = n
        · exact ⟨_, if_pos han, fun e => by cases e⟩
        · exact ⟨c, by rw [if_neg han]; exact hca, fun e => (List.mem_cons.1 (hc2 e)).resolve_left han⟩
    have ih := runSetups_fine ho hf fun m hm => hv m (List.mem_cons_of_mem _ hm)
    unfold runSetups
    rw [hr]
    refine ⟨ih.1, ih.2.1, fun m hm => ih.2.2 m ?_⟩
    simp only [St.set]
    split
    · simp
    · exact hm

theorem executeAll_mem {F : Nat → Fixture} : ∀ {ns : List Nat} {s : St} {w : List Nat},
    ∀ n ∈ (executeAll F ns s w).2.1, n ∈ w ∨ n ∈ ns
  | [], _, _ => fun n hn => .inl hn
  | m :: ns, s, w => by
    have he : ∀ n ∈ (execute F m s w).2.1, n ∈ w ∨ n = m := by
      unfold execute
      split
      · split <;> exact fun n hn => .inl hn
      · split
        · intro n hn
          rcases List.mem_append.1 hn with hn | hn
          · exact .inl hn
          · exact .inr (List.mem_singleton.1 hn)
        · split <;> exact fun n hn => .inl hn
    intro n
    unfold executeAll
    split
    · rename_i s' w' e
      rw [e] at he
      intro hn
      rcases executeAll_mem n hn with h | h
      · rcases he n h with h | h
        · exact .inl h
        · exact .inr (h ▸ List.mem_cons_self)
      · exact .inr (List.mem_cons_of_mem _ h)
    · rename_i s' w' e
      rw [e] at he
      intro hn
      rcases he n hn with h | h
      · exact .inl h
      · exact .inr (h ▸ List.mem_cons_self)

theorem runTest_fine {F : Nat → Fixture} (ho : OwnValues F) (hs : SyncFirst F) (k : Nat) (t : Test) {s : St}
    (h : Fine F s []) (hord : Ordered F t) (hsound : Sound F t) :
    Fine F (runTest F k t s) [] ∧ ∃ vs, HasAll F t.args vs ∧ Call.test k vs ∈ (runTest F k t s).calls := by
  have h1 := executeAll_fine hs (ns := t.fixtures) (pre := []) h hsound (by simp) hord.1
  have h2 := executeAll_mem (F := F) (ns := t.fixtures) (s := s) (w := [])
  unfold runTest
  split
  · rename_i s1 w e
    rw [e] at h1; cases h1.1
  · rename_i s1 w e
    rw [e] at h1 h2
    obtain ⟨-, h1, h1c⟩ := h1
    have hval : ∀ a ∈ t.args, ∃ v, getValue s1 a = .ok v := by
      intro a ha
      obtain ⟨c, hca⟩ := Option.ne_none_iff_exists'.1 (h1c a (by simpa using hord.2 a ha))
      have hg := h1.good a c hca
      unfold getValue
      rw [hca]
      match c, hg with
      | .plain (.ok v), _ => exact ⟨v, rfl⟩
      | .task (some (.ok v)), _ => exact ⟨v, rfl⟩
      | .task none, _ => exact ⟨.manager a, rfl⟩
      | .plain (.error _), hg => rcases hg with hg | hg; cases hg; cases hg.1
      | .task (some (.error _)), hg => rcases hg with hg | hg; cases hg; cases hg.1
    obtain ⟨fa, hfa⟩ := getAll_ok hval
    rw [hfa]
    have h3 := runSetups_fine ho h1 fun n hn => hsound n ((h2 n hn).resolve_left (by simp))
    simp only
    split
    · rename_i s2 e2
      rw [e2] at h3; cases h3.1
    · rename_i s2 e2
      rw [e2] at h3
      obtain ⟨-, h3, h3c⟩ := h3
      have hres : ∀ {ns : List Nat} {vs : List Val}, getAll (getValue s1) ns = .ok vs → ∀ v ∈ vs, ∃ u, resolve s2 v = .ok u := by
        intro ns
        induction ns with
        | nil => intro vs e v hv; simp only [getAll] at e; cases e; cases hv
        | cons n ns ih =>
          intro vs e v hv
          simp only [getAll] at e
          split at e
          · cases e
          · rename_i v0 hv0
            split at e
            · cases e
            · rename_i vs0 hvs0
              cases e
              rcases List.mem_cons.1 hv with rfl | hv
              · match v, hv0 with
                | .user u, _ => exact ⟨.user u, rfl⟩
                | .manager m, hv0 =>
                  unfold getValue at hv0
                  cases hc : s1.cache n with
                  | none => rw [hc] at hv0; cases hv0
                  | some c =>
                    rw [hc] at hv0
                    have hi := h1.inv n c hc
                    match c, hi, hv0, hc with
                    | .plain (.ok w), hi, hv0, _ =>
                      obtain ⟨u, rfl⟩ := has_user ho hi.2
                      cases hv0
                    | .task (some (.ok w)), hi, hv0, _ =>
                      obtain ⟨u, rfl⟩ := has_user ho hi.2
                      cases hv0
                    | .task none, hi, hv0, hc =>
                      cases hv0
                      obtain ⟨d, hd⟩ := Option.ne_none_iff_exists'.1 (h3c n (by rw [hc]; simp))
                      have hg := h3.good n d hd
                      have hj := h3.inv n d hd
                      have hd' : s2.cache n = some d := hd
                      match d, hg, hj, hd' with
                      | .plain (.ok _), _, hj, _ => have := hj.1; simp only [Entry] at hi; rw [hi] at this; cases this
                      | .task (some (.ok u)), _, _, hd' => exact ⟨u, by simp only [resolve, hd']⟩
                      | .task none, hg, _, _ => rcases hg with hg | hg; cases hg; cases hg.2
                      | .plain (.error _), hg, _, _ => rcases hg with hg | hg; cases hg; cases hg.1
                      | .task (some (.error _)), hg, _, _ => rcases hg with hg | hg; cases hg; cases hg.1
              · exact ih hvs0 v hv
      obtain ⟨vs, hvs⟩ := getAll_ok (hres hfa)
      unfold runBody
      rw [hvs]
      refine ⟨⟨Inv.endTest (s := ⟨s2.cache, _⟩) h3.inv, ?_, by simp, by simp, by simp⟩, vs, late_hasAll ho h1.inv h3.inv hfa hvs, ?_⟩
      · intro n c hc
        simp only [endTest] at hc
        split at hc
        · exact h3.good n c hc
        · cases hc
      · simp [endTest]

theorem runTest_calls (F : Nat → Fixture) (k : Nat) (t : Test) (s : St) : ∀ c ∈ s.calls, c ∈ (runTest F k t s).calls := by
  have ex : ∀ n s w, ∀ c ∈ s.calls, c ∈ (execute F n s w).1.calls := by
    intro n s w c hc
    unfold execute
    split
    · split <;> exact hc
    · split
      · exact hc
      · split
        · exact hc
        · simp [St.set, hc]
  have exs : ∀ ns s w, ∀ c ∈ s.calls, c ∈ (executeAll F ns s w).1.calls := by
    intro ns
    induction ns with
    | nil => intro s w c hc; exact hc
    | cons n ns ih =>
      intro s w c hc
      have := ex n s w c hc
      unfold executeAll
      split
      · rename_i s' w' e
        rw [e] at this
        exact ih s' w' c this
      · rename_i s' w' e
        rw [e] at this
        exact this
  have rs : ∀ ns s, ∀ c ∈ s.calls, c ∈ (runSetups F ns s).1.calls := by
    intro ns
    induction ns with
    | nil => intro s c hc; exact hc
    | cons n ns ih =>
      intro s c hc
      have : c ∈ (runSetup F n s).1.calls := by
        unfold runSetup
        split
        · exact hc
        · simp [St.set, hc]
      unfold runSetups
      split
      · rename_i s' e
        rw [e] at this
        exact ih s' c this
      · rename_i s' e
        rw [e] at this
        exact this
  intro c hc
  have h1 := exs t.fixtures s [] c hc
  unfold runTest
  split
  · rename_i s1 w e
    rw [e] at h1
    exact h1
  · rename_i s1 w e
    rw [e] at h1
    split
    · exact h1
    · have h2 := rs w s1 c h1
      split
      · rename_i s2 e2
        rw [e2] at h2
        exact h2
      · rename_i s2 e2
        rw [e2] at h2
        unfold runBody
        split
        · exact h2
        · simp only [endTest, List.mem_append]; exact .inl h2

end PytestFix

/-- **C158** A test whose fixtures have values is called, with these values. Missing: sessions in which another test's fixture
fails. -/
theorem C158_runs_partial (F : Nat → Fixture) (ts : List Test) (ho : OwnValues F) (hs : SyncFirst F)
    (hord : ∀ t ∈ ts, Ordered F t) (hall : ∀ t ∈ ts, Sound F t) (k : Nat) (t : Test) (ht : ts[k]? = some t) :
    ∃ vs, HasAll F t.args vs ∧ Call.test k vs ∈ session F ts := by
  have mono : ∀ us k s, ∀ c ∈ s.calls, c ∈ (runFrom F k us s).calls := by
    intro us
    induction us with
    | nil => intro k s c hc; exact hc
    | cons t us ih => intro k s c hc; exact ih _ _ c (runTest_calls F k t s c hc)
  have key : ∀ us k s, Fine F s [] → (∀ t ∈ us, Ordered F t) → (∀ t ∈ us, Sound F t) → ∀ i t, us[i]? = some t →
      ∃ vs, HasAll F t.args vs ∧ Call.test (k + i) vs ∈ (runFrom F k us s).calls := by
    intro us
    induction us with
    | nil => intro k s _ _ _ i t h; simp at h
    | cons u us ih =>
      intro k s hf ho' hs' i t h
      have h1 := runTest_fine ho hs k u hf (ho' u List.mem_cons_self) (hs' u List.mem_cons_self)
      cases i with
      | zero =>
        simp only [List.getElem?_cons_zero, Option.some.injEq] at h
        subst h
        obtain ⟨vs, h2, h3⟩ := h1.2
        exact ⟨vs, h2, mono us _ _ _ h3⟩
      | succ i =>
        obtain ⟨vs, h2, h3⟩ := ih (k + 1) _ h1.1 (fun x hx => ho' x (List.mem_cons_of_mem _ hx))
          (fun x hx => hs' x (List.mem_cons_of_mem _ hx)) i t (by simpa using h)
        exact ⟨vs, h2, by rw [show k + (i + 1) = k + 1 + i by omega]; exact h3⟩
  have := key ts 0 ⟨fun _ => none, []⟩ ⟨fun n c h => (by cases h), fun n c h => (by cases h), by simp, by simp, by simp⟩ hord hall k t ht
  simpa [session] using this

/-- The hypotheses hold of the first example, without the function that requests a coroutine. -/
example :
    let F : Nat → Fixture := fun n => if n = 1 then exFixtures 5 else exFixtures n
    let t : Test := ⟨[3, 5, 4], [4, 5]⟩
    OwnValues F ∧ SyncFirst F ∧ Ordered F t ∧ Sound F t ∧ Has F 4 (.user 22) := by
  intro F t
  have h3 : Has F 3 (.user 13) := .intro _ _ [] .nil rfl
  have h5 : Has F 5 (.user 15) := .intro _ _ [] .nil rfl
  have h4 : Has F 4 (.user 22) := .intro _ _ [.user 13, .user 15] (.cons _ _ _ _ h3 (.cons _ _ _ _ h5 .nil)) rfl
  refine ⟨?_, ?_, ⟨?_, by simp [t]⟩, fun n hn => ?_, h4⟩
  · intro n vs v e
    simp only [F] at e
    split at e <;> exact exFixtures_own _ _ _ e
  · intro n hn a ha
    simp only [F] at hn ha
    split at hn
    · rename_i e; rw [if_pos e] at ha; cases ha
    · rename_i e
      rw [if_neg e] at ha
      unfold exFixtures at hn ha
      split at hn <;> simp_all
  · intro pre n post e a ha
    match pre, e with
    | [], e => cases e; cases ha
    | [_], e => cases e; cases ha
    | [_, _], e => cases e; simpa [F, exFixtures] using ha
    | _ :: _ :: _ :: pre, e => simp [t] at e
  · simp only [t, List.mem_cons, List.not_mem_nil, or_false] at hn
    rcases hn with rfl | rfl | rfl
    · exact ⟨_, h3⟩
    · exact ⟨_, h5⟩
    · exact ⟨_, h4⟩

/-! ## C159 -/

/-- A report reaches the main process exactly once, or the user is told that it does not. -/
def C159_sent_full : Prop :=
  ∀ as : List Attempt, send true as = (1, false) ∨ send true as = (0, true)

/-- If an attempt fails after the report was sent, it is sent again. -/
theorem C159_sent_counterexample : ¬ C159_sent_full := by
  intro h
  have := h [.broken, .sent]
  revert this
  decide

/-- **C159** A report reaches the main process exactly once if one of the first eleven attempts succeeds; if none does, the user
is told. Missing: attempts that fail after the report was sent. -/
theorem C159_sent_partial (as : List Attempt) (h : Attempt.broken ∉ as) :
    (Attempt.sent ∈ as.take 11 → send true as = (1, false)) ∧ (Attempt.sent ∉ as.take 11 → send true as = (0, true)) := by
  have key : ∀ (left : Nat) (as : List Attempt), Attempt.broken ∉ as →
      sendLoop left as = if Attempt.sent ∈ as.take (left + 1) then (1, false) else (0, true) := by
    intro left
    induction left with
    | zero =>
      intro as h
      match as, h with
      | [], _ => rfl
      | .sent :: _, _ => simp [sendLoop]
      | .refused :: _, _ => simp [sendLoop]
      | .broken :: _, h => simp at h
    | succ left ih =>
      intro as h
      match as, h with
      | [], _ =>
        have := ih [] (by simp)
        simp only [List.take_nil, List.not_mem_nil, if_false] at this ⊢
        simp [sendLoop, this]
      | .sent :: _, _ => simp [sendLoop]
      | .refused :: as, h =>
        have := ih as (by simpa using h)
        unfold sendLoop
        simp only [List.headD_cons, List.tail_cons, this, List.take_succ_cons, List.mem_cons]
        by_cases hm : Attempt.sent ∈ as.take (left + 1) <;> simp [hm]
      | .broken :: _, h => simp at h
  unfold send
  rw [if_pos rfl, key _ as h]
  constructor
  · intro hm; exact if_pos hm
  · intro hm; exact if_neg hm

example : send true [.refused, .refused, .sent] = (1, false) ∧ send true [] = (0, true) := by decide

/-- **C159** However an attempt ends: a report is lost only if the user is told, and without an address nothing is sent. -/
theorem C159_told (as : List Attempt) : ((send true as).1 = 0 → (send true as).2 = true) ∧ (send false as).1 = 0 := by
  have key : ∀ (left : Nat) (as : List Attempt), (sendLoop left as).1 = 0 → (sendLoop left as).2 = true := by
    intro left
    induction left with
    | zero =>
      intro as
      unfold sendLoop
      cases as.headD .refused <;> simp
    | succ left ih =>
      intro as
      have := ih as.tail
      unfold sendLoop
      cases as.headD .refused <;> simp <;> exact this
  exact ⟨key _ as, rfl⟩

/-- **C159** The main process hands on to its plugins all reports sent before the message that ends the session, each once, in the
order in which they came, even if plugins raise or connections break; what comes later is not read. -/
theorem C159_received (fails : Nat → Bool) (before after : List Msg) (h : Msg.stop ∉ before) :
    handedOn (receive fails (before ++ .stop :: after)).1 = reports before ∧
    (receive fails (before ++ .stop :: after)).2 = after := by
  induction before with
  | nil => exact ⟨rfl, rfl⟩
  | cons m ms ih =>
    have ih := ih fun hm => h (List.mem_cons_of_mem _ hm)
    match m, h with
    | .stop, h => exact absurd List.mem_cons_self h
    | .nothing, _ => simpa [receive, handedOn, reports] using ih
    | .other, _ => simpa [receive, handedOn, reports] using ih
    | .report n, _ =>
      simp only [receive, List.cons_append]
      refine ⟨?_, ih.2⟩
      have h1 := ih.1
      unfold handedOn reports at h1 ⊢
      cases fails n <;> simp [h1]

/-- **C159** The user is told of each report that a plugin could not handle and of each broken connection, and of nothing
else. -/
theorem C159_errors (fails : Nat → Bool) (before after : List Msg) (h : Msg.stop ∉ before) :
    (receive fails (before ++ .stop :: after)).1.count .notified =
      before.count .nothing + (reports before).countP fails := by
  induction before with
  | nil => rfl
  | cons m ms ih =>
    have ih := ih fun hm => h (List.mem_cons_of_mem _ hm)
    match m, h with
    | .stop, h => exact absurd List.mem_cons_self h
    | .nothing, _ =>
      simp only [receive, List.cons_append, List.count_cons_self, ih, reports, List.filterMap_cons]
      omega
    | .other, _ =>
      simp only [receive, List.cons_append, ih, reports, List.filterMap_cons]
      rw [List.count_cons_of_ne (by simp)]
    | .report n, _ =>
      simp only [receive, List.cons_append, reports, List.filterMap_cons, List.countP_cons]
      rw [List.count_cons_of_ne (by simp), List.count_cons_of_ne (by simp)]
      unfold reports at ih
      cases hf : fails n
      · simp [ih]
      · simp [ih]; omega

example : receive (· == 2) [.report 1, .nothing, .report 2, .other, .report 3, .stop, .report 4] =
    ([.logged 1, .notified, .logged 2, .notified, .logged 3], [.report 4]) := by decide

/-! ## C160 -/

namespace PytestFix

theorem log_fold (msgs : List Nat) (s : Logs) : msgs.foldl Logs.log s =
    { s with stream := s.stream ++ if s.capturing then msgs.filter (s.level ≤ ·) else [] } := by
  induction msgs generalizing s with
  | nil => cases s with | mk a b c d e f g => cases b <;> simp
  | cons m ms ih =>
    rw [List.foldl_cons, ih]
    unfold Logs.log
    by_cases hc : s.capturing = true
    · by_cases hm : s.level ≤ m
      · simp [hc, hm]
      · simp [hc, hm]
    · simp [hc]

theorem level_eq (root : Nat) (option : Option Nat) :
    phaseLevel root option = levelIn root option := by
  cases option with
  | none => rfl
  | some l => simp only [levelIn, phaseLevel]; split <;> omega

end PytestFix

/-- The report of a phase has the log messages of the phase with at least the level in force. -/
def C160_captured_full : Prop :=
  ∀ (s : Logs) (option : Option Nat) (sync : List Nat) (pieces : List (List Nat)), s.capturing = false →
    (s.run option sync pieces).section_ = (sync ++ pieces.flatten).filter (levelIn s.level option ≤ ·)

/-- What the second coroutine of a phase logs is not part of the report. -/
theorem C160_captured_counterexample : ¬ C160_captured_full := by
  intro h
  have := h ⟨30, false, [], [], 0, 0, false⟩ none [] [[40], [50]] rfl
  revert this
  decide

/-- **C160** The report of a phase has the log messages of the phase with at least the level in force. Missing: phases with
more than one coroutine. -/
theorem C160_captured_partial (s : Logs) (option : Option Nat) (sync : List Nat) (pieces : List (List Nat))
    (hp : pieces.length ≤ 1) :
    (s.run option sync pieces).section_ = (sync ++ pieces.flatten).filter (levelIn s.level option ≤ ·) := by
  match pieces, hp with
  | [], _ =>
    unfold Logs.run Logs.phase
    simp only [List.foldl_nil, log_fold, level_eq]
    simp
  | [p], _ =>
    unfold Logs.run Logs.phase Logs.piece Logs.restore Logs.update
    simp only [List.foldl_cons, List.foldl_nil, log_fold, level_eq]
    simp
  | _ :: _ :: _, hp => simp at hp

/-- **C160** What all coroutines of a phase but the first log is lost; what the others log is there. -/
theorem C160_first (s : Logs) (option : Option Nat) (sync p : List Nat) (pieces : List (List Nat)) :
    (s.run option sync (p :: pieces)).section_ = (sync ++ p).filter (levelIn s.level option ≤ ·) := by
  have h1 := C160_captured_partial s option sync [p] (by simp)
  have hrest : ∀ (ps : List (List Nat)) (t : Logs), t.restored = true → t.capturing = false → t.section_ = t.stream →
      (ps.foldl Logs.piece t).section_ = t.section_ := by
    intro ps
    induction ps with
    | nil => intro t _ _ _; rfl
    | cons q ps ih =>
      intro t hr hc hs
      have e : t.piece q = { t with section_ := t.stream, level := t.rootLevel, capturing := false } := by
        unfold Logs.piece Logs.restore Logs.update
        rw [if_pos hr, log_fold]
        simp [hc]
      rw [List.foldl_cons, ih _ (by rw [e]; exact hr) (by rw [e]) (by rw [e]), e]
      exact hs.symm
  unfold Logs.run at h1 ⊢
  rw [List.foldl_cons, hrest]
  · simpa using h1
  · simp only [Logs.piece, Logs.update, log_fold, Logs.restore]; split <;> simp_all
  · rfl
  · rfl

/-- **C160** After a phase the root logger has the level it had before, and messages are no longer captured. -/
theorem C160_restored (s : Logs) (option : Option Nat) (sync : List Nat) (pieces : List (List Nat)) :
    (s.run option sync pieces).level = s.level ∧ (s.run option sync pieces).capturing = false := by
  have key : ∀ (ps : List (List Nat)) (t : Logs), t.level = s.level → t.rootLevel = s.level → t.capturing = false →
      (ps.foldl Logs.piece t).level = s.level ∧ (ps.foldl Logs.piece t).capturing = false := by
    intro ps
    induction ps with
    | nil => intro t h _ hc; exact ⟨h, hc⟩
    | cons q ps ih =>
      intro t _ hr _
      have e : (t.piece q).rootLevel = s.level := by
        unfold Logs.piece Logs.restore Logs.update
        rw [log_fold]
        split <;> exact hr
      exact ih _ (by unfold Logs.piece at e ⊢; unfold Logs.update at e ⊢; exact e) e rfl
  unfold Logs.run
  refine key pieces _ ?_ ?_ ?_ <;> unfold Logs.phase <;> simp only [log_fold]

example : ((⟨30, false, [], [], 0, 0, false⟩ : Logs).run (some 20) [10, 25] [[20, 15, 40]]).section_ = [25, 20, 40] := by decide

end Verif
