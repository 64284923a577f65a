import Verif.Lemmas.PytestId
/-!
# Properties of test identifiers of the pytest plugin
-/
namespace Verif
open Verif.PytestId

/-- A text. -/
def PytestId.tx (s : String) : Text := s.toList.map Char.toNat

/-! ### C104: identifiers are unique -/

/-- The full claim: the identifiers reported for two tests of two runners are equal only if runner and test are. (A runner may
be a method; here both runners are nested equally deep.) -/
def C104_distinct_full : Prop :=
  ∀ r i r' i' : NodeId, r.Ok → i.Ok → r'.Ok → i'.Ok → r.classes.length = r'.classes.length →
    mangle r.text i.text = mangle r'.text i'.text → r = r' ∧ i = i'

/-- The directory `tests/foox` counts as part of `tests/foo`. -/
theorem C104_distinct_counterexample : ¬ C104_distinct_full := by
  intro h
  have hf : Calm (tx "test_a") := calm_of_no_colon (by decide) (by decide)
  have ok : ∀ ds : List Text, (∀ d ∈ ds, Name d) → ∀ f, Name f → NodeId.Ok ⟨ds, f, [], tx "test_a"⟩ :=
    fun ds hd f hf' => ⟨hd, hf', by simp, hf⟩
  have n1 : Name (tx "tests") := by unfold Name; decide
  have n2 : Name (tx "foo") := by unfold Name; decide
  have n3 : Name (tx "foox") := by unfold Name; decide
  have n4 : Name (tx "x") := by unfold Name; decide
  have n5 : Name (tx "m") := by unfold Name; decide
  have := h ⟨[tx "tests", tx "foo"], tx "m", [], tx "test_a"⟩ ⟨[tx "tests", tx "foo", tx "x"], tx "m", [], tx "test_a"⟩
    ⟨[tx "tests", tx "foo"], tx "m", [], tx "test_a"⟩ ⟨[tx "tests", tx "foox"], tx "m", [], tx "test_a"⟩
    (ok _ (by simp [n1, n2]) _ n5) (ok _ (by simp [n1, n2, n4]) _ n5) (ok _ (by simp [n1, n2]) _ n5)
    (ok _ (by simp [n1, n3]) _ n5) rfl (by decide +kernel)
  exact absurd (congrArg NodeId.dirs this.2) (by decide)

/-- A class in the runner's module called like a module beside it has the same effect. -/
theorem C104_class_counterexample :
    mangle (tx "d/run.py::test_run") (tx "d/run.py::other::test_a") = mangle (tx "d/run.py::test_run") (tx "d/other.py::test_a") := by
  decide +kernel

/-- It holds for tests in separate directories, in files not called `py.py`, with classes not called like modules. -/
theorem C104_distinct_partial {r i r' i' : NodeId} (hr : r.Ok) (hi : i.Ok) (hr' : r'.Ok) (hi' : i'.Ok)
    (hl : r.classes.length = r'.classes.length) (hs : Separate r i) (hs' : Separate r' i') (hf : i.file ≠ tx "py")
    (hf' : i'.file ≠ tx "py") (hc : ClassesApart i i') (hc' : ClassesApart i' i)
    (e : mangle r.text i.text = mangle r'.text i'.text) : r = r' ∧ i = i' := by
  obtain ⟨x, h1, h2, h3⟩ := mangle_segments hr hi hs
  obtain ⟨x', h1', h2', h3'⟩ := mangle_segments hr' hi' hs'
  have calm : ∀ {r i : NodeId} {x : List Text}, r.Ok → i.Ok → (∀ t ∈ x, Calm t) →
      ∀ t ∈ (r.path :: r.classes ++ [r.func]) ++ (x ++ (i.classes ++ [i.func])), Calm t := by
    intro r i x hr hi hx t ht
    simp only [List.cons_append, List.mem_append, List.mem_cons, List.not_mem_nil, or_false] at ht
    rcases ht with rfl | (ht | rfl) | ht | ht | rfl
    · exact path_calm hr
    · exact (hr.classes t ht).calm
    · exact hr.func
    · exact hx t ht
    · exact (hi.classes t ht).calm
    · exact hi.func
  rw [h1, h1'] at e
  have e := segments_inj (calm hr hi h2) (calm hr' hi' h2') (by simp) (by simp) e
  obtain ⟨e1, e2⟩ := List.append_inj e (by simp [hl])
  simp only [List.cons_append, List.cons.injEq] at e1
  obtain ⟨ep, e1⟩ := e1
  obtain ⟨ed, ef⟩ := path_inj hr hr' ep
  obtain ⟨ec, efn⟩ := List.append_inj e1 hl
  have er : r = r' := by
    cases r; cases r'
    simp only [NodeId.mk.injEq] at *
    exact ⟨ed, ef, ec, by simpa using efn⟩
  refine ⟨er, ?_⟩
  subst er
  clear e1 ep efn ec ed ef e
  have fin : ∀ i i' : NodeId, i.dirs = i'.dirs → i.file = i'.file →
      i.classes ++ [i.func] = i'.classes ++ [i'.func] → i = i' := by
    intro i i' h1 h2 h3
    have h4 := List.append_inj_left' h3 rfl
    have h5 := List.append_inj_right' h3 rfl
    cases i; cases i'
    simp only [NodeId.mk.injEq] at *
    exact ⟨h1, h2, h4, by simpa using h5⟩
  -- no class is a dotted name or a path
  have noclass : ∀ (i : NodeId) (t : Text) (rest : List Text), i.Ok → rest ≠ [] → i.classes ++ [i.func] = t :: rest →
      i.classes.head? = some t ∧ 46 ∉ t := by
    intro i t rest hi hn e
    cases hcl : i.classes with
    | nil => rw [hcl] at e; simp at e; exact absurd e.2.symm (Ne.symm hn)
    | cons c cs =>
      rw [hcl] at e
      simp only [List.cons_append, List.cons.injEq] at e
      exact ⟨by simp [e.1], by rw [← e.1]; exact (hi.classes c (by simp [hcl])).2.2.1⟩
  have nodots : ∀ (es : List Text) (f : Text), 46 ∉ joinWith [46] (es ++ [f]) → es = [] := by
    intro es f h
    cases es with
    | nil => rfl
    | cons a as =>
      exfalso; apply h
      rw [List.cons_append, joinWith_cons _ _ (by simp)]
      simp
  have pathdot : ∀ i : NodeId, 46 ∈ i.path := fun i => by simp [NodeId.path, py]
  -- a dotted name is not a path
  have dotpath : ∀ (i i' : NodeId) (es : List Text), i.Ok → i'.Ok → (∃ ds, i.dirs = ds ++ es) → i.file ≠ tx "py" →
      joinWith [46] (es ++ [i.file]) ≠ i'.path := by
    intro i i' es hi hi' hes hpy e
    have hn : ∀ t ∈ es ++ [i.file], Name t := by
      obtain ⟨ds, hds⟩ := hes
      intro t ht
      refine hi.names t ?_
      rw [hds, List.append_assoc]
      exact List.mem_append_right _ ht
    have h47 : 47 ∉ joinWith [46] (es ++ [i.file]) := by
      intro hm
      rcases mem_joinWith hm with hm | ⟨t, ht, hm⟩
      · simp at hm
      · exact (hn t ht).2.1 hm
    cases hd : i'.dirs with
    | cons d ds =>
      apply h47
      rw [e, NodeId.path, hd, List.cons_append, joinWith_cons _ _ (by simp)]
      simp
    | nil =>
      have e' : joinWith [46] (es ++ [i.file]) = joinWith [46] [i'.file, tx "py"] := by
        rw [e, NodeId.path, hd]
        simp only [List.nil_append, joinWith, List.append_assoc]
        rfl
      have := joinWith_inj (fun t ht => (hn t ht).2.2.1) (by
        intro t ht
        simp only [List.mem_cons, List.not_mem_nil, or_false] at ht
        rcases ht with rfl | rfl
        · exact hi'.file.2.2.1
        · decide) (by simp) (by simp) e'
      have := List.append_inj_right' (s₁ := es) (s₂ := [i'.file]) (t₁ := [i.file]) (t₂ := [tx "py"]) (by simpa using this) rfl
      exact hpy (by simpa using this)
  rcases h3 with ⟨rfl, hd, hfile⟩ | ⟨es, hes, rfl⟩ | ⟨rfl, hnp⟩
  · rcases h3' with ⟨rfl, hd', hfile'⟩ | ⟨es', hes', rfl⟩ | ⟨rfl, hnp'⟩
    · exact fin _ _ (hd.trans hd'.symm) (hfile.trans hfile'.symm) (by simpa using e2)
    · obtain ⟨q1, q2⟩ := noclass i _ (i'.classes ++ [i'.func]) hi (by simp) e2
      obtain rfl := nodots _ _ q2
      exact absurd rfl (hc _ q1)
    · obtain ⟨-, q2⟩ := noclass i _ (i'.classes ++ [i'.func]) hi (by simp) e2
      exact absurd (pathdot i') q2
  · rcases h3' with ⟨rfl, hd', hfile'⟩ | ⟨es', hes', rfl⟩ | ⟨rfl, hnp'⟩
    · obtain ⟨q1, q2⟩ := noclass i' _ (i.classes ++ [i.func]) hi' (by simp) e2.symm
      obtain rfl := nodots _ _ q2
      exact absurd rfl (hc' _ q1)
    · simp only [List.cons_append, List.nil_append, List.cons.injEq] at e2
      have hdot : ∀ {i : NodeId} {es : List Text}, i.Ok → i.dirs = r.dirs ++ es → ∀ t ∈ es ++ [i.file], 46 ∉ t := by
        intro i es hi hes t ht
        refine (hi.names t ?_).2.2.1
        rw [hes, List.append_assoc]
        exact List.mem_append_right _ ht
      have := joinWith_inj (hdot hi hes) (hdot hi' hes') (by simp) (by simp) e2.1
      have q1 := List.append_inj_left' this rfl
      have q2 := List.append_inj_right' this rfl
      exact fin _ _ (by rw [hes, hes', q1]) (by simpa using q2) e2.2
    · simp only [List.cons_append, List.nil_append, List.cons.injEq] at e2
      exact absurd e2.1 (dotpath i i' es hi hi' ⟨_, hes⟩ hf)
  · rcases h3' with ⟨rfl, hd', hfile'⟩ | ⟨es', hes', rfl⟩ | ⟨rfl, hnp'⟩
    · obtain ⟨-, q2⟩ := noclass i' _ (i.classes ++ [i.func]) hi' (by simp) e2.symm
      exact absurd (pathdot i) q2
    · simp only [List.cons_append, List.nil_append, List.cons.injEq] at e2
      exact absurd e2.1.symm (dotpath i' i es' hi' hi ⟨_, hes'⟩ hf')
    · simp only [List.cons_append, List.nil_append, List.cons.injEq] at e2
      obtain ⟨q1, q2⟩ := path_inj hi hi' e2.1
      exact fin _ _ q1 q2 e2.2

/-- A runner and two tests in different directories with a class each meet these conditions. -/
example :
    let r : NodeId := ⟨[tx "tests"], tx "run", [], tx "test_run[1]"⟩
    let i : NodeId := ⟨[tx "tests", tx "sub"], tx "test_x", [tx "TestA"], tx "test_a[1.5]"⟩
    let i' : NodeId := ⟨[tx "lib"], tx "test_x", [tx "TestA"], tx "test_a[1.5]"⟩
    r.Ok ∧ i.Ok ∧ i'.Ok ∧ Separate r i ∧ Separate r i' ∧ ClassesApart i i' ∧ ClassesApart i' i := by
  refine ⟨⟨by unfold Name; decide, by unfold Name; decide, by simp, calm_of_no_colon (by decide) (by decide)⟩,
    ⟨by unfold Name; decide, by unfold Name; decide, by unfold Name; decide, calm_of_no_colon (by decide) (by decide)⟩,
    ⟨by unfold Name; decide, by unfold Name; decide, by unfold Name; decide, calm_of_no_colon (by decide) (by decide)⟩,
    by unfold Separate; decide, by unfold Separate; decide, ?_, ?_⟩ <;>
  · intro c hc
    obtain rfl : tx "TestA" = c := by simpa using hc
    decide

/-- Some identifiers. -/
example : mangle (tx "tests/run.py::test_run[1]") (tx "tests/sub/test_x.py::TestA::test_a") =
      tx "tests/run.py::test_run[1]::sub.test_x::TestA::test_a" ∧
    mangle (tx "tests/run.py::test_run[1]") (tx "tests/run.py::test_a") = tx "tests/run.py::test_run[1]::test_a" ∧
    mangle (tx "tests/run.py::test_run[1]") (tx "lib/test_x.py::test_a") =
      tx "tests/run.py::test_run[1]::lib/test_x.py::test_a" := by decide +kernel

/-! ### C105: names in the result file -/

/-- The full claim: the `name` in the JUnit result file is that of the test function with its parameters. -/
def C105_name_full : Prop :=
  ∀ r i : NodeId, r.Ok → i.Ok → Separate r i → (junit (mangle r.text i.text)).2 = i.func

/-- A parameter with a dot, `test_a[1.5]`, gives the name `5]`. -/
theorem C105_name_counterexample : ¬ C105_name_full := by
  intro h
  have n1 : Name (tx "run") := by unfold Name; decide
  have c1 : Calm (tx "test_run") := calm_of_no_colon (by decide) (by decide)
  have c2 : Calm (tx "test_a[1.5]") := calm_of_no_colon (by decide) (by decide)
  have := h ⟨[], tx "run", [], tx "test_run"⟩ ⟨[], tx "run", [], tx "test_a[1.5]"⟩ ⟨by simp, n1, by simp, c1⟩
    ⟨by simp, n1, by simp, c2⟩ (fun _ => List.prefix_refl _)
  exact absurd this (by decide +kernel)

/-- It is, for all runners and tests, if the name with its parameters has no dots, slashes and colons. -/
theorem C105_name_partial {r i : NodeId} (hr : r.Ok) (hi : i.Ok) (hs : Separate r i) (hd : 46 ∉ i.func)
    (hsl : 47 ∉ i.func) (hc : 58 ∉ i.func) : (junit (mangle r.text i.text)).2 = i.func := by
  obtain ⟨x, h1, h2, -⟩ := mangle_segments hr hi hs
  rw [h1, ← List.append_assoc, ← List.append_assoc, joinWith_append _ (by simp) (by simp)]
  have calm : ∀ t ∈ r.path :: r.classes ++ [r.func] ++ x ++ i.classes, Calm t := by
    intro t ht
    simp only [List.cons_append, List.mem_append, List.mem_cons, List.not_mem_nil, or_false] at ht
    rcases ht with rfl | ((ht | rfl) | ht) | ht
    · exact path_calm hr
    · exact (hr.classes t ht).calm
    · exact hr.func
    · exact h2 t ht
    · exact (hi.classes t ht).calm
  refine junit_name ?_ hd hsl hc
  generalize r.path :: r.classes ++ [r.func] ++ x ++ i.classes = l at calm
  induction l with
  | nil => simp [joinWith]
  | cons a l ih =>
    cases l with
    | nil => exact (calm a (by simp)).2.2
    | cons b l =>
      have ih := ih fun t ht => calm t (List.mem_cons_of_mem _ ht)
      rw [joinWith_cons2 _ a b l, List.getLast?_append]
      intro hx
      cases hg : (joinWith [58, 58] (b :: l)).getLast? with
      | none =>
        have hb := (calm b (by simp)).1
        rw [List.getLast?_eq_none_iff] at hg
        cases l with
        | nil => exact hb hg
        | cons c l => simp [joinWith, hb] at hg
      | some c =>
        rw [hg] at hx ih
        simp at hx
        exact ih (by rw [hx])

/-- A test with parameters. -/
example : junit (tx "tests/run.py::test_run::sub.test_x::test_a[1-b]") = (tx "tests.run.test_run.sub.test_x", tx "test_a[1-b]") := by
  decide +kernel

/-- Different tests can have the same class and name there. -/
theorem C105_distinct_counterexample :
    tx "a/b.py::test_c" ≠ tx "a.py::b::test_c" ∧ junit (tx "a/b.py::test_c") = junit (tx "a.py::b::test_c") := by
  decide +kernel

end Verif
