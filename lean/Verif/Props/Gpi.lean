import Verif.Lemmas.GpiExample
import Verif.Lemmas.GpiSafe
/-!
# Properties of the object layer of the GPI
-/
namespace Verif
open Verif.Gpi

/-! ### C91: one handle for one object -/

/-- The full claim: two calls that give objects with the same full name give the same handle. -/
def C91_identity_full : Prop :=
  ∀ (D : List Impl) (ops : List Op) (s : St) (outs : List (Op × Res)), run D St.init ops = some (s, outs) →
    .finalize ∉ ops → ∀ op₁ r₁ o₁ op₂ r₂ o₂, (op₁, Res.handle r₁) ∈ outs → (op₂, Res.handle r₂) ∈ outs →
      s.get r₁ = some o₁ → s.get r₂ = some o₂ → (o₁.full = o₂.full ↔ r₁ = r₂)

/-- A lookup with `discovery_method=NATIVE` gives a new handle every time. -/
theorem C91_identity_counterexample : ¬ C91_identity_full := by
  intro h
  have hr : run [vpiImpl icarus smallVpi 0] St.init
      [.root none, .byName 0 (nm "s") .native, .byName 0 (nm "s") .native] =
      some (⟨[{ impl := 0, hdl := 0, type := .module, name := nm "top", full := nm "top" },
          { impl := 0, hdl := 1, type := .logic, numElems := 1, left := 0, right := 0, dir := .up, name := nm "s",
            full := nm "top.s" },
          { impl := 0, hdl := 1, type := .logic, numElems := 1, left := 0, right := 0, dir := .up, name := nm "s",
            full := nm "top.s" }], [], [(nm "top", 0)], []⟩,
        [(.root none, .handle 0), (.byName 0 (nm "s") .native, .handle 1), (.byName 0 (nm "s") .native, .handle 2)]) := by
    decide +kernel
  have := (h _ _ _ _ hr (by simp) (.byName 0 (nm "s") .native) 1 _ (.byName 0 (nm "s") .native) 2 _ (by simp) (by simp)
    rfl rfl).mp rfl
  exact absurd this (by decide)

/-- Without NATIVE lookups, whatever was looked up before and by whatever route (by name, by index, by iteration, as
toplevel), two calls give the same handle exactly if the objects have the same full name. -/
theorem C91_identity_partial {D : List Impl} {ops : List Op} {s : St} {outs : List (Op × Res)}
    (h : run D St.init ops = some (s, outs)) (hf : .finalize ∉ ops) {op₁ op₂ : Op} {r₁ r₂ : Nat} {o₁ o₂ : Obj}
    (h₁ : (op₁, Res.handle r₁) ∈ outs) (h₂ : (op₂, Res.handle r₂) ∈ outs)
    (n₁ : ∀ p n, op₁ ≠ .byName p n .native) (n₂ : ∀ p n, op₂ ≠ .byName p n .native)
    (g₁ : s.get r₁ = some o₁) (g₂ : s.get r₂ = some o₂) : o₁.full = o₂.full ↔ r₁ = r₂ := by
  have st : ∀ op r, (op, Res.handle r) ∈ outs → (∀ p n, op ≠ .byName p n .native) → op.stored = true := by
    intro op r hm hn
    cases op with
    | byName p n d =>
      cases d with
      | auto => rfl
      | native => exact absurd rfl (hn p n)
    | finalize =>
      exact absurd (List.mem_map_of_mem (f := Prod.fst) hm) (by rw [run_ops h]; exact hf)
    | _ => rfl
  have I := run_inv h inv_init
  obtain ⟨f₁, m₁⟩ := run_stored h inv_init hf h₁ (st _ _ h₁ n₁)
  obtain ⟨f₂, m₂⟩ := run_stored h inv_init hf h₂ (st _ _ h₂ n₂)
  obtain ⟨o, e, rfl⟩ := I.get m₁
  rw [g₁] at e; cases e
  obtain ⟨o, e, rfl⟩ := I.get m₂
  rw [g₂] at e; cases e
  constructor
  · intro e
    have a := dictGet_of_mem I.nodup m₁
    rw [e, dictGet_of_mem I.nodup m₂] at a
    exact (Option.some.inj a).symm
  · rintro rfl
    rw [g₁] at g₂; cases g₂; rfl

/-- A handle that was given stays valid and stands for the same object until the end of the simulation, whatever is
looked up later. -/
theorem C91_stays {D : List Impl} {s s' : St} {ops : List Op} {outs : List (Op × Res)} (h : run D s ops = some (s', outs))
    (hf : .finalize ∉ ops) {r : Nat} {o : Obj} (hg : s.get r = some o) : s'.get r = some o := run_get h hf hg

/-- Every handle that was given is valid right after the call. -/
theorem C91_valid {D : List Impl} {ops : List Op} {s : St} {outs : List (Op × Res)} (h : run D St.init ops = some (s, outs))
    (hf : .finalize ∉ ops) {op : Op} {r : Nat} (hm : (op, Res.handle r) ∈ outs) : (s.get r).isSome := by
  exact run_valid h inv_init hf hm

/-- The end of the simulation invalidates the handles (other than NATIVE ones). -/
theorem C91_finalize {D : List Impl} {ops : List Op} {s s' : St} {outs : List (Op × Res)}
    (h : run D St.init ops = some (s, outs)) (hf : .finalize ∉ ops) {op : Op} {r : Nat} (hm : (op, Res.handle r) ∈ outs)
    (hn : ∀ p n, op ≠ .byName p n .native) {x : Res} (he : exec D s .finalize = some (s', x)) : s'.get r = none := by
  have hs : op.stored = true := by
    cases op with
    | byName p n d =>
      cases d with
      | auto => rfl
      | native => exact absurd rfl (hn p n)
    | finalize => exact absurd (List.mem_map_of_mem (f := Prod.fst) hm) (by rw [run_ops h]; exact hf)
    | _ => rfl
  obtain ⟨f, hmap⟩ := run_stored h inv_init hf hm hs
  simp only [exec] at he
  cases he
  unfold St.get
  rw [if_pos]
  exact List.mem_append_left _ (List.mem_map.mpr ⟨(f, r), hmap, rfl⟩)

/-- A design, four routes to the same objects, one handle each. -/
example : (run [vpiImpl icarus smallVpi 0] St.init
    [.root none, .byName 0 (nm "g") .auto, .byIndex 1 0, .iterate (some 1) .objects, .next 0, .iterate (some 0) .objects,
      .next 1, .next 1, .root (some (nm "top"))]).map (·.2) =
    some [(.root none, .handle 0), (.byName 0 (nm "g") .auto, .handle 1), (.byIndex 1 0, .handle 2),
      (.iterate (some 1) .objects, .iter 0), (.next 0, .handle 2), (.iterate (some 0) .objects, .iter 1),
      (.next 1, .handle 4), (.next 1, .handle 1), (.root (some (nm "top")), .handle 0)] := by decide +kernel

/-! ### C92: what a lookup gives does not depend on earlier lookups -/

/-- The full claim: the handle a lookup by name gives carries what the simulator answers for this name in this
object, whatever was looked up before. -/
def C92_history_full : Prop :=
  ∀ (c : Flavor) (V : Vpi) (ops : List Op) (s : St) (outs : List (Op × Res)),
    run [vpiImpl c V 0] St.init ops = some (s, outs) → .finalize ∉ ops →
    ∀ p n po r o, (.byName p n .auto, Res.handle r) ∈ outs → s.get p = some po → s.get r = some o →
      vpiByName c V 0 n po = some o

/-- After `dut["u1.u2"]`, which makes an object of the wrong type under the full name `top.u1.u2`, the lookup
`dut.u1.u2` gives this object: a generate block instead of a module. -/
theorem C92_history_counterexample : ¬ C92_history_full := by
  intro h
  have hr : run [vpiImpl icarus nestedVpi 0] St.init
      [.root none, .byName 0 (nm "u1.u2") .auto, .byName 0 (nm "u1") .auto, .byName 2 (nm "u2") .auto] =
      some (⟨[{ impl := 0, hdl := 0, type := .module, name := nm "top", full := nm "top" },
          { impl := 0, hdl := 2, type := .genArray, name := nm "u1.u2", full := nm "top.u1.u2" },
          { impl := 0, hdl := 1, type := .module, name := nm "u1", full := nm "top.u1" },
          { impl := 0, hdl := 2, type := .module, name := nm "u2", full := nm "top.u1.u2" }], [3],
          [(nm "top", 0), (nm "top.u1.u2", 1), (nm "top.u1", 2)], []⟩,
        [(.root none, .handle 0), (.byName 0 (nm "u1.u2") .auto, .handle 1), (.byName 0 (nm "u1") .auto, .handle 2),
          (.byName 2 (nm "u2") .auto, .handle 1)]) := by decide +kernel
  have := h icarus nestedVpi _ _ _ hr (by simp) 2 (nm "u2") _ 1 _ (by simp) rfl rfl
  exact absurd this (by decide +kernel)

/-- Also two objects the simulator has no bounds for get one handle: both are called `unknown`. -/
theorem C92_unknown_counterexample : ¬ C92_history_full := by
  intro h
  have hr : run [vpiImpl icarus noBoundsVpi 0] St.init
      [.root none, .byName 0 (nm "a") .auto, .byName 0 (nm "b") .auto] =
      some (⟨[{ impl := 0, hdl := 0, type := .module, name := nm "top", full := nm "top" },
          { impl := 0, hdl := 1, type := .array }, { impl := 0, hdl := 2, type := .array }], [2],
          [(nm "top", 0), (nm "unknown", 1)], []⟩,
        [(.root none, .handle 0), (.byName 0 (nm "a") .auto, .handle 1), (.byName 0 (nm "b") .auto, .handle 1)]) := by
    decide +kernel
  have := h icarus noBoundsVpi _ _ _ hr (by simp) 0 (nm "b") _ 1 _ (by simp) rfl rfl
  exact absurd this (by decide +kernel)

/-- With simple names, in a simulator that lists what it finds by name, every handle stands for one place in the
design, the same whatever was looked up before: it has the type, bounds and name a direct lookup of that place gives,
different handles stand for different places, and each call gives the handle of the place it asks for, or nothing if a
direct lookup finds nothing. -/
theorem C92_history_partial {c : Flavor} {V : Vpi} (C : Consistent c V) {ops : List Op} {s : St} {outs : List (Op × Res)}
    (h : run [vpiImpl c V 0] St.init ops = some (s, outs)) (P : Plain s ops) (hu : ∀ o ∈ s.objs, o.full ≠ unknownName) :
    ∃ path : Nat → Path,
      (∀ r o, s.get r = some o → (path r).Ok ∧ direct c V (path r) = some o ∧ o.full = (path r).text) ∧
      (∀ r r' o o', s.get r = some o → s.get r' = some o' → path r = path r' → r = r') ∧
      ∀ op res, (op, res) ∈ outs → Right c V path op res := by
  obtain ⟨j, _, hR⟩ := run_right C j_init h P hu
  have hex : ∀ r, ∃ q : Path, ∀ o, s.get r = some o → At c V s r q := by
    intro r
    cases hr : s.get r with
    | none => exact ⟨.root [], by intro o e; cases e⟩
    | some o =>
      obtain ⟨q, hq, _⟩ := j.at hr
      exact ⟨q, fun _ _ => hq⟩
  obtain ⟨path, hpath⟩ := Classical.axiomOfChoice hex
  refine ⟨path, ?_, ?_, ?_⟩
  · intro r o hr
    obtain ⟨o', h1, h2⟩ := hpath r o hr
    rw [hr] at h1; cases h1
    exact h2
  · intro r r' o o' hr hr' e
    have a := hpath r o hr
    rw [e] at a
    exact j.inj a (hpath r' o' hr')
  · refine hR path ?_
    intro q p hq
    obtain ⟨o, ho, hof⟩ := hq
    exact (hpath q o ho).uniq ⟨o, ho, hof⟩

/-- Simulators that follow the naming rules are consistent. -/
theorem C92_regular {c : Flavor} {V : Vpi} (R : Regular c V) (hn : ∀ h ∈ V.modules.getD [], V.fullName h ≠ none)
    (hr : ∀ o, Item.native o ∈ rootItems V 0 → Simple o.full ∧ vpiRoot V 0 (some o.full) = some o)
    (hp : ∀ o, Item.native o ∈ packageItems V 0 → ∃ n, Simple n ∧ direct c V (.package n) = some o) : Consistent c V :=
  R.consistent hn hr hp

/-- Two histories of lookups that reach the same place see the same object. -/
theorem C92_two_histories {c : Flavor} {V : Vpi} (C : Consistent c V) {ops₁ ops₂ : List Op} {s₁ s₂ : St}
    {outs₁ outs₂ : List (Op × Res)}
    (h₁ : run [vpiImpl c V 0] St.init ops₁ = some (s₁, outs₁)) (P₁ : Plain s₁ ops₁) (u₁ : ∀ o ∈ s₁.objs, o.full ≠ unknownName)
    (h₂ : run [vpiImpl c V 0] St.init ops₂ = some (s₂, outs₂)) (P₂ : Plain s₂ ops₂) (u₂ : ∀ o ∈ s₂.objs, o.full ≠ unknownName)
    {r₁ r₂ : Nat} {o₁ o₂ : Obj} (g₁ : s₁.get r₁ = some o₁) (g₂ : s₂.get r₂ = some o₂) (e : o₁.full = o₂.full) : o₁ = o₂ := by
  obtain ⟨j₁, _, _⟩ := run_right C j_init h₁ P₁ u₁
  obtain ⟨j₂, _, _⟩ := run_right C j_init h₂ P₂ u₂
  obtain ⟨q₁, _, a₁⟩ := j₁.at g₁
  obtain ⟨q₂, _, a₂⟩ := j₂.at g₂
  exact (a₁.uniq a₂ e).2

/-- `dut`, its objects, `dut.g`, `dut.g[0]`, and iterating over `dut.g`. -/
def exampleOps : List Op :=
  [.root none, .iterate (some 0) .objects, .next 0, .next 0, .byName 0 (nm "g") .auto, .byIndex 2 0,
    .iterate (some 2) .objects, .next 1]

def exampleSt : St :=
  ⟨[{ impl := 0, hdl := 0, type := .module, name := nm "top", full := nm "top" },
    { impl := 0, hdl := 1, type := .logic, numElems := 1, left := 0, right := 0, dir := .up, name := nm "s", full := nm "top.s" },
    { impl := 0, hdl := 0, type := .genArray, name := nm "g", full := nm "top.g" },
    { impl := 0, hdl := 0, type := .genArray, name := nm "g", full := nm "top.g" },
    { impl := 0, hdl := 2, type := .module, name := nm "g[0]", full := nm "top.g[0]" },
    { impl := 0, hdl := 2, type := .module, name := nm "g[0]", full := nm "top.g[0]" }], [5, 3],
   [(nm "top", 0), (nm "top.s", 1), (nm "top.g", 2), (nm "top.g[0]", 4)],
   [some ⟨0, some 0, []⟩, some ⟨0, some 2, []⟩]⟩

/-- The example design meets the hypotheses, with a history that uses every kind of call. -/
example : Consistent icarus smallVpi ∧
    run [vpiImpl icarus smallVpi 0] St.init exampleOps = some (exampleSt, exampleOps.zip
      [.handle 0, .iter 0, .handle 1, .handle 2, .handle 2, .handle 4, .iter 1, .handle 4]) ∧
    Plain exampleSt exampleOps ∧ (∀ o ∈ exampleSt.objs, o.full ≠ unknownName) := by
  refine ⟨small_consistent, by decide +kernel, ⟨by decide, ?_, ?_, ?_⟩, by decide +kernel⟩
  · intro p n d hm
    simp only [exampleOps, List.mem_cons, List.not_mem_nil, reduceCtorEq, Op.byName.injEq, false_or, or_false] at hm
    obtain ⟨rfl, rfl, rfl⟩ := hm
    exact ⟨rfl, by decide +kernel⟩
  · intro p n d o hm hg
    simp only [exampleOps, List.mem_cons, List.not_mem_nil, reduceCtorEq, Op.byName.injEq, false_or, or_false] at hm
    obtain ⟨rfl, rfl, rfl⟩ := hm
    have e : exampleSt.get 0 = some { impl := 0, hdl := 0, type := .module, name := nm "top", full := nm "top" } := rfl
    rw [e] at hg; cases hg; decide
  · intro p o hm hg
    simp only [exampleOps, List.mem_cons, List.not_mem_nil, reduceCtorEq, Op.iterate.injEq, Option.some.injEq, and_true,
      false_or, or_false] at hm
    rcases hm with rfl | rfl
    · have e : exampleSt.get 0 = some { impl := 0, hdl := 0, type := .module, name := nm "top", full := nm "top" } := rfl
      rw [e] at hg; cases hg; decide
    · have e : exampleSt.get 2 = some { impl := 0, hdl := 0, type := .genArray, name := nm "g", full := nm "top.g" } := rfl
      rw [e] at hg; cases hg; decide

/-! ### C93: what is not there is not found -/

/-- The full claim: a lookup by name finds something only if the simulator knows the full name or the object has a
generate block of that name. -/
def C93_absent_full : Prop :=
  ∀ (c : Flavor) (V : Vpi) (p o : Obj) (n : Text), vpiByName c V 0 n p = some o →
    (V.byName (p.full ++ delim p ++ n)).isSome ∨
      ∃ h ∈ (V.iter .internalScope p.hdl).getD [], ∃ i, V.name h = some (n ++ lbr :: (decInt i ++ [93]))

/-- `dut["g[7]"]` gives an object when the block `g` has only the element 0. -/
theorem C93_absent_counterexample : ¬ C93_absent_full := by
  intro h
  have hl : vpiByName icarus smallVpi 0 (nm "g[7]") { impl := 0, hdl := 0, type := .module, name := nm "top", full := nm "top" } =
      some { impl := 0, hdl := 0, type := .genArray, name := nm "g[7]", full := nm "top.g[7]" } := by decide +kernel
  rcases h _ _ _ _ _ hl with h | ⟨x, hx, i, hi⟩
  · exact absurd h (by decide +kernel)
  · have : x = 2 := by simpa [smallVpi] using hx
    subst this
    have hn : smallVpi.name 2 = some (nm "g[0]") := rfl
    rw [hn] at hi
    have hc := congrArg (List.count lbr) (Option.some.inj hi)
    rw [List.count_append] at hc
    have e1 : List.count lbr (nm "g[0]") = 1 := by decide
    have e2 : List.count lbr (nm "g[7]") = 1 := by decide
    rw [e1, e2, List.count_cons_self] at hc
    omega

/-- For names without a bracket: something is found only if the simulator knows the full name or the object has a
scope whose name without its index is the name. -/
theorem C93_absent_partial {c : Flavor} {V : Vpi} {p o : Obj} {n : Text} (hn : lbr ∉ n) (he : n ≠ []) (h : vpiByName c V 0 n p = some o) :
    (V.byName (p.full ++ delim p ++ n)).isSome ∨
      ∃ h ∈ (V.iter .internalScope p.hdl).getD [], ∃ m, V.name h = some m ∧ label m = n ∧
        (V.type h = some .genScope ∨ V.type h = some .module) := by
  unfold vpiByName resolveName at h
  rcases hb : V.byName (p.full ++ delim p ++ n) with _ | x
  · right
    rw [hb] at h
    by_cases hi : c.ius = true
    · simp [hi] at h
    · simp only [hi, Bool.false_eq_true, if_false] at h
      split at h
      · cases h
      · rename_i h' hm
        rw [Option.map_eq_some_iff] at hm
        obtain ⟨y, hy, _⟩ := hm
        split at hy
        · rename_i ha
          rw [List.any_eq_true] at ha
          obtain ⟨z, hz, hc⟩ := ha
          simp only [Bool.and_eq_true] at hc
          have hlab : label ((V.name z).getD []) = n := by
            have := hc.2
            unfold sameLabel at this
            rw [beq_iff_eq] at this
            rw [this]
            unfold label
            rw [cutLast_none hn]
          cases hz' : V.name z with
          | none =>
            rw [hz', Option.getD_none] at hlab
            exact absurd hlab.symm he
          | some m =>
            rw [hz'] at hlab
            exact ⟨z, hz, m, hz', hlab, mem_iff_type hc.1⟩
        · cases hy
  · exact Or.inl rfl

/-- `g` is found in `top` as a block, `x` is not. -/
example : vpiByName icarus smallVpi 0 (nm "g") { impl := 0, hdl := 0, type := .module, name := nm "top", full := nm "top" } =
      some { impl := 0, hdl := 0, type := .genArray, name := nm "g", full := nm "top.g" } ∧
    vpiByName icarus smallVpi 0 (nm "x") { impl := 0, hdl := 0, type := .module, name := nm "top", full := nm "top" } = none := by
  decide +kernel

/-- An index lookup finds something only if the simulator knows the element by its index or its full name (with all
digits of the index), or the index is within the bounds of an array with several dimensions. Generate blocks have only
the elements the simulator knows, and objects other than signals, arrays and generate blocks have none. -/
theorem C93_index {c : Flavor} {V : Vpi} {p o : Obj} {i : Int} (hi : isInt32 i = true) (h : vpiByIndex c V 0 i p = some o) :
    (p.type = .genArray ∧ (V.byName (p.full ++ lbr :: (decInt i ++ [93]))).isSome) ∨
    ((p.type = .logic ∨ p.type = .logicArray ∨ p.type = .array ∨ p.type = .string) ∧
      ((V.byIndex p.hdl i).isSome ∨
        ((p.dir = .up → p.left ≤ i ∧ i ≤ p.right) ∧ (p.dir ≠ .up → p.right ≤ i ∧ i ≤ p.left) ∧
          ((V.byName (p.full ++ lbr :: (decInt i ++ [93]))).isSome ∨
            ∃ rs, V.ranges p.hdl = some rs ∧ 1 < rs.length)))) := by
  unfold vpiByIndex at h
  split at h
  · cases h
  · rename_i h' hr
    unfold resolveIndex at hr
    rw [idxText_eq hi] at hr
    split at hr
    · rename_i hg
      exact Or.inl ⟨hg, by rw [hr]; rfl⟩
    all_goals first
      | cases hr
      | (rename_i hty
         refine Or.inr ⟨by simp [hty], ?_⟩
         split at hr
         · rename_i hx; exact Or.inl (by rw [hx]; rfl)
         · right
           dsimp only at hr
           split at hr
           · cases hr
           · rename_i hb
             refine ⟨?_, ?_, ?_⟩
             · intro hd
               simp only [hd, decide_true, Bool.true_and, Bool.not_true, Bool.false_and, Bool.or_false, Bool.or_eq_true,
                 decide_eq_true_eq, not_or] at hb
               omega
             · intro hd
               simp only [hd, decide_false, Bool.false_and, Bool.not_false, Bool.true_and, Bool.false_or, Bool.or_eq_true,
                 decide_eq_true_eq, not_or] at hb
               omega
             · split at hr
               · rename_i hx; exact Or.inl (by rw [hx]; rfl)
               · right
                 cases hrs : V.ranges p.hdl with
                 | some rs =>
                   refine ⟨rs, rfl, ?_⟩
                   rw [hrs] at hr
                   dsimp only at hr
                   split at hr
                   · omega
                   · cases hr
                 | none =>
                   rw [hrs] at hr
                   dsimp only at hr
                   split at hr
                   · omega
                   · cases hr)

/-- An index that does not fit into 32 bits raises OverflowError instead of naming another element. -/
theorem C93_overflow (D : List Impl) (s : St) (p : Nat) (po : Obj) (i : Int) (hp : s.get p = some po) :
    exec D s (.byIndex p i) = some (s, .overflow) ∨ isInt32 i = true := by
  by_cases h : isInt32 i = true
  · exact Or.inr h
  · left
    simp only [exec, hp, h, Bool.false_eq_true, if_false]

/-- Element 0 of the block is found, element 1 is not. -/
example : let g : Obj := { impl := 0, hdl := 0, type := .genArray, name := nm "g", full := nm "top.g" }
    (vpiByIndex icarus smallVpi 0 0 g).map (·.full) = some (nm "top.g[0]") ∧ vpiByIndex icarus smallVpi 0 1 g = none := by
  decide +kernel

/-! ### C94: iterating over an object lists what lookups find -/

/-- The full claim: a generate block listed in an instance is a generate block. -/
def C94_listing_full : Prop :=
  ∀ (c : Flavor) (V : Vpi) (p o : Obj) (h : H) (b : Text) (i : Int), p.type = .module → V.type p.hdl = some .module →
    h ∈ (V.iter .internalScope p.hdl).getD [] → V.type h = some .genScope → Simple b → isInt32 i = true →
    V.name h = some (b ++ lbr :: (decInt i ++ [93])) → scanItem c V 0 p .internalScope h = .native o →
    o.type = .genArray

/-- A generate block named like the instance it is in is listed as a second handle of the instance itself. -/
theorem C94_listing_counterexample : ¬ C94_listing_full := by
  intro h
  have := h icarus sameNameVpi { impl := 0, hdl := 0, type := .module, name := nm "top", full := nm "top" }
    { impl := 0, hdl := 0, type := .module, name := nm "top", full := nm "top.top" } 1 (nm "top") 0 rfl rfl (by decide) rfl
    (by decide +kernel) (by decide) (by decide +kernel) (by decide +kernel)
  exact absurd this (by decide)

/-- In a regular simulator everything an iteration gives is what a lookup of its place, step by step by name and index,
gives: the same object with the same type, bounds and name. -/
theorem C94_listing_partial {c : Flavor} {V : Vpi} (R : Regular c V) {p : Path} {o : Obj} {l : List Item} (hp : p.Ok)
    (h : direct c V p = some o) (hf : o.full = p.text) (hs : o.type.scope = true)
    (hl : vpiItems c V 0 (some o) .objects = .items l) {o' : Obj} (hm : Item.native o' ∈ l) (hu : o'.full ≠ unknownName) :
    ∃ q : Path, q.Ok ∧ direct c V q = some o' ∧ o'.full = q.text := regular_objects R hp h hf hs hl hm hu

/-- Iterating over a generate block `b` of the object at `p` gives, in the simulator's order, exactly the elements of
`b` the simulator lists: one object for every scope whose name is `b` with an index, under its own full name. -/
theorem C94_block_elements {c : Flavor} {V : Vpi} (R : Regular c V) {p : Path} {b : Text} {o po : Obj} {l : List Item}
    (hp : (Path.child p b).Ok) (h : direct c V (.child p b) = some o) (hf : o.full = (Path.child p b).text)
    (hg : o.type = .genArray) (hpo : direct c V p = some po) (hl : vpiItems c V 0 (some o) .objects = .items l) (hne : l ≠ []) :
    l = (((V.iter .internalScope po.hdl).getD []).filter fun h =>
          isRegion V h && (label ((V.name h).getD []) == b)).map (fun h =>
        match createObj c V 0 h ((V.name h).getD []) ((Path.child p b).text ++ ((V.name h).getD []).drop b.length) with
        | some o' => Item.native o'
        | none => .notNative ((V.name h).getD [])) := by
  obtain ⟨p', b', po', e, hpo', hng, hpf, hhdl, hnm, hblock⟩ := genArray_shape R hp h hf hg
  cases e
  rw [hpo] at hpo'; cases hpo'
  simp only [vpiItems] at hl
  split at hl
  · rename_i l' hl'
    cases hl
    unfold scanAll at hl'
    split at hl'
    · cases hl'; exact absurd rfl hne
    · rw [if_pos hg] at hl'
      split at hl'
      · cases hl'
        rw [hhdl, List.map_map]
        have hfil : ∀ x, (isRegion V x && sameLabel ((V.name x).getD []) o.name) =
            (isRegion V x && (label ((V.name x).getD []) == b)) := by
          intro x
          rw [hnm]
          unfold sameLabel
          rw [label_simple hp.2]
        rw [List.filter_congr (fun x _ => hfil x)]
        apply List.map_congr_left
        intro x hx
        rw [List.mem_filter, Bool.and_eq_true, beq_iff_eq] at hx
        obtain ⟨hmem, hreg, hlab⟩ := hx
        obtain ⟨n, hn, hcase⟩ := R.region p po x hp.1 hpo hng hmem hreg
        rcases hcase with ⟨hsim, hby⟩ | ⟨b', i, hb', hi, rfl, hby, _, _⟩
        · exfalso
          rw [hn, Option.getD_some, label_simple hsim] at hlab
          subst hlab
          have := hblock x hby
          rcases mem_iff_type hreg with e | e <;> rw [this] at e <;> cases e
        · rw [hn, Option.getD_some, label_elem] at hlab
          subst hlab
          have hsc : scanned V o .internalScope x (b' ++ lbr :: (decInt i ++ [93])) =
              (b' ++ lbr :: (decInt i ++ [93]), x) := by
            unfold scanned; rw [if_neg (by simp [hg])]
          have hsn : scannedNames o (b' ++ lbr :: (decInt i ++ [93])) =
              (b' ++ lbr :: (decInt i ++ [93]), o.full ++ lbr :: (decInt i ++ [93])) := by
            unfold scannedNames; rw [if_pos hg, cutLast_elem]
          simp only [Function.comp_apply, scanItem, hn, Option.getD_some, hsc, hsn, List.drop_left, hf]
          rfl
      · cases hl'
  · cases hl

/-- The example design is regular; its block has one element. -/
example : Regular icarus smallVpi ∧
    direct icarus smallVpi (.child (.root (nm "top")) (nm "g")) =
      some { impl := 0, hdl := 0, type := .genArray, name := nm "g", full := nm "top.g" } ∧
    vpiItems icarus smallVpi 0 (some { impl := 0, hdl := 0, type := .genArray, name := nm "g", full := nm "top.g" }) .objects =
      .items [.native { impl := 0, hdl := 2, type := .module, name := nm "g[0]", full := nm "top.g[0]" }] :=
  ⟨small_regular, by decide +kernel, by decide +kernel⟩

/-! ### C95: which simulator interface answers -/

/-- With several interfaces (for example VHPI and VPI) a lookup by name is answered by the interface the parent came
from if it knows the name, else by the first registered one that does; it fails only if none does. -/
theorem C95_search {D : List Impl} {p : Obj} (hp : p.impl < D.length) (n : Text) (o : Obj) :
    childByName D p n none = some o ↔
      ∃ k I, D[k]? = some I ∧ I.byName n p = some o ∧
        (k = p.impl ∨ (∀ J, D[p.impl]? = some J → J.byName n p = none) ∧ ∀ j J, j < k → D[j]? = some J → J.byName n p = none) := by
  have hf : ∀ (l : List Nat) (f : Nat → Option Obj), l.findSome? f = some o ↔
      ∃ pre k post, l = pre ++ k :: post ∧ f k = some o ∧ ∀ j ∈ pre, f j = none := by
    intro l f
    rw [List.findSome?_eq_some_iff]
  have hlen : ∀ k I, D[k]? = some I → k < D.length := fun k I h => (List.getElem?_eq_some_iff.mp h).1
  unfold childByName searchOrder
  simp only [reduceCtorEq, if_false, List.singleton_append, List.findSome?_cons]
  obtain ⟨I, hI⟩ : ∃ I, D[p.impl]? = some I := ⟨D[p.impl], by simp [hp]⟩
  rw [hI]
  simp only [Option.bind_some]
  cases hb : I.byName n p with
  | some o' =>
    simp only
    constructor
    · intro h; cases h; exact ⟨p.impl, I, hI, hb, Or.inl rfl⟩
    · rintro ⟨k, J, hJ, hbJ, hk⟩
      rcases hk with rfl | ⟨hk, _⟩
      · rw [hI] at hJ; cases hJ; rw [hb] at hbJ; exact hbJ
      · have := hk I rfl; rw [hb] at this; cases this
  | none =>
    simp only
    rw [hf]
    constructor
    · rintro ⟨pre, k, post, hl, hk, hpre⟩
      obtain ⟨J, hJ, hbJ⟩ := Option.bind_eq_some_iff.mp hk
      refine ⟨k, J, hJ, hbJ, Or.inr ⟨fun J' e => by cases e; exact hb, ?_⟩⟩
      intro j J' hj hJ'
      by_cases hjo : j = p.impl
      · subst hjo; rw [hI] at hJ'; cases hJ'; exact hb
      · have hmem : j ∈ (List.range D.length).filter fun k => decide (k ≠ p.impl) := by
          rw [List.mem_filter]
          exact ⟨List.mem_range.mpr (hlen j J' hJ'), by simpa using hjo⟩
        have hsorted : ((List.range D.length).filter fun k => decide (k ≠ p.impl)).Pairwise (· < ·) :=
          List.Pairwise.filter _ List.pairwise_lt_range
        have hl' : ((List.range D.length).filter fun k => decide (k ≠ p.impl)) = pre ++ k :: post := by simpa using hl
        rw [hl'] at hmem hsorted
        rw [List.mem_append, List.mem_cons] at hmem
        rcases hmem with hmem | rfl | hmem
        · have := hpre j hmem
          rw [hJ'] at this; exact this
        · omega
        · have := (List.pairwise_append.mp hsorted).2.1
          have := (List.pairwise_cons.mp this).1 j hmem
          omega
    · rintro ⟨k, J, hJ, hbJ, hk⟩
      have hko : k ≠ p.impl := by rintro rfl; rw [hI] at hJ; cases hJ; rw [hb] at hbJ; cases hbJ
      have hmem : k ∈ (List.range D.length).filter fun k => decide (k ≠ p.impl) := by
        rw [List.mem_filter]
        exact ⟨List.mem_range.mpr (hlen k J hJ), by simpa using hko⟩
      obtain ⟨pre, post, hl⟩ := List.append_of_mem hmem
      have hsorted : ((List.range D.length).filter fun k => decide (k ≠ p.impl)).Pairwise (· < ·) :=
        List.Pairwise.filter _ List.pairwise_lt_range
      rw [hl] at hsorted
      refine ⟨pre, k, post, by simpa using hl, by rw [hJ]; exact hbJ, ?_⟩
      intro j hj
      have hjk : j < k := (List.pairwise_append.mp hsorted).2.2 j hj k (by simp)
      rcases hk with rfl | ⟨_, hk⟩
      · exact absurd rfl hko
      · cases hDj : D[j]? with
        | none => rfl
        | some J' => exact hk j J' hjk hDj

/-- `next` on an iterator gives the first answer of the interface that stands for an object, its own or one another
interface finds; the answers before it stand for none and are skipped, the ones after it are left. At the end of the
iteration none of the answers stood for an object. -/
theorem C95_next {D : List Impl} {p : Option Obj} {impl : Nat} {l : List Item}
    {r : Option (List Item × Obj)} (h : nextLoop D p impl l = some r) :
    (∀ rest o, r = some (rest, o) → ∃ pre x, l = pre ++ x :: rest ∧ resolved D p impl x o ∧
      ∀ y ∈ pre, ∀ o', ¬ resolved D p impl y o') ∧
    (r = none → ∀ y ∈ l, ∀ o', ¬ resolved D p impl y o') := by
  have hname : ∀ po n o, childByName D po n (some impl) = some o → ∃ k I, k ≠ impl ∧ D[k]? = some I ∧ I.byName n po = some o := by
    intro po n o hc
    unfold childByName at hc
    obtain ⟨k, hk, hb⟩ := List.exists_of_findSome?_eq_some hc
    obtain ⟨I, hI, hb⟩ := Option.bind_eq_some_iff.mp hb
    refine ⟨k, I, ?_, hI, hb⟩
    unfold searchOrder at hk
    rw [List.mem_append] at hk
    rcases hk with hk | hk
    · split at hk
      · cases hk
      · rename_i hne
        rw [List.mem_singleton] at hk
        subst hk
        intro e; exact hne (by rw [e])
    · rw [List.mem_filter, Bool.and_eq_true, decide_eq_true_eq, decide_eq_true_eq] at hk
      intro e; exact hk.2.1 (by rw [e])
  have hname0 : ∀ po n, childByName D po n (some impl) = none → ∀ k I o, k ≠ impl → D[k]? = some I → I.byName n po ≠ some o := by
    intro po n hc k I o hk hI hb
    unfold childByName at hc
    have hlen := (List.getElem?_eq_some_iff.mp hI).1
    have hall := List.findSome?_eq_none_iff.mp hc k (by
      unfold searchOrder
      rw [List.mem_append]
      by_cases hko : k = po.impl
      · left
        rw [if_neg (by rw [← hko]; intro e; exact hk (Option.some.inj e).symm), hko]; simp
      · right
        rw [List.mem_filter, Bool.and_eq_true, decide_eq_true_eq, decide_eq_true_eq]
        exact ⟨List.mem_range.mpr hlen, fun e => hk (Option.some.inj e).symm, hko⟩)
    rw [hI, Option.bind_some, hb] at hall
    cases hall
  have hraw : ∀ po raw o, childFromHandle D po raw impl = some o → ∃ k I, k ≠ impl ∧ D[k]? = some I ∧ I.fromHandle raw po = some o := by
    intro po n o hc
    unfold childFromHandle at hc
    obtain ⟨k, hk, hb⟩ := List.exists_of_findSome?_eq_some hc
    obtain ⟨I, hI, hb⟩ := Option.bind_eq_some_iff.mp hb
    rw [List.mem_filter, decide_eq_true_eq] at hk
    exact ⟨k, I, hk.2, hI, hb⟩
  have hraw0 : ∀ po raw, childFromHandle D po raw impl = none → ∀ k I o, k ≠ impl → D[k]? = some I → I.fromHandle raw po ≠ some o := by
    intro po n hc k I o hk hI hb
    unfold childFromHandle at hc
    have hlen := (List.getElem?_eq_some_iff.mp hI).1
    have hall := List.findSome?_eq_none_iff.mp hc k (by
      rw [List.mem_filter, decide_eq_true_eq]; exact ⟨List.mem_range.mpr hlen, hk⟩)
    rw [hI, Option.bind_some, hb] at hall
    cases hall
  induction l with
  | nil => cases h; exact ⟨(by intro _ _ e; cases e), (by intro _ y hy; cases hy)⟩
  | cons x l ih =>
    have skip : nextLoop D p impl l = some r → (∀ o', ¬ resolved D p impl x o') →
        (∀ rest o, r = some (rest, o) → ∃ pre y, x :: l = pre ++ y :: rest ∧ resolved D p impl y o ∧
          ∀ z ∈ pre, ∀ o', ¬ resolved D p impl z o') ∧
        (r = none → ∀ y ∈ x :: l, ∀ o', ¬ resolved D p impl y o') := by
      intro h' hx
      obtain ⟨h1, h2⟩ := ih h'
      refine ⟨?_, ?_⟩
      · intro rest o e
        obtain ⟨pre, y, e1, e2, e3⟩ := h1 rest o e
        refine ⟨x :: pre, y, by rw [e1]; rfl, e2, ?_⟩
        intro z hz
        rcases List.mem_cons.mp hz with rfl | hz
        · exact hx
        · exact e3 z hz
      · intro e y hy
        rcases List.mem_cons.mp hy with rfl | hy
        · exact hx
        · exact h2 e y hy
    have take : ∀ o, r = some (l, o) → resolved D p impl x o →
        (∀ rest o, r = some (rest, o) → ∃ pre y, x :: l = pre ++ y :: rest ∧ resolved D p impl y o ∧
          ∀ z ∈ pre, ∀ o', ¬ resolved D p impl z o') ∧
        (r = none → ∀ y ∈ x :: l, ∀ o', ¬ resolved D p impl y o') := by
      rintro o rfl hx
      refine ⟨?_, (by intro e; cases e)⟩
      intro rest o' e
      cases e
      exact ⟨[], x, rfl, hx, (by intro z hz; cases hz)⟩
    cases x with
    | native o =>
      simp only [nextLoop, Option.some.injEq] at h
      exact take o h.symm rfl
    | nativeNoName => exact skip h (fun _ h => h)
    | notNative n =>
      cases p with
      | none => cases h
      | some po =>
        simp only [nextLoop] at h
        split at h
        · rename_i o ho
          cases h
          obtain ⟨k, I, a, b, c⟩ := hname po n o ho
          exact take o rfl ⟨po, k, I, rfl, a, b, c⟩
        · rename_i ho
          refine skip h ?_
          rintro o' ⟨po', k, I, e, a, b, c⟩
          cases e
          exact hname0 po n ho k I o' a b c
    | notNativeNoName raw =>
      cases p with
      | none => cases h
      | some po =>
        simp only [nextLoop] at h
        split at h
        · rename_i o ho
          cases h
          obtain ⟨k, I, a, b, c⟩ := hraw po raw o ho
          exact take o rfl ⟨po, k, I, rfl, a, b, c⟩
        · rename_i ho
          refine skip h ?_
          rintro o' ⟨po', k, I, e, a, b, c⟩
          cases e
          exact hraw0 po raw ho k I o' a b c
    | raises => cases h

/-- An implementation that knows one name. -/
def oneName (k : Nat) (n : Text) : Impl where
  byName m p := if m = n then some { impl := k, hdl := 0, type := .logic, name := n, full := p.full ++ [dot] ++ n } else none
  byIndex _ _ := none
  fromHandle _ _ := none
  root _ := none
  iterate _ _ := .null

/-- Both interfaces know `x`: the one of the parent answers. Only the other knows `y`: it answers. -/
example : let p : Obj := { impl := 1, hdl := 0, type := .module, name := nm "top", full := nm "top" }
    (childByName [oneName 0 (nm "x"), oneName 1 (nm "x")] p (nm "x") none).map (·.impl) = some 1 ∧
    (childByName [oneName 0 (nm "y"), oneName 1 (nm "x")] p (nm "y") none).map (·.impl) = some 0 ∧
    (nextLoop [oneName 0 (nm "y"), oneName 1 (nm "x")] (some p) 1 [.notNative (nm "z"), .notNative (nm "y"), .nativeNoName]).map
      (·.map fun r => (r.1, r.2.impl)) = some (some ([.nativeNoName], 0)) := by decide +kernel

/-! ### C96: types and bounds of signals and arrays -/

/-- A net or variable of bits is an array of logic values exactly if it is declared with a range or has more than one
bit, otherwise it is a single logic value. -/
theorem C96_logic {c : Flavor} {V : Vpi} {h : H} {name full : Text} {o : Obj} {t : VType} (ht : V.type h = some t)
    (hb : t ∈ [VType.net, .netBit, .bitVar, .reg, .regBit, .memoryWord, .packedArrayVar, .packedArrayNet])
    (e : createObj c V 0 h name full = some o) :
    (o.type = .logicArray ↔ V.vector h = true ∨ V.size h > 1) ∧ (o.type ≠ .logicArray → o.type = .logic) := by
  have key : o.type = if V.vector h || decide (V.size h > 1) then .logicArray else .logic := by
    simp only [List.mem_cons, List.not_mem_nil, or_false] at hb
    rcases hb with rfl | rfl | rfl | rfl | rfl | rfl | rfl | rfl <;>
    · simp only [createObj, ht, Option.some.injEq] at e
      subst e
      rw [getD_type (fun o' ho' => initSignal_named ho')]
      rfl
  rw [key]
  by_cases h1 : V.vector h = true <;> by_cases h2 : V.size h > 1 <;> simp [h1, h2]

/-- An array whose bounds were found has one element for each index between its bounds, and runs down exactly if the
left bound is the larger one. -/
theorem C96_array {c : Flavor} {V : Vpi} {h : H} {name full : Text} {o : Obj} {t : VType} (ht : V.type h = some t)
    (hb : t ∈ [VType.regArray, .netArray, .interfaceArray, .memory]) (e : createObj c V 0 h name full = some o)
    (hu : o.full ≠ unknownName) :
    o.type = .array ∧ o.numElems = ((o.left - o.right).natAbs : Int) + 1 ∧
      (o.dir = .down ↔ o.left > o.right) ∧ (o.dir = .up ↔ o.left ≤ o.right) ∧ o.name = name ∧ o.full = full := by
  have key : ∃ o0 : Obj, o0.type = .array ∧ o0.full = unknownName ∧ o = (initArray c V o0 name full).getD o0 := by
    simp only [List.mem_cons, List.not_mem_nil, or_false] at hb
    rcases hb with rfl | rfl | rfl | rfl <;>
    · simp only [createObj, ht, Option.some.injEq] at e
      exact ⟨_, rfl, rfl, e.symm⟩
  obtain ⟨o0, h1, h2, rfl⟩ := key
  cases hi : initArray c V o0 name full with
  | none => rw [hi] at hu; exact absurd h2 hu
  | some o1 =>
    rw [Option.getD_some]
    unfold initArray at hi
    split at hi
    · cases hi
    · dsimp only at hi
      split at hi
      · cases hi
      · rename_i l r _
        cases hi
        refine ⟨h1, ?_, ?_, ?_, rfl, rfl⟩
        · dsimp only; split <;> omega
        · dsimp only; split <;> simp <;> omega
        · dsimp only; split <;> simp <;> omega

/-- The full claim for vectors: as many elements as there are indices between the bounds. -/
def C96_vector_full : Prop :=
  ∀ (c : Flavor) (V : Vpi) (h : H) (name full : Text) (o : Obj) (l r : Int) (rs : List (Int × Int)),
    createObj c V 0 h name full = some o → V.type h = some .packedArrayVar → V.vector h = true →
    V.ranges h = some ((l, r) :: rs) → V.size h = ((((l, r) :: rs).map fun x => (x.1 - x.2).natAbs + 1).foldl (· * ·) 1 : Nat) →
    o.numElems = ((o.left - o.right).natAbs : Int) + 1

/-- `logic [1:0][7:0] x` has the bounds 1 and 0 and 16 elements. -/
def packedVpi : Vpi :=
  { noVpi with
    type := fun h => if h = 0 then some .packedArrayVar else none
    name := fun h => if h = 0 then some (nm "x") else none
    size := fun _ => 16
    vector := fun _ => true
    ranges := fun h => if h = 0 then some [(1, 0), (7, 0)] else none }

theorem C96_vector_counterexample : ¬ C96_vector_full := by
  intro h
  have := h icarus packedVpi 0 (nm "x") (nm "top.x")
    { impl := 0, hdl := 0, type := .logicArray, numElems := 16, indexable := true, left := 1, right := 0, dir := .down,
      name := nm "x", full := nm "top.x" } 1 0 [(7, 0)] (by decide +kernel) rfl rfl rfl (by decide)
  exact absurd this (by decide)

/-- A vector has the bounds of its first dimension, runs down exactly if the left bound is the larger one, and, if it
has only one dimension, has one element for each index. -/
theorem C96_vector_partial {c : Flavor} {V : Vpi} {h : H} {name full : Text} {o : Obj} {t : VType} {l r : Int}
    {rs : List (Int × Int)} (ht : V.type h = some t)
    (hb : t ∈ [VType.net, .netBit, .bitVar, .reg, .regBit, .memoryWord, .packedArrayVar, .packedArrayNet])
    (e : createObj c V 0 h name full = some o) (hv : V.vector h = true) (hr : V.ranges h = some ((l, r) :: rs)) :
    o.type = .logicArray ∧ o.left = l ∧ o.right = r ∧ (o.dir = .down ↔ l > r) ∧ (o.dir = .up ↔ l ≤ r) ∧ o.name = name ∧
      o.full = full ∧ (V.size h = ((l - r).natAbs : Int) + 1 → o.numElems = ((o.left - o.right).natAbs : Int) + 1) := by
  have key : ∃ o0 : Obj, o0.hdl = h ∧ o0.type = .logicArray ∧ o = (initSignal V t o0 name full).getD o0 := by
    simp only [List.mem_cons, List.not_mem_nil, or_false] at hb
    rcases hb with rfl | rfl | rfl | rfl | rfl | rfl | rfl | rfl <;>
    · simp only [createObj, ht, Option.some.injEq] at e
      exact ⟨_, rfl, by simp [gpiType, hv], e.symm⟩
  have hnt : ¬ (t = .intVar ∨ t = .integerVar ∨ t = .integerNet) ∧ t ≠ .realNet ∧ ¬ (t = .constant ∨ t = .parameter) := by
    simp only [List.mem_cons, List.not_mem_nil, or_false] at hb
    rcases hb with rfl | rfl | rfl | rfl | rfl | rfl | rfl | rfl <;> decide
  obtain ⟨o0, h1, h2, rfl⟩ := key
  unfold initSignal
  dsimp only
  rw [if_neg hnt.1, if_neg hnt.2.1, if_neg (by rw [h2]; intro hc; rcases hc with hc | hc; cases hc; exact hnt.2.2 hc),
    if_pos (Or.inr h2), h1, hv, hr]
  dsimp only
  rw [if_pos rfl, Option.getD_some]
  dsimp only
  refine ⟨h2, rfl, rfl, ?_, ?_, rfl, rfl, ?_⟩
  · split <;> simp <;> omega
  · split <;> simp <;> omega
  · intro h; exact h

/-- `logic [7:0] x`. -/
def vectorVpi : Vpi :=
  { noVpi with
    type := fun h => if h = 0 then some .reg else none
    name := fun h => if h = 0 then some (nm "x") else none
    size := fun _ => 8
    vector := fun _ => true
    ranges := fun h => if h = 0 then some [(7, 0)] else none }

example : createObj icarus vectorVpi 0 0 (nm "x") (nm "top.x") =
    some ({ impl := 0, hdl := 0, type := .logicArray, numElems := 8, indexable := true, left := 7, right := 0, dir := .down,
            name := nm "x", full := nm "top.x" } : Obj) := by decide +kernel

/-- A memory `logic x [0:3]`. -/
def memoryVpi : Vpi :=
  { vectorVpi with
    type := fun _ => some .memory
    ranges := fun _ => some [(0, 3)] }

example : (createObj icarus memoryVpi 0 0 (nm "x") (nm "top.x")).map (fun o => (o.type, o.numElems, o.dir)) =
    some (.array, 4, .up) := by decide +kernel

/-! ### C97: lookups and iterations do not crash the simulator -/

/-- The full claim: a call with a live handle or iterator never has undefined behaviour. -/
def C97_defined_full : Prop :=
  ∀ (c : Flavor) (V : Vpi) (ops : List Op) (s : St) (outs : List (Op × Res)),
    run [vpiImpl c V 0] St.init ops = some (s, outs) → .finalize ∉ ops → ∀ op, op.Used s →
      (exec [vpiImpl c V 0] s op).isSome

/-- Iterating over a generate block of an interface uses an uninitialised variable. -/
theorem C97_interface_counterexample : ¬ C97_defined_full := by
  intro h
  have hr : run [vpiImpl icarus interfaceVpi 0] St.init
      [.root none, .byName 0 (nm "i") .auto, .byName 1 (nm "g") .auto] =
      some (⟨[{ impl := 0, hdl := 0, type := .module, name := nm "top", full := nm "top" },
          { impl := 0, hdl := 1, type := .module, name := nm "i", full := nm "top.i" },
          { impl := 0, hdl := 1, type := .genArray, name := nm "g", full := nm "top.i.g" }], [],
          [(nm "top", 0), (nm "top.i", 1), (nm "top.i.g", 2)], []⟩,
        [(.root none, .handle 0), (.byName 0 (nm "i") .auto, .handle 1), (.byName 1 (nm "g") .auto, .handle 2)]) := by
    decide +kernel
  have := h _ _ _ _ _ hr (by simp) (.iterate (some 2) .objects) rfl
  exact absurd this (by decide +kernel)

/-- A package with a full name of one character ends the simulation with an uncaught C++ exception. -/
theorem C97_package_counterexample : ¬ C97_defined_full := by
  intro h
  have hr : run [vpiImpl icarus (packageVpi (nm "p")) 0] St.init [.iterate none .packages] =
      some (⟨[], [], [], [some ⟨0, none, [.raises]⟩]⟩, [(.iterate none .packages, .iter 0)]) := by decide +kernel
  have := h _ _ _ _ _ hr (by simp) (.next 0) ⟨_, rfl⟩
  exact absurd this (by decide +kernel)

/-- Calling `next` again after the end of an iteration uses the deleted iterator (such a call does not meet `Used`). -/
theorem C97_exhausted :
    (run [vpiImpl icarus (packageVpi (nm "p::")) 0] St.init [.iterate none .packages, .next 0, .next 0]).isSome = true ∧
    run [vpiImpl icarus (packageVpi (nm "p::")) 0] St.init [.iterate none .packages, .next 0, .next 0, .next 0] = none := by
  decide +kernel

/-- Without packages of one-letter full names and without generate blocks in interfaces, every call with a live handle or
iterator is defined, whatever was called before the end of the simulation. -/
theorem C97_defined_partial {c : Flavor} {V : Vpi} {ops : List Op} {s : St} {outs : List (Op × Res)}
    (h : run [vpiImpl c V 0] St.init ops = some (s, outs)) (hf : .finalize ∉ ops)
    (hpk : ∀ x n, V.fullName x = some n → 2 ≤ n.length) (hpn : ∀ x, V.type x = some .package → V.fullName x ≠ none)
    (hif : ∀ o ∈ s.objs, o.type = .genArray → V.type o.hdl ≠ some .interface) {op : Op} (hu : op.Used s) :
    (exec [vpiImpl c V 0] s op).isSome := by
  have hraise : .raises ∉ packageItems V 0 := by
    intro hm
    unfold packageItems at hm
    rw [List.mem_filterMap] at hm
    obtain ⟨y, hy, hm⟩ := hm
    rw [List.mem_filter, beq_iff_eq] at hy
    rw [Option.map_eq_some_iff] at hm
    obtain ⟨n, _, hm⟩ := hm
    split at hm
    · cases hm
    · rename_i hn
      unfold pkgFull at hn
      split at hn
      · rename_i hlt
        cases hfn : V.fullName y with
        | none => exact hpn y hy.2 hfn
        | some f =>
          rw [hfn, Option.getD_some] at hlt
          have := hpk y f hfn
          omega
      · split at hn <;> cases hn
  have k := k_init.run h hf hraise
  have h0 : ∀ p po, s.get p = some po → po.impl = 0 := fun p po hp => (k.objs po (get_mem hp)).impl
  cases op with
  | root n => rfl
  | byName p n d =>
    simp only [Op.Used] at hu
    obtain ⟨po, hp⟩ := Option.isSome_iff_exists.mp hu
    cases d with
    | auto => simp only [exec, hp]; rfl
    | native => simp only [exec, hp]; split <;> rfl
  | byIndex p i =>
    simp only [Op.Used] at hu
    obtain ⟨po, hp⟩ := Option.isSome_iff_exists.mp hu
    simp only [exec, hp]
    split <;> rfl
  | iterate p sel =>
    simp only [exec]
    split
    · rename_i hsel
      cases p with
      | some q => rfl
      | none =>
        dsimp only
        split
        · rename_i j it hfi
          obtain ⟨rfl, rfl⟩ := firstIter_one hfi
          rcases hsel with rfl | rfl <;> rfl
        · rfl
    · rename_i hsel
      cases p with
      | none => exact absurd hu hsel
      | some q =>
        simp only [Op.Used] at hu
        obtain ⟨po, hp⟩ := Option.isSome_iff_exists.mp hu
        simp only [Option.bind_some, hp, h0 q po hp, List.getElem?_cons_zero, vpiImpl]
        cases sel with
        | objects =>
          simp only [vpiItems]
          have := scanAll_defined (c := c) (k.objs po (get_mem hp)) (hif po (get_mem hp))
          split
          · rfl
          · rename_i hn; exact absurd hn this
        | drivers => rfl
        | loads => rfl
        | packages => simp at hsel
        | roots => simp at hsel
  | next j =>
    obtain ⟨it, hit⟩ := hu
    obtain ⟨h1, h2, h3, h4, h5⟩ := k.iters it (List.mem_of_getElem? hit)
    simp only [exec, hit]
    have hd : nextLoop [vpiImpl c V 0] (it.parent.bind s.get) it.impl it.rest ≠ none := by
      rw [h1]
      refine nextLoop_defined ?_ h3 ?_
      · intro po hpo
        obtain ⟨q, _, hq⟩ := Option.bind_eq_some_iff.mp hpo
        exact h0 q po hq
      · intro e
        cases hpar : it.parent with
        | none => exact h4 hpar
        | some q =>
          obtain ⟨o, ho⟩ := h5 q hpar
          rw [hpar, Option.bind_some, ho] at e
          cases e
    split
    · rename_i hn; exact absurd hn hd
    · rfl
    · rfl
  | finalize => rfl

/-- The history of C92 meets the hypotheses, and so does a further call of each kind. -/
example : (∀ x n, smallVpi.fullName x = some n → 2 ≤ n.length) ∧
    (∀ x, smallVpi.type x = some .package → smallVpi.fullName x ≠ none) ∧
    (∀ o ∈ exampleSt.objs, o.type = .genArray → smallVpi.type o.hdl ≠ some .interface) ∧
    Op.Used exampleSt (.next 1) ∧ Op.Used exampleSt (.byIndex 2 5) := by
  refine ⟨?_, ?_, by decide +kernel, ⟨_, rfl⟩, rfl⟩
  · intro x n hx
    simp only [smallVpi] at hx
    split at hx
    · cases hx; decide
    · cases hx
  · intro x hx
    simp only [smallVpi] at hx
    split at hx
    · cases hx
    · split at hx
      · cases hx
      · split at hx <;> cases hx

end Verif
