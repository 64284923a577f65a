import Verif.Lemmas.Vhpi
import Verif.Model.Fli
/-!
# C125: names in VHDL designs
-/
namespace Verif

open Vhpi Spec

/-! ## Every lookup has a defined result -/

/-- C125, full statement: a lookup gives an object or nothing. -/
def C125_vhpi_defined_full : Prop := ∀ (c : Flavor) (V : Vhpi) (name : Text) (p : Obj), vhpiByName c V name p ≠ .undefined

theorem of_ne_undefined (o : Option Obj) : Res.of o ≠ .undefined := by cases o <;> simp [Res.of]

/-- C125: unless the parent is a record that has no such element. -/
theorem C125_vhpi_defined_partial (c : Flavor) (V : Vhpi) (name : Text) (p : Obj)
    (h : p.type ≠ .structure ∨ Known c V p name) (hr : p.type = .structure → V.iter .internalRegions p.hdl = none) :
    vhpiByName c V name p ≠ .undefined := by
  unfold vhpiByName
  split
  · exact of_ne_undefined _
  · rename_i hn
    split
    · rename_i hs
      split
      · exact of_ne_undefined _
      · rename_i hf
        exfalso
        rcases h with h | h | ⟨_, hs', x, n, h1, h2, h3, h4⟩ | ⟨rs, r, n, h1, _⟩
        · exact h hs
        · rw [hn] at h; cases h
        · rw [h1] at hf
          have := List.find?_eq_none.1 hf x h2
          rw [h3] at this
          exact this h4
        · rw [hr hs] at h1; cases h1
    · split
      · exact of_ne_undefined _
      · simp

/-! ### A design: entity `top` with a record `r` (element `f`), an instance `u1` and a loop `gen(1)`, `gen(2)` -/

/-- Objects: 0 `top`, 1 `r`, 2 `r.f`, 3 `u1`, 4 and 5 the blocks of `gen`. -/
def exDesign : Vhpi where
  kind h := if h = 0 then .rootInst else if h = 1 then .sigDecl else if h = 2 then .selectedName
    else if h = 3 then .compInst else .forGenerate
  ty h := if h = 1 then some .record else if h = 2 then some .int else none
  caseName h := some (if h = 0 then str "top" else if h = 1 then str "r" else if h = 2 then str "r.f"
    else if h = 3 then str "u1" else if h = 4 then str "gen(1)" else str "gen(2)")
  numDim _ := 0
  baseCons _ := []
  subCons _ := []
  byIndex _ _ := none
  byName t :=
    let t := t.map upperc
    if t = str "TOP.R" then some 1 else if t = str "TOP.U1" then some 3 else if t = str "TOP.GEN(1)" then some 4
    else if t = str "TOP.GEN(2)" then some 5 else none
  iter r h :=
    if r = .selectedNames ∧ h = 1 then some [2]
    else if r = .internalRegions ∧ h = 0 then some [3, 4, 5]
    else if r = .sigDecls ∧ h = 0 then some [1]
    else none
  chain h := [h]
  static _ := false
  format _ := some .int
  size _ := 1
  entity _ := none
  root := some 0

/-- `top`. -/
def exTop : Obj := { hdl := 0, type := .module, name := str "top", full := str "top" }
/-- `top.r`. -/
def exR : Obj := { hdl := 1, type := .structure, name := str "r", full := str "top.r" }

/-- `dut.r.g`, which is not there, calls the simulator with a `NULL` handle. -/
theorem C125_vhpi_defined_counterexample : ¬ C125_vhpi_defined_full := by
  intro H
  exact H {} exDesign (str "g") exR (by decide +kernel)

example : vhpiRoot {} exDesign none = some exTop ∧ vhpiByName {} exDesign (str "r") exTop = .obj exR ∧
    (∃ o, vhpiByName {} exDesign (str "f") exR = .obj o ∧ o.hdl = 2 ∧ o.type = .integer) ∧
    vhpiByName {} exDesign (str "g") exTop = .missing := by
  refine ⟨by decide +kernel, by decide +kernel, ⟨_, rfl, ?_⟩, by decide +kernel⟩
  decide +kernel

/-! ## Names and objects -/

theorem create_fields {c : Flavor} {V : Vhpi} {h : H} {n f : Text} {o : Obj} (ho : createObj c V h n f = some o) :
    o.hdl = h ∧ o.name = n ∧ o.full = f ∧ gpiType c V h n = some o.type := by
  unfold createObj at ho
  split at ho
  · cases ho
  · split at ho
    · cases ho
    · rename_i t ht
      have hA : ∀ (o' : Obj), (initArray c V o' = some o ∨ initLogic c V o' = some o ∨ initSignal c V o' = some o ∨ some o' = some o) →
          o.hdl = o'.hdl ∧ o.name = o'.name ∧ o.full = o'.full ∧ o.type = o'.type := by
        intro o' h
        have hw : ∀ o1 : Obj, (withRange c V o1).hdl = o1.hdl ∧ (withRange c V o1).name = o1.name ∧
            (withRange c V o1).full = o1.full ∧ (withRange c V o1).type = o1.type := by
          intro o1; unfold withRange; split <;> exact ⟨rfl, rfl, rfl, rfl⟩
        rcases h with h | h | h | h
        · unfold initArray at h
          split at h
          · cases h
          · split at h
            · cases h
            · cases h; exact ⟨rfl, rfl, rfl, rfl⟩
        · unfold initLogic at h
          split at h <;> cases h
          · exact hw _
          · exact ⟨rfl, rfl, rfl, rfl⟩
        · unfold initSignal at h
          split at h <;> cases h <;> first | exact ⟨rfl, rfl, rfl, rfl⟩ | exact hw _
        · cases h; exact ⟨rfl, rfl, rfl, rfl⟩
      have key : o.hdl = h ∧ o.name = n ∧ o.full = f ∧ o.type = t := by
        split at ho
        · exact hA _ (Or.inl ho)
        · exact hA _ (Or.inr (Or.inr (Or.inr ho)))
        · exact hA _ (Or.inr (Or.inr (Or.inr ho)))
        · exact hA _ (Or.inr (Or.inr (Or.inr ho)))
        · exact hA _ (Or.inr (Or.inl ho))
        · exact hA _ (Or.inr (Or.inl ho))
        · exact hA _ (Or.inr (Or.inr (Or.inl ho)))
        · exact hA _ (Or.inr (Or.inr (Or.inl ho)))
        · exact hA _ (Or.inr (Or.inr (Or.inl ho)))
        · exact hA _ (Or.inr (Or.inr (Or.inl ho)))
      exact ⟨key.1, key.2.1, key.2.2.1, by rw [key.2.2.2]; exact ht⟩

/-- C125: the object has the name it was looked up by, and its full name is that of the parent with this
name. -/
theorem C125_vhpi_name {c : Flavor} {V : Vhpi} {name : Text} {p o : Obj} (h : vhpiByName c V name p = .obj o) :
    o.name = name ∧ o.full = fullName c p name := by
  have hq : fullName c p name = qualified c p name := by
    unfold fullName qualified
    rw [show str ":" = [58] by decide +kernel, show str "." = [46] by decide +kernel]
    by_cases h : p.full = [58] <;> simp [h]
  rw [hq]
  have key : ∀ x, nameRes c V name p x = .obj o → o.name = name ∧ o.full = qualified c p name := by
    intro x hx
    unfold nameRes at hx
    rcases e : createObj c V (if V.kind x = .forGenerate then p.hdl else x) name (qualified c p name) with _ | o'
    · rw [e] at hx; cases hx
    · rw [e] at hx; cases hx
      exact ⟨(create_fields e).2.1, (create_fields e).2.2.1⟩
  unfold vhpiByName at h
  split at h
  · exact key _ h
  · split at h
    · split at h
      · exact key _ h
      · cases h
    · split at h
      · exact key _ h
      · cases h

/-- C125, full statement: only what there is is found. -/
def C125_vhpi_exists_full : Prop :=
  ∀ (c : Flavor) (V : Vhpi) (name : Text) (p o : Obj), vhpiByName c V name p = .obj o → Known c V p name

/-- C125: names without an index. -/
theorem C125_vhpi_exists_partial {c : Flavor} {V : Vhpi} {name : Text} {p o : Obj} (h : vhpiByName c V name p = .obj o)
    (hn : Gpi.rfindSuffix c.sepL name = none)
    (hc : ∀ r rs, V.iter .internalRegions p.hdl = some rs → r ∈ rs → (V.caseName r).isSome)
    (hc' : ∀ r rs, V.iter .selectedNames p.hdl = some rs → r ∈ rs → (V.caseName r).isSome) : Known c V p name := by
  unfold vhpiByName at h
  split at h
  · rename_i x hx; left; rw [hx]; rfl
  · split at h
    · rename_i hs
      split at h
      · rename_i x hx
        have hm := List.mem_of_find?_eq_some hx
        have hp := List.find?_some hx
        rcases e : V.iter .selectedNames p.hdl with _ | hs'
        · rw [e] at hm; cases hm
        · rw [e] at hm
          obtain ⟨n, hn'⟩ := Option.isSome_iff_exists.1 (hc' x hs' e hm)
          rw [hn'] at hp
          exact Or.inr (Or.inl ⟨hs, hs', x, n, e, hm, hn', hp⟩)
      · cases h
    · split at h
      · rename_i ha
        obtain ⟨r, hm, hp⟩ := List.any_eq_true.1 ha
        rcases e : V.iter .internalRegions p.hdl with _ | rs
        · rw [e] at hm; cases hm
        · rw [e] at hm
          obtain ⟨n, hn'⟩ := Option.isSome_iff_exists.1 (hc r rs e hm)
          rw [hn'] at hp
          simp only [Option.getD_some, Bool.and_eq_true, beq_iff_eq] at hp
          refine Or.inr (Or.inr ⟨rs, r, n, e, hm, hp.1, hn', ?_⟩)
          have := hp.2
          unfold sameLabel at this
          rwa [show beforeLast c.sepL name = name by unfold beforeLast; rw [hn]] at this
      · cases h

/-- `dut["gen(7)"]`, which is not there, is found. -/
theorem C125_vhpi_exists_counterexample : ¬ C125_vhpi_exists_full := by
  intro H
  have h := H {} exDesign (str "gen(7)") exTop
    { hdl := 0, type := .genArray, name := str "gen(7)", full := str "top.gen(7)" } (by decide +kernel)
  rcases h with h | ⟨h, _⟩ | ⟨rs, r, n, h1, h2, h3, h4, h5⟩
  · revert h; decide +kernel
  · cases h
  · have : rs = [3, 4, 5] := by
      have e : exDesign.iter .internalRegions 0 = some [3, 4, 5] := by decide
      rw [show exTop.hdl = 0 from rfl] at h1
      rw [e] at h1; cases h1; rfl
    subst this
    simp only [List.mem_cons, List.not_mem_nil, or_false] at h2
    rcases h2 with rfl | rfl | rfl <;> simp only [exDesign] at h4 <;> cases h4 <;> revert h5 <;> decide +kernel

/-! ## Upper and lower case -/

/-- C125, full statement: if the simulator finds names in upper and lower case, the kind of object does not
depend on the case. -/
def C125_vhpi_case_full : Prop :=
  ∀ (c : Flavor) (V : Vhpi), (∀ a b, a.map upperc = b.map upperc → V.byName a = V.byName b) →
    ∀ (name name' : Text) (p o o' : Obj), name.map upperc = name'.map upperc →
      V.byName (qualified c p name) ≠ none → vhpiByName c V name p = .obj o → vhpiByName c V name' p = .obj o' →
      o.hdl = o'.hdl ∧ o.type = o'.type

theorem qualified_upper {c : Flavor} {p : Obj} {a b : Text} (h : a.map upperc = b.map upperc) :
    (qualified c p a).map upperc = (qualified c p b).map upperc := by
  unfold qualified
  split <;> cases c.nvc <;> simp [h]

theorem gpiType_upper {c : Flavor} {V : Vhpi} {h : H} {a b : Text} (hu : a.map upperc = b.map upperc)
    (hc : c.nvc = true ∨ (V.ty h).isSome) : gpiType c V h a = gpiType c V h b := by
  rcases hc with hc | hc
  · have : ∀ x, sameName c x a = sameName c x b := by intro x; simp [sameName, hc, hu]
    have h2 : ∀ x, sameName c a x = sameName c b x := by intro x; simp [sameName, hc, hu]
    unfold gpiType
    simp only [this, h2]
  · unfold gpiType
    split <;> simp_all

/-- C125: with NVC, or for everything but regions. -/
theorem C125_vhpi_case_partial (c : Flavor) (V : Vhpi) (hV : ∀ a b, a.map upperc = b.map upperc → V.byName a = V.byName b)
    (name name' : Text) (p o o' : Obj) (hu : name.map upperc = name'.map upperc) (h : H)
    (hf : V.byName (qualified c p name) = some h) (hk : V.kind h ≠ .forGenerate)
    (ho : vhpiByName c V name p = .obj o) (ho' : vhpiByName c V name' p = .obj o')
    (hc : c.nvc = true ∨ (V.ty h).isSome) : o.hdl = o'.hdl ∧ o.type = o'.type := by
  have hf' : V.byName (qualified c p name') = some h := by rw [← hV _ _ (qualified_upper hu), hf]
  unfold vhpiByName at ho ho'
  rw [hf] at ho
  rw [hf'] at ho'
  simp only [nameRes, if_neg hk] at ho ho'
  rcases e : createObj c V h name (qualified c p name) with _ | x
  · rw [e] at ho; cases ho
  · rcases e' : createObj c V h name' (qualified c p name') with _ | x'
    · rw [e'] at ho'; cases ho'
    · rw [e] at ho; rw [e'] at ho'
      injection ho with ho; injection ho' with ho'
      subst ho; subst ho'
      have a := create_fields e
      have b := create_fields e'
      refine ⟨a.1.trans b.1.symm, ?_⟩
      have := a.2.2.2
      rw [gpiType_upper hu hc, b.2.2.2] at this
      exact (Option.some.inj this).symm

/-- `dut.U1` is taken for a generate loop. -/
theorem C125_vhpi_case_counterexample : ¬ C125_vhpi_case_full := by
  intro H
  have := H {} exDesign (by intro a b h; simp only [exDesign, h]) (str "u1") (str "U1") exTop
    { hdl := 3, type := .module, name := str "u1", full := str "top.u1" }
    { hdl := 3, type := .genArray, name := str "U1", full := str "top.U1" }
    (by decide +kernel) (by decide +kernel) (by decide +kernel) (by decide +kernel)
  cases this.2

/-! ## Generate loops -/

theorem rfind_later {p s s' : Text} : ∀ (a : Text), Gpi.rfindSuffix p s = some s' → Gpi.rfindSuffix p (a ++ s) = some s' := by
  intro a h
  induction a with
  | nil => exact h
  | cons x a ih => rw [List.cons_append, Gpi.rfindSuffix, ih]

theorem rfind_none {x : Nat} {p b : Text} (h : x ∉ b) : Gpi.rfindSuffix (x :: p) b = none := by
  induction b with
  | nil => simp [Gpi.rfindSuffix]
  | cons y b ih =>
    rw [Gpi.rfindSuffix, ih fun e => h (List.mem_cons_of_mem _ e)]
    simp only []
    rw [if_neg]
    simp [List.isPrefixOf]; rintro rfl; exact absurd List.mem_cons_self h

theorem before_block {c : Flavor} (hs : Seps c) (label : Text) (i : Int) :
    Gpi.rfindSuffix c.sepL (label ++ blockIdx c i) = some (blockIdx c i) := by
  apply rfind_later
  unfold blockIdx
  rcases hs with ⟨h1, h2⟩ | ⟨h1, h2⟩
  · rw [h1, h2]
    rw [List.append_assoc, List.singleton_append, Gpi.rfindSuffix, rfind_none]
    · simp [List.isPrefixOf]
    · intro h
      rcases List.mem_append.1 h with h | h
      · have := decInt_chars h; omega
      · simp at h
  · rw [h1, h2]
    simp only [List.append_nil, List.cons_append, List.nil_append]
    have hu : (95 : Nat) ∉ Gpi.decInt i := fun h => by have := decInt_chars h; omega
    rw [Gpi.rfindSuffix, Gpi.rfindSuffix, rfind_none hu]
    have : List.isPrefixOf [95, 95] (95 :: Gpi.decInt i) = false := by
      cases e : Gpi.decInt i with
      | nil => rfl
      | cons y r =>
        rw [e] at hu
        simp [List.isPrefixOf]; intro h; exact hu (by simp [h])
    simp only [this, Bool.false_eq_true, if_false]
    simp [List.isPrefixOf]

theorem sameLabel_block {c : Flavor} {label : Text} (hs : Seps c) (hp : Gpi.rfindSuffix c.sepL label = none) (i : Int) :
    sameLabel c (label ++ blockIdx c i) label = true ∧ beforeLast c.sepL (label ++ blockIdx c i) = label := by
  have h2 : beforeLast c.sepL (label ++ blockIdx c i) = label := by
    unfold beforeLast; rw [before_block hs]; simp
  refine ⟨?_, h2⟩
  unfold sameLabel
  rw [h2, show beforeLast c.sepL label = label by unfold beforeLast; rw [hp]]
  simp [sameName]

/-- The label of the loop is not the name of the region around it. -/
def Spec.OwnLabel (c : Flavor) (V : Vhpi) (p : Obj) (label : Text) : Prop :=
  sameName c label ((V.caseName p.hdl).getD []) = false ∧
  (V.kind p.hdl = .rootInst → ∀ e, V.entity p.hdl = some e → sameName c label e = false)

/-- C125, full statement for generate loops: the label gives an array of blocks, its indices give the blocks, other
indices nothing. -/
def C125_vhpi_loop_full : Prop :=
  ∀ (c : Flavor) (V : Vhpi) (p : Obj) (label : Text) (els : List (Int × H)), p.type ≠ .structure → Loop c V p label els →
    ∃ o, vhpiByName c V label p = .obj o ∧ o.type = .genArray ∧
      (∀ i h, VhdlInt i → els.find? (·.1 = i) = some (i, h) →
        ∃ b, vhpiByIndex c V i o = some b ∧ b.hdl = h ∧ b.type = .module ∧ b.name = label ++ blockIdx c i) ∧
      (∀ i, VhdlInt i → els.find? (·.1 = i) = none → vhpiByIndex c V i o = none)

theorem create_loop {c : Flavor} {V : Vhpi} {p : Obj} {label full : Text} (hr : Region V p.hdl) (ho : OwnLabel c V p label) :
    createObj c V p.hdl label full = some { hdl := p.hdl, type := .genArray, name := label, full := full } := by
  obtain ⟨ht, hk⟩ := hr
  obtain ⟨h1, h2⟩ := ho
  have hv : V.kind p.hdl ≠ .verilog := by intro e; rw [e] at hk; revert hk; decide
  have : gpiType c V p.hdl label = some .genArray := by
    unfold gpiType
    rw [ht]
    simp only [List.mem_cons, List.not_mem_nil, or_false] at hk
    rcases hk with hk | hk | hk | hk | hk <;> simp only [hk, h1]
    · have hsym : ∀ a b : Text, sameName c a b = sameName c b a := by
        intro a b; unfold sameName; split <;> exact Bool.beq_comm
      rw [hsym] at h1
      simp only [h1, Bool.not_false, if_true]
      rcases e : V.entity p.hdl with _ | n
      · simp only [Option.getD_none]; rw [hsym] at h1; simp [h1]
      · simp [h2 hk n e]
    all_goals simp
  unfold createObj
  rw [if_neg hv, this]

theorem decInt_take {i : Int} (h : VhdlInt i) : (Gpi.decInt i).take 13 = Gpi.decInt i :=
  List.take_of_length_le (by have := decInt_length h; omega)

theorem find_mem {els : List (Int × H)} {i : Int} {h : H} (hf : els.find? (·.1 = i) = some (i, h)) : (i, h) ∈ els :=
  List.mem_of_find?_eq_some hf

theorem loop_index {c : Flavor} {V : Vhpi} {p : Obj} {label : Text} {els : List (Int × H)} (L : Loop c V p label els)
    {i : Int} {h : H} (hi : VhdlInt i) (hf : els.find? (·.1 = i) = some (i, h)) :
    vhpiByIndex c V i { hdl := p.hdl, type := .genArray, name := label, full := qualified c p label } =
      some { hdl := h, type := .module, name := label ++ blockIdx c i, full := qualified c p label ++ blockIdx c i } := by
  have hm := find_mem hf
  obtain ⟨a, b, d⟩ := L.region _ hm
  have hc : createObj c V h (label ++ blockIdx c i) (qualified c p label ++ blockIdx c i) =
      some { hdl := h, type := .module, name := label ++ blockIdx c i, full := qualified c p label ++ blockIdx c i } := by
    simp only at a b d
    have : gpiType c V h (label ++ blockIdx c i) = some .module := by
      unfold gpiType; rw [b]; simp [a, d, sameName]
    unfold createObj
    rw [if_neg (by rw [a]; decide), this]
  unfold vhpiByIndex resolveIndex idxSuffix
  have := L.one i
  rw [hf] at this
  simp only [blockIdx, ← List.append_assoc] at this hc
  simp only [decInt_take hi, ← List.append_assoc, this, Option.map_some, if_true, hc, blockIdx]

theorem loop_lookup {c : Flavor} {V : Vhpi} {p : Obj} {label : Text} {els : List (Int × H)}
    (hp : p.type ≠ .structure) (L : Loop c V p label els) (ho : OwnLabel c V p label) :
    vhpiByName c V label p = .obj { hdl := p.hdl, type := .genArray, name := label, full := qualified c p label } := by
  unfold vhpiByName
  rcases L.whole with hw | ⟨x, hw, hk⟩
  · rw [hw]
    simp only [if_neg hp]
    obtain ⟨rs, hrs, hfil⟩ := L.listed
    obtain ⟨e, he⟩ := List.exists_mem_of_ne_nil _ L.blocks
    have hmem : e.2 ∈ rs := by
      have : e.2 ∈ els.map (·.2) := List.mem_map_of_mem he
      rw [← hfil] at this
      exact (List.mem_filter.1 this).1
    rw [if_pos]
    · unfold nameRes; simp only [ite_self, create_loop L.parent ho]; rfl
    · rw [hrs, List.any_eq_true]
      refine ⟨e.2, hmem, ?_⟩
      obtain ⟨a, _, b⟩ := L.region e he
      simp [a, b, sameLabel_block L.seps L.plain]
  · rw [hw]; simp only [nameRes, hk, if_true, create_loop L.parent ho]; rfl

/-- C125: loops whose label is not the name of the region around it. -/
theorem C125_vhpi_loop_partial {c : Flavor} {V : Vhpi} {p : Obj} {label : Text} {els : List (Int × H)}
    (hp : p.type ≠ .structure) (L : Loop c V p label els) (ho : OwnLabel c V p label) :
    ∃ o, vhpiByName c V label p = .obj o ∧ o.type = .genArray ∧
      (∀ i h, VhdlInt i → els.find? (·.1 = i) = some (i, h) →
        ∃ b, vhpiByIndex c V i o = some b ∧ b.hdl = h ∧ b.type = .module ∧ b.name = label ++ blockIdx c i) ∧
      (∀ i, VhdlInt i → els.find? (·.1 = i) = none → vhpiByIndex c V i o = none) := by
  have hlook := loop_lookup hp L ho
  refine ⟨_, hlook, rfl, ?_, ?_⟩
  · intro i h hi hf
    exact ⟨_, loop_index L hi hf, rfl, rfl, rfl⟩
  · intro i hi hf
    unfold vhpiByIndex resolveIndex
    have := L.one i
    rw [hf] at this
    simp only [blockIdx, ← List.append_assoc] at this
    simp only [decInt_take hi, ← List.append_assoc, this, Option.map_none, if_true]

/-- The loop `gen` of the example. -/
theorem exLoop : Loop {} exDesign exTop (str "gen") [(1, 4), (2, 5)] where
  seps := Or.inl ⟨rfl, rfl⟩
  parent := ⟨rfl, by decide⟩
  plain := by decide +kernel
  blocks := by decide
  int32 := by unfold VhdlInt; decide
  region := by decide +kernel
  listed := ⟨[3, 4, 5], by decide, by decide +kernel⟩
  whole := Or.inl (by decide +kernel)
  one i := by
    have hu : ((qualified {} exTop (str "gen") ++ blockIdx {} i).map upperc) = str "TOP.GEN(" ++ Gpi.decInt i ++ [41] := by
      have h1 : (Gpi.decInt i).map upperc = Gpi.decInt i := by
        conv => rhs; rw [← List.map_id (Gpi.decInt i)]
        apply List.map_congr_left
        intro x hx
        have := decInt_chars hx
        unfold upperc; rw [if_neg (by omega)]; rfl
      have h2 : (qualified {} exTop (str "gen") ++ [40]).map upperc = str "TOP.GEN(" := by decide +kernel
      simp only [blockIdx, ← List.append_assoc]
      rw [List.map_append, List.map_append, h2, h1]; rfl
    have hinj : ∀ n : Int, (str "TOP.GEN(" ++ Gpi.decInt i ++ [41] = str "TOP.GEN(" ++ Gpi.decInt n ++ [41]) ↔ i = n := by
      intro n
      constructor
      · intro h
        have := List.append_cancel_left (List.append_cancel_right h)
        have := congrArg atoi this
        rwa [atoi_decInt, atoi_decInt] at this
      · rintro rfl; rfl
    have hR : str "TOP.GEN(" ++ Gpi.decInt i ++ [41] ≠ str "TOP.R" := by
      intro h; have := congrArg (fun l => l[4]?) h; simp [str, ofStr] at this
    have hU : str "TOP.GEN(" ++ Gpi.decInt i ++ [41] ≠ str "TOP.U1" := by
      intro h; have := congrArg (fun l => l[4]?) h; simp [str, ofStr] at this
    have e1 : str "TOP.GEN(1)" = str "TOP.GEN(" ++ Gpi.decInt 1 ++ [41] := by decide +kernel
    have e2 : str "TOP.GEN(2)" = str "TOP.GEN(" ++ Gpi.decInt 2 ++ [41] := by decide +kernel
    simp only [exDesign, hu, if_neg hR, if_neg hU, e1, e2, hinj]
    by_cases h1 : i = 1
    · subst h1; rfl
    · by_cases h2 : i = 2
      · subst h2; rfl
      · simp [h1, h2, List.find?, show ¬ (1 = i) by omega, show ¬ (2 = i) by omega]

example : OwnLabel {} exDesign exTop (str "gen") := by
  refine ⟨by decide +kernel, ?_⟩
  intro _ e h; cases h

/-- The same design with the name `gen` for the entity. -/
def exSame : Vhpi := { exDesign with caseName := fun h => if h = 0 then some (str "gen") else exDesign.caseName h }

/-- A loop with the label `gen` in an entity `gen` is taken for the entity itself. -/
theorem C125_vhpi_loop_counterexample : ¬ C125_vhpi_loop_full := by
  intro H
  obtain ⟨o, h1, h2, _⟩ := H {} exSame exTop (str "gen") [(1, 4), (2, 5)] (by decide)
    { seps := Or.inl ⟨rfl, rfl⟩
      parent := ⟨rfl, by decide⟩
      plain := by decide +kernel
      blocks := by decide
      int32 := by unfold VhdlInt; decide
      region := by decide +kernel
      listed := ⟨[3, 4, 5], by decide, by decide +kernel⟩
      whole := Or.inl (by decide +kernel)
      one := exLoop.one }
  have : vhpiByName {} exSame (str "gen") exTop = .obj { hdl := 0, type := .module, name := str "gen", full := str "top.gen" } := by
    decide +kernel
  rw [this] at h1
  cases h1
  cases h2

/-! ## Iteration -/

/-- C125, full statement for iteration: what is listed below a region (blocks of loops aside) is what a lookup of its
name gives, if the simulator finds the object under its name. -/
def C125_vhpi_iter_full : Prop :=
  ∀ (c : Flavor) (V : Vhpi) (p o : Obj) (rel : Rel) (h : H), p.type = .module → p.full ≠ [58] → V.kind h ≠ .forGenerate →
    scanItem c V p rel h = .native o → V.byName (qualified c p o.name) = some h → vhpiByName c V o.name p = .obj o

/-- C125: with every simulator but NVC. -/
theorem C125_vhpi_iter_partial {c : Flavor} {V : Vhpi} {p o : Obj} {rel : Rel} {h : H} (hc : c.nvc = false)
    (hp : p.type = .module) (hf : p.full ≠ [58]) (hk : V.kind h ≠ .forGenerate)
    (ho : scanItem c V p rel h = .native o) (hb : V.byName (qualified c p o.name) = some h) :
    vhpiByName c V o.name p = .obj o := by
  unfold scanItem at ho
  rcases e : V.caseName h with _ | cn
  · rw [e] at ho; cases ho
  · rw [e] at ho
    simp only [hk, and_false, if_false, hf, hp, if_neg (show ¬ GType.module = .genArray by decide),
      if_neg (show ¬ GType.module = .structure by decide)] at ho
    split at ho
    · rename_i x hx
      cases ho
      have hn := (create_fields hx).2.1
      unfold vhpiByName
      rw [hb]
      simp only [nameRes, if_neg hk]
      rw [hn]
      have : qualified c p cn = p.full ++ [46] ++ cn := by unfold qualified; simp [hc, hf]
      rw [this, hx]; rfl
    · cases ho

/-- With NVC the object that is listed has another full name than the one that is looked up. -/
theorem C125_vhpi_iter_counterexample : ¬ C125_vhpi_iter_full := by
  intro H
  have := H { nvc := true } exDesign exTop { hdl := 3, type := .module, name := str "u1", full := str "top.u1" } .internalRegions 3
    rfl (by decide +kernel) (by decide) (by decide +kernel) (by decide +kernel)
  revert this
  decide +kernel

example : scanItem {} exDesign exTop .internalRegions 3 = .native { hdl := 3, type := .module, name := str "u1", full := str "top.u1" } ∧
    vhpiByName {} exDesign (str "u1") exTop = .obj { hdl := 3, type := .module, name := str "u1", full := str "top.u1" } := by
  decide +kernel

/-- C125: iterating over a loop lists exactly its blocks, and each is the one its index gives. -/
theorem C125_vhpi_loop_iter {c : Flavor} {V : Vhpi} {p o : Obj} {label : Text} {els : List (Int × H)}
    (L : Loop c V p label els) (hd : (els.map (·.1)).Nodup) (hf : qualified c p label ≠ [58])
    (ho : o = { hdl := p.hdl, type := .genArray, name := label, full := qualified c p label }) :
    vhpiItems c V o = els.map (fun e => .native
      { hdl := e.2, type := .module, name := label ++ blockIdx c e.1, full := qualified c p label ++ blockIdx c e.1 }) ∧
    ∀ e ∈ els, vhpiByIndex c V e.1 o = some
      { hdl := e.2, type := .module, name := label ++ blockIdx c e.1, full := qualified c p label ++ blockIdx c e.1 } := by
  subst ho
  refine ⟨?_, fun e he => loop_index L (L.int32 e he) ?_⟩
  rotate_left
  · clear L hf
    induction els with
    | nil => cases he
    | cons x els ih =>
      rw [List.map_cons, List.nodup_cons] at hd
      by_cases hx : x = e
      · subst hx; simp
      · have he' : e ∈ els := by simpa [Ne.symm hx] using he
        have : x.1 ≠ e.1 := fun h => hd.1 (h ▸ List.mem_map_of_mem he')
        simpa [List.find?, this] using ih hd.2 he'
  obtain ⟨rs, hrs, hfil⟩ := L.listed
  have hrels : ∃ rels, iterateOver (V.kind p.hdl) = some rels ∧
      (rels.filter fun r => r == .internalRegions) = [.internalRegions] := by
    have := L.parent.2
    simp only [List.mem_cons, List.not_mem_nil, or_false] at this
    rcases this with h | h | h | h | h <;> rw [h] <;> exact ⟨_, rfl, by decide⟩
  obtain ⟨rels, h1, h2⟩ := hrels
  unfold vhpiItems
  simp only [h1]
  have h3 : (rels.filter fun r => (GType.genArray != .genArray) || r == .internalRegions) = [.internalRegions] := by
    simpa using h2
  simp only [h3, List.flatMap_cons, List.flatMap_nil, List.append_nil, hrs, Option.getD_some]
  have hskip : (rs.filter fun h => !skipped c V { hdl := p.hdl, type := .genArray, name := label, full := qualified c p label } h) =
      els.map (·.2) := by
    rw [← hfil]
    apply List.filter_congr
    intro x _
    unfold skipped sameLabel
    rw [show beforeLast c.sepL label = label by unfold beforeLast; rw [L.plain]]
    cases e : V.kind x <;> simp
    · cases sameName c (beforeLast c.sepL ((V.caseName x).getD [])) label <;> rfl
  rw [hskip, List.map_map]
  apply List.map_congr_left
  intro e he
  obtain ⟨a, b, d⟩ := L.region e he
  simp only [Function.comp]
  unfold scanItem
  rw [d]
  have hr := before_block L.seps label e.1
  simp only [ne_eq, not_true, false_and, and_false, if_false, hf, if_true, hr]
  have : gpiType c V e.2 (label ++ blockIdx c e.1) = some .module := by
    unfold gpiType; rw [b]; simp [a, d, sameName]
  unfold createObj
  rw [if_neg (by rw [a]; decide), this]

example : vhpiItems {} exDesign { hdl := 0, type := .genArray, name := str "gen", full := str "top.gen" } =
    [.native { hdl := 4, type := .module, name := str "gen(1)", full := str "top.gen(1)" },
     .native { hdl := 5, type := .module, name := str "gen(2)", full := str "top.gen(2)" }] := by decide +kernel

/-! ## The same for the FLI -/

/-- The full name of a child of a region. -/
def Spec.fliFull (p : Fli.Obj) (name : Text) : Text := if p.full = [47] then p.full ++ name else p.full ++ [47] ++ name

/-- There is something with this name below region `p`. -/
def Spec.FliKnown (F : Fli.Fli) (p : Fli.Obj) (name : Text) : Prop :=
  (F.region (fliFull p name)).isSome ∨ (F.sig (fliFull p name)).isSome ∨ (F.var (fliFull p name)).isSome ∨
  ∃ r ∈ F.lower p.hdl, F.forGen r ∧ beforeLast [40] (F.regionName r) = name

/-- Region `p` has a generate loop `label` with the blocks `els`. -/
structure Spec.FliLoop (F : Fli.Fli) (p : Fli.Obj) (label : Text) (els : List (Int × H)) : Prop where
  parent : p.type = .module ∧ F.vhdl p.hdl ∧ F.value p.hdl = false
  plain : Gpi.rfindSuffix [40] label = none
  blocks : els ≠ []
  region : ∀ e ∈ els, F.forGen e.2 ∧ F.vhdl e.2 ∧ F.value e.2 = false ∧ F.regionName e.2 = label ++ indexSuffix [e.1]
  listed : ∀ e ∈ els, e.2 ∈ F.lower p.hdl
  whole : (F.region (fliFull p label) = none ∧ F.sig (fliFull p label) = none ∧ F.var (fliFull p label) = none) ∨
    ∃ r, F.region (fliFull p label) = some r ∧ F.forGen r
  one : ∀ i, F.region (fliFull p label ++ indexSuffix [i]) = (els.find? (·.1 = i)).map (·.2)

/-- C125, full statement: only what there is is found. -/
def C125_fli_exists_full : Prop :=
  ∀ (F : Fli.Fli) (name : Text) (p o : Fli.Obj), p.type = .module → Fli.fliByName F name p = some o → FliKnown F p name

theorem fli_child {p : Fli.Obj} {name : Text} (h : p.type = .module) :
    Fli.childName p name = some (fliFull p name, true, true, true) := by
  unfold Fli.childName fliFull
  split <;> simp [h]

/-- C125: names without an index. -/
theorem C125_fli_exists_partial {F : Fli.Fli} {name : Text} {p o : Fli.Obj} (hp : p.type = .module)
    (h : Fli.fliByName F name p = some o) (hn : Gpi.rfindSuffix [40] name = none) : FliKnown F p name := by
  unfold Fli.fliByName at h
  rw [fli_child hp] at h
  simp only at h
  unfold FliKnown
  split at h
  · rename_i x hx
    unfold Fli.find at hx
    simp only [if_true] at hx
    rcases e1 : F.region (fliFull p name) with _ | r
    · rcases e2 : F.sig (fliFull p name) with _ | g
      · rw [e1, e2] at hx
        simp only at hx
        right; right; left; rw [hx]; rfl
      · right; left; rfl
    · left; rfl
  · split at h
    · rename_i hx
      simp only [Bool.true_and, List.any_eq_true, Bool.and_eq_true] at hx
      obtain ⟨r, h1, h2, h3⟩ := hx
      refine Or.inr (Or.inr (Or.inr ⟨r, h1, h2, ?_⟩))
      unfold Fli.sameLabel at h3
      have h4 : beforeLast [40] name = name := by unfold beforeLast; rw [hn]
      rw [h4] at h3
      exact beq_iff_eq.1 h3
    · cases h

/-- Regions: 0 `top`, 1 and 2 the blocks of `gen`; a signal 3 `s`. -/
def exFli : Fli.Fli where
  vhdl _ := true
  value h := h == 3
  signal h := h == 3
  const _ := false
  forGen h := h == 1 || h == 2
  ty _ := .scalar
  regionName h := if h = 0 then Fli.str "top" else if h = 1 then Fli.str "gen(1)" else Fli.str "gen(2)"
  fullName h := if h = 0 then Fli.str "/top" else if h = 1 then Fli.str "/top/gen(1)" else Fli.str "/top/gen(2)"
  region t := if t = Fli.str "/top/gen(1)" then some 1 else if t = Fli.str "/top/gen(2)" then some 2 else none
  sig t := if t = Fli.str "/top/s" then some 3 else none
  var _ := none
  lower h := if h = 0 then [1, 2] else []
  subs _ := []
  tops := [0]

/-- `/top`. -/
def exFliTop : Fli.Obj := { hdl := 0, type := .module, name := Fli.str "top", full := Fli.str "/top", numElems := 1 }

/-- `dut["gen(7)"]`, which is not there, is found. -/
theorem C125_fli_exists_counterexample : ¬ C125_fli_exists_full := by
  intro H
  have h := H exFli (Fli.str "gen(7)") exFliTop _ rfl (show _ = some
    { hdl := 0, type := .genArray, name := Fli.str "gen(7)", full := Fli.str "/top/gen(7)", numElems := 1, indexable := true }
    by decide +kernel)
  rcases h with h | h | h | ⟨r, h1, h2, h3⟩
  · revert h; decide +kernel
  · revert h; decide +kernel
  · revert h; decide +kernel
  · have : r = 1 ∨ r = 2 := by simpa [exFli, exFliTop] using h1
    rcases this with rfl | rfl <;> revert h3 <;> decide +kernel

/-- C125, full statement for generate loops in the FLI. -/
def C125_fli_loop_full : Prop :=
  ∀ (F : Fli.Fli) (p : Fli.Obj) (label : Text) (els : List (Int × H)), FliLoop F p label els →
    ∃ o, Fli.fliByName F label p = some o ∧ o.type = .genArray ∧
      (∀ i h, VhdlInt i → els.find? (·.1 = i) = some (i, h) →
        ∃ b, Fli.fliByIndex F i o = some b ∧ b.hdl = h ∧ b.type = .module ∧ b.name = label ++ indexSuffix [i]) ∧
      (∀ i, VhdlInt i → els.find? (·.1 = i) = none → Fli.fliByIndex F i o = none)

theorem fli_before {label : Text} (i : Int) : beforeLast [40] (label ++ indexSuffix [i]) = label := by
  have h := before_block (c := {}) (Or.inl ⟨rfl, rfl⟩) label i
  have e : blockIdx {} i = indexSuffix [i] := by simp [blockIdx, indexSuffix]
  rw [e] at h
  change Gpi.rfindSuffix [40] _ = _ at h
  unfold beforeLast
  rw [h]; simp

/-- C125: loops whose label is not the name of the region around it. -/
theorem C125_fli_loop_partial {F : Fli.Fli} {p : Fli.Obj} {label : Text} {els : List (Int × H)} (L : FliLoop F p label els)
    (ho : label ≠ F.regionName p.hdl) :
    ∃ o, Fli.fliByName F label p = some o ∧ o.type = .genArray ∧
      (∀ i h, VhdlInt i → els.find? (·.1 = i) = some (i, h) →
        ∃ b, Fli.fliByIndex F i o = some b ∧ b.hdl = h ∧ b.type = .module ∧ b.name = label ++ indexSuffix [i]) ∧
      (∀ i, VhdlInt i → els.find? (·.1 = i) = none → Fli.fliByIndex F i o = none) := by
  obtain ⟨p1, p2, p3⟩ := L.parent
  have hlook : Fli.fliByName F label p = some
      { hdl := p.hdl, type := .genArray, name := label, full := fliFull p label, numElems := 1, indexable := true } := by
    unfold Fli.fliByName
    rw [fli_child p1]
    rcases L.whole with ⟨w1, w2, w3⟩ | ⟨r, w1, w2⟩
    rotate_left
    · simp [Fli.find, w1, w2, Fli.createObj, p2, p3, ho]
    simp only [Fli.find, w1, w2, w3, if_true, Bool.true_and]
    obtain ⟨e, he⟩ := List.exists_mem_of_ne_nil _ L.blocks
    obtain ⟨r1, r2, r3, r4⟩ := L.region e he
    rw [if_pos]
    · simp [Fli.createObj, p2, p3, ho]
    · rw [List.any_eq_true]
      refine ⟨e.2, L.listed e he, ?_⟩
      simp only [r1, Bool.true_and, Fli.sameLabel, r4, fli_before]
      rw [show beforeLast [40] label = label by unfold beforeLast; rw [L.plain]]
      simp
  refine ⟨_, hlook, rfl, ?_, ?_⟩
  · intro i h hi hf
    obtain ⟨r1, r2, r3, r4⟩ := L.region _ (find_mem hf)
    have := L.one i
    rw [hf] at this
    refine ⟨{ hdl := h, type := .module, name := label ++ indexSuffix [i], full := fliFull p label ++ indexSuffix [i], numElems := 1 },
      ?_, rfl, rfl, rfl⟩
    unfold Fli.fliByIndex
    simp only at r2 r3 r4
    simp only [idxText_eq hi, this, Option.map_some]
    simp [Fli.createObj, r2, r3, r4]
  · intro i hi hf
    have := L.one i
    rw [hf] at this
    unfold Fli.fliByIndex
    simp only [idxText_eq hi, this, Option.map_none]

theorem exFli_one (i : Int) : exFli.region (Fli.str "/top/gen" ++ indexSuffix [i]) =
    (([(1, 1), (2, 2)] : List (Int × H)).find? (·.1 = i)).map (·.2) := by
  have hinj : ∀ n : Int, (Fli.str "/top/gen" ++ indexSuffix [i] = Fli.str "/top/gen" ++ indexSuffix [n]) ↔ i = n := by
    intro n
    constructor
    · intro h
      have := List.append_cancel_left h
      simp only [indexSuffix, List.append_nil] at this
      have := congrArg atoi (List.append_cancel_right (List.cons.inj this).2)
      rwa [atoi_decInt, atoi_decInt] at this
    · rintro rfl; rfl
  have e1 : Fli.str "/top/gen(1)" = Fli.str "/top/gen" ++ indexSuffix [1] := by decide +kernel
  have e2 : Fli.str "/top/gen(2)" = Fli.str "/top/gen" ++ indexSuffix [2] := by decide +kernel
  simp only [exFli, e1, e2, hinj]
  by_cases h1 : i = 1
  · subst h1; rfl
  · by_cases h2 : i = 2
    · subst h2; rfl
    · simp [h1, h2, List.find?, show ¬ (1 = i) by omega, show ¬ (2 = i) by omega]

/-- The loop `gen` of the example. -/
theorem exFliLoop : FliLoop exFli exFliTop (Fli.str "gen") [(1, 1), (2, 2)] where
  parent := by decide
  plain := by decide +kernel
  blocks := by decide
  region := by decide +kernel
  listed := by decide
  whole := Or.inl (by decide +kernel)
  one i := exFli_one i

example : Fli.str "gen" ≠ exFli.regionName exFliTop.hdl := by decide +kernel

/-- The same design with the name `gen` for the entity. -/
def exFliSame : Fli.Fli := { exFli with regionName := fun h => if h = 0 then Fli.str "gen" else exFli.regionName h }

/-- A loop with the label `gen` in an entity `gen` is taken for the entity itself. -/
theorem C125_fli_loop_counterexample : ¬ C125_fli_loop_full := by
  intro H
  obtain ⟨o, h1, h2, _⟩ := H exFliSame exFliTop (Fli.str "gen") [(1, 1), (2, 2)]
    { parent := by decide
      plain := by decide +kernel
      blocks := by decide
      region := by decide +kernel
      listed := by decide
      whole := Or.inl (by decide +kernel)
      one := exFli_one }
  have : Fli.fliByName exFliSame (Fli.str "gen") exFliTop =
      some { hdl := 0, type := .module, name := Fli.str "gen", full := Fli.str "/top/gen", numElems := 1 } := by decide +kernel
  rw [this] at h1
  cases h1
  cases h2

/-! ## Elements of records -/

/-- C125: listing a record (VHPI) gives its elements under their own names, and each is what a lookup gives. -/
theorem C125_vhpi_record {c : Flavor} {V : Vhpi} {p : Obj} {rel : Rel} {h : H} {pre n : Text} {hs : List H} {o : Obj}
    (hc : c.nvc = false) (hp : p.type = .structure) (hf : p.full ≠ [58]) (hk : V.kind h ≠ .forGenerate)
    (hn : V.caseName h = some (pre ++ [46] ++ n)) (hd : 46 ∉ n)
    (hb : V.byName (qualified c p n) = none) (hi : V.iter .selectedNames p.hdl = some hs) (hm : h ∈ hs)
    (hu : ∀ x ∈ hs, ∀ t, V.caseName x = some t → lastPart t = n → x = h) (ha : ∀ x ∈ hs, (V.caseName x).isSome) :
    scanItem c V p rel h = .native o ↔ vhpiByName c V n p = .obj o := by
  have hcut : Gpi.cutLast 46 (pre ++ [46] ++ n) = some (pre, 46 :: n) := by
    unfold Gpi.cutLast
    have h1 : (pre ++ [46] ++ n).reverse = n.reverse ++ 46 :: pre.reverse := by simp
    have h2 : ∀ x ∈ n.reverse, (x != 46) = true := by
      intro x hx
      simp only [List.mem_reverse] at hx
      simp only [bne_iff_ne, ne_eq]; rintro rfl; exact hd hx
    simp only [h1]
    rw [List.dropWhile_append_of_pos h2, List.takeWhile_append_of_pos h2]
    simp
  have hlast : lastPart (pre ++ [46] ++ n) = n := by unfold lastPart; rw [hcut]; rfl
  have hfind : (hs.find? fun x => sameName c (lastPart ((V.caseName x).getD [])) n) = some h := by
    have hsome : (hs.find? fun x => sameName c (lastPart ((V.caseName x).getD [])) n).isSome := by
      rw [List.find?_isSome]
      exact ⟨h, hm, by rw [hn, Option.getD_some, hlast]; simp [sameName]⟩
    obtain ⟨x, hx⟩ := Option.isSome_iff_exists.1 hsome
    have h1 := List.mem_of_find?_eq_some hx
    have h2 := List.find?_some hx
    obtain ⟨t, ht⟩ := Option.isSome_iff_exists.1 (ha x h1)
    rw [ht] at h2
    simp only [sameName, hc, Option.getD_some, Bool.false_eq_true, if_false, beq_iff_eq] at h2
    rw [hx, hu x h1 t ht h2]
  have hq : qualified c p n = p.full ++ 46 :: n := by unfold qualified; simp [hc, hf]
  unfold vhpiByName
  rw [hb]
  simp only [hp, if_true, hi, Option.getD_some, hfind, nameRes, if_neg hk]
  rw [hq]
  unfold scanItem
  rw [hn]
  simp only [hk, and_false, if_false, hf, hp, if_neg (show ¬ GType.structure = .genArray by decide), if_true, hcut,
    List.drop_succ_cons, List.drop_zero]
  cases createObj c V h n (p.full ++ 46 :: n) <;> simp [Res.of]

example : ∃ o, scanItem {} exDesign exR .selectedNames 2 = .native o ∧ vhpiByName {} exDesign (str "f") exR = .obj o ∧
    o.hdl = 2 ∧ o.name = str "f" ∧ o.full = str "top.r.f" := by
  refine ⟨_, rfl, ?_⟩
  decide +kernel

/-- C125: a lookup below a record of the FLI gives the signal of this name, or the variable if the record is a
variable. -/
theorem C125_fli_record {F : Fli.Fli} {p : Fli.Obj} {n : Text} (hp : p.type = .structure) (hf : p.full ≠ str "/")
    (hg : ∀ h, F.forGen h = true → F.value h = false)
    (hv : ∀ t h, (F.sig t = some h ∨ F.var t = some h) → F.value h = true) :
    Fli.fliByName F n p = ((if p.isVar then F.var else F.sig) (p.full ++ str "." ++ n)).bind
      fun h => Fli.createObj F h n (p.full ++ str "." ++ n) := by
  have e1 : str "/" = [47] := by decide +kernel
  have e2 : str "." = [46] := by decide +kernel
  rw [e1] at hf
  rw [e2]
  have hng : ∀ t h, (F.sig t = some h ∨ F.var t = some h) → F.forGen h = false := by
    intro t h h1
    cases e : F.forGen h
    · rfl
    · have := hg h e; rw [hv t h h1] at this; cases this
  unfold Fli.fliByName Fli.childName
  simp only [if_neg hf, hp, if_true, if_neg (show ¬ GType.structure = .module by decide), Fli.find, Bool.false_and,
    Bool.false_eq_true, if_false]
  cases hi : p.isVar
  · simp only [Bool.not_false, if_true, Bool.false_eq_true, if_false]
    cases e : F.sig (p.full ++ [46] ++ n) with
    | none => rfl
    | some h => simp [hng _ h (Or.inl e)]
  · simp only [Bool.not_true, Bool.false_eq_true, if_false, if_true]
    cases e : F.var (p.full ++ [46] ++ n) with
    | none => rfl
    | some h => simp [hng _ h (Or.inr e)]

example : ∃ (F : Fli.Fli) (p : Fli.Obj), p.type = .structure ∧ p.full ≠ str "/" ∧ (∀ h, F.forGen h = true → F.value h = false) ∧
    (∀ t h, (F.sig t = some h ∨ F.var t = some h) → F.value h = true) ∧ (Fli.fliByName F (str "f") p).map (·.hdl) = some 3 := by
  refine ⟨{ exFli with sig := fun t => if t = str "/top/r.f" then some 3 else none },
    { hdl := 4, type := .structure, name := str "r", full := str "/top/r" }, rfl, by decide +kernel, ?_, ?_, by decide +kernel⟩
  · intro h
    simp only [exFli, Bool.or_eq_true, beq_iff_eq]
    rintro (rfl | rfl) <;> rfl
  · intro t h
    simp only [exFli]
    rintro (h1 | h1)
    · split at h1
      · cases h1; rfl
      · cases h1
    · cases h1

/-! ## Loops in the listing of a region -/

/-- C125: a loop is listed below its region as what a lookup of its label gives. -/
theorem C125_vhpi_loop_listed {c : Flavor} {V : Vhpi} {p : Obj} {label : Text} {els : List (Int × H)} (hc : c.nvc = false)
    (hp : p.type = .module) (hf : p.full ≠ [58]) (hl : label ≠ []) (L : Loop c V p label els) (ho : OwnLabel c V p label)
    {e : Int × H} (he : e ∈ els) :
    ∃ o, scanItem c V p .internalRegions e.2 = .native o ∧ vhpiByName c V label p = .obj o := by
  obtain ⟨o, h1, h2, _⟩ := C125_vhpi_loop_partial (by rw [hp]; decide) L ho
  refine ⟨o, ?_, h1⟩
  have hlook : vhpiByName c V label p =
      .obj { hdl := p.hdl, type := .genArray, name := label, full := qualified c p label } :=
    loop_lookup (by rw [hp]; decide) L ho
  rw [hlook] at h1
  injection h1 with h1
  subst h1
  obtain ⟨a, b, d⟩ := L.region e he
  have hq : qualified c p label = p.full ++ [46] ++ label := by unfold qualified; simp [hc, hf]
  unfold scanItem
  rw [d]
  have hr := before_block L.seps label e.1
  have hlen : (blockIdx c e.1).length ≠ (label ++ blockIdx c e.1).length := by
    rw [List.length_append]
    have : label.length ≠ 0 := fun h => hl (List.length_eq_zero_iff.1 h)
    omega
  have hpl : Gpi.rfindSuffix c.sepL label = none := L.plain
  have htake : (label ++ blockIdx c e.1).take ((label ++ blockIdx c e.1).length - (blockIdx c e.1).length) = label := by simp
  simp only [a, hp, if_neg (show ¬ GType.module = .genArray by decide), ne_eq, show (GType.module = .genArray) = False by simp,
    not_false_eq_true, and_self, if_true, hr, if_neg hlen, htake, hf, if_false,
    if_neg (show ¬ GType.module = .structure by decide)]
  rw [← hq, create_loop L.parent ho]

example : ∃ o, scanItem {} exDesign exTop .internalRegions 4 = .native o ∧ vhpiByName {} exDesign (str "gen") exTop = .obj o := by
  refine ⟨_, rfl, ?_⟩
  decide +kernel

/-! ## The top of the design -/

/-- C125: the top of a design is found without a name, by its name or by the name of its entity, and has the name the
simulator gives it; another name is that of an object below the root. -/
theorem C125_vhpi_root {c : Flavor} {V : Vhpi} {r : H} {rn : Text} (hr : V.root = some r) (hk : V.kind r = .rootInst)
    (ht : V.ty r = none) (hn : V.caseName r = some rn) (name : Option Text) :
    vhpiRoot c V name =
      match name with
      | none => some { hdl := r, type := .module, name := rn, full := rn }
      | some n =>
        if sameName c n rn then some { hdl := r, type := .module, name := rn, full := rn }
        else if (V.entity r).any (sameName c n) then
          some { hdl := r, type := .module, name := (V.entity r).getD [], full := (V.entity r).getD [] }
        else (V.byName (if n.head? = some 58 then n else str ":" ++ n)).bind fun d =>
          let dn := (V.caseName d).getD []
          if sameName c n dn then createObj c V d dn dn else none := by
  have hv : V.kind r ≠ .verilog := by rw [hk]; decide
  have hrefl : ∀ t, sameName c t t = true := by intro t; simp [sameName]
  have h1 : createObj c V r rn rn = some { hdl := r, type := .module, name := rn, full := rn } := by
    have : gpiType c V r rn = some .module := by
      unfold gpiType; rw [ht]; simp [hk, hn, hrefl]
    unfold createObj
    rw [if_neg hv, this]
  have h2 : ∀ e, V.entity r = some e → createObj c V r e e = some { hdl := r, type := .module, name := e, full := e } := by
    intro e he
    have : gpiType c V r e = some .module := by
      unfold gpiType; rw [ht]; simp only [hk, hn, Option.getD_some, he]
      by_cases h : sameName c rn e = true
      · have h' : sameName c e rn = true := by
          unfold sameName at h ⊢; split <;> simp_all
        simp [h, h']
      · simp [h, hrefl]
    unfold createObj
    rw [if_neg hv, this]
  unfold vhpiRoot
  rw [hr]
  simp only [hn, Option.getD_some, h1]
  cases name with
  | none => rfl
  | some n =>
    simp only
    by_cases hs : sameName c n rn = true
    · simp [hs]
    · simp only [hs, Bool.false_eq_true, if_false]
      cases he : V.entity r with
      | none =>
        simp only [Option.filter_none, Option.any_none, Bool.false_eq_true, if_false]
        rw [show str ":" = [58] by decide +kernel]
        simp only [List.singleton_append]
        cases V.byName (if n.head? = some 58 then n else 58 :: n) <;> rfl
      | some e =>
        by_cases hs' : sameName c n e = true
        · simp [Option.filter, hs', h2 e he]
        · simp only [Option.filter, hs', Bool.false_eq_true, if_false, Option.any_some]
          rw [show str ":" = [58] by decide +kernel]
          simp only [List.singleton_append]
          cases V.byName (if n.head? = some 58 then n else 58 :: n) <;> rfl

example : exDesign.root = some 0 ∧ exDesign.kind 0 = .rootInst ∧ exDesign.ty 0 = none ∧ exDesign.caseName 0 = some (str "top") := by
  decide +kernel

/-- C125: the FLI takes the first top region, or the first with the name given. -/
theorem C125_fli_root {F : Fli.Fli} (hv : ∀ r ∈ F.tops, F.vhdl r ∧ F.value r = false) (name : Option Text) :
    Fli.fliRoot F name = (F.tops.find? fun r => name.all (· = F.regionName r)).map fun r =>
      { hdl := r, type := .module, name := F.regionName r, full := F.fullName r, numElems := 1 } := by
  have : Fli.fliRoot F name = (F.tops.find? fun r => name.all (· = F.regionName r)).bind fun r =>
      Fli.createObj F r (F.regionName r) (F.fullName r) := by
    unfold Fli.fliRoot
    cases name with
    | none => simp only [Option.all_none]; cases F.tops.find? fun _ => true <;> rfl
    | some n =>
      simp only [Option.all_some, Bool.beq_eq_decide_eq]
      cases F.tops.find? fun r => decide (n = F.regionName r) <;> rfl
  rw [this]
  cases e : F.tops.find? fun r => name.all (· = F.regionName r) with
  | none => rfl
  | some r =>
    obtain ⟨h1, h2⟩ := hv r (List.mem_of_find?_eq_some e)
    simp [Fli.createObj, h1, h2]

example : (∀ r ∈ exFli.tops, exFli.vhdl r ∧ exFli.value r = false) ∧ Fli.fliRoot exFli (some (Fli.str "top")) = some exFliTop ∧
    Fli.fliRoot exFli (some (Fli.str "gen")) = none := by decide +kernel

end Verif
