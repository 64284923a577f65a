import Verif.Lemmas.Hierarchy
/-!
# C70, C76: looking up objects of the design
-/
namespace Verif
open Verif.Hier Verif.Spec

/-- The state after a program's operations. -/
def after (D : Design) (ops : List Op) : St := (Hier.run D ops St.init).2

/-- What an operation returns after a program's earlier operations. -/
def result (D : Design) (ops : List Op) (op : Op) : Res := (Hier.step D op (after D ops)).1

/-- The handle of an object. -/
def handleOf (s : St) (o : Nat) : Option Hdl := (s.objs[o]?).map (·.hdl)

namespace HierarchyEx

/-- A scope 0 named `top` with signals `a` (1), `b` (2), a generate loop `g` (3) with blocks `g[1]` (4)
and `g[0]` (5), and something cocotb has no class for (6); lookups ignore case. -/
def D : Design where
  kind h := if h = 0 then .module else if h = 3 then .genArray else if h = 4 ∨ h = 5 then .module
    else if h = 6 then .unsupported else .leaf
  name h := match h with
    | 0 => "top".toList | 1 => "a".toList | 2 => "b".toList | 3 => "g".toList
    | 4 => "g[1]".toList | 5 => "g[0]".toList | _ => "w".toList
  children h := match h with | 0 => [1, 2, 3, 6] | 3 => [4, 5] | _ => []
  byName h n := if h ≠ 0 then none else match String.ofList n with
    | "a" => some 1 | "A" => some 1 | "b" => some 2 | "B" => some 2 | "g" => some 3 | "G" => some 3
    | "w" => some 6 | _ => none
  native h n t := if h = 0 ∧ n = "a".toList then some (100 + t) else none
  byIndex h i := if h = 3 ∧ i = 1 then some 4 else if h = 3 ∧ i = 0 then some 5 else none
  range _ := []

/-- The same design with exact spelling. -/
def E : Design := { D with byName := fun h n => if h ≠ 0 then none else match String.ofList n with
    | "a" => some 1 | "b" => some 2 | "g" => some 3 | "w" => some 6 | _ => none }

theorem agreeE : Agree E := by
  intro h k c ⟨hc, hk⟩
  have key : ∀ h ∈ [0, 3], ∀ c ∈ E.children h,
      (subKey E (E.kind h) h c).all (fun k => answer E (E.kind h) h k == some c) = true := by
    decide +kernel
  match h with
  | 0 => have := key 0 (by simp) c hc; rw [hk] at this; simpa using this
  | 3 => have := key 3 (by simp) c hc; rw [hk] at this; simpa using this
  | 1 | 2 => simp [E, D] at hc
  | n + 4 => simp [E, D] at hc

theorem spellE : OneSpelling E 0 := by
  intro k c h
  match k with
  | .idx i => simp [answer, E, D] at h
  | .name n =>
    have key : ∀ x ∈ [("a", 1), ("b", 2), ("g", 3), ("w", 6)], x.2 ∈ E.children 0 ∧
        subKey E (E.kind 0) 0 x.2 = some (.name x.1.toList) := by decide +kernel
    have hn : (String.ofList n).toList = n := by simp
    simp only [answer, E, D] at h
    simp only [↓reduceIte, ne_eq, not_true_eq_false] at h
    split at h <;> (try cases h) <;> rename_i e <;> rw [e] at hn
    · exact hn ▸ key ("a", 1) (by simp)
    · exact hn ▸ key ("b", 2) (by simp)
    · exact hn ▸ key ("g", 3) (by simp)
    · exact hn ▸ key ("w", 6) (by simp)

end HierarchyEx

/-! ## Invariants of reachable states -/

theorem after_snoc (D : Design) (ops more : List Op) :
    after D (ops ++ more) = (Hier.run D more (after D ops)).2 := by
  have : ∀ (l : List Op) (s : St), (Hier.run D (l ++ more) s).2 = (Hier.run D more (Hier.run D l s).2).2 := by
    intro l
    induction l with
    | nil => intro s; rfl
    | cons op l ih => intro s; exact ih _
  exact this ops St.init

theorem after_moves (D : Design) (ops : List Op) :
    Moves D (∃ op ∈ ops, Native op) (fun o => ∃ op ∈ ops, Lists op o) St.init (after D ops) :=
  run_moves D ops St.init

theorem after_inv (D : Design) (ops : List Op) : Inv D (after D ops) := (after_moves D ops).inv .init

theorem after_complete (D : Design) (ops : List Op) : Complete D (after D ops) := by
  refine (after_moves D ops).complete ?_
  intro o x hx; simp [St.init] at hx

theorem after_subsAre (D : Design) (ops : List Op) (P : Kind → Hdl → Key → Hdl → Prop)
    (hw : ∀ o x k h, Why D (∃ op ∈ ops, Native op) (fun o => ∃ op ∈ ops, Lists op o) o x k h →
      P x.cls x.hdl k h) : SubsAre P (after D ops) := by
  refine (after_moves D ops).subsAre .init hw ?_
  intro o x k c y hx; simp [St.init] at hx

/-- A lookup that returns an object has recorded it. -/
theorem asks_has {D : Design} {op : Op} {o : Nat} {k : Key} {s : St} {c : Nat} (ha : Asks op o k)
    (h : (Hier.step D op s).1 = .obj c) : Has (Hier.step D op s).2 o k c := by
  have aux : ∀ (r : PyM Nat), Res.ofObj r = .obj c → r = .ok c := by
    intro r hr; cases r <;> simp [Res.ofObj] at hr ⊢; exact hr
  rcases ha with rfl | ⟨n, rfl, rfl⟩ | ⟨d, rfl⟩
  · unfold Hier.step at h ⊢
    simp only [Op.target] at h ⊢
    cases hx : s.objs[o]? with
    | none => rw [hx] at h; cases h
    | some x =>
      rw [hx] at h
      exact (item_spec D (fun _ => False) k s hx).2.1 c (aux _ h)
  · unfold Hier.step at h ⊢
    simp only [Op.target] at h ⊢
    cases hx : s.objs[o]? with
    | none => rw [hx] at h; cases h
    | some x =>
      rw [hx] at h
      exact (attr_spec D (fun _ => False) n s hx).2.1 c (aux _ h)
  · unfold Hier.step at h ⊢
    simp only [Op.target] at h ⊢
    cases hx : s.objs[o]? with
    | none => rw [hx] at h; cases h
    | some x =>
      rw [hx] at h
      simp only [stepOn] at h ⊢
      rcases getOp_state D o x k d s with ⟨e, _⟩ | ⟨e, _⟩
      · rw [e] at h ⊢
        refine (getSub_spec D (fun _ => False) k d s hx).2.1 c ?_
        generalize (getSub D o x k d s).1 = r at h
        match r with
        | .ok (some c') => simp [Res.ofGet] at h; simp [h]
        | .ok none => simp [Res.ofGet] at h
        | .error e => simp [Res.ofGet] at h
      · rw [e] at h; simp [Res.ofGet] at h

/-- A lookup of a recorded child returns it, if it returns an object. -/
theorem asks_same {D : Design} {op : Op} {o : Nat} {k : Key} {s : St} {c d : Nat} (ha : Asks op o k)
    (hh : Has s o k c) (h : (Hier.step D op s).1 = .obj d) : d = c := by
  obtain ⟨x, hx, hc⟩ := has_iff.1 hh
  rcases ha with rfl | ⟨n, rfl, rfl⟩ | ⟨m, rfl⟩
  · unfold Hier.step at h
    simp only [Op.target, hx, stepOn] at h
    have := (item_spec D (fun _ => False) k s hx).2.2 c
    by_cases hk : x.cls = .module ∨ x.cls = .genArray ∨ x.cls = .array ∨ x.cls = .logicArray
    · rw [this hk hc] at h; simp [Res.ofObj] at h; exact h.symm
    · unfold item at h
      revert h hk
      cases x.cls <;> simp [Res.ofObj]
  · unfold Hier.step at h
    simp only [Op.target, hx, stepOn] at h
    have := (attr_spec D (fun _ => False) n s hx).2.2 c
    by_cases hk : x.cls = .module
    · by_cases hu : n.head? = some '_'
      · simp [attr, hk, hu, Res.ofObj] at h
      · rw [this hk hu hc] at h; simp [Res.ofObj] at h; exact h.symm
    · unfold attr at h
      revert h hk
      cases x.cls <;> simp [Res.ofObj]
  · unfold Hier.step at h
    simp only [Op.target, hx, stepOn] at h
    rcases getOp_state D o x k m s with ⟨e, _⟩ | ⟨e, _⟩
    · rw [e, (getSub_spec D (fun _ => False) k m s hx).2.2 c hc] at h
      simp [Res.ofGet] at h; exact h.symm
    · rw [e] at h; simp [Res.ofGet] at h

/-- Children are recorded for good when listing agrees with looking up. -/
theorem Moves.has_agree {D : Design} {dsc : Nat → Prop} (hD : Agree D) {s t : St}
    (m : Moves D False dsc s t) (i : Inv D s) (hs : SubsAre (fun cls h k c => answer D cls h k = some c) s)
    {o : Nat} {k : Key} {c : Nat} (h : Has s o k c) : Has t o k c := by
  have hw : ∀ o x k h, Why D False dsc o x k h → x.cls = D.kind x.hdl ∨ x.cls = .leaf →
      answer D x.cls x.hdl k = some h := by
    intro o x k h w hc
    cases w with
    | asked _ a => exact a
    | native _ _ f => exact f.elim
    | listed _ l =>
      rcases hc with e | e
      · rw [e] at l ⊢; exact hD _ _ _ l
      · rw [e] at l; simp [Listed, subKey] at l
  have both : Has t o k c ∧ SubsAre (fun cls h k c => (cls = D.kind h ∨ cls = .leaf) → answer D cls h k = some c) t := by
    induction m with
    | refl => exact ⟨h, fun o x k c y a b e _ => hs o x k c y a b e⟩
    | @tail t u a m ih =>
      obtain ⟨hh, hsub⟩ := ih
      have it := a.inv i
      refine ⟨m.has ?_ hh, m.subsAre it hw hsub⟩
      intro x g hx _ hl
      obtain ⟨x', hx', hc⟩ := has_iff.1 hh
      rw [hx] at hx'; cases hx'
      obtain ⟨y, hy, hy2⟩ := it.subs o x k c hx hc
      have hcl := it.cls o x hx
      have h1 := hsub o x k c y hx hc hy hcl
      have h2 : answer D x.cls x.hdl k = some g := by
        rcases hcl with e | e
        · rw [e] at hl ⊢; exact hD _ _ _ hl
        · rw [e] at hl; simp [Listed, subKey] at hl
      rw [h1] at h2; cases h2
      refine hy2 ?_
      intro e; rw [e] at hl; simp [Listed, subKey] at hl
  exact both.1

theorem after_answers {D : Design} (hD : Agree D) (ops : List Op) (hn : ∀ op ∈ ops, ¬ Native op) :
    SubsAre (fun cls h k c => answer D cls h k = some c) (after D ops) := by
  have h1 := after_subsAre D ops
    (fun cls h k c => (cls = D.kind h ∨ cls = .leaf) → answer D cls h k = some c) (by
      intro o x k h w hc
      cases w with
      | asked _ a => exact a
      | native _ _ f => obtain ⟨op, ho, hp⟩ := f; exact absurd hp (hn op ho)
      | listed _ l =>
        rcases hc with e | e
        · rw [e] at l ⊢; exact hD _ _ _ l
        · rw [e] at l; simp [Listed, subKey] at l)
  intro o x k c y hx hc hy
  exact h1 o x k c y hx hc hy ((after_inv D ops).cls o x hx)

/-! ## C70 -/

/-- The full statement: two lookups of the same child of the same object that both find something find
the same object, whatever else the program does before, between and after. -/
def C70_same_object_full : Prop :=
  ∀ (D : Design), Agree D → ∀ (pre : List Op) (op1 : Op) (mid : List Op) (op2 : Op) (o : Nat) (k : Key) (x y : Nat),
    Asks op1 o k → Asks op2 o k → result D pre op1 = .obj x → result D (pre ++ op1 :: mid) op2 = .obj y →
    x = y

/-- False of the code: an object found with GPIDiscovery.NATIVE is replaced by another object for the
same signal when the children are listed. -/
theorem C70_same_object_counterexample : ¬ C70_same_object_full := by
  intro h
  have := h HierarchyEx.E HierarchyEx.agreeE [.root 0] (.get 0 (.name "a".toList) .native) [.iter 0]
    (.attr 0 "a".toList) 0 (.name "a".toList) 1 2 (.inr (.inr ⟨_, rfl⟩)) (.inr (.inl ⟨_, rfl, rfl⟩))
    (by decide +kernel) (by decide +kernel)
  exact absurd this (by decide)

/-- Without NATIVE lookups the same child is always the same object, in any order of lookups by
attribute, by key, through `_get`, and listings. What is missing is the NATIVE case above. -/
theorem C70_same_object_partial (D : Design) (hD : Agree D) (pre : List Op) (op1 : Op) (mid : List Op)
    (op2 : Op) (o : Nat) (k : Key) (x y : Nat) (hn : ∀ op ∈ pre ++ op1 :: mid, ¬ Native op)
    (a1 : Asks op1 o k) (a2 : Asks op2 o k) (r1 : result D pre op1 = .obj x)
    (r2 : result D (pre ++ op1 :: mid) op2 = .obj y) : x = y := by
  have h1 : Has (after D (pre ++ [op1])) o k x := by
    rw [after_snoc]; exact asks_has a1 r1
  have hpre : ∀ op ∈ pre ++ [op1], ¬ Native op := fun op h => hn op (by
    simp only [List.mem_append, List.mem_cons, List.not_mem_nil, or_false] at h ⊢
    rcases h with h | h <;> simp [h])
  have h2 : Has (after D (pre ++ op1 :: mid)) o k x := by
    have e : pre ++ op1 :: mid = (pre ++ [op1]) ++ mid := by simp
    rw [e, after_snoc]
    refine Moves.has_agree (dsc := fun o => ∃ op ∈ mid, Lists op o) hD ?_ (after_inv D _)
      (after_answers hD _ hpre) h1
    refine (run_moves D mid _).weaken ?_ (fun _ h => h)
    rintro ⟨op, ho, hp⟩
    exact hn op (by simp [ho]) hp
  exact (asks_same a2 h2 r2).symm

/-- In every design, and with NATIVE lookups, the object stays the same as long as the parent's
children are not listed in between. -/
theorem C70_same_object_without_listing (D : Design) (pre : List Op) (op1 : Op) (mid : List Op)
    (op2 : Op) (o : Nat) (k : Key) (x y : Nat) (hl : ∀ op ∈ mid, ¬ Lists op o)
    (a1 : Asks op1 o k) (a2 : Asks op2 o k) (r1 : result D pre op1 = .obj x)
    (r2 : result D (pre ++ op1 :: mid) op2 = .obj y) : x = y := by
  have h1 : Has (after D (pre ++ [op1])) o k x := by
    rw [after_snoc]; exact asks_has a1 r1
  have h2 : Has (after D (pre ++ op1 :: mid)) o k x := by
    have e : pre ++ op1 :: mid = (pre ++ [op1]) ++ mid := by simp
    rw [e, after_snoc]
    have m := run_moves D mid (after D (pre ++ [op1]))
    revert m
    generalize (Hier.run D mid (after D (pre ++ [op1]))).2 = t
    intro m
    induction m with
    | refl => exact h1
    | tail _ m ih =>
      refine m.has ?_ ih
      rintro z g _ ⟨op, ho, hp⟩ _
      exact absurd hp (hl op ho)
  exact (asks_same a2 h2 r2).symm

/-- After the children have been listed once, too: listing again changes nothing. -/
theorem C70_listing_once (D : Design) (ops : List Op) (o : Nat) (x : ObjS)
    (hx : (after D ops).objs[o]? = some x) (hd : x.discovered = true) :
    Hier.step D (.keys o) (after D ops) = ((Hier.step D (.keys o) (after D ops)).1, after D ops) ∧
    Hier.step D (.len o) (after D ops) = ((Hier.step D (.len o) (after D ops)).1, after D ops) := by
  constructor
  · simp only [Hier.step, Op.target, hx, stepOn, keys, discover, hd, if_true]
    cases x.cls <;> rfl
  · simp only [Hier.step, Op.target, hx, stepOn, len, discover, hd, if_true]
    cases x.cls <;> rfl

example : result HierarchyEx.E [.root 0] (.attr 0 "a".toList) = .obj 1 ∧
    result HierarchyEx.E [.root 0, .attr 0 "a".toList, .iter 0] (.item 0 (.name "a".toList)) = .obj 1 := by
  decide +kernel

/-- An object found by lookup is the one the simulator gives for that key, and everything obtained for
one handle from scopes, generate loops and arrays is one object. -/
theorem C70_right_object (D : Design) (hD : Agree D) (ops : List Op) (op : Op) (o : Nat) (k : Key)
    (x : Nat) (p : ObjS) (hn : ∀ q ∈ ops ++ [op], ¬ Native q) (ha : Asks op o k)
    (hp : (after D ops).objs[o]? = some p) (hr : result D ops op = .obj x) :
    answer D p.cls p.hdl k = handleOf (after D (ops ++ [op])) x ∧
    handleOf (after D (ops ++ [op])) x ≠ none := by
  have hh : Has (after D (ops ++ [op])) o k x := by rw [after_snoc]; exact asks_has ha hr
  obtain ⟨p', hp', hc⟩ := has_iff.1 hh
  have hl : Later (after D ops) (after D (ops ++ [op])) := by
    rw [after_snoc]; exact (run_moves D [op] _).later
  obtain ⟨p2, hp2, e1, e2⟩ := hl.obj o p hp
  rw [hp'] at hp2; cases hp2
  obtain ⟨y, hy, _⟩ := (after_inv D (ops ++ [op])).subs o p' k x hp' hc
  have := after_answers hD _ hn o p' k x y hp' hc hy
  rw [e1, e2] at this
  simp [handleOf, hy, this]

theorem C70_one_object_per_handle (D : Design) (ops : List Op) (o1 o2 : Nat) (p1 p2 : ObjS) (k1 k2 : Key)
    (x y : Nat) (h1 : (after D ops).objs[o1]? = some p1) (h2 : (after D ops).objs[o2]? = some p2)
    (c1 : p1.cls ≠ .logicArray) (c2 : p2.cls ≠ .logicArray)
    (g1 : dictGet p1.subs k1 = some x) (g2 : dictGet p2.subs k2 = some y)
    (he : handleOf (after D ops) x = handleOf (after D ops) y) : x = y := by
  obtain ⟨a, ha, ta⟩ := (after_inv D ops).subs o1 p1 k1 x h1 g1
  obtain ⟨b, hb, tb⟩ := (after_inv D ops).subs o2 p2 k2 y h2 g2
  simp only [handleOf, ha, hb, Option.map_some, Option.some.injEq] at he
  have := ta c1
  rw [he, tb c2] at this
  exact (Option.some.inj this).symm

/-- A child that neither lookup nor listing knows raises: AttributeError by attribute, KeyError by
name, IndexError by index; `_get` returns None; after any history. -/
theorem C70_absent_raises (D : Design) (ops : List Op) (o : Nat) (p : ObjS)
    (hp : (after D ops).objs[o]? = some p) :
    (∀ n, p.cls = .module → D.byName p.hdl n = none → (∀ t, D.native p.hdl n t = none) →
      (∀ c ∈ D.children p.hdl, D.name c ≠ n) →
      result D ops (.attr o n) = .err .attributeError ∧
      result D ops (.item o (.name n)) = .err .keyError ∧
      (∀ d, result D ops (.get o (.name n) d) = .none) ∧
      result D ops (.setAttr o n) = .err .attributeError) ∧
    (∀ i : Int, p.cls = .genArray → -(2 ^ 31) ≤ i → i < 2 ^ 31 → D.byIndex p.hdl i = none →
      (∀ c ∈ D.children p.hdl, ∀ j, genKey (D.name p.hdl) (D.name c) = some j → (j : Int) ≠ i) →
      result D ops (.item o (.idx i)) = .err .indexError ∧
      result D ops (.get o (.idx i) .auto) = .none) ∧
    (∀ i : Int, p.cls = .array ∨ p.cls = .logicArray → -(2 ^ 31) ≤ i → i < 2 ^ 31 →
      D.byIndex p.hdl i = none → result D ops (.item o (.idx i)) = .err .indexError) := by
  have key : ∀ k, answer D p.cls p.hdl k = none →
      (∀ n t, k = .name n → p.cls = .module → D.native p.hdl n t = none) →
      (∀ c, ¬ Listed D p.cls p.hdl k c) → dictGet p.subs k = none := by
    intro k h1 h2 h3
    cases hg : dictGet p.subs k with
    | none => rfl
    | some c =>
      exfalso
      obtain ⟨y, hy, _⟩ := (after_inv D ops).subs o p k c hp hg
      have := after_subsAre D ops (fun cls h k c => answer D cls h k = some c ∨
        (∃ t n, k = .name n ∧ cls = .module ∧ D.native h n t = some c) ∨ Listed D cls h k c) (by
          intro o x k h w
          cases w with
          | asked _ a => exact .inl a
          | native t n _ _ a b c => exact .inr (.inl ⟨t, n, a, b, c⟩)
          | listed _ l => exact .inr (.inr l)) o p k c y hp hg hy
      rcases this with a | ⟨t, n, e1, e2, e3⟩ | l
      · rw [h1] at a; cases a
      · rw [h2 n t e1 e2] at e3; cases e3
      · exact h3 _ l
  refine ⟨?_, ?_, ?_⟩
  · intro n hc hb hnat hch
    have hk := key (.name n) (by simp [answer, hc, hb]) (fun m t e _ => by cases e; exact hnat t)
      (fun c l => by
        obtain ⟨l1, l2⟩ := l
        rw [hc] at l2
        simp [subKey] at l2
        exact hch c l1 l2)
    have hattr : (attr D o p n (after D ops)).1 = .error .attributeError := by
      unfold attr
      rw [hc]
      simp only
      split
      · rfl
      · simp [getSub, hk, handleByKey, hc, hb, orRaise]
    refine ⟨?_, ?_, ?_, ?_⟩
    · simp [result, Hier.step, Op.target, hp, stepOn, hattr, Res.ofObj]
    · simp [result, Hier.step, Op.target, hp, stepOn, item, hc, getSub, hk, handleByKey, hb, orRaise, Res.ofObj]
    · intro d
      cases d <;>
        simp [result, Hier.step, Op.target, hp, stepOn, getOp, hc, getSub, hk, handleByKey, hb, hnat, Res.ofGet]
    · have : (setAttr D o p n (after D ops)).1 = .attributeError := by
        unfold setAttr
        generalize attr D o p n (after D ops) = q at hattr
        obtain ⟨q, s⟩ := q
        simp only at hattr; subst hattr; rfl
      simp [result, Hier.step, Op.target, hp, stepOn, this]
  · intro i hc hl hu hb hch
    have hk := key (.idx i) (by simp [answer, hc, hb]) (fun m t e _ => by cases e)
      (fun c l => by
        obtain ⟨l1, l2⟩ := l
        rw [hc] at l2
        simp only [subKey, Option.map_eq_some_iff] at l2
        obtain ⟨j, hj, e⟩ := l2
        exact hch c l1 j hj (Key.idx.inj e))
    have hg : getByIndex D p.hdl i = .ok none := by simp only [getByIndex, hl, hu, and_self, if_true, hb]
    constructor
    · simp [result, Hier.step, Op.target, hp, stepOn, item, hc, getSub, hk, handleByKey, hg, orRaise, Res.ofObj]
    · simp [result, Hier.step, Op.target, hp, stepOn, getOp, hc, getSub, hk, handleByKey, hg, Res.ofGet]
  · intro i hc hl hu hb
    have hk := key (.idx i) (by simp [answer, hb]) (fun m t e _ => by cases e)
      (fun c l => by
        obtain ⟨_, l2⟩ := l
        rcases hc with e | e <;> rw [e] at l2 <;> simp [subKey] at l2)
    have hg : getByIndex D p.hdl i = .ok none := by simp only [getByIndex, hl, hu, and_self, if_true, hb]
    rcases hc with e | e
    · simp [result, Hier.step, Op.target, hp, stepOn, item, e, arrayItem, hk, hg, Res.ofObj]
    · simp [result, Hier.step, Op.target, hp, stepOn, item, e, logicItem, hk, hg, Res.ofObj]

example : result HierarchyEx.E [.root 0, .iter 0] (.attr 0 "zz".toList) = .err .attributeError ∧
    result HierarchyEx.E [.root 0, .iter 0] (.item 0 (.name "zz".toList)) = .err .keyError ∧
    result HierarchyEx.E [.root 0, .attr 0 "g".toList] (.item 1 (.idx 7)) = .err .indexError := by
  decide +kernel

/-- Assigning to an attribute of an object (a forgotten `.value`) never succeeds: if the attribute exists
it is AttributeError, otherwise the error of looking it up. -/
theorem C70_setattr_raises (D : Design) (ops : List Op) (o : Nat) (n : PyStr) :
    ∃ e, result D ops (.setAttr o n) = .err e ∧
      (∀ c, result D ops (.attr o n) = .obj c → e = .attributeError) ∧
      (∀ e', result D ops (.attr o n) = .err e' → e = e') := by
  unfold result Hier.step
  simp only [Op.target]
  cases (after D ops).objs[o]? with
  | none => exact ⟨_, rfl, (fun c h => by cases h), fun e' h => by cases h; rfl⟩
  | some x =>
    refine ⟨_, rfl, ?_, ?_⟩
    · intro c h
      simp only [stepOn] at h
      unfold setAttr
      rcases hr : attr D o x n (after D ops) with ⟨_ | c', s'⟩
      · rw [hr] at h; cases h
      · rfl
    · intro e' h
      simp only [stepOn] at h
      unfold setAttr
      rcases hr : attr D o x n (after D ops) with ⟨e | c', s'⟩
      · rw [hr] at h
        cases h
        cases e' <;> rfl
      · rw [hr] at h; cases h

example : result HierarchyEx.E [.root 0] (.setAttr 0 "g".toList) = .err .attributeError ∧
    result HierarchyEx.E [.root 0] (.attr 0 "g".toList) = .obj 1 := by
  decide +kernel

/-! ### Iteration -/

/-- The full statement: iterating over a scope gives every listed child that cocotb has a class for,
once, and nothing else; `len` counts them. -/
def C70_iteration_full : Prop :=
  ∀ (D : Design), Agree D → ∀ (ops : List Op) (o : Nat) (p : ObjS),
    (after D ops).objs[o]? = some p → p.cls = .module → (∀ q ∈ ops, ¬ Native q) →
    ∃ l, result D ops (.iter o) = .objs l ∧ result D ops (.len o) = .nat l.length ∧
      ∀ c, (l.filter fun x => handleOf (after D (ops ++ [.iter o])) x = some c).length =
        if c ∈ D.children p.hdl ∧ D.kind c ≠ .unsupported then 1 else 0

namespace HierarchyEx

theorem agreeD : Agree D := by
  intro h k c ⟨hc, hk⟩
  have key : ∀ h ∈ [0, 3], ∀ c ∈ D.children h,
      (subKey D (D.kind h) h c).all (fun k => answer D (D.kind h) h k == some c) = true := by
    decide +kernel
  match h with
  | 0 => have := key 0 (by simp) c hc; rw [hk] at this; simpa using this
  | 3 => have := key 3 (by simp) c hc; rw [hk] at this; simpa using this
  | 1 | 2 => simp [D] at hc
  | n + 4 => simp [D] at hc

end HierarchyEx

/-- False of the code: where the simulator ignores case (VHDL), a child looked up in another spelling
is visited twice. -/
theorem C70_iteration_counterexample : ¬ C70_iteration_full := by
  intro h
  obtain ⟨l, h1, h2, h3⟩ := h HierarchyEx.D HierarchyEx.agreeD [.root 0, .attr 0 "A".toList] 0
    ⟨0, .module, [(.name "A".toList, 1)], false⟩ (by decide +kernel) rfl
    (by rintro q hq ⟨o, k, rfl⟩; simp at hq)
  have e1 : result HierarchyEx.D [.root 0, .attr 0 "A".toList] (.iter 0) = .objs [1, 1, 2, 3] := by
    decide +kernel
  rw [e1] at h1
  cases h1
  have := h3 1
  revert this
  decide +kernel

/-- What listing leaves behind: every listed child that has a class is recorded, every record is of a
listed child. -/
theorem listed_after {D : Design} (ops : List Op) {o : Nat} {p : ObjS}
    (hp : (after D ops).objs[o]? = some p) (hh : OneSpelling D p.hdl) (hn : ∀ q ∈ ops, ¬ Native q)
    (hc : p.cls = .module ∨ p.cls = .genArray) :
    ∃ q, (discover D o p (after D ops)).objs[o]? = some q ∧ q.hdl = p.hdl ∧ q.cls = p.cls ∧
      (q.subs.map (·.1)).Nodup ∧
      (∀ k d, dictGet q.subs k = some d → ∃ y, (discover D o p (after D ops)).objs[d]? = some y ∧
        Listed D p.cls p.hdl k y.hdl ∧ D.kind y.hdl ≠ .unsupported) ∧
      (∀ k c, Listed D p.cls p.hdl k c → D.kind c ≠ .unsupported → ∃ d, dictGet q.subs k = some d) := by
  obtain ⟨q, hq, hd, h1, h2⟩ := discover_discovered D (after D ops) hp
  have m := discover_moves D False (fun _ => True) (after D ops) hp trivial
  have i := m.inv (after_inv D ops)
  have cm := m.complete (after_complete D ops)
  have hcl : p.cls = D.kind p.hdl := by
    rcases (after_inv D ops).cls o p hp with e | e
    · exact e
    · rcases hc with e' | e' <;> rw [e'] at e <;> cases e
  have hs : SubsAre (fun cls h k c => cls = D.kind h → OneSpelling D h → Listed D cls h k c)
      (discover D o p (after D ops)) := by
    refine m.subsAre (after_inv D ops) ?_ (after_subsAre D ops _ ?_)
    · intro o x k h w e1 e2
      cases w with
      | asked _ a => rw [e1] at a ⊢; exact e2 _ _ a
      | native _ _ f => exact f.elim
      | listed _ l => exact l
    · intro o x k h w e1 e2
      cases w with
      | asked _ a => rw [e1] at a ⊢; exact e2 _ _ a
      | native _ _ f => obtain ⟨op, ho, hp⟩ := f; exact absurd hp (hn op ho)
      | listed _ l => exact l
  refine ⟨q, hq, h1, h2, i.nodup o q hq, ?_, ?_⟩
  · intro k d hk
    obtain ⟨y, hy, ht⟩ := i.subs o q k d hq hk
    have hl := hs o q k d y hq hk hy (by rw [h1, h2]; exact hcl) (by rw [h1]; exact hh)
    rw [h1, h2] at hl
    exact ⟨y, hy, hl, i.made _ _ (ht (by rw [h2]; rcases hc with e | e <;> rw [e] <;> simp))⟩
  · intro k c hl hk
    obtain ⟨d, hd'⟩ := cm o q hq hd k c (by rw [h1, h2]; exact hl) hk
    obtain ⟨q', hq', e⟩ := has_iff.1 hd'
    rw [hq] at hq'; cases hq'
    exact ⟨d, e⟩

/-- If each child is found under its listed name only (and NATIVE is not used), iterating over a scope
visits exactly the listed children cocotb has a class for, each once, after any history of lookups and
listings, and `len` is their number. Missing: designs in which lookups accept several spellings. -/
theorem C70_iteration_partial (D : Design) (hD : Agree D) (ops : List Op) (o : Nat) (p : ObjS)
    (hp : (after D ops).objs[o]? = some p) (hc : p.cls = .module) (hh : OneSpelling D p.hdl)
    (hn : ∀ q ∈ ops, ¬ Native q) :
    ∃ (l : List Nat) (hs : List Hdl), result D ops (.iter o) = .objs l ∧ result D ops (.len o) = .nat l.length ∧
      l.map (handleOf (after D (ops ++ [.iter o]))) = hs.map some ∧
      hs.Nodup ∧ ∀ c, c ∈ hs ↔ c ∈ D.children p.hdl ∧ D.kind c ≠ .unsupported := by
  obtain ⟨q, hq, h1, h2, hnd, hsub, hall⟩ := listed_after ops hp hh hn (.inl hc)
  have hst : after D (ops ++ [.iter o]) = discover D o p (after D ops) := by
    rw [after_snoc]
    simp [Hier.run, Hier.step, Op.target, hp, stepOn, iter, hc]
  have hsubs : (discover D o p (after D ops)).subs o = q.subs := by simp [St.subs, hq]
  let f : Key × Nat → Hdl := fun e => (handleOf (discover D o p (after D ops)) e.2).getD 0
  have hf : ∀ e ∈ q.subs, ∃ y, (discover D o p (after D ops)).objs[e.2]? = some y ∧ f e = y.hdl ∧
      e.1 = .name (D.name y.hdl) ∧ y.hdl ∈ D.children p.hdl ∧ D.kind y.hdl ≠ .unsupported := by
    intro e he
    obtain ⟨y, hy, hl, hk⟩ := hsub e.1 e.2 (dictGet_of_mem hnd he)
    refine ⟨y, hy, by simp [f, handleOf, hy], ?_, hl.1, hk⟩
    have := hl.2
    rw [hc] at this
    simpa [subKey] using this.symm
  refine ⟨q.subs.map (·.2), q.subs.map f, ?_, ?_, ?_, ?_, ?_⟩
  · simp [result, Hier.step, Op.target, hp, stepOn, iter, hc, Res.ofObjs, hsubs]
  · simp [result, Hier.step, Op.target, hp, stepOn, len, hc, Res.ofNat, hsubs]
  · rw [hst, List.map_map, List.map_map]
    refine List.map_congr_left ?_
    intro e he
    obtain ⟨y, hy, e1, _⟩ := hf e he
    simp [handleOf, hy, e1]
  · have e : q.subs.map (·.1) = (q.subs.map f).map fun h => Key.name (D.name h) := by
      rw [List.map_map]
      refine List.map_congr_left ?_
      intro e he
      obtain ⟨y, hy, e1, e2, _⟩ := hf e he
      simp [e1, e2]
    rw [e] at hnd
    exact List.Pairwise.of_map _ (fun a b h e => h (by rw [e])) hnd
  · intro c
    constructor
    · intro h
      obtain ⟨e, he, rfl⟩ := List.mem_map.1 h
      obtain ⟨y, _, e1, _, e3, e4⟩ := hf e he
      rw [e1]; exact ⟨e3, e4⟩
    · rintro ⟨hm, hk⟩
      have hl : Listed D p.cls p.hdl (.name (D.name c)) c := ⟨hm, by rw [hc]; rfl⟩
      obtain ⟨d, hd⟩ := hall _ c hl hk
      obtain ⟨y, hy, hl', _⟩ := hsub _ d hd
      have hcl : p.cls = D.kind p.hdl := by
        rcases (after_inv D ops).cls o p hp with e | e
        · exact e
        · rw [hc] at e; cases e
      have a1 := hD p.hdl _ _ (hcl ▸ hl)
      have a2 := hD p.hdl _ _ (hcl ▸ hl')
      rw [a1] at a2
      refine List.mem_map.2 ⟨_, dictGet_mem hd, ?_⟩
      simp only [f, handleOf, hy, Option.map_some, Option.getD_some]
      exact (Option.some.inj a2).symm

example : Agree HierarchyEx.E ∧ OneSpelling HierarchyEx.E 0 ∧
    result HierarchyEx.E [.root 0, .attr 0 "b".toList] (.iter 0) = .objs [1, 2, 3] ∧
    result HierarchyEx.E [.root 0, .attr 0 "b".toList] (.len 0) = .nat 3 :=
  ⟨HierarchyEx.agreeE, HierarchyEx.spellE, by decide +kernel, by decide +kernel⟩

/-- Indexing one after the other, as operations of a program. -/
theorem items_run (D : Design) (o : Nat) : ∀ (is : List Int) (s : St) (l : List Nat),
    (items D o (fun x k s => item D o x k s) is s).1 = .ok l ↔
      (Hier.run D (is.map fun i => .item o (.idx i)) s).1 = l.map .obj
  | [], s, l => by
    simp only [items, List.map_nil, Hier.run]
    cases l <;> simp
  | i :: is, s, l => by
    simp only [items, List.map_cons, Hier.run, Hier.step, Op.target]
    cases hx : s.objs[o]? with
    | none =>
      cases l <;> simp
    | some x =>
      simp only [stepOn]
      cases hi : item D o x (.idx i) s with
      | mk r s' =>
        cases r with
        | error e => cases l <;> simp [Res.ofObj]
        | ok c =>
          have ih := items_run D o is s'
          simp only [Res.ofObj]
          cases hr : items D o (fun x k s => item D o x k s) is s' with
          | mk r s'' =>
            rw [hr] at ih
            cases l with
            | nil => cases r <;> simp
            | cons a l =>
              have := ih l
              cases r <;> simp_all

/-- **C70** Iterating over an array gives what indexing it with each index of its range gives, in the order
of the range from left to right; and it raises if one of these does. -/
theorem C70_array_iteration (D : Design) (ops : List Op) (o : Nat) (p : ObjS)
    (hp : (after D ops).objs[o]? = some p) (hc : p.cls = .array) (l : List Nat) :
    result D ops (.iter o) = .objs l ↔
      (Hier.run D ((D.range p.hdl).map fun i => .item o (.idx i)) (after D ops)).1 = l.map .obj := by
  rw [← items_run]
  simp only [result, Hier.step, Op.target, hp, stepOn, iter, hc]
  cases (items D o (fun x k s => item D o x k s) (D.range p.hdl) (after D ops)).1 <;> simp [Res.ofObjs]

namespace HierarchyEx

/-- An array 0 of signals with indexes 3 down to 1. -/
def A : Design where
  kind h := if h = 0 then .array else .leaf
  name _ := "m".toList
  children _ := []
  byName _ _ := none
  native _ _ _ := none
  byIndex h i := if h = 0 ∧ 1 ≤ i ∧ i ≤ 3 then some i.toNat else none
  range _ := [3, 2, 1]

end HierarchyEx

example : result HierarchyEx.A [.root 0, .item 0 (.idx 2)] (.iter 0) = .objs [2, 1, 3] ∧
    [1, 2, 3].map (handleOf (after HierarchyEx.A [.root 0, .item 0 (.idx 2), .iter 0])) = [some 2, some 3, some 1] := by
  decide +kernel

/-! ## C76: generate loops -/

/-- `name[3]`, `name(3)` or `name__3`: how the simulators name the blocks of a generate loop. -/
inductive BlockName (self : PyStr) (v : Int) : PyStr → Prop
  | brackets : BlockName self v (self ++ "[".toList ++ intStr v ++ "]".toList)
  | parens (other : PyStr) : lower other = lower self →
      BlockName self v (other ++ "(".toList ++ intStr v ++ ")".toList)
  | underscores : BlockName self v (self ++ "__".toList ++ intStr v)

theorem matchIndex_hit (ci : Bool) (pre pre' post d : PyStr) (hl : pre'.length = pre.length)
    (he : if ci then lower pre' = lower pre else pre' = pre) :
    matchIndex ci pre post (pre' ++ d ++ post) = parseDec d := by
  unfold matchIndex
  have h1 : (pre' ++ d ++ post).take pre.length = pre' := by
    rw [List.append_assoc, ← hl]; exact List.take_left
  have h2 : (pre' ++ d ++ post).drop pre.length = d ++ post := by
    rw [List.append_assoc, ← hl]; exact List.drop_left
  simp only [h1, h2, List.length_append, Nat.add_sub_cancel]
  rw [List.take_left, List.drop_left]
  simp only [he, and_true]
  split
  · rfl
  · rename_i h; cases ci <;> simp_all

/-- The character after the loop's name decides which pattern can match. -/
theorem matchIndex_miss (ci : Bool) (pre post s : PyStr) (j : Nat) (hj : j < pre.length)
    (h : ∀ c, s[j]? = some c → ∀ c', pre[j]? = some c' →
      (if ci then Char.toLower c ≠ Char.toLower c' else c ≠ c')) :
    matchIndex ci pre post s = none := by
  unfold matchIndex
  have key : ¬ (if ci then lower (s.take pre.length) = lower pre else s.take pre.length = pre) := by
    have hp : pre[j]? = some pre[j] := List.getElem?_eq_getElem hj
    cases ci with
    | true =>
      simp only [if_true]
      intro e
      have e' := congrArg (fun l : List Char => l[j]?) e
      simp only [lower, List.getElem?_map, List.getElem?_take, hj, if_true, hp, Option.map_some] at e'
      obtain ⟨c, hc, hcc⟩ := Option.map_eq_some_iff.1 e'
      have := h c hc _ hp
      simp only [if_true] at this
      exact this hcc
    | false =>
      simp only [Bool.false_eq_true, if_false]
      intro e
      have e' := congrArg (fun l : List Char => l[j]?) e
      simp only [List.getElem?_take, hj, if_true, hp] at e'
      have := h _ e' _ hp
      simp at this
  simp [key]

theorem lower_length {a b : PyStr} (h : lower a = lower b) : a.length = b.length := by
  have := congrArg List.length h
  simpa [lower] using this

/-- Whatever follows, a block name has its separator right after the loop's name. -/
theorem genKey_block (self : PyStr) (v : Int) (name : PyStr) (h : BlockName self v name) :
    genKey self name = parseDec (intStr v) := by
  have fin : ∀ o : Option Nat, (match o with | some i => some i | none => none) = o := by
    intro o; cases o <;> rfl
  unfold genKey
  cases h with
  | brackets =>
    rw [matchIndex_miss false (self ++ "__".toList) [] _ self.length (by simp) (by
      intro c hc c' hc'; simp at hc hc'; subst hc; subst hc'; decide)]
    simp only
    rw [matchIndex_miss true (self ++ "(".toList) ")".toList _ self.length (by simp) (by
      intro c hc c' hc'; simp at hc hc'; subst hc; subst hc'; decide)]
    simp only
    exact matchIndex_hit false _ _ _ _ rfl rfl
  | parens other ho =>
    have hl := lower_length ho
    rw [matchIndex_miss false (self ++ "__".toList) [] _ self.length (by simp) (by
      intro c hc c' hc'; rw [← hl] at hc; simp at hc hc'; subst hc; subst hc'; decide)]
    simp only
    rw [matchIndex_hit true (self ++ "(".toList) (other ++ "(".toList) _ _ (by simp [hl])
      (by simp only [if_true]; simp only [lower, List.map_append] at ho ⊢; rw [ho])]
    cases hp : parseDec (intStr v) with
    | some i => rfl
    | none =>
      simp only
      exact matchIndex_miss false (self ++ "[".toList) "]".toList _ self.length (by simp) (by
        intro c hc c' hc'; rw [← hl] at hc; simp at hc hc'; subst hc; subst hc'; decide)
  | underscores =>
    have := matchIndex_hit false (self ++ "__".toList) _ [] (intStr v) rfl rfl
    rw [List.append_nil] at this
    rw [this]
    cases hp : parseDec (intStr v) with
    | some i => rfl
    | none =>
      simp only
      rw [matchIndex_miss true (self ++ "(".toList) ")".toList _ self.length (by simp) (by
        intro c hc c' hc'; simp at hc hc'; subst hc; subst hc'; decide)]
      simp only
      exact matchIndex_miss false (self ++ "[".toList) "]".toList _ self.length (by simp) (by
        intro c hc c' hc'; simp at hc hc'; subst hc; subst hc'; decide)

theorem parseDec_intStr (v : Int) : (parseDec (intStr v)).map Int.ofNat = if 0 ≤ v then some v else none := by
  unfold intStr
  by_cases h : v < 0
  · have : ¬ 0 ≤ v := by omega
    simp [h, this, parseDec, parseDecDigits, decDigit]
  · have : 0 ≤ v := by omega
    simp only [h, if_false, parseDec_decStr, this, if_true, Option.map_some]
    congr 1; simp only [Int.ofNat_eq_natCast]; omega

/-- Every block with a non-negative index goes by that index, in all three naming styles; the index of a
block with a negative index is not recognised. -/
theorem C76_block_index (self : PyStr) (v : Int) (name : PyStr) (h : BlockName self v name) :
    (genKey self name).map Int.ofNat = if 0 ≤ v then some v else none := by
  rw [genKey_block self v name h, parseDec_intStr]

example : genKey "g".toList "g[10]".toList = some 10 ∧ genKey "Gen".toList "gEN(7)".toList = some 7 ∧
    genKey "g".toList "g__3".toList = some 3 ∧ genKey "g".toList "g[-1]".toList = none ∧
    genKey "a.b".toList "axb[1]".toList = none := by decide +kernel

/-- The full statement: iterating over a generate loop visits every block the simulator lists. -/
def C76_all_blocks_full : Prop :=
  ∀ (D : Design) (idx : Hdl → Int) (ops : List Op) (o : Nat) (p : ObjS),
    (∀ c ∈ D.children p.hdl, BlockName (D.name p.hdl) (idx c) (D.name c) ∧ D.byIndex p.hdl (idx c) = some c ∧
      D.kind c ≠ .unsupported ∧ -(2 ^ 31) ≤ idx c ∧ idx c < 2 ^ 31) →
    (after D ops).objs[o]? = some p → p.cls = .genArray → (∀ q ∈ ops, ¬ Native q) →
    ∃ l, result D ops (.iter o) = .objs l ∧
      ∀ c ∈ D.children p.hdl, ∃ x ∈ l, handleOf (after D (ops ++ [.iter o])) x = some c

namespace HierarchyEx

/-- A generate loop `for i in -1 to 0`. -/
def N : Design where
  kind h := if h = 0 then .genArray else .module
  name h := match h with | 0 => "g".toList | 1 => "g[-1]".toList | _ => "g[0]".toList
  children h := if h = 0 then [1, 2] else []
  byName _ _ := none
  native _ _ _ := none
  byIndex h i := if h = 0 ∧ i = -1 then some 1 else if h = 0 ∧ i = 0 then some 2 else none
  range _ := []

end HierarchyEx

/-- False of the code: a block with a negative index can be looked up but is not visited. -/
theorem C76_all_blocks_counterexample : ¬ C76_all_blocks_full := by
  intro h
  obtain ⟨l, h1, h2⟩ := h HierarchyEx.N (fun c => if c = 1 then -1 else 0) [.root 0] 0
    ⟨0, .genArray, [], false⟩ (by
      intro c hc
      simp [HierarchyEx.N] at hc
      rcases hc with rfl | rfl
      · exact ⟨by
            have := BlockName.brackets (self := "g".toList) (v := -1)
            have e : intStr (-1) = "-1".toList := by unfold intStr decStr; decide +kernel
            rw [e] at this; exact this, by decide +kernel, by decide +kernel,
          by decide +kernel, by decide +kernel⟩
      · exact ⟨by
            have := BlockName.brackets (self := "g".toList) (v := 0)
            have e : intStr 0 = "0".toList := by unfold intStr decStr; decide +kernel
            rw [e] at this; exact this, by decide +kernel, by decide +kernel,
          by decide +kernel, by decide +kernel⟩)
    (by decide +kernel) rfl (by rintro q hq ⟨o, k, rfl⟩; simp at hq)
  have e1 : result HierarchyEx.N [.root 0] (.iter 0) = .objs [1] := by decide +kernel
  rw [e1] at h1
  cases h1
  obtain ⟨x, hx, hh⟩ := h2 1 (by decide +kernel)
  simp at hx; subst hx
  revert hh
  decide +kernel

/-- Indexing by recorded keys returns the records and changes nothing. -/
theorem items_cached (D : Design) {o : Nat} {q : ObjS} {s : St} (hq : s.objs[o]? = some q)
    (hc : q.cls = .genArray) : ∀ l : List Int, (∀ i ∈ l, ∃ d, dictGet q.subs (.idx i) = some d) →
    items D o (fun x k s => item D o x k s) l s =
      (.ok (l.map fun i => (dictGet q.subs (.idx i)).getD 0), s)
  | [], _ => rfl
  | i :: l, h => by
    obtain ⟨d, hd⟩ := h i (by simp)
    have hi : item D o q (.idx i) s = (.ok d, s) :=
      (item_spec D (fun _ => False) (.idx i) s hq).2.2 d (.inr (.inl hc)) hd
    have ih := items_cached D hq hc l (fun j hj => h j (by simp [hj]))
    unfold items
    rw [hq]
    simp only [hi, ih, List.map_cons, hd, Option.getD_some]

theorem mem_idxKeys {d : List (Key × Nat)} {i : Int} :
    i ∈ idxKeys d ↔ ∃ c, (Key.idx i, c) ∈ d := by
  unfold idxKeys
  rw [List.mem_filterMap]
  constructor
  · rintro ⟨⟨k, c⟩, hm, h⟩
    cases k with
    | name n => cases h
    | idx j => cases h; exact ⟨c, hm⟩
  · rintro ⟨c, hm⟩
    exact ⟨_, hm, rfl⟩

theorem idxKeys_nodup {d : List (Key × Nat)} (h : (d.map (·.1)).Nodup) : (idxKeys d).Nodup := by
  induction d with
  | nil => simp [idxKeys]
  | cons x d ih =>
    obtain ⟨k, c⟩ := x
    simp only [List.map_cons, List.nodup_cons] at h
    cases k with
    | name n => exact ih h.2
    | idx i =>
      have : idxKeys ((Key.idx i, c) :: d) = i :: idxKeys d := rfl
      rw [this, List.nodup_cons]
      refine ⟨?_, ih h.2⟩
      intro hm
      obtain ⟨c', hm'⟩ := mem_idxKeys.1 hm
      exact h.1 (List.mem_map.2 ⟨_, hm', rfl⟩)

theorem insertInt_perm (i : Int) : ∀ l, (insertInt i l).Perm (i :: l)
  | [] => .refl _
  | j :: l => by
    unfold insertInt
    split
    · exact .refl _
    · exact ((insertInt_perm i l).cons j).trans (.swap i j l)

theorem sortInts_perm : ∀ l, (sortInts l).Perm l
  | [] => .refl _
  | i :: l => (insertInt_perm i _).trans ((sortInts_perm l).cons i)

theorem insertInt_pairwise (i : Int) : ∀ l : List Int, l.Pairwise (· < ·) → i ∉ l →
    (insertInt i l).Pairwise (· < ·)
  | [], _, _ => by simp [insertInt]
  | j :: l, h, hn => by
    have hj := List.pairwise_cons.1 h
    unfold insertInt
    split
    · rename_i hij
      refine List.pairwise_cons.2 ⟨?_, h⟩
      intro k hk
      have hne : i ≠ j := fun e => hn (by simp [e])
      rcases List.mem_cons.1 hk with rfl | hk
      · omega
      · have := hj.1 k hk; omega
    · rename_i hij
      refine List.pairwise_cons.2 ⟨?_, insertInt_pairwise i l hj.2 (fun e => hn (by simp [e]))⟩
      intro k hk
      rcases List.mem_cons.1 ((insertInt_perm i l).mem_iff.1 hk) with rfl | hk
      · omega
      · exact hj.1 k hk

theorem sortInts_pairwise : ∀ {l : List Int}, l.Nodup → (sortInts l).Pairwise (· < ·)
  | [], _ => by simp [sortInts]
  | i :: l, h => by
    have h' := List.nodup_cons.1 h
    exact insertInt_pairwise i _ (sortInts_pairwise h'.2) (fun e => h'.1 ((sortInts_perm l).mem_iff.1 e))

/-- Iterating over a generate loop visits blocks in ascending order of their index, no index twice; each
is the block the simulator gives for that index, and every listed block with a recognised index is
among them. Missing: blocks with negative indexes. -/
theorem C76_all_blocks_partial (D : Design) (hD : Agree D) (ops : List Op) (o : Nat) (p : ObjS)
    (hp : (after D ops).objs[o]? = some p) (hc : p.cls = .genArray) (hn : ∀ q ∈ ops, ¬ Native q) :
    ∃ (l : List Nat) (is : List Int), result D ops (.iter o) = .objs l ∧
      result D ops (.len o) = .nat l.length ∧ is.Pairwise (· < ·) ∧
      l.map (handleOf (after D (ops ++ [.iter o]))) = is.map (fun i => D.byIndex p.hdl i) ∧
      (∀ i ∈ is, D.byIndex p.hdl i ≠ none) ∧
      (∀ c ∈ D.children p.hdl, ∀ v, BlockName (D.name p.hdl) v (D.name c) → 0 ≤ v →
        D.kind c ≠ .unsupported → v ∈ is) := by
  obtain ⟨q, hq, hd, h1, h2⟩ := discover_discovered D (after D ops) hp
  have m := discover_moves D False (fun _ => True) (after D ops) hp trivial
  have inv := m.inv (after_inv D ops)
  have cm := m.complete (after_complete D ops)
  have hcq : q.cls = .genArray := h2.trans hc
  have hsubs : (discover D o p (after D ops)).subs o = q.subs := by simp [St.subs, hq]
  have hnd := inv.nodup o q hq
  have hans : SubsAre (fun cls h k c => answer D cls h k = some c) (discover D o p (after D ops)) := by
    have h0 : SubsAre (fun cls h k c => (cls = D.kind h ∨ cls = .leaf) → answer D cls h k = some c)
        (discover D o p (after D ops)) := by
      refine m.subsAre (after_inv D ops) ?_ ?_
      · intro o x k h w hcl
        cases w with
        | asked _ a => exact a
        | native _ _ f => exact f.elim
        | listed _ l =>
          rcases hcl with e | e
          · rw [e] at l ⊢; exact hD _ _ _ l
          · rw [e] at l; simp [Listed, subKey] at l
      · intro a b c d e f g h _
        exact after_answers hD ops hn a b c d e f g h
    intro a b c d e f g h
    exact h0 a b c d e f g h (inv.cls a b f)
  let is := sortInts (idxKeys q.subs)
  have hmem : ∀ i, i ∈ is ↔ ∃ d, dictGet q.subs (.idx i) = some d := by
    intro i
    show i ∈ sortInts _ ↔ _
    rw [(sortInts_perm _).mem_iff, mem_idxKeys]
    exact ⟨fun ⟨c, h⟩ => ⟨c, dictGet_of_mem hnd h⟩, fun ⟨c, h⟩ => ⟨c, dictGet_mem h⟩⟩
  have hit := items_cached D hq hcq is (fun i hi => (hmem i).1 hi)
  have hiter : iter D o p (after D ops) =
      (.ok (is.map fun i => (dictGet q.subs (.idx i)).getD 0), discover D o p (after D ops)) := by
    simp only [iter, hc, hsubs]
    exact hit
  have hst : after D (ops ++ [.iter o]) = discover D o p (after D ops) := by
    rw [after_snoc]
    simp [Hier.run, Hier.step, Op.target, hp, stepOn, hiter]
  have hby : ∀ i d, dictGet q.subs (.idx i) = some d →
      handleOf (discover D o p (after D ops)) d = D.byIndex p.hdl i ∧ D.byIndex p.hdl i ≠ none := by
    intro i d hd'
    obtain ⟨y, hy, _⟩ := inv.subs o q _ d hq hd'
    have := hans o q _ d y hq hd' hy
    simp only [answer, h1] at this
    split at this
    · simp [handleOf, hy, this]
    · cases this
  refine ⟨is.map fun i => (dictGet q.subs (.idx i)).getD 0, is, by simp [result, Hier.step, Op.target, hp, stepOn, hiter, Res.ofObjs], ?_,
    sortInts_pairwise (idxKeys_nodup hnd), ?_, ?_, ?_⟩
  · have hall : ∀ e ∈ q.subs, ∃ i, e.1 = Key.idx i := by
      rintro ⟨k, c⟩ he
      obtain ⟨y, hy, _⟩ := inv.subs o q k c hq (dictGet_of_mem hnd he)
      have := hans o q k c y hq (dictGet_of_mem hnd he) hy
      cases k with
      | idx i => exact ⟨i, rfl⟩
      | name n => simp [answer, hcq] at this
    have hlen : ∀ (d : List (Key × Nat)), (∀ e ∈ d, ∃ i, e.1 = Key.idx i) → (idxKeys d).length = d.length := by
      intro d
      induction d with
      | nil => simp [idxKeys]
      | cons x d ih =>
        intro h
        obtain ⟨k, c⟩ := x
        obtain ⟨i, hi⟩ := h _ (List.mem_cons_self)
        simp only at hi; subst hi
        have : idxKeys ((Key.idx i, c) :: d) = i :: idxKeys d := rfl
        simp [this, ih (fun e he => h e (by simp [he]))]
    have : is.length = q.subs.length := by
      show (sortInts _).length = _
      rw [(sortInts_perm _).length_eq, hlen _ hall]
    simp [result, Hier.step, Op.target, hp, stepOn, len, hc, hsubs, Res.ofNat, this]
  · rw [hst, List.map_map]
    refine List.map_congr_left ?_
    intro i hi
    obtain ⟨d, hd'⟩ := (hmem i).1 hi
    simp only [Function.comp, hd', Option.getD_some]
    exact (hby i d hd').1
  · intro i hi
    obtain ⟨d, hd'⟩ := (hmem i).1 hi
    exact (hby i d hd').2
  · intro c hm v hb hv hk
    have hkey := C76_block_index _ v _ hb
    rw [if_pos hv] at hkey
    obtain ⟨n, hn', hv'⟩ := Option.map_eq_some_iff.1 hkey
    have hl : Listed D q.cls q.hdl (.idx v) c := by
      refine ⟨by rw [h1]; exact hm, ?_⟩
      simp only [hcq, subKey, h1, hn', Option.map_some]
      rw [← hv']; rfl
    obtain ⟨d, hd'⟩ := cm o q hq hd _ c hl hk
    obtain ⟨q', hq', e⟩ := has_iff.1 hd'
    rw [hq] at hq'; cases hq'
    exact (hmem v).2 ⟨d, e⟩

example : result HierarchyEx.E [.root 3] (.iter 0) = .objs [2, 1] ∧
    result HierarchyEx.E [.root 3] (.item 0 (.idx 1)) = .obj 1 := by decide +kernel

end Verif
