import Verif.Lemmas.Decorators
/-!
# Generated tests (C57-C59) and test decorators (C77)
-/
namespace Verif

open Deco DecoSpec

/-! ## C57 -/

/-- **C57** Generating tests never fails, and gives exactly one test for each choice of one value (or one row
of values) per option, in lexicographic order, the last option varying fastest: the `k`-th test gets exactly
the `k`-th choice's arguments. Their number is the product of the numbers of values. All tests have the
settings of the decorated function. -/
theorem C57_product (ident : PyStr → Bool) (g : Gen) (hr : ∀ o ∈ g.options, Rectangular o)
    (hn : DistinctNames g.options) :
    ∃ sels ts, AllChoices (g.options.map size) sels ∧ generateTests ident g = .ok ts ∧
      ts.map (·.kwargs) = sels.map (combination g.options) ∧
      ts.length = (g.options.map size).prod ∧ ∀ t ∈ ts, t.settings = g.settings := by
  obtain ⟨sels, ts, h1, h2, h3, h4, h5⟩ := generate_eq (ident := ident) g hr hn
  refine ⟨sels, ts, h1, h2, ?_, h3.trans h4, ?_⟩
  · refine List.ext_getElem (by simp [h3]) fun k hk hk' => ?_
    simp only [List.length_map] at hk hk'
    simp only [List.getElem_map]
    exact (h5 k _ _ (List.getElem?_eq_getElem hk') (List.getElem?_eq_getElem hk)).1
  · intro t ht
    obtain ⟨k, hk, rfl⟩ := List.getElem_of_mem ht
    exact (h5 k _ _ (List.getElem?_eq_getElem (h3 ▸ hk)) (List.getElem?_eq_getElem hk)).2.2

namespace DecoEx

/-- Identifiers, roughly. -/
def ident (s : PyStr) : Bool := s.all fun c => c.isAlphanum || c = '_'

def n (i : Nat) : Obj := .prim (toString i).toList

/-- `@cocotb.parametrize(("x", [1, 2]), (("y", "z"), [(3, 4), (5, 6), (7, Param(8, "eight"))]))` -/
def g : Gen := ⟨"t".toList, ⟨none, false, [], false, 0⟩,
  [.one "x".toList [n 1, n 2],
   .many ["y".toList, "z".toList] [[n 3, n 4], [n 5, n 6], [n 7, .param (n 8) (some "eight".toList)]]]⟩

theorem rect : ∀ o ∈ g.options, Rectangular o := by
  intro o ho
  simp [g] at ho
  rcases ho with rfl | rfl
  · trivial
  · simp [Rectangular]

end DecoEx

example : (∀ o ∈ DecoEx.g.options, Rectangular o) ∧ DistinctNames DecoEx.g.options ∧
    DecoEx.g.options.map size = [2, 3] ∧
    (generateTests DecoEx.ident DecoEx.g).map (fun ts => ts.map (·.name)) = .ok ["t/x=1/y=3/z=4".toList,
      "t/x=1/y=5/z=6".toList, "t/x=1/y=7/z=eight".toList, "t/x=2/y=3/z=4".toList, "t/x=2/y=5/z=6".toList,
      "t/x=2/y=7/z=eight".toList] := by
  exact ⟨DecoEx.rect, by unfold DistinctNames; decide, by decide, by decide +kernel⟩

/-- **C57** `parametrize` refuses options whose names are no identifiers or whose rows do not fit the names;
what it accepts meets the hypothesis of `C57_product`. Options given in several decorators are taken from top to
bottom, so those of the topmost decorator vary slowest. -/
theorem C57_parametrize (ident : PyStr → Bool) (qualname : PyStr) (ds : List Dec) :
    ((∃ g, decorate ident qualname ds = .ok g) ↔ ∀ d ∈ ds, Accepted ident d) ∧
    (decorate ident qualname ds = .error .valueError ∨
      ∃ g, decorate ident qualname ds = .ok g ∧ g.options = ds.flatMap optionsOf ∧
        ∀ o ∈ g.options, Rectangular o) := by
  induction ds with
  | nil => exact ⟨⟨fun _ => by simp, fun _ => ⟨_, rfl⟩⟩, .inr ⟨_, rfl, rfl, by simp [Gen.new]⟩⟩
  | cons d ds ih =>
    obtain ⟨ih1, ih2⟩ := ih
    rcases ih2 with e | ⟨g, e, h1, h2⟩
    · refine ⟨⟨?_, fun h => ?_⟩, ?_⟩
      · rintro ⟨g, hg⟩
        simp [decorate, e] at hg
      · obtain ⟨g, hg⟩ := ih1.2 fun d hd => h d (List.mem_cons_of_mem _ hd)
        rw [e] at hg; cases hg
      · left; simp [decorate, e]
    · have hacc := ih1.1 ⟨g, e⟩
      cases d with
      | test a b c d' e' f =>
        have hd : decorate ident qualname (.test a b c d' e' f :: ds) = .ok (applyTest a b c d' e' f g) := by
          simp only [decorate, e, applyDec]
        refine ⟨⟨fun _ => ?_, fun _ => ⟨_, hd⟩⟩, .inr ⟨_, hd, h1, h2⟩⟩
        intro d hd
        rcases List.mem_cons.1 hd with rfl | hd
        · trivial
        · exact hacc d hd
      | skipif c =>
        have hx : ∃ g', applyDec ident (.skipif c) g = .ok g' ∧ g'.options = g.options := ⟨_, rfl, rfl⟩
        obtain ⟨g', hg', ho⟩ := hx
        have hd : decorate ident qualname (.skipif c :: ds) = .ok g' := by simp only [decorate, e, hg']
        refine ⟨⟨fun _ => ?_, fun _ => ⟨g', hd⟩⟩, .inr ⟨g', hd, by rw [ho, h1]; rfl, by rw [ho]; exact h2⟩⟩
        intro d hd
        rcases List.mem_cons.1 hd with rfl | hd
        · trivial
        · exact hacc d hd
      | xfail c raises =>
        have hx : ∃ g', applyDec ident (.xfail c raises) g = .ok g' ∧ g'.options = g.options := by
          cases c <;> cases raises <;> exact ⟨_, rfl, rfl⟩
        obtain ⟨g', hg', ho⟩ := hx
        have hd : decorate ident qualname (.xfail c raises :: ds) = .ok g' := by simp only [decorate, e, hg']
        refine ⟨⟨fun _ => ?_, fun _ => ⟨g', hd⟩⟩, .inr ⟨g', hd, by rw [ho, h1]; rfl, by rw [ho]; exact h2⟩⟩
        intro d hd
        rcases List.mem_cons.1 hd with rfl | hd
        · trivial
        · exact hacc d hd
      | parametrize byTuple byName =>
        obtain ⟨k1, k2⟩ := checkOptions_ok (ident := ident) byTuple
        rcases k2 with k | k
        · have hd : decorate ident qualname (.parametrize byTuple byName :: ds) =
              .ok { g with options := byTuple ++ byName.map (fun x => .one x.1 x.2) ++ g.options } := by
            simp only [decorate, e, applyDec, k]
          refine ⟨⟨fun _ => ?_, fun _ => ⟨_, hd⟩⟩, .inr ⟨_, hd, ?_, ?_⟩⟩
          · intro d hd
            rcases List.mem_cons.1 hd with rfl | hd
            · exact k1.1 k
            · exact hacc d hd
          · show byTuple ++ byName.map _ ++ g.options = _
            rw [h1]; rfl
          · intro o ho
            simp only [List.mem_append, List.mem_map] at ho
            rcases ho with (ho | ⟨x, -, rfl⟩) | ho
            · exact (k1.1 k o ho).2
            · trivial
            · exact h2 o ho
        · have hd : decorate ident qualname (.parametrize byTuple byName :: ds) = .error .valueError := by
            simp only [decorate, e, applyDec, k]
          refine ⟨⟨?_, fun h => ?_⟩, .inl hd⟩
          · rintro ⟨g', hg'⟩
            rw [hd] at hg'; cases hg'
          · have := k1.2 (h _ List.mem_cons_self)
            rw [k] at this; cases this

example : (decorate DecoEx.ident "t".toList
    [.parametrize [.one "a".toList [DecoEx.n 1]] [], .skipif true,
     .parametrize [] [("b".toList, [DecoEx.n 2, DecoEx.n 3])]]).map (·.options) =
      .ok [.one "a".toList [DecoEx.n 1], .one "b".toList [DecoEx.n 2, DecoEx.n 3]] ∧
    decorate DecoEx.ident "t".toList [.parametrize [.many ["a".toList, "b".toList] [[DecoEx.n 1]]] []] =
      .error .valueError := by
  decide +kernel

/-! ## C58 -/

/-- **C58** The name of each test is the function's (or the given) name followed by `/name=label` for each
argument, where the labels are the texts of the values, or their numbers if one of the option's values has no
text. -/
theorem C58_names (ident : PyStr → Bool) (g : Gen) (hr : ∀ o ∈ g.options, Rectangular o)
    (hn : DistinctNames g.options) :
    ∃ sels ts, AllChoices (g.options.map size) sels ∧ generateTests ident g = .ok ts ∧ ts.length = sels.length ∧
      ∀ (k : Nat) sel t, sels[k]? = some sel → ts[k]? = some t →
        ∃ s, Named ident g.options sel s ∧ t.name = g.name ++ s := by
  obtain ⟨sels, ts, h1, h2, h3, h4, h5⟩ := generate_eq (ident := ident) g hr hn
  exact ⟨sels, ts, h1, h2, h3, fun k sel t hs ht => (h5 k sel t hs ht).2.1⟩

/-- The claim: if different values of an option have different labels, the names are distinct. -/
def C58_distinct_full : Prop :=
  ∀ (ident : PyStr → Bool) (g : Gen), (∀ o ∈ g.options, Rectangular o) → DistinctNames g.options →
    (∀ o ∈ g.options, DistinctLabels ident o) → ∀ ts, generateTests ident g = .ok ts → (ts.map (·.name)).Nodup

namespace DecoEx

/-- `a` in `x`, `x/b=y`; `b` in `y/b=y`, `y`. -/
def clash : Gen := ⟨"t".toList, ⟨none, false, [], false, 0⟩,
  [.one "a".toList [.param (n 1) (some "x".toList), .param (n 2) (some "x/b=y".toList)],
   .one "b".toList [.param (n 3) (some "y/b=y".toList), .param (n 4) (some "y".toList)]]⟩

theorem labels_two {ident : PyStr → Bool} {nm : PyStr} {a b : Obj} {x y : PyStr} (hne : x ≠ y) :
    DistinctLabels ident (.one nm [.param a (some x), .param b (some y)]) := by
  intro i j ts h1 h2 hi hj
  have hr : reprs ident [.param a (some x), .param b (some y)] = [x, y] := rfl
  obtain ⟨t, rfl, h1⟩ := h1
  obtain ⟨t', e, h2⟩ := h2
  simp only [List.cons.injEq, and_true] at e
  subst e
  have e1 := (reprs_label _ _ _).2 h1
  have e2 := (reprs_label _ _ _).2 h2
  rw [hr] at e1 e2
  simp only [size, List.length_cons, List.length_nil] at hi hj
  have h0 : i = 0 ∨ i = 1 := by omega
  have h0' : j = 0 ∨ j = 1 := by omega
  rcases h0 with rfl | rfl <;> rcases h0' with rfl | rfl <;> simp_all

end DecoEx

/-- It is false: a label that contains a slash (for instance the name of a `Param`) can make two names equal. -/
theorem C58_distinct_counterexample : ¬ C58_distinct_full := by
  intro h
  have hg : ∃ ts, generateTests (fun _ => true) DecoEx.clash = .ok ts ∧ ¬ (ts.map (·.name)).Nodup := by
    refine ⟨_, by rfl, by decide +kernel⟩
  obtain ⟨ts, h1, h2⟩ := hg
  refine h2 (h (fun _ => true) DecoEx.clash ?_ ?_ ?_ ts h1)
  · intro o ho
    simp [DecoEx.clash] at ho
    rcases ho with rfl | rfl <;> trivial
  · unfold DistinctNames; decide
  · intro o ho
    simp [DecoEx.clash] at ho
    rcases ho with rfl | rfl <;> exact DecoEx.labels_two (by decide)

/-- Without slashes in labels the claim holds. (Missing for the full claim: labels with slashes.) -/
theorem C58_distinct_partial (ident : PyStr → Bool) (g : Gen) (hr : ∀ o ∈ g.options, Rectangular o)
    (hn : DistinctNames g.options) (hd : ∀ o ∈ g.options, DistinctLabels ident o)
    (hs : ∀ o ∈ g.options, NoSlash ident o) (ts : List Test) (h : generateTests ident g = .ok ts) :
    (ts.map (·.name)).Nodup := by
  obtain ⟨sels, ts', h1, h2, h3, h4, h5⟩ := generate_eq (ident := ident) g hr hn
  rw [h] at h2
  cases h2
  rw [List.nodup_iff_pairwise_ne, List.pairwise_map, List.pairwise_iff_getElem]
  intro i j hi hj hij e
  have hsi := List.getElem?_eq_getElem (h3 ▸ hi)
  have hsj := List.getElem?_eq_getElem (h3 ▸ hj)
  obtain ⟨-, ⟨s, n1, e1⟩, -⟩ := h5 i _ _ hsi (List.getElem?_eq_getElem hi)
  obtain ⟨-, ⟨s', n2, e2⟩, -⟩ := h5 j _ _ hsj (List.getElem?_eq_getElem hj)
  rw [e1, e2] at e
  have := List.append_cancel_left e
  subst this
  have hsel := named_inj g.options _ _ s n1 n2 ((h1.2 _).1 (List.getElem_mem _)) ((h1.2 _).1 (List.getElem_mem _)) hs hd
  exact List.pairwise_iff_getElem.1 h1.nodup i j (h3 ▸ hi) (h3 ▸ hj) hij hsel

/-- Identifiers, whole numbers and numbered labels have no slashes; so the names are distinct whenever each
option's labels are. Shown for the example above. -/
example : (generateTests DecoEx.ident DecoEx.g).map (fun ts => decide (ts.map (·.name)).Nodup) = .ok true := by
  decide +kernel

/-- **C58** If one of the values of an option with one name has no text, the labels are the numbers of the values:
they are distinct and contain no slash. -/
theorem C58_numbered (ident : PyStr → Bool) (n : PyStr) (vs : List Obj) (h : ∃ v ∈ vs, ∀ s, ¬ Shows ident v s) :
    DistinctLabels ident (.one n vs) ∧ NoSlash ident (.one n vs) := by
  have key : ∀ i t, Label ident vs i t → t = decStr i := by
    intro i t hl
    rcases hl with ⟨ha, -⟩ | ⟨-, -, e⟩
    · obtain ⟨v, hv, hn⟩ := h
      obtain ⟨s, hs⟩ := ha v hv
      exact absurd hs (hn s)
    · exact e
  refine ⟨?_, ?_⟩
  · rintro i j ts ⟨t, rfl, h1⟩ ⟨t', e, h2⟩ - -
    simp only [List.cons.injEq, and_true] at e
    subst e
    exact decStr_inj ((key i t h1).symm.trans (key j t h2))
  · rintro i ts ⟨t, rfl, h1⟩ t' ht'
    simp only [List.mem_singleton] at ht'
    subst ht'
    rw [key i _ h1]
    intro hm
    obtain ⟨d, hd, e⟩ := decStr_digits i _ hm
    have : ∀ d < 10, '/' ≠ decChar d := by decide
    exact this d hd e

example : ∃ v ∈ [Obj.other 1, .prim "1".toList], ∀ s, ¬ Shows DecoEx.ident v s :=
  ⟨.other 1, by simp, fun s h => by cases h⟩

/-- Distinct values do not suffice: `True` and the string `"True"` have the same label. -/
theorem C58_values_counterexample :
    ¬ ∀ (ident : PyStr → Bool) (n : PyStr) (vs : List Obj), vs.Nodup → DistinctLabels ident (.one n vs) := by
  intro h
  have := h (fun _ => true) "a".toList [.prim "True".toList, .str "True".toList] (by decide) 0 1 ["True".toList]
    ⟨_, rfl, (reprs_label _ _ _).1 (by decide)⟩ ⟨_, rfl, (reprs_label _ _ _).1 (by decide)⟩ (by decide) (by decide)
  cases this

/-- **C58** The tests of a `TestFactory` have distinct names. -/
theorem C58_factory_names (pre name post : PyStr) (i j : Nat)
    (h : factoryName pre name post i = factoryName pre name post j) : i = j := by
  unfold factoryName at h
  have := List.append_cancel_left h
  simp only [List.cons.injEq, true_and] at this
  have := zeroPad_inj this
  omega

/-! ## C59 -/

/-- **C59** `add_option` refuses an option one of whose values does not fit its names, and only such. -/
theorem C59_add_option (k : Key) (l : List FVal) (f : Factory) :
    ((∃ e, addOptionF k l f = .error e) ↔ ∃ v ∈ l, ¬ FitsKey k v) ∧
    (∀ g, addOptionF k l f = .ok g → g.qualname = f.qualname ∧ g.constant = f.constant ∧
      ∀ k', dictGet g.kwargs k' = if k = k' then some l else dictGet f.kwargs k') := by
  rcases addOptionF_ok k l f with ⟨e, hl⟩ | ⟨⟨e, he⟩, hl⟩
  · rw [e]
    refine ⟨⟨(fun ⟨_, h⟩ => by cases h), fun ⟨v, hv, hn⟩ => absurd (hl v hv) hn⟩, ?_⟩
    intro g hg
    cases hg
    exact ⟨rfl, rfl, fun k' => dictGet_set _ _ _ _⟩
  · rw [he]
    exact ⟨⟨fun _ => hl, fun _ => ⟨e, rfl⟩⟩, fun g hg => by cases hg⟩

/-- A list of values of different lengths raises ValueError. -/
example : addOptionF (.many ["a".toList, "b".toList]) [.many [.other 1, .other 2], .many [.other 3]] ⟨[], [], []⟩ =
    .error .valueError := by decide

/-- **C59** `generate_tests` puts exactly one test into the module for each choice of one value per option, in
product order: the `k`-th (counted from 0) is found under the factory's name with the number `k+1` in at least
three digits, and gets the `k`-th choice's arguments, and the constant arguments for all other names. Nothing
else in the module is changed. -/
theorem C59_generate (f₀ : Factory) (h₀ : f₀.kwargs = []) (added : List (Key × List FVal))
    (pre post : PyStr) (name : Option PyStr) (glbs : List (PyStr × FTest)) :
    let f := addAll f₀ added
    let base := pre ++ (name.getD f₀.qualname) ++ post
    (f.kwargs.flatMap fun x => keyNames x.1).Nodup →
    ∃ sels, AllChoices (f.kwargs.map fun x => x.2.length) sels ∧
      sels.length = (f.kwargs.map fun x => x.2.length).prod ∧
      (∀ (k : Nat) sel, sels[k]? = some sel → ∃ t,
        dictGet (factoryGenerate f pre post name glbs) (numbered base k) = some t ∧ t.name = numbered base k ∧
        (∀ n v, (n, v) ∈ fcombination f.kwargs sel → dictGet t.kwargs n = some v) ∧
        (∀ n, n ∉ (f.kwargs.flatMap fun x => keyNames x.1) →
          dictGet t.kwargs n = (dictGet f₀.constant n).map .one)) ∧
      (∀ n, (∀ k, k < sels.length → n ≠ numbered base k) →
        dictGet (factoryGenerate f pre post name glbs) n = dictGet glbs n) := by
  intro f base hn
  have hgood : GoodF f := goodF_addAll added f₀ (by intro x hx; rw [h₀] at hx; cases hx)
  have hconst : f.constant = f₀.constant ∧ f.qualname = f₀.qualname := by
    have : ∀ (r : List (Key × List FVal)) (g : Factory), (addAll g r).constant = g.constant ∧
        (addAll g r).qualname = g.qualname := by
      intro r
      induction r with
      | nil => intro g; exact ⟨rfl, rfl⟩
      | cons x r ih =>
        intro g
        obtain ⟨k, l⟩ := x
        simp only [addAll]
        rcases addOptionF_ok k l g with ⟨e, -⟩ | ⟨⟨e, he⟩, -⟩
        · rw [e]; exact ih _
        · rw [he]; exact ih _
    exact this added f₀
  have hch := prodRec_choices (f.kwargs.map fun x => x.2.length)
  have hprod : pyProduct (f.kwargs.map (·.2)) =
      (prodRec ((f.kwargs.map fun x => x.2.length).map List.range)).map (choose (f.kwargs.map (·.2))) := by
    rw [pyProduct_eq, prodRec_choose]; simp only [List.map_map]; rfl
  have hgen : factoryGenerate f pre post name glbs =
      factoryLoop f pre (name.getD f₀.qualname) post 0 (pyProduct (f.kwargs.map (·.2))) glbs := by
    unfold factoryGenerate
    cases name <;> simp [hconst.2]
  rw [hgen]
  have hbase : ∀ k, factoryName pre (name.getD f₀.qualname) post k = numbered base k := fun k => rfl
  clear_value base
  generalize name.getD f₀.qualname = nm at hbase ⊢
  generalize hsels : prodRec ((f.kwargs.map fun x => x.2.length).map List.range) = sels at hch hprod
  refine ⟨sels, hch, ?_, ?_, ?_⟩
  · rw [← hsels, prodRec_length, List.map_map]
    congr 1
    refine (List.map_congr_left fun o _ => ?_).trans (List.map_id _)
    simp
  · intro k sel hk
    have hfit := (hch.2 sel).1 (List.mem_of_getElem? hk)
    have hnames := fcombination_names f.kwargs sel hgood hfit
    let v := choose (f.kwargs.map (·.2)) sel
    have hget : dictGet (factoryLoop f pre nm post 0 (pyProduct (f.kwargs.map (·.2))) glbs) (numbered base k) =
        some (factoryTest f pre nm post k v) := by
      rw [factoryLoop_get]
      have hfs : ((pyProduct (f.kwargs.map (·.2))).zipIdx.findSome? fun x =>
          if factoryName pre nm post x.2 = numbered base k then
            some (factoryTest f pre nm post x.2 x.1) else none) =
          some (factoryTest f pre nm post k v) := by
        have hmem : (v, k) ∈ (pyProduct (f.kwargs.map (·.2))).zipIdx := by
          rw [List.mem_zipIdx_iff_getElem?, hprod, List.getElem?_map, hk]; rfl
        cases hfs : ((pyProduct (f.kwargs.map (·.2))).zipIdx.findSome? fun x =>
            if factoryName pre nm post x.2 = numbered base k then
              some (factoryTest f pre nm post x.2 x.1) else none) with
        | none =>
          rw [List.findSome?_eq_none_iff] at hfs
          have := hfs _ hmem
          simp only [hbase, if_true] at this
          cases this
        | some t =>
          obtain ⟨⟨w, j⟩, hx, ht⟩ := List.exists_of_findSome?_eq_some hfs
          split at ht
          · rename_i e
            rw [← hbase k] at e
            have hj := C58_factory_names _ _ _ _ _ e
            subst hj
            rw [List.mem_zipIdx_iff_getElem?] at hx hmem
            rw [hx] at hmem
            cases hmem
            exact ht.symm
          · cases ht
      rw [hfs]
    refine ⟨_, hget, hbase k, ?_, ?_⟩
    · intro n w hw
      simp only [factoryTest, splitAll]
      rw [splitAll_eq _ _ (by rw [show (((f.kwargs.map (·.1)).zip v).flatMap fun x => fargs x.1 x.2) =
        fcombination f.kwargs sel from rfl, hnames]; exact hn) (by simp), List.nil_append]
      rw [show (((f.kwargs.map (·.1)).zip v).flatMap fun x => fargs x.1 x.2) = fcombination f.kwargs sel from rfl]
      rw [dictGet_update _ _ _ (by rw [hnames]; exact hn), dictGet_of_mem (by rw [hnames]; exact hn) hw]
    · intro n hno
      simp only [factoryTest, splitAll]
      rw [splitAll_eq _ _ (by rw [show (((f.kwargs.map (·.1)).zip v).flatMap fun x => fargs x.1 x.2) =
        fcombination f.kwargs sel from rfl, hnames]; exact hn) (by simp), List.nil_append]
      rw [show (((f.kwargs.map (·.1)).zip v).flatMap fun x => fargs x.1 x.2) = fcombination f.kwargs sel from rfl]
      rw [dictGet_update _ _ _ (by rw [hnames]; exact hn), dictGet_none_iff.2 (by rw [hnames]; exact hno), hconst.1]
      generalize f₀.constant = d
      induction d with
      | nil => rfl
      | cons x d ih =>
        obtain ⟨m, w⟩ := x
        by_cases e : m = n
        · simp [dictGet, e]
        · simp only [List.map_cons, dictGet, e, if_false]; exact ih
  · intro n hne
    rw [factoryLoop_get]
    have : ((pyProduct (f.kwargs.map (·.2))).zipIdx.findSome? fun x =>
          if factoryName pre nm post x.2 = n then
            some (factoryTest f pre nm post x.2 x.1) else none) = none := by
      rw [List.findSome?_eq_none_iff]
      rintro ⟨w, j⟩ hx
      rw [List.mem_zipIdx_iff_getElem?, hprod, List.getElem?_map] at hx
      obtain ⟨sel, hs, -⟩ := Option.map_eq_some_iff.1 hx
      rw [if_neg]
      rw [hbase]
      exact fun e => hne j (List.getElem?_eq_some_iff.1 hs).1 e.symm
    rw [this]

/-- Two options, one of them with two names; the constant argument `c` stays. -/
example :
    let f := addAll ⟨"t".toList, [("c".toList, .other 9)], []⟩
      [(.one "a".toList, [.one (.other 1), .one (.other 2)]),
       (.many ["b".toList, "d".toList], [.many [.other 3, .other 4], .many [.other 5]]),
       (.many ["b".toList, "d".toList], [.many [.other 3, .other 4], .many [.other 5, .other 6]])]
    (f.kwargs.flatMap fun x => keyNames x.1).Nodup ∧
    (factoryGenerate f [] [] none []).map (·.1) = ["t_001".toList, "t_002".toList, "t_003".toList, "t_004".toList] ∧
    dictGet (factoryGenerate f [] [] none []) "t_003".toList =
      some ⟨"t_003".toList, [("c".toList, .one (.other 9)), ("a".toList, .one (.other 2)),
        ("b".toList, .one (.other 3)), ("d".toList, .one (.other 4))]⟩ := by
  decide +kernel

/-! ## C77 -/

private theorem exists_mem_cons' {α} {p : α → Prop} {a : α} {l : List α} :
    (∃ x ∈ a :: l, p x) ↔ p a ∨ ∃ x ∈ l, p x := by
  simp

/-- **C77** What the decorators of a test add up to, whatever their order: the test is skipped if one of them says so,
expected to fail if one says so, and expected to raise the exception types they name together. The timeout, stage
and name are those given by the topmost decorator that gives one. -/
theorem C77_decorators (ident : PyStr → Bool) (qualname : PyStr) (ds : List Dec) (g : Gen)
    (h : decorate ident qualname ds = .ok g) :
    (g.settings.skip = true ↔ ∃ d ∈ ds, asksSkip d) ∧
    (g.settings.expectFail = true ↔ ∃ d ∈ ds, asksFail d) ∧
    (∀ e, e ∈ g.settings.expectError ↔ ∃ d ∈ ds, asksError e d) ∧
    g.settings.timeout = ds.findSome? timeoutOf ∧
    g.settings.stage = (ds.findSome? stageOf).getD 0 ∧
    g.name = (ds.findSome? nameOf).getD qualname := by
  induction ds generalizing g with
  | nil =>
    simp only [decorate] at h
    cases h
    simp [Gen.new]
  | cons d ds ih =>
    simp only [decorate] at h
    cases hd : decorate ident qualname ds with
    | error e => rw [hd] at h; cases h
    | ok g' =>
      rw [hd] at h
      simp only at h
      obtain ⟨i1, i2, i3, i4, i5, i6⟩ := ih g' hd
      simp only [exists_mem_cons', List.findSome?_cons]
      cases d with
      | test a b c d e f =>
        simp only [applyDec] at h
        cases h
        refine ⟨?_, ?_, ?_, ?_, ?_, ?_⟩
        · rw [← i1]
          simp only [applyTest, asksSkip]
          rcases d with _ | _ | _ <;> simp
        · rw [← i2]
          simp only [applyTest, asksFail]
          rcases b with _ | _ | _ <;> simp
        · intro x
          rw [← i3]
          simp only [applyTest, asksError]
          cases c with
          | none => simp
          | some es =>
            rw [mem_foldl_setAdd]
            simp only [Option.some.injEq, exists_eq_left']
            exact or_comm
        · simp only [applyTest, timeoutOf, i4]
          cases a <;> rfl
        · simp only [applyTest, stageOf, i5]
          cases e <;> rfl
        · simp only [applyTest, nameOf, i6]
          cases f <;> rfl
      | parametrize byTuple byName =>
        simp only [applyDec] at h
        split at h
        · cases h
        · cases h
          refine ⟨?_, ?_, ?_, i4, i5, i6⟩
          · rw [← i1]; simp [asksSkip]
          · rw [← i2]; simp [asksFail]
          · intro x; rw [← i3]; simp [asksError]
      | skipif c =>
        simp only [applyDec] at h
        cases h
        refine ⟨?_, ?_, ?_, i4, i5, i6⟩
        · rw [← i1]
          simp only [asksSkip]
          cases c <;> simp
        · rw [← i2]; simp [asksFail]
        · intro x; rw [← i3]; simp [asksError]
      | xfail c raises =>
        cases c with
        | false =>
          simp only [applyDec] at h
          cases h
          refine ⟨?_, ?_, ?_, i4, i5, i6⟩
          · rw [← i1]; simp [asksSkip]
          · rw [← i2]; simp [asksFail]
          · intro x; rw [← i3]; simp [asksError]
        | true =>
          cases raises with
          | none =>
            simp only [applyDec, if_true] at h
            cases h
            refine ⟨?_, ?_, ?_, i4, i5, i6⟩
            · rw [← i1]; simp [asksSkip]
            · simp [asksFail]
            · intro x; rw [← i3]; simp [asksError]
          | some es =>
            simp only [applyDec, if_true] at h
            cases h
            refine ⟨?_, ?_, ?_, i4, i5, i6⟩
            · rw [← i1]; simp [asksSkip]
            · rw [← i2]; simp [asksFail]
            · intro x
              rw [← i3]
              show x ∈ es.foldl setAdd g'.settings.expectError ↔ _
              rw [mem_foldl_setAdd]
              simp only [asksError, Option.some.injEq, exists_eq_left', true_and]
              exact or_comm

/-- **C77** So the order of the decorators does not matter for what is skipped or expected. -/
theorem C77_order (ident : PyStr → Bool) (qualname : PyStr) (ds ds' : List Dec) (g g' : Gen) (hp : ds.Perm ds')
    (h : decorate ident qualname ds = .ok g) (h' : decorate ident qualname ds' = .ok g') :
    g.settings.skip = g'.settings.skip ∧ g.settings.expectFail = g'.settings.expectFail ∧
    ∀ e, e ∈ g.settings.expectError ↔ e ∈ g'.settings.expectError := by
  obtain ⟨a1, a2, a3, -⟩ := C77_decorators ident qualname ds g h
  obtain ⟨b1, b2, b3, -⟩ := C77_decorators ident qualname ds' g' h'
  have key : ∀ p : Dec → Prop, (∃ d ∈ ds, p d) ↔ ∃ d ∈ ds', p d := fun p =>
    ⟨fun ⟨d, hd, hp'⟩ => ⟨d, hp.mem_iff.1 hd, hp'⟩, fun ⟨d, hd, hp'⟩ => ⟨d, hp.mem_iff.2 hd, hp'⟩⟩
  refine ⟨?_, ?_, fun e => by rw [a3, b3]; exact key _⟩
  · rw [Bool.eq_iff_iff, a1, b1]; exact key _
  · rw [Bool.eq_iff_iff, a2, b2]; exact key _

example : (decorate DecoEx.ident "t".toList [.xfail true (some [3]), .test (some 5) none (some [4]) (some false) none none,
      .skipif true, .test (some 6) none none none (some 2) none]).map (·.settings) =
    .ok ⟨some 5, false, [4, 3], true, 2⟩ := by decide

end Verif
