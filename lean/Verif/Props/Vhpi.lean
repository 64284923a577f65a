import Verif.Lemmas.Vhpi
import Verif.Model.Fli
/-!
# C123: indices of VHDL arrays
-/
namespace Verif

open Vhpi Spec

/-! ## Every index leads to its element -/

/-- C123: for every array with any number of dimensions, the `k`-th tuple of indices leads to the `k`-th
element of the array. -/
theorem C123_vhpi_element {c : Flavor} {V : Vhpi} {h : H} {ds : List Rng} {es : List H}
    (A : VhdlArray c V h ds es) {N F : Text} (hN : V.caseName h = some N) {o : Obj}
    (ho : createObj c V h N F = some o) {k : Nat} {is : List Int} (hk : (tuples ds)[k]? = some is) :
    ∃ e, es[k]? = some e ∧ walk c V o is = createObj c V e (N ++ indexSuffix is) (F ++ indexSuffix is) := by
  obtain ⟨hlen, hrow, _, hmem⟩ := tuples_get _ _ _ hk
  have hkl : k < es.length := by rw [A.count]; exact (List.getElem?_eq_some_iff.1 hk).1
  have hint : ∀ i ∈ is, VhdlInt i := by
    intro i hi
    obtain ⟨j, hj, rfl⟩ := List.getElem_of_mem hi
    have hd := List.getElem?_eq_getElem (l := ds) (i := j) (by omega)
    have := hmem j _ _ hd (List.getElem?_eq_getElem hj)
    have hb := A.int32 _ (List.mem_of_getElem? hd)
    exact seq_bounds this hb.1 hb.2
  refine ⟨es[k], List.getElem?_eq_getElem hkl, ?_⟩
  by_cases hm : 1 < ds.length
  · obtain ⟨d, hd⟩ : ∃ d, ds[([] : List Int).length]? = some d := ⟨_, List.getElem?_eq_getElem (by simp; omega)⟩
    have hp := create_pseudo A hN hm (F := F) hd
    simp only [indexSuffix, List.append_nil] at hp
    rw [hp] at ho
    cases ho
    rw [walk_last A hN hm is [] d hd hint (by simpa using hlen)]
    simp only [List.nil_append, flatGo_rowMajor _ _ _ hk, elemAt_array A, List.getElem?_eq_getElem hkl]
    rfl
  · have h1 : ds.length = 1 := by
      have := A.some_dim
      have : 0 < ds.length := List.length_pos_iff.2 this
      omega
    obtain ⟨d, rfl⟩ := List.length_eq_one_iff.1 h1
    obtain ⟨i, rfl⟩ := List.length_eq_one_iff.1 (hlen.trans h1)
    have hpos : posIn d.1 d.2.2 i = k := by
      simp [rowMajor, tuples] at hrow; exact hrow
    rw [walk, byIndex_one A ho i (hint i (by simp)), hpos, elemAt_array A, List.getElem?_eq_getElem hkl]
    simp [walk]

/-- The tuples are all tuples of indices within the bounds. -/
theorem C123_tuples (ds : List Rng) (is : List Int) :
    is ∈ tuples ds ↔ is.length = ds.length ∧ ∀ (j : Nat) (d : Rng) (i : Int), ds[j]? = some d → is[j]? = some i →
      between d.1 d.2.1 d.2.2 i := by
  induction ds generalizing is with
  | nil => cases is <;> simp [tuples]
  | cons d ds ih =>
    have hseq : ∀ i, i ∈ d.seq ↔ between d.1 d.2.1 d.2.2 i := by
      intro i
      obtain ⟨l, d, r⟩ := d
      unfold Rng.seq rangeSeq between
      cases d
      · simp only [List.mem_map, List.mem_range]
        constructor
        · rintro ⟨k, hk, rfl⟩; omega
        · intro hi; exact ⟨(i - l).toNat, by omega, by omega⟩
      · simp only [List.mem_map, List.mem_range]
        constructor
        · rintro ⟨k, hk, rfl⟩; omega
        · intro hi; exact ⟨(l - i).toNat, by omega, by omega⟩
    unfold tuples
    simp only [List.mem_flatMap, List.mem_map]
    constructor
    · rintro ⟨i, hi, t, ht, rfl⟩
      obtain ⟨h1, h2⟩ := (ih t).1 ht
      refine ⟨by simp [h1], ?_⟩
      intro j d' i' hd hi'
      cases j with
      | zero => simp at hd hi'; subst hd hi'; exact (hseq _).1 hi
      | succ j => simp at hd hi'; exact h2 j d' i' hd hi'
    · rintro ⟨h1, h2⟩
      cases is with
      | nil => cases h1
      | cons i t =>
        exact ⟨i, (hseq _).2 (h2 0 d i rfl rfl), t, (ih t).2 ⟨by simpa using h1, fun j d' i' hd hi' =>
          h2 (j + 1) d' i' (by simpa using hd) (by simpa using hi')⟩, rfl⟩

/-- No tuple of indices occurs twice: each position belongs to one tuple. -/
theorem C123_tuples_once (ds : List Rng) {k k' : Nat} {is : List Int} (h : (tuples ds)[k]? = some is)
    (h' : (tuples ds)[k']? = some is) : k = k' := by
  have a := (tuples_get _ _ _ h).2.1
  have b := (tuples_get _ _ _ h').2.1
  omega

/-! ### A design: `signal m : matrix (1 downto 0, 5 to 7)` of `bit` and `signal v : bit_vector (3 downto 0)` -/

/-- Two arrays: `m` is object 1 with elements 10-15, `v` is object 2 with elements 20-23. -/
def exVhpi : Vhpi where
  kind h := if h < 10 then .sigDecl else .indexedName
  ty h := if h < 10 then some (.array (some (.enum (str "BIT") [str "'0'", str "'1'"])))
    else some (.enum (str "BIT") [str "'0'", str "'1'"])
  caseName h := some (if h = 1 then str "m" else if h = 2 then str "v" else str "e")
  numDim h := if h = 1 then 2 else 1
  baseCons h := if h = 1 then [{ left := 1, right := 0, up := false }, { left := 5, right := 7, up := true }]
    else [{ left := 0, right := 0, up := true, uncon := true }]
  subCons h := if h = 2 then [{ left := 3, right := 0, up := false }] else []
  byIndex h i := if h = 2 ∧ 0 ≤ i ∧ i < 4 then some (20 + i.toNat) else none
  byName _ := none
  iter r h := if r = .indexedNames then
      (if h = 1 then some [10, 11, 12, 13, 14, 15] else if h = 2 then some [20, 21, 22, 23] else none)
    else none
  chain h := [h]
  static _ := false
  format _ := some .str
  size _ := 1
  entity _ := none
  root := none

theorem exVhpi_m : VhdlArray {} exVhpi 1 [(1, .downto, 0), (5, .to, 7)] [10, 11, 12, 13, 14, 15] where
  object := by decide
  array := ⟨_, rfl⟩
  numDim := rfl
  some_dim := by decide
  bounds := Or.inl (by decide +kernel)
  int32 := by unfold VhdlInt; decide
  elements := rfl
  count := by decide +kernel
  byIndex i := Or.inl (by simp [exVhpi])
  chars := rfl

theorem exVhpi_v : VhdlArray {} exVhpi 2 [(3, .downto, 0)] [20, 21, 22, 23] where
  object := by decide
  array := ⟨_, rfl⟩
  numDim := rfl
  some_dim := by decide
  bounds := Or.inr (by decide +kernel)
  int32 := by unfold VhdlInt; decide
  elements := rfl
  count := by decide +kernel
  byIndex i := by
    by_cases h : 0 ≤ i ∧ i < 4
    · refine Or.inr ⟨h.1, ?_⟩
      obtain h' | h' | h' | h' : i = 0 ∨ i = 1 ∨ i = 2 ∨ i = 3 := by omega
      all_goals subst h'; rfl
    · left; simp [exVhpi]; omega
  chars := rfl

/-- `m`. -/
def exM : Obj :=
  { hdl := 1, type := .array, numElems := 2, indexable := true, left := 1, right := 0, dir := .down,
    name := str "m", full := str "top.m" }

/-- `m[0][6]` is element 14, the fifth of the six. -/
example : createObj {} exVhpi 1 (str "m") (str "top.m") = some exM ∧ (tuples [(1, .downto, 0), (5, .to, 7)])[4]? = some [0, 6]
    ∧ ((walk {} exVhpi exM [0, 6]).map fun o => (o.hdl, o.name)) = some (14, str "m(0)(6)") := by decide +kernel

/-! ## Bounds of the parts of an array -/

/-- The number of elements between two bounds. -/
def Spec.Rng.count (d : Rng) : Int := d.seq.length

/-- C123, full statement for the bounds: after fewer indices than dimensions there is an array with the
bounds and direction of the next dimension. -/
def C123_vhpi_range_full : Prop :=
  ∀ (c : Flavor) (V : Vhpi) (h : H) (ds : List Rng) (es : List H), VhdlArray c V h ds es → 1 < ds.length →
    ∀ (N F : Text) (o : Obj), V.caseName h = some N → createObj c V h N F = some o →
    ∀ (p : List Int), (∀ i ∈ p, VhdlInt i) → p.length < ds.length →
    ∃ d o', ds[p.length]? = some d ∧ walk c V o p = some o' ∧ o'.type = .array ∧ o'.indexable = true ∧
      o'.left = d.1 ∧ o'.right = d.2.2 ∧ o'.dir = gpiDir d.2.1 ∧ o'.numElems = d.count

theorem clampLen_count {c : Flavor} {d : Rng} (h : c.modelsim = false) : clampLen c d = d.count := by
  obtain ⟨l, d, r⟩ := d
  unfold clampLen conDir conOf Rng.count Rng.seq rangeSeq
  cases d <;> simp [h] <;> split <;> omega

/-- C123: on every simulator but Questa. -/
theorem C123_vhpi_range_partial {c : Flavor} {V : Vhpi} {h : H} {ds : List Rng} {es : List H}
    (A : VhdlArray c V h ds es) (hq : c.modelsim = false) (hm : 1 < ds.length) {N F : Text} {o : Obj}
    (hN : V.caseName h = some N) (ho : createObj c V h N F = some o) (p : List Int) (hp : ∀ i ∈ p, VhdlInt i)
    (hl : p.length < ds.length) :
    ∃ d o', ds[p.length]? = some d ∧ walk c V o p = some o' ∧ o'.type = .array ∧ o'.indexable = true ∧
      o'.left = d.1 ∧ o'.right = d.2.2 ∧ o'.dir = gpiDir d.2.1 ∧ o'.numElems = d.count := by
  obtain ⟨d, hd⟩ : ∃ d, ds[([] : List Int).length]? = some d := ⟨_, List.getElem?_eq_getElem (by simp; omega)⟩
  have hc := create_pseudo A hN hm (F := F) hd
  simp only [indexSuffix, List.append_nil] at hc
  rw [hc] at ho
  cases ho
  obtain ⟨d', h1, h2⟩ := walk_pseudo A hN hm (F := F) p [] d hd hp (by simpa using hl)
  refine ⟨d', _, by simpa using h1, h2, rfl, rfl, rfl, rfl, ?_, clampLen_count hq⟩
  obtain ⟨l, d, r⟩ := d'
  simp only [pseudo, conDir, hq, conOf]
  cases d <;> rfl

/-- C123: on every simulator, if the dimension has at least two elements. -/
theorem C123_vhpi_range_two_partial {c : Flavor} {V : Vhpi} {h : H} {ds : List Rng} {es : List H}
    (A : VhdlArray c V h ds es) (hm : 1 < ds.length) {N F : Text} {o : Obj}
    (hN : V.caseName h = some N) (ho : createObj c V h N F = some o) (p : List Int) (hp : ∀ i ∈ p, VhdlInt i)
    (hl : p.length < ds.length) (htwo : ∀ d ∈ ds, 2 ≤ d.seq.length) :
    ∃ d o', ds[p.length]? = some d ∧ walk c V o p = some o' ∧ o'.type = .array ∧ o'.indexable = true ∧
      o'.left = d.1 ∧ o'.right = d.2.2 ∧ o'.dir = gpiDir d.2.1 ∧ o'.numElems = d.count := by
  obtain ⟨d, hd⟩ : ∃ d, ds[([] : List Int).length]? = some d := ⟨_, List.getElem?_eq_getElem (by simp; omega)⟩
  have hc := create_pseudo A hN hm (F := F) hd
  simp only [indexSuffix, List.append_nil] at hc
  rw [hc] at ho
  cases ho
  obtain ⟨d', h1, h2⟩ := walk_pseudo A hN hm (F := F) p [] d hd hp (by simpa using hl)
  have ht := htwo d' (List.mem_of_getElem? h1)
  have hdir : conDir c (conOf d') = gpiDir d'.2.1 := by
    obtain ⟨l, d, r⟩ := d'
    unfold conDir conOf gpiDir
    unfold Rng.seq rangeSeq at ht
    cases d <;> simp at ht ⊢
    · intro _; omega
    · omega
  refine ⟨d', _, by simpa using h1, h2, rfl, rfl, rfl, rfl, hdir, ?_⟩
  obtain ⟨l, d, r⟩ := d'
  simp only [pseudo, clampLen, hdir, Rng.count]
  unfold Rng.seq rangeSeq at ht ⊢
  cases d <;> simp [gpiDir] at ht ⊢ <;> split <;> omega

/-- `signal m : matrix (1 downto 0, 3 to 2)`: no elements. -/
def exNull : Vhpi :=
  { exVhpi with
    baseCons := fun _ => [{ left := 1, right := 0, up := false }, { left := 3, right := 2, up := true }]
    numDim := fun _ => 2
    byIndex := fun _ _ => none
    iter := fun _ _ => some [] }

/-- On Questa a dimension `3 to 2`, which is empty, is taken for `3 downto 2`, which has two elements. -/
theorem C123_vhpi_range_counterexample : ¬ C123_vhpi_range_full := by
  intro H
  obtain ⟨d, o', h1, h2, -, -, -, -, h3, -⟩ := H { modelsim := true } exNull 1 [(1, .downto, 0), (3, .to, 2)] []
    { object := by decide
      array := ⟨_, rfl⟩
      numDim := rfl
      some_dim := by decide
      bounds := Or.inl (by decide +kernel)
      int32 := by unfold VhdlInt; decide
      elements := rfl
      count := by decide +kernel
      byIndex := fun _ => Or.inl rfl
      chars := rfl } (by decide) (str "m") (str "top.m") exM rfl (by decide +kernel) [1] (by unfold VhdlInt; decide) (by decide)
  cases h1
  have : walk { modelsim := true } exNull exM [1] = some
      { hdl := 1, type := .array, numElems := 2, indexable := true, left := 3, right := 2, dir := .down,
        name := str "m(1)", full := str "top.m(1)" } := by decide +kernel
  rw [this] at h2
  cases h2
  cases h3

/-! ## No index beyond the bounds -/

/-- C123, full statement for indices beyond the bounds: nothing is found. -/
def C123_vhpi_beyond_full : Prop :=
  ∀ (c : Flavor) (V : Vhpi) (h : H) (ds : List Rng) (es : List H), VhdlArray c V h ds es →
    ∀ (N F : Text) (o : Obj), V.caseName h = some N → createObj c V h N F = some o →
    ∀ (is : List Int), (∀ i ∈ is, VhdlInt i) → is.length = ds.length → is ∉ tuples ds → walk c V o is = none

/-- C123: for arrays of one dimension. -/
theorem C123_vhpi_beyond_partial {c : Flavor} {V : Vhpi} {h : H} {d : Rng} {es : List H}
    (A : VhdlArray c V h [d] es) {N F : Text} {o : Obj} (ho : createObj c V h N F = some o) (i : Int)
    (hi : VhdlInt i) (hout : i ∉ d.seq) : vhpiByIndex c V i o = none := by
  rw [byIndex_one A ho i hi]
  have hlen : es.length = d.seq.length := by
    have := A.count
    simpa [tuples, List.length_flatMap, List.map_const', List.sum_replicate_nat] using this
  by_cases hn : posIn d.1 d.2.2 i < 0
  · rw [elemAt_neg A hn]; rfl
  · obtain ⟨k, hk⟩ := Int.eq_ofNat_of_zero_le (show 0 ≤ posIn d.1 d.2.2 i by omega)
    rw [hk, elemAt_array A]
    rcases e : es[k]? with _ | x
    · rfl
    · exfalso
      have hlt := (List.getElem?_eq_some_iff.1 e).1
      have hk2 := List.getElem?_eq_getElem (l := d.seq) (i := k) (by omega)
      have := (seq_some hk2).1
      apply hout
      have he : i = d.seq[k]'(by omega) := by
        have h3 : posIn d.1 d.2.2 i = posIn d.1 d.2.2 (d.seq[k]'(by omega)) := by omega
        unfold posIn at h3
        split at h3 <;> omega
      rw [he]; exact List.getElem_mem _

/-- `m[1][8]`, beyond the second dimension `5 to 7`, is `m[0][5]`. -/
theorem C123_vhpi_beyond_counterexample : ¬ C123_vhpi_beyond_full := by
  intro H
  have := H {} exVhpi 1 _ _ exVhpi_m (str "m") (str "top.m") exM rfl (by decide +kernel) [1, 8] (by unfold VhdlInt; decide) rfl
    (by decide +kernel)
  revert this
  decide +kernel

example : ((walk {} exVhpi exM [1, 8]).map (·.hdl)) = ((walk {} exVhpi exM [0, 5]).map (·.hdl)) ∧
    ((walk {} exVhpi exM [1, 8]).map (·.hdl)) = some 13 := by decide +kernel

/-- `v[3]` to `v[0]` are the elements, `v[4]` is nothing. -/
example : ∃ o, createObj {} exVhpi 2 (str "v") (str "top.v") = some o ∧
    (vhpiByIndex {} exVhpi 3 o).map (·.hdl) = some 20 ∧ (vhpiByIndex {} exVhpi 0 o).map (·.hdl) = some 23 ∧
    vhpiByIndex {} exVhpi 4 o = none := by refine ⟨_, rfl, ?_⟩; decide +kernel

/-! ## Arrays known to the simulator under another name -/

/-- C123, full statement for any name: an array that was found under a name which is not the one the simulator
has for it, for example the element `f` of a record `r`, which is `r.f` to some simulators
(VhpiImpl.cpp:567-572). -/
def C123_vhpi_named_full : Prop :=
  ∀ (c : Flavor) (V : Vhpi) (h : H) (ds : List Rng) (es : List H), VhdlArray c V h ds es →
    ∀ (N N' F : Text) (o : Obj), V.caseName h = some N' → lastPart N' = N → createObj c V h N F = some o →
    ∀ (k : Nat) (is : List Int), (tuples ds)[k]? = some is →
    ∃ e, es[k]? = some e ∧ walk c V o is = createObj c V e (N ++ indexSuffix is) (F ++ indexSuffix is)

/-- `m` as element of a record `r`. -/
def exRecord : Vhpi := { exVhpi with caseName := fun h => some (if h = 1 then str "r.m" else str "e") }

/-- `r.m[1][5]` is the element `r.m(0, 5)`: the indices of the name `m(1)` are looked for behind the first three
characters. -/
theorem C123_vhpi_named_counterexample : ¬ C123_vhpi_named_full := by
  intro H
  obtain ⟨e, h1, h2⟩ := H {} exRecord 1 [(1, .downto, 0), (5, .to, 7)] [10, 11, 12, 13, 14, 15]
    { object := by decide
      array := ⟨_, rfl⟩
      numDim := rfl
      some_dim := by decide
      bounds := Or.inl (by decide +kernel)
      int32 := by unfold VhdlInt; decide
      elements := rfl
      count := by decide +kernel
      byIndex := fun i => Or.inl (by simp [exRecord, exVhpi])
      chars := rfl } (str "m") (str "r.m") (str "top.r.m") { exM with full := str "top.r.m" } rfl (by decide +kernel)
    (by decide +kernel) 0 [1, 5] (by decide +kernel)
  cases h1
  revert h2
  decide +kernel

/-! ## FLI -/

/-- C123: in the FLI an index within the bounds leads to its element, any other to nothing. -/
theorem C123_fli (F : Fli.Fli) (h : H) (l r : Int) (d : Verif.Dir) (e : Fli.Elem) (name full : Text) (o : Fli.Obj)
    (hty : F.ty h = .array l r (gpiDir d) (rangeSeq l d r).length e) (hv : F.value h = true)
    (hs : (F.subs h).length = (rangeSeq l d r).length) (ho : Fli.createObj F h name full = some o) :
    (∀ (k : Nat) (i : Int), (rangeSeq l d r)[k]? = some i → VhdlInt i →
      ∃ x, (F.subs h)[k]? = some x ∧
        Fli.fliByIndex F i o = Fli.createObj F x (name ++ indexSuffix [i]) (full ++ indexSuffix [i])) ∧
    (∀ i, i ∉ rangeSeq l d r → Fli.fliByIndex F i o = none) ∧
    o.left = l ∧ o.right = r ∧ o.dir = gpiDir d ∧ o.numElems = (rangeSeq l d r).length := by
  have hvh : F.vhdl h = true := by
    unfold Fli.createObj at ho
    cases e : F.vhdl h
    · rw [e] at ho; cases ho
    · rfl
  have hobj : o.hdl = h ∧ o.name = name ∧ o.full = full ∧ o.left = l ∧ o.right = r ∧ o.dir = gpiDir d ∧
      o.numElems = (rangeSeq l d r).length ∧ o.indexable = true ∧
      (o.type = .logicArray ∨ o.type = .array ∨ o.type = .fixedString) := by
    unfold Fli.createObj at ho
    simp only [hvh, hv, hty, Fli.valueType, Fli.withBounds] at ho
    cases e with
    | other => simp at ho; subst ho; simp
    | enum ls =>
      cases h1 : Fli.isLogic ls <;> cases h2 : Fli.isChar ls <;> simp [h1, h2] at ho <;> subst ho <;> simp
  obtain ⟨h1, h2, h3, h4, h5, h6, h7, h8, h9⟩ := hobj
  have hsub : ∀ i, Fli.fliByIndex F i o =
      (if posIn l r i < 0 ∨ posIn l r i ≥ (rangeSeq l d r).length then none else (F.subs h)[(posIn l r i).toNat]?).bind
        fun x => Fli.createObj F x (name ++ idxText i) (full ++ idxText i) := by
    intro i
    have hs : Fli.subHdl F o i =
        if posIn l r i < 0 ∨ posIn l r i ≥ (rangeSeq l d r).length then none else (F.subs h)[(posIn l r i).toNat]? := by
      unfold Fli.subHdl posIn
      simp only [h8, h4, h5, h1, h7]
      rfl
    unfold Fli.fliByIndex
    rcases h9 with h9 | h9 | h9 <;> simp only [h9, hs, h2, h3] <;>
      (split <;> rename_i h <;> rw [h] <;> rfl)
  refine ⟨?_, ?_, h4, h5, h6, h7⟩
  · intro k i hk hi
    obtain ⟨p1, p2, p3⟩ := seq_some (d := (l, d, r)) hk
    simp only at p1 p2 p3
    have hlt := (List.getElem?_eq_some_iff.1 hk).1
    refine ⟨(F.subs h)[k]'(by omega), List.getElem?_eq_getElem (by omega), ?_⟩
    rw [hsub, p1, if_neg (by omega)]
    simp only [Int.toNat_natCast, List.getElem?_eq_getElem (show k < (F.subs h).length by omega), idxText_eq hi]
    rfl
  · intro i hi
    rw [hsub]
    by_cases hn : posIn l r i < 0 ∨ posIn l r i ≥ (rangeSeq l d r).length
    · rw [if_pos hn]; rfl
    · exfalso
      obtain ⟨k, hk⟩ := Int.eq_ofNat_of_zero_le (show 0 ≤ posIn l r i by omega)
      have hlt : k < (rangeSeq l d r).length := by omega
      have hk2 := List.getElem?_eq_getElem hlt
      have := (seq_some (d := (l, d, r)) hk2).1
      simp only at this
      apply hi
      have he : i = (rangeSeq l d r)[k] := by
        unfold posIn at this hk
        split at hk <;> simp_all <;> omega
      rw [he]; exact List.getElem_mem _

/-- An array `a : array (2 downto 0) of integer` with the handle 0 and elements 1, 2 and 3. -/
def exFliArray : Fli.Fli where
  vhdl _ := true
  value _ := true
  signal _ := true
  const _ := false
  forGen _ := false
  ty h := if h = 0 then .array 2 0 (gpiDir .downto) 3 .other else .scalar
  regionName _ := []
  fullName _ := []
  region _ := none
  sig _ := none
  var _ := none
  lower _ := []
  subs h := if h = 0 then [1, 2, 3] else []
  tops := []

example : exFliArray.ty 0 = .array 2 0 (gpiDir .downto) (rangeSeq 2 .downto 0).length .other ∧
    (exFliArray.subs 0).length = (rangeSeq 2 .downto 0).length ∧
    ∃ o, Fli.createObj exFliArray 0 (str "a") (str "/top/a") = some o ∧
      (Fli.fliByIndex exFliArray 2 o).map (·.hdl) = some 1 ∧ (Fli.fliByIndex exFliArray 0 o).map (·.hdl) = some 3 ∧
      Fli.fliByIndex exFliArray 3 o = none := by
  refine ⟨by decide +kernel, by decide +kernel, _, rfl, ?_⟩
  decide +kernel

end Verif
