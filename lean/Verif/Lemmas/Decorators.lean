import Verif.Spec.Decorators
namespace Verif.Deco
open Verif DecoSpec

variable {ident : PyStr → Bool}

theorem repr_shows (v : Obj) (t : PyStr) : repr_ ident v = some t ↔ Shows ident v t := by
  induction v with
  | enum id name =>
    simp only [repr_]
    exact ⟨fun h => by cases h; exact .enum _ _, fun h => by cases h; rfl⟩
  | str s =>
    simp only [repr_]
    constructor
    · intro h
      split at h
      · rename_i hc; cases h; exact .str _ hc.1 hc.2
      · cases h
    · intro h
      cases h with
      | str _ h1 h2 => simp [h1, h2]
  | prim r =>
    simp only [repr_]
    exact ⟨fun h => by cases h; exact .prim _, fun h => by cases h; rfl⟩
  | named id q =>
    simp only [repr_]
    exact ⟨fun h => by cases h; exact .named _ _, fun h => by cases h; rfl⟩
  | other id =>
    simp only [repr_]
    exact ⟨(fun h => by cases h), fun h => by cases h⟩
  | param v name ih =>
    cases name with
    | some n =>
      simp only [repr_]
      exact ⟨fun h => by cases h; exact .param _ _, fun h => by cases h; rfl⟩
    | none =>
      simp only [repr_]
      rw [ih]
      exact ⟨fun h => .bare _ _ h, fun h => by cases h; assumption⟩

theorem repr_none (v : Obj) : repr_ ident v = none ↔ ∀ t, ¬ Shows ident v t := by
  constructor
  · intro h t hs
    rw [(repr_shows v t).2 hs] at h; cases h
  · intro h
    cases hr : repr_ ident v with
    | none => rfl
    | some t => exact absurd ((repr_shows v t).1 hr) (h t)

theorem reprsLoop_all (n : Nat) : ∀ (vs : List Obj) (acc ls : List PyStr),
    vs.map (repr_ ident) = ls.map some → reprsLoop ident n vs acc = acc ++ ls
  | [], acc, ls, h => by
    cases ls with
    | nil => simp [reprsLoop]
    | cons => simp at h
  | v :: vs, acc, ls, h => by
    cases ls with
    | nil => simp at h
    | cons l ls =>
      simp only [List.map_cons, List.cons.injEq] at h
      simp only [reprsLoop, h.1]
      rw [reprsLoop_all n vs _ ls h.2]
      simp

theorem reprsLoop_none (n : Nat) : ∀ (vs : List Obj) (acc : List PyStr),
    (∃ v ∈ vs, repr_ ident v = none) → reprsLoop ident n vs acc = (List.range n).map decStr
  | [], acc, h => by simp at h
  | v :: vs, acc, h => by
    simp only [reprsLoop]
    cases hr : repr_ ident v with
    | none => rfl
    | some r =>
      simp only
      refine reprsLoop_none n vs _ ?_
      obtain ⟨w, hw, e⟩ := h
      rcases List.mem_cons.1 hw with rfl | hw
      · rw [hr] at e; cases e
      · exact ⟨w, hw, e⟩

/-- The label of the `i`-th value. -/
theorem reprs_label (vs : List Obj) (i : Nat) (t : PyStr) :
    (reprs ident vs)[i]? = some t ↔ Label ident vs i t := by
  unfold Label
  by_cases h : ∃ v ∈ vs, repr_ ident v = none
  · have hr : reprs ident vs = (List.range vs.length).map decStr := reprsLoop_none _ vs [] h
    rw [hr]
    obtain ⟨v, hv, hn⟩ := h
    have hn' := (repr_none v).1 hn
    constructor
    · intro he
      rw [List.getElem?_map] at he
      obtain ⟨j, hj, rfl⟩ := Option.map_eq_some_iff.1 he
      obtain ⟨h1, h2⟩ := List.getElem?_eq_some_iff.1 hj
      simp at h1 h2
      subst h2
      exact .inr ⟨⟨v, hv, hn'⟩, h1, rfl⟩
    · rintro (⟨ha, -⟩ | ⟨-, hi, rfl⟩)
      · obtain ⟨s, hs⟩ := ha v hv
        exact absurd hs (hn' s)
      · simp [hi]
  · have hall : ∀ v ∈ vs, ∃ s, repr_ ident v = some s := by
      intro v hv
      cases hr : repr_ ident v with
      | none => exact absurd ⟨v, hv, hr⟩ h
      | some s => exact ⟨s, rfl⟩
    have hls : vs.map (repr_ ident) = (vs.map fun v => (repr_ ident v).getD []).map some := by
      rw [List.map_map]
      refine List.map_congr_left fun v hv => ?_
      obtain ⟨s, hs⟩ := hall v hv
      simp [hs]
    have hr : reprs ident vs = vs.map fun v => (repr_ ident v).getD [] := by
      rw [reprs, reprsLoop_all _ vs [] _ hls]; rfl
    rw [hr, List.getElem?_map]
    constructor
    · intro he
      obtain ⟨v, hv, e⟩ := Option.map_eq_some_iff.1 he
      obtain ⟨s, hs⟩ := hall v (List.mem_of_getElem? hv)
      rw [hs] at e
      simp only [Option.getD_some] at e
      subst e
      refine .inl ⟨fun w hw => ?_, v, hv, (repr_shows _ _).1 hs⟩
      obtain ⟨s', hs'⟩ := hall w hw
      exact ⟨s', (repr_shows _ _).1 hs'⟩
    · rintro (⟨-, v, hv, hs⟩ | ⟨⟨v, hv, hn⟩, -⟩)
      · rw [hv]; simp [(repr_shows _ _).2 hs]
      · exact absurd ⟨v, hv, (repr_none v).2 hn⟩ h

theorem reprs_length (vs : List Obj) : (reprs ident vs).length = vs.length := by
  by_cases h : ∃ v ∈ vs, repr_ ident v = none
  · have hr : reprs ident vs = (List.range vs.length).map decStr := reprsLoop_none _ vs [] h
    simp [hr]
  · have hls : vs.map (repr_ ident) = (vs.map fun v => (repr_ ident v).getD []).map some := by
      rw [List.map_map]
      refine List.map_congr_left fun v hv => ?_
      cases hr : repr_ ident v with
      | none => exact absurd ⟨v, hv, hr⟩ h
      | some s => simp [hr]
    rw [reprs, reprsLoop_all _ vs [] _ hls]; simp

/-- Column `j` of the rows. -/
def col (rows : List (List Obj)) (j : Nat) : List Obj := rows.filterMap (·[j]?)

theorem column_eq (j : Nat) : ∀ rows : List (List Obj), (∀ row ∈ rows, j < row.length) →
    column j rows = .ok (col rows j)
  | [], _ => rfl
  | row :: rows, h => by
    have h1 := h row List.mem_cons_self
    simp only [column, List.getElem?_eq_getElem h1, column_eq j rows fun r hr => h r (List.mem_cons_of_mem _ hr)]
    simp [col, List.filterMap_cons, List.getElem?_eq_getElem h1]

theorem col_length {rows : List (List Obj)} {j : Nat} (h : ∀ row ∈ rows, j < row.length) :
    (col rows j).length = rows.length := by
  unfold col
  induction rows with
  | nil => rfl
  | cons row rows ih =>
    simp [List.filterMap_cons, List.getElem?_eq_getElem (h row List.mem_cons_self),
      ih fun r hr => h r (List.mem_cons_of_mem _ hr)]

theorem dictSet_new {α : Type} {d : List (PyStr × α)} {n : PyStr} {v : α} (h : n ∉ d.map (·.1)) :
    dictSet d n v = d ++ [(n, v)] := by
  induction d with
  | nil => rfl
  | cons x d ih =>
    obtain ⟨k, w⟩ := x
    simp only [List.map_cons, List.mem_cons, not_or] at h
    simp [dictSet, Ne.symm h.1, ih h.2]

theorem transform_eq (rows : List (List Obj)) : ∀ (ns : List PyStr) (j : Nat) (d : List (PyStr × List Obj)),
    (∀ row ∈ rows, row.length = j + ns.length) → ns.Nodup → (∀ n ∈ ns, n ∉ d.map (·.1)) →
    transform rows ns j d = .ok (d ++ (ns.zipIdx j).map fun x => (x.1, col rows x.2))
  | [], j, d, _, _, _ => by simp [transform]
  | n :: ns, j, d, hr, hn, hd => by
    rw [List.nodup_cons] at hn
    have hc := column_eq j rows fun row h => by rw [hr row h]; simp
    simp only [transform, hc]
    rw [transform_eq rows ns (j + 1) _ (fun row h => by rw [hr row h]; simp; omega) hn.2, dictSet_new (hd n List.mem_cons_self)]
    · simp
    · rw [dictSet_new (hd n List.mem_cons_self)]
      intro m hm
      simp only [List.map_append, List.map_cons, List.map_nil, List.mem_append, List.mem_singleton, not_or]
      exact ⟨hd m (List.mem_cons_of_mem _ hm), fun e => hn.1 (e ▸ hm)⟩

/-- The values of an option, by name. -/
def cols : Opt → List (PyStr × List Obj)
  | .one n vs => [(n, vs)]
  | .many ns rows => ns.zipIdx.map fun x => (x.1, col rows x.2)

theorem cols_names (o : Opt) : (cols o).map (·.1) = names o := by
  cases o with
  | one n vs => rfl
  | many ns rows => simp only [cols, names, List.map_map]; exact List.zipIdx_map_fst 0 ns

theorem foldl_dictSet_new {α β : Type} (f : α → β) : ∀ (l : List (PyStr × α)) (d : List (PyStr × β)),
    (l.map (·.1)).Nodup → (∀ n ∈ l.map (·.1), n ∉ d.map (·.1)) →
    l.foldl (fun d x => dictSet d x.1 (f x.2)) d = d ++ l.map fun x => (x.1, f x.2)
  | [], d, _, _ => by simp
  | x :: l, d, hn, hd => by
    rw [List.map_cons, List.nodup_cons] at hn
    rw [List.foldl_cons, dictSet_new (hd x.1 (by simp)), foldl_dictSet_new f l _ hn.2]
    · simp
    · intro m hm
      simp only [List.map_append, List.map_cons, List.map_nil, List.mem_append, List.mem_singleton, not_or]
      exact ⟨hd m (by rw [List.map_cons]; exact List.mem_cons_of_mem _ hm), fun e => hn.1 (e ▸ hm)⟩

theorem optionReprs_eq : ∀ (os : List Opt) (d : List (PyStr × List PyStr)),
    (∀ o ∈ os, Rectangular o) → DistinctNames os → (∀ n ∈ os.flatMap names, n ∉ d.map (·.1)) →
    optionReprs ident os d = .ok (d ++ (os.flatMap cols).map fun x => (x.1, reprs ident x.2))
  | [], d, _, _, _ => by simp [optionReprs]
  | o :: os, d, hr, hn, hd => by
    unfold DistinctNames at hn
    rw [List.flatMap_cons, List.nodup_append] at hn
    obtain ⟨hn1, hn2, hn3⟩ := hn
    have hd1 : ∀ n ∈ names o, n ∉ d.map (·.1) := fun n h => hd n (by simp [h])
    have key : ∀ d', d' = d ++ (cols o).map (fun x => (x.1, reprs ident x.2)) →
        optionReprs ident os d' = .ok (d ++ ((o :: os).flatMap cols).map fun x => (x.1, reprs ident x.2)) := by
      rintro d' rfl
      rw [optionReprs_eq os _ (fun o h => hr o (List.mem_cons_of_mem _ h)) hn2]
      · simp
      · intro n h
        simp only [List.map_append, List.map_map, List.mem_append, not_or]
        refine ⟨hd n (by rw [List.flatMap_cons]; exact List.mem_append_right _ h), fun e => ?_⟩
        have e' : n ∈ names o := by rw [← cols_names o]; exact e
        exact hn3 n e' n h rfl
    have hrec := hr o List.mem_cons_self
    cases o with
    | one n vs =>
      simp only [optionReprs]
      exact key _ (dictSet_new (hd1 n (by simp [names])))
    | many ns rows =>
      have hrec' : ∀ row ∈ rows, row.length = 0 + ns.length := fun row h => by rw [hrec row h]; simp
      simp only [optionReprs, transform_eq rows ns 0 [] hrec' hn1 (by simp), List.nil_append]
      refine key _ ?_
      have hc : ns.zipIdx.map (fun x => (x.1, col rows x.2)) = cols (.many ns rows) := rfl
      rw [hc]
      refine foldl_dictSet_new (reprs ident) (cols (.many ns rows)) d ?_ ?_
      · rw [cols_names]; exact hn1
      · rw [cols_names]; exact hd1

/-- `l` holds the labels at index `i` of columns `cs`. -/
def labelsAt (ident : PyStr → Bool) (i : Nat) (cs : List (PyStr × List Obj)) : List PyStr :=
  cs.filterMap fun c => (reprs ident c.2)[i]?

theorem addArgs_eq {rs : List (PyStr × List PyStr)} {i : Nat} : ∀ (l : List (PyStr × Obj)) (ts : List PyStr)
    (acc : List (PyStr × Obj) × PyStr), l.length = ts.length →
    (∀ (k : Nat) x t, l[k]? = some x → ts[k]? = some t → ∃ c, dictGet rs x.1 = some c ∧ c[i]? = some t) →
    (l.map (·.1)).Nodup → (∀ n ∈ l.map (·.1), n ∉ acc.1.map (·.1)) →
    addArgs rs i l acc = .ok (acc.1 ++ l.map (fun x => (x.1, carried x.2)), acc.2 ++ pieces (l.map (·.1)) ts)
  | [], ts, acc, hl, _, _, _ => by
    cases ts with
    | nil => simp [addArgs, pieces]
    | cons => simp at hl
  | (n, v) :: l, ts, acc, hl, hc, hn, hd => by
    cases ts with
    | nil => simp at hl
    | cons t ts =>
      rw [List.map_cons, List.nodup_cons] at hn
      obtain ⟨c, hc1, hc2⟩ := hc 0 (n, v) t rfl rfl
      have hu : unwrap v = carried v := by cases v <;> rfl
      simp only [addArgs, addArg, hc1, hc2]
      rw [dictSet_new (hd n (by simp)), hu]
      rw [addArgs_eq l ts _ (by simpa using hl) (fun k x t h1 h2 => hc (k + 1) x t h1 h2) hn.2]
      · simp [pieces]
      · intro m hm
        simp only [List.map_append, List.map_cons, List.map_nil, List.mem_append, List.mem_singleton, not_or]
        exact ⟨hd m (by rw [List.map_cons]; exact List.mem_cons_of_mem _ hm), fun e => hn.1 (e ▸ hm)⟩

theorem labels_of (o : Opt) (hr : Rectangular o) (i : Nat) (hi : i < size o) :
    ∃ ts, Labels ident o i ts ∧ ts.length = (names o).length ∧ labelsAt ident i (cols o) = ts ∧
      ∀ (k : Nat) n t, (names o)[k]? = some n → ts[k]? = some t →
        ∃ c, (n, c) ∈ cols o ∧ (reprs ident c)[i]? = some t := by
  cases o with
  | one n vs =>
    have hl : i < (reprs ident vs).length := by rw [reprs_length]; exact hi
    refine ⟨[(reprs ident vs)[i]], ⟨_, rfl, (reprs_label _ _ _).1 (List.getElem?_eq_getElem hl)⟩, rfl, ?_, ?_⟩
    · simp [labelsAt, cols, List.getElem?_eq_getElem hl]
    · intro k m t h1 h2
      cases k with
      | zero =>
        simp [names] at h1 h2
        subst h1; subst h2
        exact ⟨vs, by simp [cols], List.getElem?_eq_getElem hl⟩
      | succ k => simp [names] at h1
  | many ns rows =>
    have hlen : ∀ j, j < ns.length → i < (reprs ident (col rows j)).length := by
      intro j hj
      rw [reprs_length, col_length fun row h => by rw [hr row h]; exact hj]
      exact hi
    have hts : ∀ (l : List PyStr) (j : Nat), j + l.length ≤ ns.length →
        ∃ ts, labelsAt ident i ((l.zipIdx j).map fun x => (x.1, col rows x.2)) = ts ∧ ts.length = l.length ∧
          ∀ (k : Nat) t, ts[k]? = some t → (reprs ident (col rows (j + k)))[i]? = some t := by
      intro l
      induction l with
      | nil => intro j _; exact ⟨[], by simp [labelsAt], rfl, by simp⟩
      | cons n l ih =>
        intro j hj
        simp only [List.length_cons] at hj
        obtain ⟨ts, h1, h2, h3⟩ := ih (j + 1) (by omega)
        have hjl := hlen j (by omega)
        have hj' := List.getElem?_eq_getElem hjl
        refine ⟨(reprs ident (col rows j))[i]'hjl :: ts, ?_, by simp [h2], ?_⟩
        · rw [List.zipIdx_cons, List.map_cons]
          simp only [labelsAt, List.filterMap_cons, hj']
          rw [← h1]; rfl
        · intro k t hk
          cases k with
          | zero => simp at hk; subst hk; exact hj'
          | succ k => simp at hk; rw [show j + (k + 1) = (j + 1) + k by omega]; exact h3 k t hk
    obtain ⟨ts, h1, h2, h3⟩ := hts ns 0 (by simp)
    refine ⟨ts, ⟨h2, fun j t h => ?_⟩, h2, h1, ?_⟩
    · have := h3 j t h
      rw [Nat.zero_add] at this
      exact (reprs_label _ _ _).1 this
    · intro k n t hk ht
      have := h3 k t ht
      rw [Nat.zero_add] at this
      refine ⟨col rows k, ?_, this⟩
      simp only [cols, List.mem_map]
      refine ⟨(n, k), ?_, rfl⟩
      rw [List.mem_zipIdx_iff_getElem?]
      exact hk

theorem labels_unique {o : Opt} {i : Nat} {ts ts' : List PyStr} (h : Labels ident o i ts) (h' : Labels ident o i ts') :
    ts = ts' := by
  cases o with
  | one n vs =>
    obtain ⟨t, rfl, h1⟩ := h
    obtain ⟨t', rfl, h2⟩ := h'
    have e1 := (reprs_label _ _ _).2 h1
    have e2 := (reprs_label _ _ _).2 h2
    rw [e1] at e2
    cases e2; rfl
  | many ns rows =>
    obtain ⟨l1, h1⟩ := h
    obtain ⟨l2, h2⟩ := h'
    refine List.ext_getElem (l1.trans l2.symm) fun j hj hj' => ?_
    have e1 := (reprs_label _ _ _).2 (h1 j _ (List.getElem?_eq_getElem hj))
    have e2 := (reprs_label _ _ _).2 (h2 j _ (List.getElem?_eq_getElem hj'))
    rw [e1] at e2
    exact Option.some.inj e2

theorem addOption_eq {rs : List (PyStr × List PyStr)} (o : Opt) (i : Nat) (acc : List (PyStr × Obj) × PyStr)
    (hr : Rectangular o) (hi : i < size o) (hn : (names o).Nodup)
    (hrs : ∀ n c, (n, c) ∈ cols o → dictGet rs n = some (reprs ident c))
    (hd : ∀ n ∈ names o, n ∉ acc.1.map (·.1)) :
    ∃ ts, Labels ident o i ts ∧ (args o i).map (·.1) = names o ∧
      addOption rs o i acc = .ok (acc.1 ++ args o i, acc.2 ++ pieces (names o) ts) := by
  obtain ⟨ts, h1, h2, -, h3⟩ := labels_of (ident := ident) o hr i hi
  refine ⟨ts, h1, ?_⟩
  cases o with
  | one n vs =>
    have hv := List.getElem?_eq_getElem hi
    change vs[i]? = some (vs[i]'hi) at hv
    refine ⟨by simp [args, hv, names], ?_⟩
    have := addArgs_eq (rs := rs) (i := i) [(n, vs[i]'hi)] ts acc (by simpa [names] using h2.symm) (by
      intro k x t hx ht
      cases k with
      | zero =>
        simp at hx; subst hx
        obtain ⟨c, hc1, hc2⟩ := h3 0 n t rfl ht
        exact ⟨_, hrs n c hc1, hc2⟩
      | succ k => simp at hx) (by simp) (by simpa [names] using hd)
    simp only [addOption, hv]
    simp only [addArgs] at this
    revert this
    cases addArg rs i n (vs[i]'hi) acc with
    | error e => intro h; cases h
    | ok a =>
      intro h
      simp only [addArgs] at h
      rw [Except.ok.inj h]
      simp [args, hv, names]
  | many ns rows =>
    have hv := List.getElem?_eq_getElem hi
    change rows[i]? = some (rows[i]'hi) at hv
    have hlen : (rows[i]'hi).length = ns.length := hr _ (List.getElem_mem _)
    have hf : (ns.zip (rows[i]'hi)).map (·.1) = ns := List.map_fst_zip (by omega)
    refine ⟨by simp [args, hv, names, List.map_fst_zip, hlen], ?_⟩
    simp only [addOption, hv]
    rw [addArgs_eq (rs := rs) (i := i) (ns.zip (rows[i]'hi)) ts acc (by rw [h2]; simp [names, hlen]) ?_
      (by rw [hf]; exact hn) (by rw [hf]; exact hd), hf]
    · simp [args, hv, names, List.zip_map_right]
    · intro k x t hx ht
      have hk : ns[k]? = some x.1 := by
        rw [← hf, List.getElem?_map, hx]; rfl
      obtain ⟨c, hc1, hc2⟩ := h3 k x.1 t hk ht
      exact ⟨_, hrs _ c hc1, hc2⟩

/-- What the test for a choice should be. -/
def TestFor (ident : PyStr → Bool) (g : Gen) (sel : List Nat) (t : Test) : Prop :=
  t.kwargs = combination g.options sel ∧ (∃ s, Named ident g.options sel s ∧ t.name = g.name ++ s) ∧
  t.settings = g.settings

theorem buildTest_eq {rs : List (PyStr × List PyStr)} : ∀ (os : List Opt) (sel : List Nat)
    (acc : List (PyStr × Obj) × PyStr), Fits sel (os.map size) → (∀ o ∈ os, Rectangular o) → DistinctNames os →
    (∀ o ∈ os, ∀ n c, (n, c) ∈ cols o → dictGet rs n = some (reprs ident c)) →
    (∀ n ∈ os.flatMap names, n ∉ acc.1.map (·.1)) →
    ∃ s, Named ident os sel s ∧ buildTest rs os sel acc = .ok (acc.1 ++ combination os sel, acc.2 ++ s)
  | [], [], acc, _, _, _, _, _ => ⟨[], .nil, by simp [buildTest, combination]⟩
  | [], i :: is, acc, h, _, _, _, _ => h.elim
  | o :: os, [], acc, h, _, _, _, _ => h.elim
  | o :: os, i :: is, acc, hf, hr, hn, hrs, hd => by
    unfold DistinctNames at hn
    rw [List.flatMap_cons, List.nodup_append] at hn
    obtain ⟨hn1, hn2, hn3⟩ := hn
    obtain ⟨hi, hf⟩ := hf
    obtain ⟨ts, h1, h2, h3⟩ := addOption_eq (ident := ident) (rs := rs) o i acc (hr o List.mem_cons_self) hi hn1
      (hrs o List.mem_cons_self) (fun n h => hd n (by rw [List.flatMap_cons]; exact List.mem_append_left _ h))
    obtain ⟨s, g1, g2⟩ := buildTest_eq os is (acc.1 ++ args o i, acc.2 ++ pieces (names o) ts) hf
      (fun o h => hr o (List.mem_cons_of_mem _ h)) hn2 (fun o h => hrs o (List.mem_cons_of_mem _ h)) (by
        intro n h
        simp only [List.map_append, List.mem_append, not_or]
        refine ⟨hd n (by rw [List.flatMap_cons]; exact List.mem_append_right _ h), ?_⟩
        rw [h2]
        exact fun e => hn3 n e n h rfl)
    refine ⟨_, .cons o os i is ts s h1 g1, ?_⟩
    simp only [buildTest, h3, g2, combination, List.append_assoc]

theorem buildAll_eq {g : Gen} {rs : List (PyStr × List PyStr)} (hr : ∀ o ∈ g.options, Rectangular o)
    (hn : DistinctNames g.options)
    (hrs : ∀ o ∈ g.options, ∀ n c, (n, c) ∈ cols o → dictGet rs n = some (reprs ident c)) :
    ∀ sels : List (List Nat), (∀ sel ∈ sels, Fits sel (g.options.map size)) →
    ∃ ts, buildAll g rs sels = .ok ts ∧ ts.length = sels.length ∧
      ∀ (k : Nat) sel t, sels[k]? = some sel → ts[k]? = some t → TestFor ident g sel t
  | [], _ => ⟨[], rfl, rfl, by simp⟩
  | sel :: sels, h => by
    obtain ⟨s, h1, h2⟩ := buildTest_eq (ident := ident) (rs := rs) g.options sel ([], g.name)
      (h sel List.mem_cons_self) hr hn hrs (by simp)
    obtain ⟨ts, g1, g2, g3⟩ := buildAll_eq hr hn hrs sels fun sel h' => h sel (List.mem_cons_of_mem _ h')
    refine ⟨⟨g.name ++ s, combination g.options sel, g.settings⟩ :: ts, ?_, by simp [g2], ?_⟩
    · simp only [buildAll, h2, g1, List.nil_append]
    · intro k sel' t hs ht
      cases k with
      | zero =>
        simp at hs ht
        subst hs; subst ht
        exact ⟨rfl, ⟨s, h1, rfl⟩, rfl⟩
      | succ k => exact g3 k sel' t (by simpa using hs) (by simpa using ht)

theorem generate_eq (g : Gen) (hr : ∀ o ∈ g.options, Rectangular o) (hn : DistinctNames g.options) :
    ∃ sels ts, AllChoices (g.options.map size) sels ∧ generateTests ident g = .ok ts ∧
      ts.length = sels.length ∧ sels.length = (g.options.map size).prod ∧
      ∀ (k : Nat) sel t, sels[k]? = some sel → ts[k]? = some t → TestFor ident g sel t := by
  have hsz : (g.options.map fun o => List.range o.size) = (g.options.map size).map List.range := by
    rw [List.map_map]
    refine List.map_congr_left fun o _ => ?_
    cases o <;> rfl
  have hch := prodRec_choices (g.options.map size)
  have hrs : ∀ o ∈ g.options, ∀ n c, (n, c) ∈ cols o →
      dictGet (((g.options.flatMap cols).map fun x => (x.1, reprs ident x.2))) n = some (reprs ident c) := by
    intro o ho n c hc
    refine dictGet_of_mem ?_ (List.mem_map.2 ⟨(n, c), List.mem_flatMap.2 ⟨o, ho, hc⟩, rfl⟩)
    rw [List.map_map]
    have : (g.options.flatMap cols).map ((fun x => x.1) ∘ fun x : PyStr × List Obj => (x.1, reprs ident x.2)) =
        g.options.flatMap names := by
      rw [List.map_flatMap]
      have e : (fun o => (cols o).map ((fun x : PyStr × List PyStr => x.1) ∘ fun x : PyStr × List Obj => (x.1, reprs ident x.2))) = names := by
        funext o; exact cols_names o
      rw [e]
    rw [this]
    exact hn
  obtain ⟨ts, h1, h2, h3⟩ := buildAll_eq (ident := ident) hr hn hrs (prodRec ((g.options.map size).map List.range))
    fun sel h => (hch.2 sel).1 h
  refine ⟨_, ts, hch, ?_, h2, ?_, h3⟩
  · unfold generateTests
    rw [optionReprs_eq g.options [] hr hn (by simp)]
    simp only [List.nil_append]
    rw [hsz, pyProduct_eq, h1]
  · rw [prodRec_length, List.map_map, List.map_map]
    congr 1
    refine List.map_congr_left fun o _ => ?_
    simp

/-! ### Names -/

/-- Nothing, or a further piece. -/
def Stop (s : PyStr) : Prop := s = [] ∨ ∃ r, s = '/' :: r

theorem label_inj : ∀ (t t' x x' : PyStr), '/' ∉ t → '/' ∉ t' → Stop x → Stop x' → t ++ x = t' ++ x' →
    t = t' ∧ x = x'
  | [], [], x, x', _, _, _, _, h => ⟨rfl, h⟩
  | [], c :: t', x, x', _, h2, h3, _, h => by
    rcases h3 with rfl | ⟨r, rfl⟩
    · simp at h
    · simp at h
      exact absurd (h.1 ▸ List.mem_cons_self) h2
  | c :: t, [], x, x', h1, _, _, h4, h => by
    rcases h4 with rfl | ⟨r, rfl⟩
    · simp at h
    · simp at h
      exact absurd (h.1 ▸ List.mem_cons_self) h1
  | c :: t, c' :: t', x, x', h1, h2, h3, h4, h => by
    simp only [List.cons_append, List.cons.injEq] at h
    obtain ⟨a, b⟩ := label_inj t t' x x' (fun e => h1 (List.mem_cons_of_mem _ e))
      (fun e => h2 (List.mem_cons_of_mem _ e)) h3 h4 h.2
    exact ⟨by rw [h.1, a], b⟩

theorem stop_pieces (ns ts : List PyStr) (r : PyStr) (h : Stop r) : Stop (pieces ns ts ++ r) := by
  cases ns with
  | nil => exact h
  | cons n ns =>
    cases ts with
    | nil => exact h
    | cons t ts => exact .inr ⟨n ++ '=' :: t ++ pieces ns ts ++ r, by simp [pieces]⟩

theorem pieces_inj : ∀ (ns ts ts' : List PyStr) (r r' : PyStr), ts.length = ns.length → ts'.length = ns.length →
    (∀ t ∈ ts, '/' ∉ t) → (∀ t ∈ ts', '/' ∉ t) → Stop r → Stop r' →
    pieces ns ts ++ r = pieces ns ts' ++ r' → ts = ts' ∧ r = r'
  | [], ts, ts', r, r', h1, h2, _, _, _, _, h => by
    cases ts with
    | cons => simp at h1
    | nil =>
      cases ts' with
      | cons => simp at h2
      | nil => exact ⟨rfl, by simpa [pieces] using h⟩
  | n :: ns, ts, ts', r, r', h1, h2, h3, h4, h5, h6, h => by
    cases ts with
    | nil => simp at h1
    | cons t ts =>
      cases ts' with
      | nil => simp at h2
      | cons t' ts' =>
        simp only [pieces, List.append_assoc, List.cons_append, List.cons.injEq, true_and,
          List.append_cancel_left_eq] at h
        obtain ⟨a, b⟩ := label_inj t t' _ _ (h3 t List.mem_cons_self) (h4 t' List.mem_cons_self)
          (stop_pieces ns ts r h5) (stop_pieces ns ts' r' h6) h
        obtain ⟨c, d⟩ := pieces_inj ns ts ts' r r' (by simpa using h1) (by simpa using h2)
          (fun t h => h3 t (List.mem_cons_of_mem _ h)) (fun t h => h4 t (List.mem_cons_of_mem _ h)) h5 h6 b
        exact ⟨by rw [a, c], d⟩

theorem labels_length {o : Opt} {i : Nat} {ts : List PyStr} (h : Labels ident o i ts) : ts.length = (names o).length := by
  cases o with
  | one n vs => obtain ⟨t, rfl, -⟩ := h; rfl
  | many ns rows => exact h.1

theorem named_stop {os : List Opt} {sel : List Nat} {s : PyStr} (h : Named ident os sel s) : Stop s := by
  induction h with
  | nil => exact .inl rfl
  | cons o os i is ts s _ _ ih => exact stop_pieces _ _ _ ih

theorem named_inj : ∀ (os : List Opt) (sel sel' : List Nat) (s : PyStr), Named ident os sel s →
    Named ident os sel' s → Fits sel (os.map size) → Fits sel' (os.map size) →
    (∀ o ∈ os, NoSlash ident o) → (∀ o ∈ os, DistinctLabels ident o) → sel = sel'
  | [], _, _, _, h, h', _, _, _, _ => by cases h; cases h'; rfl
  | o :: os, sel, sel', s, h, h', hf, hf', hs, hd => by
    cases sel with
    | nil => exact hf.elim
    | cons i is =>
    cases sel' with
    | nil => exact hf'.elim
    | cons j js =>
    generalize hx : s = s₂ at h'
    cases h with
    | cons _ _ _ _ ts r h1 h2 =>
      cases h' with
      | cons _ _ _ _ ts' r' h1' h2' =>
        obtain ⟨a, b⟩ := pieces_inj (names o) ts ts' r r' (labels_length h1) (labels_length h1')
          (hs o List.mem_cons_self i ts h1) (hs o List.mem_cons_self j ts' h1') (named_stop h2) (named_stop h2') hx
        subst a; subst b
        have e1 := hd o List.mem_cons_self i j ts h1 h1' hf.1 hf'.1
        have e2 := named_inj os is js r h2 h2' hf.2 hf'.2 (fun o h => hs o (List.mem_cons_of_mem _ h))
          (fun o h => hd o (List.mem_cons_of_mem _ h))
        rw [e1, e2]

/-! ### Decorators -/

theorem mem_foldl_setAdd (es : List Nat) : ∀ (l : List Nat) (e : Nat), e ∈ es.foldl setAdd l ↔ e ∈ l ∨ e ∈ es := by
  induction es with
  | nil => simp
  | cons a es ih =>
    intro l e
    rw [List.foldl_cons, ih]
    unfold setAdd
    split
    · rename_i h
      simp only [List.mem_cons]
      constructor
      · rintro (h | h)
        · exact .inl h
        · exact .inr (.inr h)
      · rintro (h' | rfl | h')
        · exact .inl h'
        · exact .inl h
        · exact .inr h'
    · simp only [List.mem_append, List.mem_singleton, List.mem_cons, List.not_mem_nil, or_false]
      exact or_assoc

theorem checkOptions_ok (os : List Opt) :
    (checkOptions ident os = .ok () ↔ ∀ o ∈ os, (∀ n ∈ names o, ident n = true) ∧ Rectangular o) ∧
    (checkOptions ident os = .ok () ∨ checkOptions ident os = .error .valueError) := by
  induction os with
  | nil => simp [checkOptions]
  | cons o os ih =>
    have h1 : (checkOption ident o = .ok () ↔ (∀ n ∈ names o, ident n = true) ∧ Rectangular o) ∧
        (checkOption ident o = .ok () ∨ checkOption ident o = .error .valueError) := by
      cases o with
      | one n vs => simp only [checkOption, names, Rectangular]; split <;> simp_all
      | many ns rows =>
        simp only [checkOption, names, Rectangular]
        by_cases ha : ns.all ident = true
        · rw [if_pos ha]
          rw [List.all_eq_true] at ha
          by_cases hb : (rows.all fun row => decide (row.length = ns.length)) = true
          · rw [if_pos hb]
            rw [List.all_eq_true] at hb
            exact ⟨⟨fun _ => ⟨ha, fun row h => of_decide_eq_true (hb row h)⟩, fun _ => rfl⟩, .inl rfl⟩
          · rw [if_neg hb]
            refine ⟨⟨(fun h => by cases h), fun h => ?_⟩, .inr rfl⟩
            exact absurd (List.all_eq_true.2 fun row hr => decide_eq_true (h.2 row hr)) hb
        · rw [if_neg ha]
          refine ⟨⟨(fun h => by cases h), fun h => ?_⟩, .inr rfl⟩
          exact absurd (List.all_eq_true.2 h.1) ha
    simp only [checkOptions, List.mem_cons, forall_eq_or_imp]
    rcases h1.2 with e | e
    · rw [e]
      simp only
      exact ⟨by rw [ih.1]; exact ⟨fun h => ⟨h1.1.1 e, h⟩, fun h => h.2⟩, ih.2⟩
    · rw [e]
      refine ⟨⟨(fun h => by cases h), fun h => ?_⟩, .inr rfl⟩
      have := h1.1.2 h.1
      rw [e] at this; cases this

/-! ### TestFactory -/

theorem zeroPad_inj {a b : Nat} {w : Nat} (h : zeroPad w (decStr a) = zeroPad w (decStr b)) : a = b := by
  have key : ∀ k s, parseDecDigits (List.replicate k '0' ++ s) 0 = parseDecDigits s 0 := by
    intro k s
    induction k with
    | zero => rfl
    | succ k ih =>
      rw [List.replicate_succ, List.cons_append, parseDecDigits]
      have : decDigit '0' = some 0 := by decide
      rw [this]
      exact ih
  have := congrArg (fun s => parseDecDigits s 0) h
  simp only [zeroPad, key, parseDecDigits_decStr] at this
  exact Option.some.inj this

theorem dictGet_update {α : Type} : ∀ (l : List (PyStr × α)) (d : List (PyStr × α)) (n : PyStr),
    (l.map (·.1)).Nodup →
    dictGet (dictUpdate d l) n = match dictGet l n with | some v => some v | none => dictGet d n
  | [], d, n, _ => by simp [dictUpdate, dictGet]
  | (k, v) :: l, d, n, h => by
    rw [List.map_cons, List.nodup_cons] at h
    have ih := dictGet_update l (dictSet d k v) n h.2
    unfold dictUpdate at ih ⊢
    rw [List.foldl_cons, ih]
    by_cases e : k = n
    · subst e
      rw [dictGet_none_iff.2 h.1]
      simp [dictGet, dictGet_set_same]
    · simp only [dictGet, e, if_false]
      rw [dictGet_set_other _ _ _ _ e]

theorem splitOpt_fargs (k : Key) (v : FVal) : splitOpt k v = fargs k v := by
  cases k <;> cases v <;> rfl

theorem splitAll_eq : ∀ (l : List (Key × FVal)) (d : List (PyStr × FVal)),
    ((l.flatMap fun x => fargs x.1 x.2).map (·.1)).Nodup →
    (∀ n ∈ (l.flatMap fun x => fargs x.1 x.2).map (·.1), n ∉ d.map (·.1)) →
    l.foldl (fun d x => dictUpdate d (splitOpt x.1 x.2)) d = d ++ l.flatMap fun x => fargs x.1 x.2
  | [], d, _, _ => by simp
  | x :: l, d, h, hd => by
    rw [List.flatMap_cons, List.map_append, List.nodup_append] at h
    rw [List.flatMap_cons, List.map_append] at hd
    have e : dictUpdate d (splitOpt x.1 x.2) = d ++ fargs x.1 x.2 := by
      rw [splitOpt_fargs]
      have := foldl_dictSet_new (fun v : FVal => v) (fargs x.1 x.2) d h.1
        (fun n hn => hd n (List.mem_append_left _ hn))
      unfold dictUpdate
      rw [this]
      simp
    rw [List.foldl_cons, e, splitAll_eq l _ h.2.1]
    · simp
    · intro n hn
      rw [List.map_append, List.mem_append, not_or]
      exact ⟨hd n (List.mem_append_right _ hn), fun e => h.2.2 n e n hn rfl⟩

/-- What the loop leaves in the module. -/
theorem factoryLoop_get (f : Factory) (pre name post : PyStr) : ∀ (vs : List (List FVal)) (index : Nat)
    (glbs : List (PyStr × FTest)) (n : PyStr),
    dictGet (factoryLoop f pre name post index vs glbs) n =
      match (vs.zipIdx index).findSome? fun x =>
        if factoryName pre name post x.2 = n then some (factoryTest f pre name post x.2 x.1) else none with
      | some t => some t
      | none => dictGet glbs n
  | [], index, glbs, n => by simp [factoryLoop]
  | v :: vs, index, glbs, n => by
    rw [factoryLoop, factoryLoop_get f pre name post vs]
    rw [List.zipIdx_cons, List.findSome?_cons]
    by_cases e : factoryName pre name post index = n
    · have hno : ((vs.zipIdx (index + 1)).findSome? fun x =>
          if factoryName pre name post x.2 = n then some (factoryTest f pre name post x.2 x.1) else none) = none := by
        rw [List.findSome?_eq_none_iff]
        rintro ⟨w, j⟩ hx
        have hj : index + 1 ≤ j := (List.mem_zipIdx hx).1
        rw [if_neg]
        intro e'
        have : factoryName pre name post index = factoryName pre name post j := e.trans e'.symm
        unfold factoryName at this
        have := List.append_cancel_left this
        simp only [List.cons.injEq, true_and] at this
        have := zeroPad_inj this
        omega
      rw [hno]
      simp only [e, if_true]
      rw [show (factoryTest f pre name post index v).name = n from e, dictGet_set_same]
    · simp only [e, if_false]
      rw [dictGet_set_other _ _ _ _ (show (factoryTest f pre name post index v).name ≠ n from e)]

theorem checkRows_ok (ns : List PyStr) : ∀ l, checkRows ns.length l = .ok () ↔ ∀ v ∈ l, FitsKey (.many ns) v
  | [] => by simp [checkRows]
  | .one v :: l => by
    simp only [checkRows]
    exact ⟨(fun h => by cases h), fun h => (h (.one v) List.mem_cons_self).elim⟩
  | .many vs :: l => by
    simp only [checkRows]
    split
    · rename_i h
      rw [checkRows_ok ns l]
      simp [FitsKey, h]
    · rename_i h
      exact ⟨(fun e => by cases e), fun e => absurd (e (.many vs) List.mem_cons_self) h⟩

theorem addOptionF_ok (k : Key) (l : List FVal) (f : Factory) :
    (addOptionF k l f = .ok { f with kwargs := dictSet f.kwargs k l } ∧ ∀ v ∈ l, FitsKey k v) ∨
    ((∃ e, addOptionF k l f = .error e) ∧ ∃ v ∈ l, ¬ FitsKey k v) := by
  cases k with
  | one n => exact .inl ⟨rfl, fun _ _ => trivial⟩
  | many ns =>
    simp only [addOptionF]
    cases hc : checkRows ns.length l with
    | ok u => exact .inl ⟨rfl, (checkRows_ok ns l).1 hc⟩
    | error e =>
      refine .inr ⟨⟨e, rfl⟩, ?_⟩
      refine Classical.byContradiction fun h => ?_
      have : checkRows ns.length l = .ok () := (checkRows_ok ns l).2 fun v hv =>
        Classical.byContradiction fun hn => h ⟨v, hv, hn⟩
      rw [hc] at this; cases this

/-- The options of a factory fit their names. -/
def GoodF (f : Factory) : Prop := ∀ x ∈ f.kwargs, ∀ v ∈ x.2, FitsKey x.1 v

theorem goodF_set {f : Factory} {k : Key} {l : List FVal} (h : GoodF f) (hl : ∀ v ∈ l, FitsKey k v) :
    GoodF { f with kwargs := dictSet f.kwargs k l } := by
  unfold GoodF at h ⊢
  show ∀ x ∈ dictSet f.kwargs k l, ∀ v ∈ x.2, FitsKey x.1 v
  generalize f.kwargs = d at h
  induction d with
  | nil => simpa [dictSet] using hl
  | cons y d ih =>
    obtain ⟨j, w⟩ := y
    intro x hx
    simp only [dictSet] at hx
    split at hx
    · rename_i e
      rcases List.mem_cons.1 hx with rfl | hx
      · rw [e]; exact hl
      · exact h x (List.mem_cons_of_mem _ hx)
    · rcases List.mem_cons.1 hx with rfl | hx
      · exact h _ List.mem_cons_self
      · exact ih (fun x hx => h x (List.mem_cons_of_mem _ hx)) x hx

theorem goodF_addAll : ∀ (r : List (Key × List FVal)) (f : Factory), GoodF f → GoodF (addAll f r)
  | [], f, h => h
  | (k, l) :: r, f, h => by
    simp only [addAll]
    rcases addOptionF_ok k l f with ⟨e, hl⟩ | ⟨⟨e, he⟩, -⟩
    · rw [e]; exact goodF_addAll r _ (goodF_set h hl)
    · rw [he]; exact goodF_addAll r _ h

theorem choose_mem {α : Type} : ∀ (ps : List (List α)) (sel : List Nat), Fits sel (ps.map List.length) →
    (choose ps sel).length = ps.length ∧ ∀ (k : Nat) v p, (choose ps sel)[k]? = some v → ps[k]? = some p → v ∈ p
  | [], [], _ => ⟨rfl, by simp [choose]⟩
  | [], _ :: _, h => h.elim
  | _ :: _, [], h => h.elim
  | p :: ps, i :: is, h => by
    obtain ⟨hi, hf⟩ := h
    obtain ⟨h1, h2⟩ := choose_mem ps is hf
    simp only [choose, List.getElem?_eq_getElem hi]
    refine ⟨by simp [h1], ?_⟩
    intro k v q hv hq
    cases k with
    | zero => simp at hv hq; subst hv; subst hq; exact List.getElem_mem _
    | succ k => exact h2 k v q (by simpa using hv) (by simpa using hq)

theorem fcombination_names (kw : List (Key × List FVal)) (sel : List Nat)
    (hg : ∀ x ∈ kw, ∀ v ∈ x.2, FitsKey x.1 v) (hf : Fits sel (kw.map fun x => x.2.length)) :
    (fcombination kw sel).map (·.1) = kw.flatMap fun x => keyNames x.1 := by
  unfold fcombination
  induction kw generalizing sel with
  | nil => simp
  | cons x kw ih =>
    cases sel with
    | nil => exact hf.elim
    | cons i is =>
      obtain ⟨hi, hf⟩ := hf
      simp only [List.map_cons, choose, List.getElem?_eq_getElem hi, List.zip_cons_cons, List.flatMap_cons,
        List.map_append]
      rw [ih is (fun y hy => hg y (List.mem_cons_of_mem _ hy)) hf]
      congr 1
      have hk := hg x List.mem_cons_self _ (List.getElem_mem hi)
      obtain ⟨k, l⟩ := x
      cases k with
      | one n => rfl
      | many ns =>
        generalize (l[i]'hi) = v at hk
        cases v with
        | one v => exact hk.elim
        | many vs =>
          have hk' : vs.length = ns.length := hk
          simp only [fargs, keyNames]
          exact List.map_fst_zip (by simp [hk'])

end Verif.Deco
