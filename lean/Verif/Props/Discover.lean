import Verif.Spec.Discover
import Verif.Lemmas.Regression
import Verif.Props.Env
/-!
# C161, C162: discovery and listing of tests
-/
namespace Verif
open Reg Discover DiscoverSpec Env

namespace DiscoverL

theorem keys_setKey (n : PyStr) (o : Obj) (d : List (PyStr × Obj)) (k : PyStr) :
    k ∈ (setKey n o d).map (·.1) ↔ k = n ∨ k ∈ d.map (·.1) := by
  induction d with
  | nil => simp [setKey]
  | cons e d ih =>
    obtain ⟨m, p⟩ := e
    unfold setKey
    split
    · next h => subst h; simp
    · simp only [List.map_cons, List.mem_cons, ih]
      constructor <;> (intro h; rcases h with h | h | h <;> simp [h])

theorem nodup_setKey (n : PyStr) (o : Obj) (d : List (PyStr × Obj)) (h : (d.map (·.1)).Nodup) :
    ((setKey n o d).map (·.1)).Nodup := by
  induction d with
  | nil => simp [setKey]
  | cons e d ih =>
    obtain ⟨m, p⟩ := e
    simp only [List.map_cons, List.nodup_cons] at h
    unfold setKey
    split
    · simpa using h
    · next hne =>
      simp only [List.map_cons, List.nodup_cons]
      refine ⟨fun hk => ?_, ih h.2⟩
      rcases (keys_setKey n o d m).mp hk with hk | hk
      · exact hne hk
      · exact h.1 hk

theorem mem_setKey (n : PyStr) (o : Obj) (d : List (PyStr × Obj)) (h : (d.map (·.1)).Nodup) (k : PyStr) (p : Obj) :
    (k, p) ∈ setKey n o d ↔ (k = n ∧ p = o) ∨ (k ≠ n ∧ (k, p) ∈ d) := by
  induction d with
  | nil => simp [setKey]
  | cons e d ih =>
    obtain ⟨m, q⟩ := e
    simp only [List.map_cons, List.nodup_cons] at h
    unfold setKey
    split
    · next hm =>
      subst hm
      simp only [List.mem_cons, Prod.mk.injEq]
      constructor
      · rintro (⟨rfl, rfl⟩ | hd)
        · exact .inl ⟨rfl, rfl⟩
        · refine .inr ⟨fun hk => h.1 ?_, .inr hd⟩
          rw [← hk]
          exact List.mem_map_of_mem (f := (·.1)) hd
      · rintro (⟨rfl, rfl⟩ | ⟨hk, ⟨rfl, _⟩ | hd⟩)
        · exact .inl ⟨rfl, rfl⟩
        · exact absurd rfl hk
        · exact .inr hd
    · next hne =>
      simp only [List.mem_cons, Prod.mk.injEq, ih h.2]
      constructor
      · rintro (⟨rfl, rfl⟩ | h | h)
        · exact .inr ⟨hne, .inl ⟨rfl, rfl⟩⟩
        · exact .inl h
        · exact .inr ⟨h.1, .inr h.2⟩
      · rintro (h | ⟨h1, h2 | h2⟩)
        · exact .inr (.inl h)
        · exact .inl h2
        · exact .inr (.inr ⟨h1, h2⟩)

theorem nodup_exec (d : List (PyStr × Obj)) (h : (d.map (·.1)).Nodup) (s : Stmt) : ((exec d s).map (·.1)).Nodup := by
  cases s with
  | bind n o => exact nodup_setKey n o d h
  | del n => exact h.sublist (List.filter_sublist.map _)

theorem fold_spec (body : List Stmt) : ∀ d : List (PyStr × Obj), (d.map (·.1)).Nodup →
    ((body.foldl exec d).map (·.1)).Nodup ∧
    ∀ k p, (k, p) ∈ body.foldl exec d ↔ Bound body k p ∨ ((k, p) ∈ d ∧ ∀ s ∈ body, about s ≠ k) := by
  induction body with
  | nil =>
    intro d h
    refine ⟨h, fun k p => ?_⟩
    constructor
    · intro hm; exact .inr ⟨hm, by simp⟩
    · rintro (⟨pre, post, he, _⟩ | h)
      · simp at he
      · exact h.1
  | cons s body ih =>
    intro d h
    obtain ⟨h1, h2⟩ := ih (exec d s) (nodup_exec d h s)
    refine ⟨h1, fun k p => ?_⟩
    rw [List.foldl_cons, h2]
    have hb : Bound (s :: body) k p ↔ Bound body k p ∨ (s = .bind k p ∧ ∀ s' ∈ body, about s' ≠ k) := by
      constructor
      · rintro ⟨pre, post, he, hp⟩
        cases pre with
        | nil =>
          simp only [List.nil_append, List.cons.injEq] at he
          exact .inr ⟨he.1, he.2 ▸ hp⟩
        | cons x pre =>
          simp only [List.cons_append, List.cons.injEq] at he
          exact .inl ⟨pre, post, he.2, hp⟩
      · rintro (⟨pre, post, he, hp⟩ | ⟨rfl, hp⟩)
        · exact ⟨s :: pre, post, by simp [he], hp⟩
        · exact ⟨[], body, rfl, hp⟩
    rw [hb]
    have hx : (k, p) ∈ exec d s ↔ s = .bind k p ∨ (about s ≠ k ∧ (k, p) ∈ d) := by
      cases s with
      | bind n o =>
        simp only [exec, mem_setKey n o d h, about, Stmt.bind.injEq]
        constructor
        · rintro (⟨rfl, rfl⟩ | ⟨h1, h2⟩)
          · exact .inl ⟨rfl, rfl⟩
          · exact .inr ⟨fun e => h1 e.symm, h2⟩
        · rintro (⟨rfl, rfl⟩ | ⟨h1, h2⟩)
          · exact .inl ⟨rfl, rfl⟩
          · exact .inr ⟨fun e => h1 e.symm, h2⟩
      | del n =>
        simp only [exec, List.mem_filter, about, reduceCtorEq, false_or, decide_eq_true_eq, ne_eq]
        constructor
        · rintro ⟨h1, h2⟩; exact ⟨fun e => h2 e.symm, h1⟩
        · rintro ⟨h1, h2⟩; exact ⟨h2, fun e => h1 e.symm⟩
    rw [hx]
    simp only [List.mem_cons, forall_eq_or_imp]
    constructor
    · rintro (h | ⟨h | h, hs⟩)
      · exact .inl (.inl h)
      · exact .inl (.inr ⟨h, hs⟩)
      · exact .inr ⟨h.2, h.1, hs⟩
    · rintro ((h | ⟨h, hs⟩) | ⟨h, ha, hs⟩)
      · exact .inl h
      · exact .inr ⟨.inl h, hs⟩
      · exact .inr ⟨.inr ⟨ha, h⟩, hs⟩

theorem mem_namespaceOf (body : List Stmt) (k : PyStr) (p : Obj) : (k, p) ∈ namespaceOf body ↔ Bound body k p := by
  unfold namespaceOf
  rw [(fold_spec body [] (by simp)).2]
  simp

theorem nodup_namespaceOf (body : List Stmt) : ((namespaceOf body).map (·.1)).Nodup :=
  (fold_spec body [] (by simp)).1

theorem testsOf_iff (o : Obj) (t : Test) : t ∈ testsOf o ↔ Yields o t := by
  cases o with
  | test u => simp [testsOf, Yields, eq_comm]
  | gen g => cases g <;> simp [testsOf, Yields]
  | other => simp [testsOf, Yields]

/-- `scan`, as a function of the namespace. -/
theorem scan_spec (m : Text) (d : List (PyStr × Obj)) : ∀ f : Found,
    ((∃ p ∈ d, Malformed p.2) ∧ ∃ e, scan m d f = .error e) ∨
    ((¬ ∃ p ∈ d, Malformed p.2) ∧ ∃ r, scan m d f = .ok r ∧ r.tests = f.tests ++ d.flatMap (fun p => testsOf p.2) ∧
      (r.found = true ↔ f.found = true ∨ ∃ p ∈ d, IsTest p.2) ∧
      (∀ w, w ∈ r.warnings ↔ w ∈ f.warnings ∨ ∃ n, (n, Obj.gen (.ok [])) ∈ d ∧ w = .noneGenerated m n)) := by
  induction d with
  | nil => intro f; exact .inr ⟨by simp, f, rfl, by simp, by simp, by simp⟩
  | cons p d ih =>
    intro f
    obtain ⟨n, o⟩ := p
    match o with
    | .test t =>
      rcases ih { f with tests := f.tests ++ [t], found := true } with ⟨⟨q, hq, hm⟩, e, he⟩ | ⟨hn, r, hr, h1, h2, h3⟩
      · exact .inl ⟨⟨q, List.mem_cons_of_mem _ hq, hm⟩, e, he⟩
      · refine .inr ⟨?_, r, hr, by simp [h1, testsOf], by simp [h2, IsTest], fun w => by simp [h3]⟩
        rintro ⟨q, hq, hm⟩
        rcases List.mem_cons.mp hq with rfl | hq
        · obtain ⟨e, he⟩ := hm; cases he
        · exact hn ⟨q, hq, hm⟩
    | .other =>
      rcases ih f with ⟨⟨q, hq, hm⟩, e, he⟩ | ⟨hn, r, hr, h1, h2, h3⟩
      · exact .inl ⟨⟨q, List.mem_cons_of_mem _ hq, hm⟩, e, he⟩
      · refine .inr ⟨?_, r, hr, by simp [h1, testsOf], by simp [h2, IsTest], fun w => by simp [h3]⟩
        rintro ⟨q, hq, hm⟩
        rcases List.mem_cons.mp hq with rfl | hq
        · obtain ⟨e, he⟩ := hm; cases he
        · exact hn ⟨q, hq, hm⟩
    | .gen (.error e) => exact .inl ⟨⟨_, List.mem_cons_self, e, rfl⟩, e, rfl⟩
    | .gen (.ok ts) =>
      rcases ih ⟨f.tests ++ ts, true, if ts = [] then f.warnings ++ [.noneGenerated m n] else f.warnings⟩ with
        ⟨⟨q, hq, hm⟩, e, he⟩ | ⟨hn, r, hr, h1, h2, h3⟩
      · exact .inl ⟨⟨q, List.mem_cons_of_mem _ hq, hm⟩, e, he⟩
      · refine .inr ⟨?_, r, hr, by simp [h1, testsOf], by simp [h2, IsTest], fun w => ?_⟩
        · rintro ⟨q, hq, hm⟩
          rcases List.mem_cons.mp hq with rfl | hq
          · obtain ⟨e, he⟩ := hm; cases he
          · exact hn ⟨q, hq, hm⟩
        · rw [h3]
          by_cases ht : ts = []
          · subst ht
            simp only [if_true, List.mem_append, List.mem_cons, List.not_mem_nil, or_false, Prod.mk.injEq, and_true]
            constructor
            · rintro ((h | h) | ⟨n', h, rfl⟩)
              · exact .inl h
              · exact .inr ⟨n, .inl rfl, h⟩
              · exact .inr ⟨n', .inr h, rfl⟩
            · rintro (h | ⟨n', rfl | h, hw⟩)
              · exact .inl (.inl h)
              · exact .inl (.inr hw)
              · exact .inr ⟨n', h, hw⟩
          · simp only [ht, if_false, List.mem_cons, Prod.mk.injEq, Obj.gen.injEq, Except.ok.injEq]
            constructor
            · rintro (h | ⟨n', h, rfl⟩)
              · exact .inl h
              · exact .inr ⟨n', .inr h, rfl⟩
            · rintro (h | ⟨n', ⟨_, hh⟩ | h, hw⟩)
              · exact .inl h
              · exact absurd hh.symm ht
              · exact .inr ⟨n', h, hw⟩

/-- The names a module stands for, if it can be imported. -/
def spaceOf (imp : Text → PyM (List Stmt)) (m : Text) : List (PyStr × Obj) :=
  match imp m with
  | .ok body => namespaceOf body
  | .error _ => []

/-- A module that stops discovery. -/
def Bad (imp : Text → PyM (List Stmt)) (m : Text) : Prop :=
  (∃ e, imp m = .error e) ∨ ∃ p ∈ spaceOf imp m, Malformed p.2

theorem scanAll_spec (imp : Text → PyM (List Stmt)) (ms : List Text) : ∀ (q : List Test) (w : List Warning),
    ((∃ m ∈ ms, Bad imp m) ∧ ∃ e, scanAll imp ms q w = .error e) ∨
    ((¬ ∃ m ∈ ms, Bad imp m) ∧ ∃ w', scanAll imp ms q w =
        .ok (q ++ ms.flatMap (fun m => (spaceOf imp m).flatMap fun p => testsOf p.2), w') ∧
      ∀ x, x ∈ w' ↔ x ∈ w ∨ ∃ m ∈ ms, (x = .noTests m ∧ ∀ p ∈ spaceOf imp m, ¬ IsTest p.2) ∨
        ∃ n, (n, Obj.gen (.ok [])) ∈ spaceOf imp m ∧ x = .noneGenerated m n) := by
  induction ms with
  | nil => intro q w; exact .inr ⟨by simp, w, by simp [scanAll], by simp⟩
  | cons m ms ih =>
    intro q w
    unfold scanAll
    cases hi : imp m with
    | error e => exact .inl ⟨⟨m, List.mem_cons_self, .inl ⟨e, hi⟩⟩, e, rfl⟩
    | ok body =>
      have hs : spaceOf imp m = namespaceOf body := by simp [spaceOf, hi]
      dsimp only
      rcases scan_spec m (namespaceOf body) ⟨q, false, w⟩ with ⟨hm, e, he⟩ | ⟨hn, r, hr, h1, h2, h3⟩
      · rw [he]
        exact .inl ⟨⟨m, List.mem_cons_self, .inr (by rw [hs]; exact hm)⟩, e, rfl⟩
      · rw [hr]
        dsimp only
        rcases ih r.tests (if r.found then r.warnings else r.warnings ++ [.noTests m]) with
          ⟨⟨m', hm', hb⟩, e, he⟩ | ⟨hnb, w', hw, hx⟩
        · exact .inl ⟨⟨m', List.mem_cons_of_mem _ hm', hb⟩, e, he⟩
        · refine .inr ⟨?_, w', ?_, fun x => ?_⟩
          · rintro ⟨m', hm', hb⟩
            rcases List.mem_cons.mp hm' with rfl | hm'
            · rcases hb with ⟨e, he⟩ | hb
              · rw [hi] at he; cases he
              · exact hn (by rw [← hs]; exact hb)
            · exact hnb ⟨m', hm', hb⟩
          · rw [hw, h1]
            simp [hs]
          · rw [hx]
            simp only [List.mem_cons, exists_eq_or_imp, hs]
            have hf : r.found = true ↔ ∃ p ∈ namespaceOf body, IsTest p.2 := by rw [h2]; simp
            cases hfo : r.found with
            | true =>
              rw [hfo] at hf
              obtain ⟨p, hp, ht⟩ := hf.mp rfl
              simp only [if_true, h3]
              constructor
              · rintro ((h | h) | h)
                · exact .inl h
                · exact .inr (.inl (.inr h))
                · exact .inr (.inr h)
              · rintro (h | (⟨_, h⟩ | h) | h)
                · exact .inl (.inl h)
                · exact absurd ht (h p hp)
                · exact .inl (.inr h)
                · exact .inr h
            | false =>
              rw [hfo] at hf
              have hno : ∀ p ∈ namespaceOf body, ¬ IsTest p.2 := fun p hp ht => by
                have := hf.mpr ⟨p, hp, ht⟩
                cases this
              simp only [Bool.false_eq_true, if_false, List.mem_append, h3, List.mem_singleton]
              constructor
              · rintro (((h | h) | h) | h)
                · exact .inl h
                · exact .inr (.inl (.inr h))
                · exact .inr (.inl (.inl ⟨h, hno⟩))
                · exact .inr (.inr h)
              · rintro (h | (⟨h, _⟩ | h) | h)
                · exact .inl (.inl (.inl h))
                · exact .inl (.inr h)
                · exact .inl (.inl (.inr h))
                · exact .inr h

/-- The names of `spaceOf` are those bound. -/
theorem mem_spaceOf (imp : Text → PyM (List Stmt)) (m : Text) (n : PyStr) (o : Obj) :
    (n, o) ∈ spaceOf imp m ↔ ∃ body, imp m = .ok body ∧ Bound body n o := by
  unfold spaceOf
  cases h : imp m with
  | error e => simp
  | ok body => simp [mem_namespaceOf]

theorem bad_iff (imp : Text → PyM (List Stmt)) (m : Text) : Bad imp m ↔
    (∃ e, imp m = .error e) ∨ ∃ body n o, imp m = .ok body ∧ Bound body n o ∧ Malformed o := by
  unfold Bad
  constructor
  · rintro (h | ⟨⟨n, o⟩, hp, hm⟩)
    · exact .inl h
    · obtain ⟨body, h1, h2⟩ := (mem_spaceOf imp m n o).mp hp
      exact .inr ⟨body, n, o, h1, h2, hm⟩
  · rintro (h | ⟨body, n, o, h1, h2, hm⟩)
    · exact .inl h
    · exact .inr ⟨(n, o), (mem_spaceOf imp m n o).mpr ⟨body, h1, h2⟩, hm⟩

theorem setKey_new (n : PyStr) (o : Obj) (d : List (PyStr × Obj)) (h : n ∉ d.map (·.1)) : setKey n o d = d ++ [(n, o)] := by
  induction d with
  | nil => rfl
  | cons e d ih =>
    obtain ⟨m, p⟩ := e
    simp only [List.map_cons, List.mem_cons, not_or] at h
    rw [setKey, if_neg (fun he => h.1 he.symm), ih h.2]
    rfl

theorem fold_fresh (binds : List (PyStr × Obj)) : ∀ d : List (PyStr × Obj), ((d ++ binds).map (·.1)).Nodup →
    (binds.map fun b => Stmt.bind b.1 b.2).foldl exec d = d ++ binds := by
  induction binds with
  | nil => intro d _; simp
  | cons b binds ih =>
    intro d h
    rw [List.map_cons, List.foldl_cons]
    have hb : b.1 ∉ d.map (·.1) := by
      rw [List.map_append, List.nodup_append] at h
      exact fun hm => h.2.2 _ hm b.1 (by simp) rfl
    rw [exec, setKey_new _ _ _ hb, ih]
    · simp
    · simpa using h

end DiscoverL
open DiscoverL

/-- **C161** The tests registered are those that the names of the modules stand for after the modules have been imported. -/
theorem C161_found (imp : Text → PyM (List Stmt)) (modules : List Text) (q : List Test) (w : List Warning)
    (h : discover imp modules = .ok (q, w)) (t : Test) :
    t ∈ q ↔ ∃ m ∈ modules, ∃ body n o, imp m = .ok body ∧ Bound body n o ∧ Yields o t := by
  unfold discover at h
  rcases scanAll_spec imp modules [] [] with ⟨_, e, he⟩ | ⟨_, w', hw, _⟩
  · rw [he] at h; cases h
  · rw [hw] at h
    simp only at h
    split at h
    · cases h
    · cases h
      simp only [List.nil_append, List.mem_flatMap]
      constructor
      · rintro ⟨m, hm, ⟨n, o⟩, hp, ht⟩
        obtain ⟨body, h1, h2⟩ := (mem_spaceOf imp m n o).mp hp
        exact ⟨m, hm, body, n, o, h1, h2, (testsOf_iff o t).mp ht⟩
      · rintro ⟨m, hm, body, n, o, h1, h2, hy⟩
        exact ⟨m, hm, (n, o), (mem_spaceOf imp m n o).mpr ⟨body, h1, h2⟩, (testsOf_iff o t).mpr hy⟩

/-- **C161** Discovery fails exactly if a module cannot be imported, the parameters of a test are malformed, or there is no
test. -/
theorem C161_errors (imp : Text → PyM (List Stmt)) (modules : List Text) :
    (∃ e, discover imp modules = .error e) ↔
      (∃ m ∈ modules, (∃ e, imp m = .error e) ∨ ∃ body n o, imp m = .ok body ∧ Bound body n o ∧ Malformed o) ∨
      ¬ ∃ m ∈ modules, ∃ body n o t, imp m = .ok body ∧ Bound body n o ∧ Yields o t := by
  have hbad : (∃ m ∈ modules, Bad imp m) ↔
      ∃ m ∈ modules, (∃ e, imp m = .error e) ∨ ∃ body n o, imp m = .ok body ∧ Bound body n o ∧ Malformed o := by
    constructor
    · rintro ⟨m, hm, hb⟩; exact ⟨m, hm, (bad_iff imp m).mp hb⟩
    · rintro ⟨m, hm, hb⟩; exact ⟨m, hm, (bad_iff imp m).mpr hb⟩
  rw [← hbad]
  have hq : (modules.flatMap fun m => (spaceOf imp m).flatMap fun p => testsOf p.2) = [] ↔
      ¬ ∃ m ∈ modules, ∃ body n o t, imp m = .ok body ∧ Bound body n o ∧ Yields o t := by
    rw [List.eq_nil_iff_forall_not_mem]
    constructor
    · rintro h ⟨m, hm, body, n, o, t, h1, h2, hy⟩
      exact h t (List.mem_flatMap.mpr ⟨m, hm, List.mem_flatMap.mpr
        ⟨(n, o), (mem_spaceOf imp m n o).mpr ⟨body, h1, h2⟩, (testsOf_iff o t).mpr hy⟩⟩)
    · intro h t ht
      obtain ⟨m, hm, ht⟩ := List.mem_flatMap.mp ht
      obtain ⟨⟨n, o⟩, hp, ht⟩ := List.mem_flatMap.mp ht
      obtain ⟨body, h1, h2⟩ := (mem_spaceOf imp m n o).mp hp
      exact h ⟨m, hm, body, n, o, t, h1, h2, (testsOf_iff o t).mp ht⟩
  rw [← hq]
  unfold discover
  rcases scanAll_spec imp modules [] [] with ⟨hb, e, he⟩ | ⟨hb, w', hw, _⟩
  · rw [he]; exact ⟨fun _ => .inl hb, fun _ => ⟨e, rfl⟩⟩
  · rw [hw]
    simp only [List.nil_append]
    constructor
    · rintro ⟨e, he⟩
      split at he
      · next h => exact .inr h
      · cases he
    · rintro (h | h)
      · exact absurd h hb
      · exact ⟨_, if_pos h⟩

/-- **C161** A module without tests, and a test whose parameters have no values, are warned about, and nothing else is. -/
theorem C161_warned (imp : Text → PyM (List Stmt)) (modules : List Text) (q : List Test) (w : List Warning)
    (h : discover imp modules = .ok (q, w)) :
    (∀ m, .noTests m ∈ w ↔ m ∈ modules ∧ ∃ body, imp m = .ok body ∧ ∀ n o, Bound body n o → ¬ IsTest o) ∧
    (∀ m n, .noneGenerated m n ∈ w ↔ m ∈ modules ∧ ∃ body, imp m = .ok body ∧ Bound body n (.gen (.ok []))) := by
  unfold discover at h
  rcases scanAll_spec imp modules [] [] with ⟨_, e, he⟩ | ⟨hb, w', hw, hx⟩
  · rw [he] at h; cases h
  · rw [hw] at h
    simp only at h
    split at h
    · cases h
    · cases h
      have himp : ∀ m ∈ modules, ∃ body, imp m = .ok body := by
        intro m hm
        cases hi : imp m with
        | error e => exact absurd ⟨m, hm, .inl ⟨e, hi⟩⟩ hb
        | ok body => exact ⟨body, rfl⟩
      refine ⟨fun m => ?_, fun m n => ?_⟩
      · rw [hx]
        simp only [List.not_mem_nil, false_or, Warning.noTests.injEq, reduceCtorEq, and_false, exists_false, or_false]
        constructor
        · rintro ⟨m', hm, rfl, hn⟩
          obtain ⟨body, hi⟩ := himp m hm
          exact ⟨hm, body, hi, fun n o ho => hn (n, o) ((mem_spaceOf imp m n o).mpr ⟨body, hi, ho⟩)⟩
        · rintro ⟨hm, body, hi, hn⟩
          refine ⟨m, hm, rfl, fun p hp => ?_⟩
          obtain ⟨body', h1, h2⟩ := (mem_spaceOf imp m p.1 p.2).mp hp
          rw [hi] at h1
          cases h1
          exact hn _ _ h2
      · rw [hx]
        simp only [List.not_mem_nil, false_or, reduceCtorEq, false_and, Warning.noneGenerated.injEq]
        constructor
        · rintro ⟨m', hm, n', hp, rfl, rfl⟩
          exact ⟨hm, (mem_spaceOf imp m n _).mp hp⟩
        · rintro ⟨hm, hp⟩
          exact ⟨m, hm, n, (mem_spaceOf imp m n _).mpr hp, rfl, rfl⟩

/-- **C161** Tests are registered module by module in the order given, and within a module in the order of their definitions,
if no name is bound twice or deleted. -/
theorem C161_order (binds : Text → List (PyStr × Obj)) (hb : ∀ m, ((binds m).map (·.1)).Nodup) (modules : List Text)
    (q : List Test) (w : List Warning)
    (h : discover (fun m => .ok ((binds m).map fun b => .bind b.1 b.2)) modules = .ok (q, w)) :
    q = modules.flatMap fun m => ((binds m).map fun b => Stmt.bind b.1 b.2).flatMap defines := by
  unfold discover at h
  rcases scanAll_spec (fun m => .ok ((binds m).map fun b => .bind b.1 b.2)) modules [] [] with ⟨_, e, he⟩ | ⟨_, w', hw, _⟩
  · rw [he] at h; cases h
  · rw [hw] at h
    simp only at h
    split at h
    · cases h
    · cases h
      rw [List.nil_append]
      congr 1
      funext m
      have : spaceOf (fun m => .ok ((binds m).map fun b => .bind b.1 b.2)) m = binds m := by
        unfold spaceOf namespaceOf
        simpa using fold_fresh (binds m) [] (by simpa using hb m)
      rw [this, List.flatMap_map]
      rfl

/-- A test for examples. -/
def sampleTest (id : Nat) (stage : Int) : Test := ⟨id, ['t', Char.ofNat (48 + id)], stage, false, [], false⟩

/-- Full claim: a test is registered once. -/
def C161_once_full : Prop :=
  ∀ (imp : Text → PyM (List Stmt)) (modules : List Text), modules.Nodup →
    (∀ m ∈ modules, ∀ body n ts, imp m = .ok body → Bound body n (.gen (.ok ts)) → ts.Nodup) →
    ∀ q w, discover imp modules = .ok (q, w) → q.Nodup

/-- **C161** A test that one module imports from another is registered, and run, twice. -/
theorem C161_once_counterexample : ¬ C161_once_full := by
  intro h
  have := h (fun _ => .ok [.bind ['t'] (.test (sampleTest 0 0))]) [[1], [2]] (by decide) (by
    intro m _ body n ts hi ⟨pre, post, he, _⟩
    cases hi
    cases pre with
    | nil => simp at he
    | cons x pre => simp at he) [sampleTest 0 0, sampleTest 0 0] [] rfl
  exact absurd this (by decide)

/-- **C161** A test is registered once if only one name of one module stands for it. -/
theorem C161_once_partial (imp : Text → PyM (List Stmt)) (modules : List Text) (hm : modules.Nodup)
    (hg : ∀ m ∈ modules, ∀ body n ts, imp m = .ok body → Bound body n (.gen (.ok ts)) → ts.Nodup)
    (hu : ∀ t, ∀ m ∈ modules, ∀ m' ∈ modules, ∀ body body' n n' o o', imp m = .ok body → imp m' = .ok body' →
      Bound body n o → Bound body' n' o' → Yields o t → Yields o' t → m = m' ∧ n = n')
    (q : List Test) (w : List Warning) (h : discover imp modules = .ok (q, w)) : q.Nodup := by
  unfold discover at h
  rcases scanAll_spec imp modules [] [] with ⟨_, e, he⟩ | ⟨_, w', hw, _⟩
  · rw [he] at h; cases h
  · rw [hw] at h
    simp only at h
    split at h
    · cases h
    · cases h
      rw [List.nil_append]
      have hin : ∀ m ∈ modules, ((spaceOf imp m).flatMap fun p => testsOf p.2).Nodup := by
        intro m hmm
        have hk : ((spaceOf imp m).map (·.1)).Nodup := by
          unfold spaceOf
          cases imp m with
          | ok body => exact nodup_namespaceOf body
          | error e => simp
        unfold List.Nodup
        rw [List.pairwise_flatMap]
        refine ⟨fun p hp => ?_, ?_⟩
        · obtain ⟨body, h1, h2⟩ := (mem_spaceOf imp m p.1 p.2).mp hp
          match ho : p.2, h2 with
          | .test t, _ => simp [testsOf]
          | .gen (.error e), _ => simp [testsOf]
          | .gen (.ok ts), h2 => exact hg m hmm body p.1 ts h1 h2
          | .other, _ => simp [testsOf]
        · have hk' := List.pairwise_map.mp hk
          refine List.Pairwise.imp_of_mem ?_ hk'
          intro p p' hp hp' hne t ht t' ht' heq
          subst heq
          obtain ⟨body, h1, h2⟩ := (mem_spaceOf imp m p.1 p.2).mp hp
          obtain ⟨body', h1', h2'⟩ := (mem_spaceOf imp m p'.1 p'.2).mp hp'
          exact hne (hu t m hmm m hmm body body' p.1 p'.1 p.2 p'.2 h1 h1' h2 h2' ((testsOf_iff _ _).mp ht)
            ((testsOf_iff _ _).mp ht')).2
      unfold List.Nodup
      rw [List.pairwise_flatMap]
      refine ⟨fun m hmm => hin m hmm, ?_⟩
      refine List.Pairwise.imp_of_mem ?_ hm
      intro m m' hmm hmm' hne t ht t' ht' heq
      subst heq
      obtain ⟨⟨n, o⟩, hp, ht⟩ := List.mem_flatMap.mp ht
      obtain ⟨⟨n', o'⟩, hp', ht'⟩ := List.mem_flatMap.mp ht'
      obtain ⟨body, h1, h2⟩ := (mem_spaceOf imp m n o).mp hp
      obtain ⟨body', h1', h2'⟩ := (mem_spaceOf imp m' n' o').mp hp'
      exact hne (hu t m hmm m' hmm' body body' n n' o o' h1 h1' h2 h2' ((testsOf_iff _ _).mp ht)
        ((testsOf_iff _ _).mp ht')).1

/-- A module that defines `t`, then defines it again and a function with two parametrised tests. -/
def sampleBody : List Stmt :=
  [.bind ['t'] (.test (sampleTest 0 0)), .bind ['u'] .other, .bind ['t'] (.test (sampleTest 1 0)),
   .bind ['g'] (.gen (.ok [sampleTest 2 0, sampleTest 3 0]))]

example : discover (fun _ => .ok sampleBody) [[1]] = .ok ([sampleTest 1 0, sampleTest 2 0, sampleTest 3 0], []) := rfl

example : Bound sampleBody ['t'] (.test (sampleTest 1 0)) :=
  ⟨[.bind ['t'] (.test (sampleTest 0 0)), .bind ['u'] .other], [.bind ['g'] (.gen (.ok [sampleTest 2 0, sampleTest 3 0]))],
    rfl, by simp [about]⟩

/-! ### Listing -/

/-- Full claim: `COCOTB_LIST_TESTS` shows the tests that would be run, in that order. -/
def C162_list_full : Prop :=
  ∀ (U : Unicode) (imp : Text → PyM (List Stmt)) (compile : Text → PyM (PyStr → Bool)) (env env' : Environ)
    (names : List PyStr) (tests : List Test) (mode : Bool),
    (∀ v, v ≠ var "COCOTB_LIST_TESTS" → env v = env' v) →
    runRegression U imp compile id env = .ok (.list names) → runRegression U imp compile id env' = .ok (.run tests mode) →
    names = tests.map (·.fullname)

namespace DiscoverL

theorem setup_congr (imp : Text → PyM (List Stmt)) (compile : Text → PyM (PyStr → Bool)) (env env' : Environ)
    (h : ∀ v, v ≠ var "COCOTB_LIST_TESTS" → env v = env' v) : setup imp compile env = setup imp compile env' := by
  have h1 : env (var "COCOTB_TEST_MODULES") = env' (var "COCOTB_TEST_MODULES") := h _ (by decide)
  have h2 : env (Runner.lit "COCOTB_TESTCASE") = env' (Runner.lit "COCOTB_TESTCASE") := h _ (by decide)
  have h3 : env (Runner.lit "COCOTB_TEST_FILTER") = env' (Runner.lit "COCOTB_TEST_FILTER") := h _ (by decide)
  have e : Runner.filters env = Runner.filters env' := by unfold Runner.filters getList getStr; rw [h2, h3]
  unfold setup
  rw [e]
  unfold getList getStr
  rw [h1]

theorem run_inv {U : Unicode} {imp : Text → PyM (List Stmt)} {compile : Text → PyM (PyStr → Bool)}
    {shuffle : List Test → List Test} {env : Environ} {tests : List Test} {mode : Bool}
    (h : runRegression U imp compile shuffle env = .ok (.run tests mode)) :
    ∃ m, setup imp compile env = .ok m ∧ tests = plan shuffle m.filters m.queue ∧ mode = m.testcaseMode := by
  unfold runRegression at h
  cases hs : setup imp compile env with
  | error e => rw [hs] at h; cases h
  | ok m =>
    rw [hs] at h
    dsimp only at h
    split at h
    · cases h
    · cases h
    · cases h; exact ⟨m, rfl, rfl, rfl⟩

theorem list_inv {U : Unicode} {imp : Text → PyM (List Stmt)} {compile : Text → PyM (PyStr → Bool)}
    {shuffle : List Test → List Test} {env : Environ} {names : List PyStr}
    (h : runRegression U imp compile shuffle env = .ok (.list names)) :
    ∃ m, setup imp compile env = .ok m ∧ names = m.queue.map (·.fullname) := by
  unfold runRegression at h
  cases hs : setup imp compile env with
  | error e => rw [hs] at h; cases h
  | ok m =>
    rw [hs] at h
    dsimp only at h
    split at h
    · cases h
    · cases h; exact ⟨m, rfl, rfl⟩
    · cases h

theorem setup_inv {imp : Text → PyM (List Stmt)} {compile : Text → PyM (PyStr → Bool)} {env : Environ} {m : Manager}
    (h : setup imp compile env = .ok m) :
    ∃ modules q w fs gs, getList env (var "COCOTB_TEST_MODULES") none [44] = .ok modules ∧ modules ≠ [] ∧
      discover imp modules = .ok (q, w) ∧ Runner.filters env = .ok fs ∧ compileAll compile fs = .ok gs ∧
      m = ⟨q, gs, decide (fs ≠ [])⟩ := by
  unfold setup at h
  split at h
  · cases h
  · next modules hm =>
    split at h
    · cases h
    · next hne =>
      split at h
      · cases h
      · next q w hd =>
        split at h
        · cases h
        · next fs hf =>
          split at h
          · cases h
          · next gs hg => cases h; exact ⟨modules, q, w, fs, gs, hm, hne, hd, hf, hg, rfl⟩

theorem sorted_id (l : List Test) (h : l.Pairwise fun a b => a.stage ≤ b.stage) : sortStage l = l := by
  induction l with
  | nil => rfl
  | cons t l ih =>
    rw [List.pairwise_cons] at h
    rw [sortStage, ih h.2]
    cases l with
    | nil => rfl
    | cons u l => rw [insertStage, if_pos (h.1 u List.mem_cons_self)]

end DiscoverL
open DiscoverL

/-- An environment with a module `a`, a filter and a request for a list. -/
def sampleEnv (filter : Text) (list : Text) : Environ := fun v =>
  if v = var "COCOTB_TEST_MODULES" then some [97]
  else if v = var "COCOTB_TEST_FILTER" then some filter
  else if v = var "COCOTB_LIST_TESTS" then some list
  else none

/-- **C162** The list is in the order of definition, but the tests are run in the order of their stages. -/
theorem C162_list_counterexample : ¬ C162_list_full := by
  intro h
  have := h plainUnicode (fun _ => .ok [.bind ['a'] (.test (sampleTest 0 1)), .bind ['b'] (.test (sampleTest 1 0))])
    (fun _ => .ok fun _ => true) (sampleEnv [] [49]) (sampleEnv [] [48]) [['t', '0'], ['t', '1']]
    [sampleTest 1 0, sampleTest 0 1] false
    (fun v hv => by simp only [sampleEnv, hv, if_false]) rfl rfl
  exact absurd this (by decide)

/-- **C162** The list also has the tests the filter leaves out. -/
theorem C162_list_filter_counterexample : ¬ C162_list_full := by
  intro h
  have := h plainUnicode (fun _ => .ok [.bind ['a'] (.test (sampleTest 0 0)), .bind ['b'] (.test (sampleTest 1 0))])
    (fun _ => .ok fun n => n = ['t', '0']) (sampleEnv [48] [49]) (sampleEnv [48] [48]) [['t', '0'], ['t', '1']]
    [sampleTest 0 0] true
    (fun v hv => by simp only [sampleEnv, hv, if_false]) rfl rfl
  exact absurd this (by decide)

/-- **C162** If the tests are defined in the order of their stages, the order is not random and no filter is set, the list shows
the tests that would be run, in that order. -/
theorem C162_list_partial (U : Unicode) (imp : Text → PyM (List Stmt)) (compile : Text → PyM (PyStr → Bool))
    (env env' : Environ) (names : List PyStr) (tests : List Test) (mode : Bool)
    (he : ∀ v, v ≠ var "COCOTB_LIST_TESTS" → env v = env' v)
    (hc : env (var "COCOTB_TESTCASE") = none) (hf : env (var "COCOTB_TEST_FILTER") = none)
    (hstage : ∀ modules q w, discover imp modules = .ok (q, w) → q.Pairwise fun a b => a.stage ≤ b.stage)
    (hl : runRegression U imp compile id env = .ok (.list names))
    (hr : runRegression U imp compile id env' = .ok (.run tests mode)) :
    names = tests.map (·.fullname) := by
  obtain ⟨m, hm, rfl⟩ := list_inv hl
  obtain ⟨m', hm', rfl, rfl⟩ := run_inv hr
  rw [← setup_congr imp compile env env' he, hm] at hm'
  cases hm'
  obtain ⟨modules, q, w, fs, gs, _, _, hd, hfs, hgs, rfl⟩ := setup_inv hm
  have hc' : env (Runner.lit "COCOTB_TESTCASE") = none := hc
  have hf' : env (Runner.lit "COCOTB_TEST_FILTER") = none := hf
  have : fs = [] := by
    have e : Runner.filters env = .ok [] := by
      unfold Runner.filters getList getStr
      rw [hc', hf']
      rfl
    rw [e] at hfs
    cases hfs
    rfl
  subst this
  cases hgs
  simp only [plan, id, if_true]
  rw [sorted_id q (hstage modules q w hd)]

/-- **C162** What is run is what the list shows and the filters select, in some order. -/
theorem C162_list_selected (U : Unicode) (imp : Text → PyM (List Stmt)) (compile : Text → PyM (PyStr → Bool))
    (shuffle : List Test → List Test) (hs : ∀ l, (shuffle l).Perm l)
    (env env' : Environ) (names : List PyStr) (tests : List Test) (mode : Bool)
    (he : ∀ v, v ≠ var "COCOTB_LIST_TESTS" → env v = env' v)
    (hl : runRegression U imp compile shuffle env = .ok (.list names))
    (hr : runRegression U imp compile shuffle env' = .ok (.run tests mode)) :
    ∃ fs gs, Runner.filters env = .ok fs ∧ compileAll compile fs = .ok gs ∧
      (tests.map (·.fullname)).Perm (names.filter fun n => gs.isEmpty || gs.any (· n)) := by
  obtain ⟨m, hm, rfl⟩ := list_inv hl
  obtain ⟨m', hm', rfl, rfl⟩ := run_inv hr
  rw [← setup_congr imp compile env env' he, hm] at hm'
  cases hm'
  obtain ⟨modules, q, w, fs, gs, _, _, hd, hfs, hgs, rfl⟩ := setup_inv hm
  refine ⟨fs, gs, hfs, hgs, ?_⟩
  have hp : (sortStage (shuffle q)).Perm q := (sortStage_perm _).trans (hs q)
  unfold plan
  dsimp only
  cases gs with
  | nil =>
    rw [if_pos rfl]
    have : (q.map (·.fullname)).filter (fun n => ([] : List (PyStr → Bool)).isEmpty || ([] : List (PyStr → Bool)).any (· n)) =
        q.map (·.fullname) := by
      rw [List.filter_eq_self]; intro a _; rfl
    rw [this]
    exact hp.map _
  | cons g gs =>
    rw [if_neg (by simp)]
    rw [List.filter_map]
    exact (hp.filter _).map _

/-- **C162** Nothing is listed or run without `COCOTB_TEST_MODULES`, or if both ways of selecting tests are used. -/
theorem C162_refused (U : Unicode) (imp : Text → PyM (List Stmt)) (compile : Text → PyM (PyStr → Bool))
    (shuffle : List Test → List Test) (env : Environ)
    (h : getList env (var "COCOTB_TEST_MODULES") none [44] = .ok [] ∨
      (∃ c cs, getList env (var "COCOTB_TESTCASE") none [44] = .ok (c :: cs)) ∧ getStr env (var "COCOTB_TEST_FILTER") none ≠ []) :
    ∃ e, runRegression U imp compile shuffle env = .error e := by
  have key : ∀ m, setup imp compile env ≠ .ok m := by
    intro m hm
    obtain ⟨modules, q, w, fs, gs, h1, h2, _, h3, _, _⟩ := setup_inv hm
    rcases h with h | ⟨⟨c, cs, hc⟩, hf⟩
    · rw [h1] at h; cases h; exact h2 rfl
    · have hc' : getList env (Runner.lit "COCOTB_TESTCASE") none [44] = .ok (c :: cs) := hc
      have hf' : getStr env (Runner.lit "COCOTB_TEST_FILTER") none ≠ [] := hf
      unfold Runner.filters at h3
      rw [hc'] at h3
      simp [hf'] at h3
  unfold runRegression
  cases hs : setup imp compile env with
  | error e => exact ⟨e, rfl⟩
  | ok m => exact absurd hs (key m)

/-- **C162** Tests marked as skipped are run only if tests are selected by `COCOTB_TESTCASE` or `COCOTB_TEST_FILTER`. -/
theorem C162_mode (U : Unicode) (imp : Text → PyM (List Stmt)) (compile : Text → PyM (PyStr → Bool))
    (shuffle : List Test → List Test) (env : Environ) (tests : List Test) (mode : Bool)
    (h : runRegression U imp compile shuffle env = .ok (.run tests mode)) :
    mode = true ↔ (∃ c cs, getList env (var "COCOTB_TESTCASE") none [44] = .ok (c :: cs)) ∨
      getStr env (var "COCOTB_TEST_FILTER") none ≠ [] := by
  obtain ⟨m, hm, _, rfl⟩ := run_inv h
  obtain ⟨modules, q, w, fs, gs, _, _, _, h3, _, rfl⟩ := setup_inv hm
  have e1 : Runner.lit "COCOTB_TESTCASE" = var "COCOTB_TESTCASE" := rfl
  have e2 : Runner.lit "COCOTB_TEST_FILTER" = var "COCOTB_TEST_FILTER" := rfl
  unfold Runner.filters at h3
  rw [e1, e2] at h3
  cases hc : getList env (var "COCOTB_TESTCASE") none [44] with
  | error e => rw [hc] at h3; cases h3
  | ok cs =>
    rw [hc] at h3
    dsimp only at h3
    cases cs with
    | nil =>
      by_cases hf : getStr env (var "COCOTB_TEST_FILTER") none = []
      · simp [hf] at h3; subst h3; simp [hf]
      · simp [hf] at h3; subst h3; simp [hf]
    | cons c cs =>
      by_cases hf : getStr env (var "COCOTB_TEST_FILTER") none = []
      · simp [hf] at h3; subst h3; simp
      · simp [hf] at h3

example : runRegression plainUnicode (fun _ => .ok sampleBody) (fun _ => .ok fun n => n = ['t', '2']) id (sampleEnv [50] [48]) =
    .ok (.run [sampleTest 2 0] true) := rfl

end Verif
