import Verif.Spec.Combine
import Verif.Props.XUnit
/-!
# C164: combining the result files of directories
-/
namespace Verif
open XUnit Combine CombineSpec

namespace CombineL

theorem find_mem (name : Text) (n : Node) : ∀ es : Entries, es.find name = some n → name ∈ names es
  | .nil, h => by cases h
  | .cons m k es, h => by
    unfold Entries.find at h
    split at h
    · next he => subst he; exact List.mem_cons_self
    · exact List.mem_cons_of_mem _ (find_mem name n es h)

theorem at_cons (es : Entries) (name : Text) (p : Path) :
    (Node.dir es).at (name :: p) = match es.find name with | some m => m.at p | none => none := rfl

mutual
theorem findOne_mem (hit : Text → Bool) (here : Path) (name : Text) (n : Node) (hp : Proper n) (p : Path) (doc : Option Elem) :
    (p, doc) ∈ findOne hit here name n ↔
      ∃ q, p = here ++ name :: q ∧ n.at q = some (.file doc) ∧ ∃ l, (name :: q).getLast? = some l ∧ hit l = true := by
  match n with
  | .file d =>
    unfold findOne
    constructor
    · intro h
      split at h
      · next hh =>
        simp only [List.mem_cons, Prod.mk.injEq, List.not_mem_nil, or_false] at h
        obtain ⟨rfl, rfl⟩ := h
        exact ⟨[], rfl, rfl, name, rfl, hh⟩
      · cases h
    · rintro ⟨q, rfl, ha, l, hl, hh⟩
      cases q with
      | nil =>
        simp only [List.getLast?_singleton, Option.some.injEq] at hl
        subst hl
        simp only [Node.at, Option.some.injEq, Node.file.injEq] at ha
        subst ha
        rw [if_pos hh]
        exact List.mem_cons_self
      | cons c q => simp [Node.at] at ha
  | .other =>
    unfold findOne
    constructor
    · intro h; cases h
    · rintro ⟨q, rfl, ha, _⟩
      cases q with
      | nil => simp [Node.at] at ha
      | cons c q => simp [Node.at] at ha
  | .dir es =>
    unfold findOne
    rw [findIn_mem hit (here ++ [name]) es hp.1 hp.2 p doc]
    constructor
    · rintro ⟨c, q, rfl, ha, l, hl, hh⟩
      refine ⟨c :: q, by simp, ha, l, ?_, hh⟩
      rw [List.getLast?_cons_cons]; exact hl
    · rintro ⟨q, rfl, ha, l, hl, hh⟩
      cases q with
      | nil => simp [Node.at] at ha
      | cons c q =>
        refine ⟨c, q, by simp, ha, l, ?_, hh⟩
        rw [List.getLast?_cons_cons] at hl; exact hl
theorem findIn_mem (hit : Text → Bool) (here : Path) (es : Entries) (hn : (names es).Nodup) (hp : ProperAll es) (p : Path)
    (doc : Option Elem) :
    (p, doc) ∈ findIn hit here es ↔
      ∃ c q, p = here ++ c :: q ∧ (Node.dir es).at (c :: q) = some (.file doc) ∧
        ∃ l, (c :: q).getLast? = some l ∧ hit l = true := by
  match es with
  | .nil =>
    unfold findIn
    constructor
    · intro h; cases h
    · rintro ⟨c, q, _, ha, _⟩
      rw [at_cons] at ha
      simp [Entries.find] at ha
  | .cons name n es =>
    unfold findIn
    simp only [names, List.nodup_cons] at hn
    rw [List.mem_append, findOne_mem hit here name n hp.1 p doc, findIn_mem hit here es hn.2 hp.2 p doc]
    constructor
    · rintro (⟨q, rfl, ha, hl⟩ | ⟨c, q, rfl, ha, hl⟩)
      · refine ⟨name, q, rfl, ?_, hl⟩
        rw [at_cons]
        simp [Entries.find, ha]
      · refine ⟨c, q, rfl, ?_, hl⟩
        rw [at_cons] at ha ⊢
        cases hf : es.find c with
        | none => rw [hf] at ha; cases ha
        | some m =>
          rw [hf] at ha
          have hne : name ≠ c := by
            rintro rfl
            exact hn.1 (find_mem name m es hf)
          simp only [Entries.find, hne, if_false, hf]
          exact ha
    · rintro ⟨c, q, rfl, ha, hl⟩
      rw [at_cons] at ha
      by_cases hc : name = c
      · subst hc
        simp only [Entries.find, if_true] at ha
        exact .inl ⟨q, rfl, ha, hl⟩
      · simp only [Entries.find, hc, if_false] at ha
        refine .inr ⟨c, q, rfl, ?_, hl⟩
        rw [at_cons]
        exact ha
end

/-- What `findIn` gives starts with `here` and an entry. -/
theorem findIn_start (hit : Text → Bool) (here : Path) (es : Entries) (hn : (names es).Nodup) (hp : ProperAll es)
    (p : Path) (h : p ∈ (findIn hit here es).map (·.1)) : ∃ c q, c ∈ names es ∧ p = here ++ c :: q := by
  obtain ⟨⟨p', d⟩, hm, rfl⟩ := List.mem_map.mp h
  obtain ⟨c, q, rfl, ha, _⟩ := (findIn_mem hit here es hn hp p' d).mp hm
  rw [at_cons] at ha
  cases hf : es.find c with
  | none => rw [hf] at ha; cases ha
  | some m => exact ⟨c, q, find_mem c m es hf, rfl⟩

mutual
theorem findOne_nodup (hit : Text → Bool) (here : Path) (name : Text) (n : Node) (hp : Proper n) :
    ((findOne hit here name n).map (·.1)).Nodup := by
  match n with
  | .file d => unfold findOne; split <;> simp
  | .other => simp [findOne]
  | .dir es => unfold findOne; exact findIn_nodup hit _ es hp.1 hp.2
theorem findIn_nodup (hit : Text → Bool) (here : Path) (es : Entries) (hn : (names es).Nodup) (hp : ProperAll es) :
    ((findIn hit here es).map (·.1)).Nodup := by
  match es with
  | .nil => simp [findIn]
  | .cons name n es =>
    unfold findIn
    simp only [names, List.nodup_cons] at hn
    rw [List.map_append, List.nodup_append]
    refine ⟨findOne_nodup hit here name n hp.1, findIn_nodup hit here es hn.2 hp.2, fun a ha b hb hab => ?_⟩
    subst hab
    obtain ⟨⟨p, d⟩, hm, rfl⟩ := List.mem_map.mp ha
    obtain ⟨q, hq, _⟩ := (findOne_mem hit here name n hp.1 p d).mp hm
    obtain ⟨c, q', hc, hq'⟩ := findIn_start hit here es hn.2 hp.2 p hb
    rw [hq] at hq'
    have := List.append_cancel_left hq'
    simp only [List.cons.injEq] at this
    rw [← this.1] at hc
    exact hn.1 hc
end

theorem find_proper (name : Text) (n : Node) : ∀ es : Entries, ProperAll es → es.find name = some n → Proper n
  | .nil, _, h => by cases h
  | .cons m k es, hp, h => by
    unfold Entries.find at h
    split at h
    · cases h; exact hp.1
    · exact find_proper name n es hp.2 h

theorem at_proper (p : Path) : ∀ n m : Node, Proper n → n.at p = some m → Proper m := by
  induction p with
  | nil => intro n m hp h; simp only [Node.at, Option.some.injEq] at h; exact h ▸ hp
  | cons c p ih =>
    intro n m hp h
    match n, hp with
    | .file d, _ => simp [Node.at] at h
    | .other, _ => simp [Node.at] at h
    | .dir es, hp =>
      rw [at_cons] at h
      cases hf : es.find c with
      | none => rw [hf] at h; cases h
      | some k => rw [hf] at h; exact ih k m (find_proper c k es hp.2 hf) h

theorem at_append (p q : Path) : ∀ n : Node, n.at (p ++ q) = match n.at p with | some m => m.at q | none => none := by
  induction p with
  | nil => intro n; simp [Node.at]
  | cons c p ih =>
    intro n
    match n with
    | .file d => simp [Node.at]
    | .other => simp [Node.at]
    | .dir es =>
      rw [List.cons_append, at_cons, at_cons]
      cases es.find c with
      | none => rfl
      | some m => exact ih m

theorem findAll_mem (hit : Text → Bool) (root : Node) (hp : Proper root) (d : Path) (l : List (Path × Option Elem))
    (h : findAll hit root d = some l) (p : Path) (doc : Option Elem) :
    (p, doc) ∈ l ↔ root.at p = some (.file doc) ∧ ∃ q name, p = d ++ q ++ [name] ∧ hit name = true := by
  unfold findAll at h
  split at h
  · next es hes =>
    cases h
    have hpr := at_proper d root (.dir es) hp hes
    rw [findIn_mem hit d es hpr.1 hpr.2]
    constructor
    · rintro ⟨c, q, rfl, ha, l, hl, hh⟩
      refine ⟨by rw [at_append, hes]; exact ha, ?_⟩
      obtain ⟨ini, hini⟩ := List.getLast?_eq_some_iff.mp hl
      exact ⟨ini, l, by rw [hini, List.append_assoc], hh⟩
    · rintro ⟨ha, q, name, rfl, hh⟩
      rw [List.append_assoc, at_append, hes] at ha
      cases hq : q ++ [name] with
      | nil => simp at hq
      | cons c q' =>
        rw [hq] at ha
        refine ⟨c, q', by rw [List.append_assoc, hq], ha, name, ?_, hh⟩
        rw [← hq]; simp
  · cases h

theorem findAll_nodup (hit : Text → Bool) (root : Node) (hp : Proper root) (d : Path) (l : List (Path × Option Elem))
    (h : findAll hit root d = some l) : (l.map (·.1)).Nodup := by
  unfold findAll at h
  split at h
  · next es hes =>
    cases h
    have hpr := at_proper d root (.dir es) hp hes
    exact findIn_nodup hit d es hpr.1 hpr.2
  · cases h

theorem findDirs_mem (hit : Text → Bool) (root : Node) (hp : Proper root) (dirs : List Path) :
    ∀ l, findDirs hit root dirs = some l → ∀ p doc, (p, doc) ∈ l ↔ Wanted hit root dirs p doc := by
  induction dirs with
  | nil => intro l h p doc; cases h; simp [Wanted]
  | cons d ds ih =>
    intro l h p doc
    unfold findDirs at h
    split at h
    · cases h
    · next l1 h1 =>
      split at h
      · cases h
      · next l2 h2 =>
        cases h
        rw [List.mem_append, findAll_mem hit root hp d l1 h1, ih l2 h2]
        simp only [Wanted, List.mem_cons, exists_eq_or_imp]
        constructor
        · rintro (⟨ha, hx⟩ | ⟨ha, hx⟩)
          · exact ⟨ha, .inl hx⟩
          · exact ⟨ha, .inr hx⟩
        · rintro ⟨ha, hx | hx⟩
          · exact .inl ⟨ha, hx⟩
          · exact .inr ⟨ha, hx⟩

end CombineL
open CombineL

/-- **C164** The files read are exactly those with a matching name in the directories and the directories in them. -/
theorem C164_found (hit : Text → Bool) (root : Node) (hp : Proper root) (dirs : List Path) (files : List (Path × Option Elem))
    (h : findDirs hit root dirs = some files) (p : Path) (doc : Option Elem) :
    (p, doc) ∈ files ↔ Wanted hit root dirs p doc :=
  findDirs_mem hit root hp dirs files h p doc

/-- Full claim: each file is read once. -/
def C164_once_full : Prop :=
  ∀ (hit : Text → Bool) (root : Node) (dirs : List Path) (files : List (Path × Option Elem)), Proper root → dirs.Nodup →
    findDirs hit root dirs = some files → (files.map (·.1)).Nodup

/-- A tree with a result file in the directory `a`. -/
def sampleTree (doc : Elem) : Node := .dir (.cons [97] (.dir (.cons (ofStr "results.xml".toList) (.file (some doc)) .nil)) .nil)

/-- **C164** A file below two of the directories is read twice. -/
theorem C164_once_counterexample : ¬ C164_once_full := by
  intro h
  have := h defaultHit (sampleTree ⟨"testsuites", [], none, []⟩) [[], [[97]]] _
    (by simp [sampleTree, Proper, ProperAll, names]) (by decide) rfl
  revert this
  decide

/-- **C164** Each file is read once if none of the directories is in another. -/
theorem C164_once_partial (hit : Text → Bool) (root : Node) (hp : Proper root) (dirs : List Path)
    (hd : dirs.Pairwise fun a b => ¬ a <+: b ∧ ¬ b <+: a) (files : List (Path × Option Elem))
    (h : findDirs hit root dirs = some files) : (files.map (·.1)).Nodup := by
  induction dirs generalizing files with
  | nil => cases h; simp
  | cons d ds ih =>
    rw [List.pairwise_cons] at hd
    have h' := h
    unfold findDirs at h
    split at h
    · cases h
    · next l1 h1 =>
      split at h
      · cases h
      · next l2 h2 =>
        cases h
        rw [List.map_append, List.nodup_append]
        refine ⟨findAll_nodup hit root hp d l1 h1, ih hd.2 l2 h2, fun a ha b hb hab => ?_⟩
        subst hab
        obtain ⟨⟨p, x⟩, hm, rfl⟩ := List.mem_map.mp ha
        obtain ⟨⟨p', y⟩, hm', hpp⟩ := List.mem_map.mp hb
        dsimp only at hpp
        subst hpp
        obtain ⟨_, q, n, hq, _⟩ := (findAll_mem hit root hp d l1 h1 p' x).mp hm
        obtain ⟨_, d', hd', q', n', hq', _⟩ := (findDirs_mem hit root hp ds l2 h2 p' y).mp hm'
        have a1 : d <+: p' := ⟨q ++ [n], by rw [hq, List.append_assoc]⟩
        have a2 : d' <+: p' := ⟨q' ++ [n'], by rw [hq', List.append_assoc]⟩
        rcases List.prefix_or_prefix_of_prefix a1 a2 with hx | hx
        · exact (hd.1 d' hd').1 hx
        · exact (hd.1 d' hd').2 hx

example : findDirs defaultHit (sampleTree ⟨"testsuites", [], none, []⟩) [[]] =
    some [([[97], ofStr "results.xml".toList], some ⟨"testsuites", [], none, []⟩)] := rfl

namespace CombineL

theorem parseAll_spec (l : List (Path × Option Elem)) :
    (∃ docs, parseAll l = some docs ∧ l.map (·.2) = docs.map some) ∨ (parseAll l = none ∧ ∃ p, (p, none) ∈ l) := by
  induction l with
  | nil => exact .inl ⟨[], rfl, rfl⟩
  | cons x l ih =>
    obtain ⟨p, d⟩ := x
    cases d with
    | none => exact .inr ⟨rfl, p, List.mem_cons_self⟩
    | some d =>
      rcases ih with ⟨docs, h1, h2⟩ | ⟨h1, q, h2⟩
      · exact .inl ⟨d :: docs, by simp [parseAll, h1], by simp [h2]⟩
      · exact .inr ⟨by simp [parseAll, h1], q, List.mem_cons_of_mem _ h2⟩

theorem main_inv {hit : Text → Bool} {title : Text} {dirs : List Path} {out : Path} {root root' : Node} {doc : Elem} {rc : Nat}
    (h : main hit title dirs out root = some (root', doc, rc)) :
    ∃ files docs, findDirs hit root dirs = some files ∧ parseAll files = some docs ∧ files.map (·.2) = docs.map some ∧
      Node.write (combine title docs).1 out root = some root' ∧ combine title docs = (doc, rc) := by
  unfold main at h
  split at h
  · cases h
  · next files hf =>
    rcases parseAll_spec files with ⟨docs, h1, h2⟩ | ⟨h1, _⟩
    · rw [h1] at h
      dsimp only at h
      split at h
      · cases h
      · next r hw =>
        simp only [Option.some.injEq, Prod.mk.injEq] at h
        obtain ⟨rfl, h3⟩ := h
        exact ⟨files, docs, hf, h1, h2, hw, h3⟩
    · rw [h1] at h; cases h

theorem docs_wanted {hit : Text → Bool} {root : Node} (hp : Proper root) {dirs : List Path}
    {files : List (Path × Option Elem)} {docs : List Elem} (hf : findDirs hit root dirs = some files)
    (hd : files.map (·.2) = docs.map some) (d : Elem) : d ∈ docs ↔ ∃ p, Wanted hit root dirs p (some d) := by
  have : d ∈ docs ↔ some d ∈ files.map (·.2) := by rw [hd]; simp
  rw [this, List.mem_map]
  constructor
  · rintro ⟨⟨p, x⟩, hm, rfl⟩
    exact ⟨p, (findDirs_mem hit root hp dirs files hf p (some d)).mp hm⟩
  · rintro ⟨p, hw⟩
    exact ⟨(p, some d), (findDirs_mem hit root hp dirs files hf p (some d)).mpr hw, rfl⟩

theorem put_find (name : Text) (doc : Elem) : ∀ es es' : Entries, es.put name doc = some es' →
    (∀ c, c ≠ name → es'.find c = es.find c) ∧ es'.find name = some (.file (some doc)) ∧
    (es.find name = none ∨ ∃ x, es.find name = some (.file x))
  | .nil, es', h => by
    cases h
    refine ⟨fun c hc => ?_, by simp [Entries.find], .inl rfl⟩
    simp [Entries.find, Ne.symm hc]
  | .cons m n es, es', h => by
    unfold Entries.put at h
    split at h
    · next hm =>
      subst hm
      match n, h with
      | .file x, h =>
        cases h
        refine ⟨fun c hc => ?_, by simp [Entries.find], .inr ⟨x, by simp [Entries.find]⟩⟩
        simp [Entries.find, Ne.symm hc]
      | .dir _, h => cases h
      | .other, h => cases h
    · next hm =>
      split at h
      · next es1 h1 =>
        cases h
        obtain ⟨a, b, c⟩ := put_find name doc es es1 h1
        refine ⟨fun k hk => ?_, by simp [Entries.find, hm, b], by simpa [Entries.find, hm] using c⟩
        simp only [Entries.find, a k hk]
      · cases h

theorem put_findIn (hit : Text → Bool) (name : Text) (hh : hit name = false) (doc : Elem) (here : Path) :
    ∀ es es' : Entries, es.put name doc = some es' → findIn hit here es' = findIn hit here es
  | .nil, es', h => by cases h; simp [findIn, findOne, hh]
  | .cons m n es, es', h => by
    unfold Entries.put at h
    split at h
    · next hm =>
      subst hm
      match n, h with
      | .file x, h => cases h; simp [findIn, findOne, hh]
      | .dir _, h => cases h
      | .other, h => cases h
    · split at h
      · next es1 h1 =>
        cases h
        simp only [findIn]
        rw [put_findIn hit name hh doc here es es1 h1]
      · cases h

theorem set_find (name : Text) (m' : Node) : ∀ es : Entries, (∀ c, c ≠ name → (es.set name m').find c = es.find c) ∧
    (∀ m, es.find name = some m → (es.set name m').find name = some m')
  | .nil => ⟨fun _ _ => rfl, fun _ h => by cases h⟩
  | .cons k n es => by
    obtain ⟨a, b⟩ := set_find name m' es
    unfold Entries.set
    split
    · next hk =>
      subst hk
      exact ⟨fun c hc => by simp [Entries.find, Ne.symm hc], fun m _ => by simp [Entries.find]⟩
    · next hk =>
      refine ⟨fun c hc => ?_, fun m hm => ?_⟩
      · simp only [Entries.find, a c hc]
      · simp only [Entries.find, hk, if_false] at hm ⊢
        exact b m hm

theorem set_findIn (hit : Text → Bool) (name : Text) (m m' : Node)
    (hx : ∀ here, findOne hit here name m' = findOne hit here name m) (here : Path) :
    ∀ es : Entries, es.find name = some m → findIn hit here (es.set name m') = findIn hit here es
  | .nil, h => by cases h
  | .cons k n es, h => by
    unfold Entries.set
    split
    · next hk =>
      subst hk
      simp only [Entries.find, if_true, Option.some.injEq] at h
      subst h
      simp only [findIn, hx]
    · next hk =>
      simp only [Entries.find, hk, if_false] at h
      simp only [findIn]
      rw [set_findIn hit name m m' hx here es h]

/-- The two are directories with the same matching files, or neither is a directory. -/
def Alike (hit : Text → Bool) (a b : Option Node) : Prop :=
  (∃ es es', a = some (.dir es) ∧ b = some (.dir es') ∧ ∀ here, findIn hit here es' = findIn hit here es) ∨
  ((∀ es, a ≠ some (.dir es)) ∧ ∀ es, b ≠ some (.dir es))

theorem alike_refl (hit : Text → Bool) (a : Option Node) : Alike hit a a := by
  by_cases h : ∃ es, a = some (.dir es)
  · obtain ⟨es, rfl⟩ := h
    exact .inl ⟨es, es, rfl, rfl, fun _ => rfl⟩
  · exact .inr ⟨fun es he => h ⟨es, he⟩, fun es he => h ⟨es, he⟩⟩

theorem write_alike (hit : Text → Bool) (doc : Elem) (out : Path) : ∀ (n n' : Node),
    (∀ l, out.getLast? = some l → hit l = false) → Node.write doc out n = some n' →
    (∃ es es', n = .dir es ∧ n' = .dir es' ∧ ∀ here, findIn hit here es' = findIn hit here es) ∧
    ∀ d, Alike hit (n.at d) (n'.at d) := by
  induction out with
  | nil => intro n n' _ h; cases n <;> cases h
  | cons name p ih =>
    intro n n' hl h
    match n, h with
    | .file _, h => cases p <;> cases h
    | .other, h => cases p <;> cases h
    | .dir es, h =>
      cases p with
      | nil =>
        have hh : hit name = false := hl name rfl
        cases hput : es.put name doc with
        | none => simp [Node.write, hput] at h
        | some es' =>
          simp only [Node.write, hput, Option.map_some, Option.some.injEq] at h
          subst h
          have hfi := fun here => put_findIn hit name hh doc here es es' hput
          refine ⟨⟨es, es', rfl, rfl, hfi⟩, fun d => ?_⟩
          cases d with
          | nil => exact .inl ⟨es, es', rfl, rfl, hfi⟩
          | cons c d =>
            obtain ⟨h1, h2, h3⟩ := put_find name doc es es' hput
            rw [at_cons, at_cons]
            by_cases hc : c = name
            · subst hc
              rw [h2]
              refine .inr ⟨fun es0 => ?_, fun es0 => ?_⟩
              · rcases h3 with h3 | ⟨x, h3⟩ <;> rw [h3]
                · simp
                · cases d <;> simp [Node.at]
              · cases d <;> simp [Node.at]
            · rw [h1 c hc]; exact alike_refl hit _
      | cons q p =>
        cases hf : es.find name with
        | none => simp [Node.write, hf] at h
        | some m =>
          cases hw : Node.write doc (q :: p) m with
          | none => simp [Node.write, hf, hw] at h
          | some m' =>
            simp only [Node.write, hf, hw, Option.map_some, Option.some.injEq] at h
            subst h
            obtain ⟨⟨e1, e2, rfl, rfl, hfi⟩, hat⟩ := ih m m' (fun l hq => hl l (by rw [List.getLast?_cons_cons]; exact hq)) hw
            have hfi' := fun here => set_findIn hit name (.dir e1) (.dir e2)
              (fun here => by unfold findOne; exact hfi _) here es hf
            refine ⟨⟨es, _, rfl, rfl, hfi'⟩, fun d => ?_⟩
            cases d with
            | nil => exact .inl ⟨es, _, rfl, rfl, hfi'⟩
            | cons c d =>
              obtain ⟨h1, h2⟩ := set_find name (.dir e2) es
              rw [at_cons, at_cons]
              by_cases hc : c = name
              · subst hc
                rw [h2 _ hf, hf]
                exact hat d
              · rw [h1 c hc]; exact alike_refl hit _

theorem write_findDirs (hit : Text → Bool) (doc : Elem) (out : Path) (root root' : Node)
    (hl : ∀ l, out.getLast? = some l → hit l = false) (h : Node.write doc out root = some root') (dirs : List Path) :
    findDirs hit root' dirs = findDirs hit root dirs := by
  have hall : ∀ d, findAll hit root' d = findAll hit root d := by
    intro d
    unfold findAll
    rcases (write_alike hit doc out root root' hl h).2 d with ⟨es, es', h1, h2, h3⟩ | ⟨h1, h2⟩
    · rw [h1, h2]; simp only [h3]
    · have hn : ∀ a : Option Node, (∀ es, a ≠ some (.dir es)) →
          (match a with | some (.dir es) => some (findIn hit d es) | _ => none) = none := by
        intro a ha
        match a, ha with
        | none, _ => rfl
        | some (.file _), _ => rfl
        | some .other, _ => rfl
        | some (.dir es), ha => exact absurd rfl (ha es)
      exact (hn _ h2).trans (hn _ h1).symm
  induction dirs with
  | nil => rfl
  | cons d ds ih => unfold findDirs; rw [hall, ih]

end CombineL
open CombineL

/-- **C164** The combined file has each test case of each file found, in the suite of its name. -/
theorem C164_kept (hit : Text → Bool) (title : Text) (dirs : List Path) (out : Path) (root root' : Node) (doc : Elem) (rc : Nat)
    (hp : Proper root) (hflat : ∀ p d, Wanted hit root dirs p (some d) → Flat d)
    (h : main hit title dirs out root = some (root', doc, rc))
    (p : Path) (d : Elem) (hw : Wanted hit root dirs p (some d)) (s : Elem) (hs : s ∈ d.children) (c : Elem) (hc : c ∈ s.children) :
    ∃ s' ∈ doc.children, s'.get "name" = s.get "name" ∧ c ∈ s'.children := by
  obtain ⟨files, docs, hf, _, hd, _, he⟩ := main_inv h
  have hF : ∀ d ∈ docs, Flat d := fun d hd' => by
    obtain ⟨p, hw⟩ := (docs_wanted hp hf hd d).mp hd'
    exact hflat p d hw
  have hcs := C62_cases title docs hF
  rw [he] at hcs
  have hmem : s ∈ docs.flatMap Elem.children := List.mem_flatMap.mpr ⟨d, (docs_wanted hp hf hd d).mpr ⟨p, hw⟩, hs⟩
  have hn : s.get "name" ∈ firsts ((docs.flatMap Elem.children).map fun s => s.get "name") :=
    ((firsts_facts _).2 _).mpr (List.mem_map_of_mem hmem)
  have : ("testsuite", s.get "name", ((docs.flatMap Elem.children).filter fun s' => s'.get "name" = s.get "name").flatMap
      Elem.children) ∈ doc.children.map fun s => (s.tag, s.get "name", s.children) := by
    rw [hcs]
    exact List.mem_map_of_mem (f := fun n => ("testsuite", n, ((docs.flatMap Elem.children).filter fun s => s.get "name" = n).flatMap
      Elem.children)) hn
  obtain ⟨s', hs', heq⟩ := List.mem_map.mp this
  simp only [Prod.mk.injEq] at heq
  refine ⟨s', hs', heq.2.1, ?_⟩
  rw [heq.2.2]
  exact List.mem_flatMap.mpr ⟨s, List.mem_filter.mpr ⟨hmem, by simp⟩, hc⟩

/-- **C164** The exit code is 1 exactly if a file found has a test case with a failure or an error, and else 0. -/
theorem C164_exit (hit : Text → Bool) (title : Text) (dirs : List Path) (out : Path) (root root' : Node) (doc : Elem) (rc : Nat)
    (hp : Proper root) (hflat : ∀ p d, Wanted hit root dirs p (some d) → Flat d)
    (h : main hit title dirs out root = some (root', doc, rc)) :
    (rc = 1 ↔ ∃ p d, Wanted hit root dirs p (some d) ∧ ∃ s ∈ d.children, ∃ c ∈ Elem.allOf s.children,
        c.tag = "testcase" ∧ (c.has "failure" ∨ c.has "error")) ∧ (rc = 0 ∨ rc = 1) := by
  obtain ⟨files, docs, hf, _, hd, _, he⟩ := main_inv h
  have hF : ∀ d ∈ docs, Flat d := fun d hd' => by
    obtain ⟨p, hw⟩ := (docs_wanted hp hf hd d).mp hd'
    exact hflat p d hw
  have hx := C62_exit title docs hF
  rw [he] at hx
  dsimp only at hx
  have key : (∃ d ∈ docs, ∃ s ∈ d.children, ∃ c ∈ Elem.allOf s.children, c.tag = "testcase" ∧ (c.has "failure" ∨ c.has "error")) ↔
      ∃ p d, Wanted hit root dirs p (some d) ∧ ∃ s ∈ d.children, ∃ c ∈ Elem.allOf s.children,
        c.tag = "testcase" ∧ (c.has "failure" ∨ c.has "error") := by
    constructor
    · rintro ⟨d, hd', hr⟩
      obtain ⟨p, hw⟩ := (docs_wanted hp hf hd d).mp hd'
      exact ⟨p, d, hw, hr⟩
    · rintro ⟨p, d, hw, hr⟩
      exact ⟨d, (docs_wanted hp hf hd d).mpr ⟨p, hw⟩, hr⟩
  rw [key] at hx
  rcases hx with ⟨h1, h2⟩ | ⟨h1, h2⟩
  · exact ⟨⟨fun _ => h2, fun _ => h1⟩, .inr h1⟩
  · refine ⟨⟨fun h3 => ?_, fun h3 => absurd h3 h2⟩, .inl h1⟩
    rw [h1] at h3
    cases h3

/-- **C164** The command ends with an exception, and writes nothing, if a file found is not XML. -/
theorem C164_malformed (hit : Text → Bool) (title : Text) (dirs : List Path) (out : Path) (root : Node) (hp : Proper root)
    (p : Path) (hw : Wanted hit root dirs p none) : main hit title dirs out root = none := by
  cases h : main hit title dirs out root with
  | none => rfl
  | some r =>
    obtain ⟨root', doc, rc⟩ := r
    obtain ⟨files, docs, hf, _, hd, _, _⟩ := main_inv h
    have hm := (findDirs_mem hit root hp dirs files hf p none).mpr hw
    have : none ∈ files.map (·.2) := List.mem_map_of_mem (f := (·.2)) hm
    rw [hd] at this
    simp at this

/-- Full claim: the command run twice gives the same combined file. -/
def C164_again_full : Prop :=
  ∀ (hit : Text → Bool) (title : Text) (dirs : List Path) (out : Path) (root root' root'' : Node) (doc doc' : Elem) (rc rc' : Nat),
    Proper root → main hit title dirs out root = some (root', doc, rc) → main hit title dirs out root' = some (root'', doc', rc') →
    doc' = doc ∧ rc' = rc

/-- A file with a test. -/
def sampleDoc : Elem := ⟨"testsuites", [], none, [⟨"testsuite", [("name", [109])], none, [⟨"testcase", [], none, []⟩]⟩]⟩

/-- **C164** If the combined file has a name that is looked for, the second run adds its test cases again. -/
theorem C164_again_counterexample : ¬ C164_again_full := by
  intro h
  have := (h defaultHit [] [[]] [ofStr "results.xml".toList] (sampleTree sampleDoc) _ _ _ _ _ _
    (by simp [sampleTree, Proper, ProperAll, names]) rfl rfl).1
  have h2 := congrArg (fun e : Elem => e.children.map fun s => s.children.length) this
  revert h2
  decide

/-- **C164** If the name of the combined file is not looked for, as with the defaults, a second run gives the same. -/
theorem C164_again_partial (hit : Text → Bool) (title : Text) (dirs : List Path) (out : Path) (root root' : Node) (doc : Elem)
    (rc : Nat) (hl : ∀ l, out.getLast? = some l → hit l = false)
    (h : main hit title dirs out root = some (root', doc, rc)) (root'' : Node) (doc' : Elem) (rc' : Nat)
    (h' : main hit title dirs out root' = some (root'', doc', rc')) : doc' = doc ∧ rc' = rc := by
  obtain ⟨files, docs, hf, hpa, hd, hw, he⟩ := main_inv h
  obtain ⟨files', docs', hf', hpa', hd', hw', he'⟩ := main_inv h'
  rw [write_findDirs hit _ out root root' hl hw dirs, hf] at hf'
  cases hf'
  rw [hpa] at hpa'
  cases hpa'
  rw [he] at he'
  cases he'
  exact ⟨rfl, rfl⟩

example : ∀ l, defaultOut.getLast? = some l → defaultHit l = false := by
  intro l h
  cases h
  decide

example : (main defaultHit [] [[]] defaultOut (sampleTree sampleDoc)).isSome = true := by decide

/-- C164: by default the files whose names start with `results` and have `.xml` behind it are combined. -/
theorem C164_default (name : Text) : defaultHit name = true ↔
    ∃ mid rest, name = ofStr "results".toList ++ mid ++ ofStr ".xml".toList ++ rest := by
  have hr : (ofStr "results".toList).length = 7 := by decide
  unfold defaultHit
  rw [Bool.and_eq_true, List.isPrefixOf_iff_prefix, List.any_eq_true]
  constructor
  · rintro ⟨⟨a, ha⟩, k, hk, h⟩
    rw [Bool.and_eq_true, List.isPrefixOf_iff_prefix, decide_eq_true_eq] at h
    obtain ⟨h7, rest, hx⟩ := h
    refine ⟨a.take (k - 7), rest, ?_⟩
    have e1 : name = name.take k ++ name.drop k := (List.take_append_drop k name).symm
    have e2 : name.take k = ofStr "results".toList ++ a.take (k - 7) := by
      rw [← ha, List.take_append, hr, List.take_of_length_le (by rw [hr]; exact h7)]
    rw [e1, e2, ← hx]
    simp only [List.append_assoc]
  · rintro ⟨mid, rest, rfl⟩
    refine ⟨⟨mid ++ ofStr ".xml".toList ++ rest, by simp only [List.append_assoc]⟩, 7 + mid.length, ?_, ?_⟩
    · rw [List.mem_range]
      simp only [List.length_append, hr]
      have : (ofStr ".xml".toList).length = 4 := by decide
      omega
    · rw [Bool.and_eq_true, List.isPrefixOf_iff_prefix, decide_eq_true_eq]
      refine ⟨by omega, rest, ?_⟩
      rw [List.append_assoc, List.drop_append_of_le_length (by rw [List.length_append, hr]; exact Nat.le_refl _),
        List.drop_of_length_le (by rw [List.length_append, hr]; exact Nat.le_refl _)]
      rfl

example : defaultHit (ofStr "results_a.xml".toList) = true ∧ defaultHit (ofStr "result.xml".toList) = false := by decide +kernel

end Verif
