import Verif.Spec.PytestDir
import Verif.Props.PytestHdl
/-!
# C136: the default test module, top level and directory of the fixture `hdl`
-/
namespace Verif

open Spec Env EnvSpec PytestHdl
open Runner (lit)

/-! ### Test module and top level -/

theorem stem_iff (n s : Text) : Stem n s ↔ (splitOnce 46 n).1 = s := by
  constructor
  · intro h
    cases h with
    | dot _ e h => rw [splitOnce_has 46 s e h]
    | whole _ h => rw [splitOnce_hasNot 46 _ h]
  · rintro rfl
    rcases split_cases 46 n with ⟨a, b, h, rfl⟩ | h
    · rw [splitOnce_has 46 a b h]; exact .dot a b h
    · rw [splitOnce_hasNot 46 n h]; exact .whole n h

/-- What `defaults` makes of the name of a module. -/
def topName (m : Text) : Text :=
  if (lit "test_").isPrefixOf m then PytestId.removePrefix (lit "test_") m
  else if (lit "_test").isSuffixOf m then PytestId.removeSuffix (lit "_test") m
  else m

theorem tests_topName (m : Text) : Tests m (topName m) := by
  unfold topName PytestId.removePrefix PytestId.removeSuffix
  split
  · next h =>
    rw [List.isPrefixOf_iff_prefix] at h
    obtain ⟨x, rfl⟩ := h
    rw [List.drop_left]
    exact .before x
  · next h =>
    rw [List.isPrefixOf_iff_prefix] at h
    split
    · next h2 =>
      rw [List.isSuffixOf_iff_suffix] at h2
      obtain ⟨x, rfl⟩ := h2
      rw [List.length_append, Nat.add_sub_cancel, List.take_left]
      exact .after x fun y e => h ⟨y, e.symm⟩
    · next h2 =>
      rw [List.isSuffixOf_iff_suffix] at h2
      exact .same m (fun y e => h ⟨y, e.symm⟩) fun y e => h2 ⟨y, e.symm⟩

theorem marks_modules (o : Hdl) (ms : List Marker) :
    (ms.foldl Hdl.mark o).testModule = (latest Marker.runnerOf ms).getD o.testModule := by
  have hg : ∀ h m, (Hdl.mark h m).testModule = (Marker.runnerOf m).getD h.testModule := by
    intro h m
    cases m with
    | runner l =>
      cases l with
      | nil => rfl
      | cons x l => cases x <;> rfl
    | _ => rfl
  exact (foldl_proj (·.testModule) (fun a m => (Marker.runnerOf m).getD a) hg ms o).trans (foldl_latest _ ms _)

theorem marks_toplevel (o : Hdl) (ms : List Marker) : (ms.foldl Hdl.mark o).toplevel = o.toplevel := by
  induction ms generalizing o with
  | nil => rfl
  | cons m ms ih => rw [List.foldl_cons, ih]; cases m <;> rfl

theorem defaults_both (h : Hdl) (r : Request) (h0 : h.toplevel = []) :
    (h.defaults r).testModule = (if h.testModule = [] ∧ ¬ r.session then [(splitOnce 46 r.fileName).1] else h.testModule) ∧
    (h.defaults r).toplevel = (match (h.defaults r).testModule with | [] => [] | m :: _ => topName m) := by
  unfold Hdl.defaults
  simp only []
  generalize hk : (if h.testModule = [] ∧ ¬ r.session then { h with testModule := [(splitOnce 46 r.fileName).1] } else h) = k
  have h1 : k.testModule = if h.testModule = [] ∧ ¬ r.session then [(splitOnce 46 r.fileName).1] else h.testModule := by
    rw [← hk]; split <;> rfl
  have h2 : k.toplevel = [] := by rw [← hk]; split <;> exact h0
  rw [← h1]
  cases hm : k.testModule with
  | nil =>
    simp only []
    exact ⟨hm, by rw [hm]; exact h2⟩
  | cons m ms =>
    simp only []
    rw [if_pos h2]
    exact ⟨rfl, rfl⟩

theorem defaults_module (h : Hdl) (r : Request) (h0 : h.toplevel = []) : (h.defaults r).testModule =
    if h.testModule = [] ∧ ¬ r.session then [(splitOnce 46 r.fileName).1] else h.testModule := (defaults_both h r h0).1

theorem defaults_top (h : Hdl) (r : Request) (h0 : h.toplevel = []) : (h.defaults r).toplevel =
    match (h.defaults r).testModule with | [] => [] | m :: _ => topName m := (defaults_both h r h0).2

/-- **C136** The test module of the fixture: the marker's, else the name of the file up to its first dot. -/
theorem C136_module (o : Options) (langs : List Text) (r : Request) : ModulesOf r (Hdl.new o langs r).testModule := by
  unfold Hdl.new
  simp only []
  rw [defaults_module _ _ (by simp only [applyMarkers_flat, marks_toplevel]), applyMarkers_flat]
  simp only [marks_modules]
  cases hl : latest Marker.runnerOf r.parents.reverse.flatten with
  | none =>
    simp only [Option.getD_none]
    split
    · next h => exact .file _ (by simp [hl]) (by simpa using h.2) ((stem_iff _ _).2 rfl)
    · next h => exact .session (by simp [hl]) (by simpa using h)
  | some l =>
    simp only [Option.getD_some]
    cases l with
    | nil =>
      split
      · next h => exact .file _ (by simp [hl]) (by simpa using h.2) ((stem_iff _ _).2 rfl)
      · next h => exact .session (by simp [hl]) (by simpa using h)
    | cons m ms =>
      rw [if_neg (by simp)]
      exact .marker m ms hl

/-- **C136** The top level of the fixture: what the first test module is named after. -/
theorem C136_toplevel (o : Options) (langs : List Text) (r : Request) :
    TopOf (Hdl.new o langs r).testModule (Hdl.new o langs r).toplevel := by
  unfold Hdl.new
  simp only []
  rw [defaults_top _ _ (by simp only [applyMarkers_flat, marks_toplevel])]
  generalize (Hdl.defaults _ r).testModule = ms
  cases ms with
  | nil => exact .none
  | cons m ms => exact .first m ms _ (tests_topName m)

theorem modules_unique {r : Request} {a b : List Text} (h1 : ModulesOf r a) (h2 : ModulesOf r b) : a = b := by
  cases h1 with
  | marker m ms e =>
    cases h2 with
    | marker m' ms' e' => rw [e] at e'; exact Option.some.inj e'
    | file _ n => exact absurd e (n _ _)
    | session n => exact absurd e (n _ _)
  | file s n e st =>
    cases h2 with
    | marker m' ms' e' => exact absurd e' (n _ _)
    | file s' _ _ st' => rw [← (stem_iff _ _).1 st, (stem_iff _ _).1 st']
    | session _ e' => rw [e] at e'; cases e'
  | session n e =>
    cases h2 with
    | marker m' ms' e' => exact absurd e' (n _ _)
    | file s' _ e' => rw [e] at e'; cases e'
    | session => rfl

theorem tests_unique {m a b : Text} (h1 : Tests m a) (h2 : Tests m b) : a = b := by
  generalize hm : m = m' at h2
  cases h1 with
  | before x =>
    cases h2 with
    | before y => exact List.append_cancel_left hm
    | after y h => exact absurd hm.symm (h _)
    | same y h => exact absurd hm.symm (h _)
  | after x h =>
    cases h2 with
    | before y => exact absurd hm (h _)
    | after y _ => exact List.append_cancel_right hm
    | same y _ h' => exact absurd hm.symm (h' _)
  | same x h h' =>
    cases h2 with
    | before y => exact absurd hm (h _)
    | after y _ => exact absurd hm (h' _)
    | same y => exact hm

/-- **C136** `build` and `test` use that test module and that top level unless others are given, and nothing else fits the description:
the modules and the top level are determined. -/
theorem C136_passed (o : Options) (langs : List Text) (r : Request) (xcelium : Bool) (a : BuildArgs) (b : TestArgs) (c : BuildCall) (d : TestCall)
    (modules : List Text) (top : Text) (hm : ModulesOf r modules) (ht : TopOf modules top)
    (hc : (Hdl.new o langs r).build o a = .ok c) (hd : (Hdl.new o langs r).test o xcelium b = .ok d)
    (h1 : a.toplevel ≠ some []) (h2 : b.toplevel ≠ some []) (h3 : b.testModule ≠ some []) :
    c.toplevel.getD [] = a.toplevel.getD top ∧ d.toplevel = b.toplevel.getD top ∧ d.testModule = b.testModule.getD modules := by
  have e1 := modules_unique hm (C136_module o langs r)
  have e2 : top = (Hdl.new o langs r).toplevel := by
    have := C136_toplevel o langs r
    rw [← e1] at this
    generalize (Hdl.new o langs r).toplevel = t at this
    cases ht with
    | first m ms t h => cases this with | first _ _ _ h' => exact tests_unique h h'
    | none => cases this; rfl
  rw [e1, e2]
  refine ⟨?_, ?_, ?_⟩
  · unfold Hdl.build at hc
    simp only [bind, Except.bind] at hc
    split at hc
    · cases hc
    · split at hc
      · cases hc
      · cases hc
        simp only [getD_empty, orArg_list _ _ h1]
  all_goals
    unfold Hdl.test at hd
    simp only [bind, Except.bind] at hd
    split at hd
    · cases hd
    · split at hd
      · cases hd
      · split at hd
        · cases hd
        · split at hd
          · cases hd
          · cases hd
            simp only [orArg_list _ _ h2, orArg_list _ _ h3]

example : Tests (lit "test_dff") (lit "dff") := .before (lit "dff")
example : ModulesOf hdlRequest [lit "test_dff"] := by
  refine .file _ ?_ rfl (.dot (lit "test_dff") (lit "py") (by decide +kernel))
  intro m ms
  rw [show latest Marker.runnerOf hdlRequest.parents.reverse.flatten = none by decide +kernel]
  simp

/-- **C136** The language of the top level that reaches the runner's `test`: the argument, else the option, else the only language of
the simulator. -/
theorem C136_language (o : Options) (langs : List Text) (r : Request) (xcelium : Bool) (a : TestArgs) (c : TestCall)
    (h : (Hdl.new o langs r).test o xcelium a = .ok c) :
    (∀ l, a.toplevelLang = some l → l ≠ [] → c.toplevelLang = some l) ∧
    (a.toplevelLang = none → LanguageOf o.toplevelLang langs c.toplevelLang) := by
  have hd : ∀ h : Hdl, (h.defaults r).toplevelLang = h.toplevelLang := by
    intro h
    unfold Hdl.defaults
    simp only []
    generalize hk : (if h.testModule = [] ∧ ¬ r.session then { h with testModule := [(splitOnce 46 r.fileName).1] } else h) = k
    have h1 : k.toplevelLang = h.toplevelLang := by rw [← hk]; split <;> rfl
    rw [← h1]
    split
    · rfl
    · split <;> rfl
  have hl : LanguageOf o.toplevelLang langs (Hdl.new o langs r).toplevelLang := by
    unfold Hdl.new
    simp only []
    rw [hd]
    simp only []
    split
    · next ho =>
      split
      · exact .only _ ho rfl
      · next hn =>
        refine .open ho fun e => ?_
        match langs, e with
        | [l], _ => exact hn l rfl
    · next h =>
      exact .chosen (fun e => h (.inl e)) (fun e => h (.inr e))
  have hc : c.toplevelLang = (match a.toplevelLang with | some (c :: t) => some (c :: t) | _ => (Hdl.new o langs r).toplevelLang) := by
    unfold Hdl.test at h
    simp only [bind, Except.bind] at h
    split at h
    · cases h
    · split at h
      · cases h
      · split at h
        · cases h
        · split at h
          · cases h
          · cases h
            rfl
  constructor
  · intro l e hne
    rw [hc, e]
    cases l with
    | nil => exact absurd rfl hne
    | cons x l => rfl
  · intro e
    rw [hc, e]
    exact hl

example : LanguageOf (lit "auto") [lit "vhdl"] (some (lit "vhdl")) := .only _ (.inr rfl) rfl

/-! ### Directories -/

theorem replaceGo_py (new a rest : Text) (h : 58 ∉ a) :
    replaceGo (lit ".py::") new 0 (a ++ (lit ".py::" ++ rest)) = a ++ (new ++ replaceGo (lit ".py::") new 0 rest) := by
  induction a with
  | nil => rfl
  | cons c a ih =>
    have ih := ih fun e => h (List.mem_cons_of_mem _ e)
    rw [List.cons_append, replaceGo, if_neg, ih]
    · rfl
    · rw [List.isPrefixOf_iff_prefix]
      rintro ⟨t, e⟩
      have h3 := congrArg (·[3]?) e
      have e0 : lit ".py::" = [46, 112, 121, 58, 58] := by decide +kernel
      rw [e0] at h3
      match a, h, h3 with
      | [], _, h3 => simp at h3
      | [_], _, h3 => simp at h3
      | [_, _], _, h3 => simp at h3
      | x :: y :: z :: a', h, h3 =>
        simp at h3
        exact h (by simp [h3])

theorem replaceGo_noPy (new u v : Text) (hu : 46 ∉ u) (hv : 58 ∉ v) : replaceGo (lit ".py::") new 0 (u ++ v) = u ++ v := by
  have e0 : lit ".py::" = [46, 112, 121, 58, 58] := by decide +kernel
  induction u with
  | nil =>
    induction v with
    | nil => rfl
    | cons c v ih =>
      rw [List.nil_append, replaceGo, if_neg, ← List.nil_append v, ih fun e => hv (List.mem_cons_of_mem _ e)]
      rw [List.isPrefixOf_iff_prefix]
      rintro ⟨t, e⟩
      exact hv (by rw [← e, e0]; simp)
  | cons c u ih =>
    rw [List.cons_append, replaceGo, if_neg, ih fun e => hu (List.mem_cons_of_mem _ e)]
    rw [List.isPrefixOf_iff_prefix]
    rintro ⟨t, e⟩
    rw [e0] at e
    exact hu (by simp [← (List.cons.inj e).1])

theorem replaceGo_colons (a rest : Text) (h : 58 ∉ a) :
    replaceGo (lit "::") (lit "/") 0 (a ++ (lit "::" ++ rest)) = a ++ (lit "/" ++ replaceGo (lit "::") (lit "/") 0 rest) := by
  have e0 : lit "::" = [58, 58] := by decide +kernel
  induction a with
  | nil => rfl
  | cons c a ih =>
    have ih := ih fun e => h (List.mem_cons_of_mem _ e)
    rw [List.cons_append, replaceGo, if_neg, ih]
    · rfl
    · rw [List.isPrefixOf_iff_prefix]
      rintro ⟨t, e⟩
      rw [e0] at e
      exact h (by simp [← (List.cons.inj e).1])

theorem replaceGo_noColon (a : Text) (h : 58 ∉ a) : replaceGo (lit "::") (lit "/") 0 a = a := by
  have e0 : lit "::" = [58, 58] := by decide +kernel
  induction a with
  | nil => rfl
  | cons c a ih =>
    rw [replaceGo, if_neg, ih fun e => h (List.mem_cons_of_mem _ e)]
    rw [List.isPrefixOf_iff_prefix]
    rintro ⟨t, e⟩
    rw [e0] at e
    exact h (by simp [← (List.cons.inj e).1])

theorem replace_parts : ∀ (parts : List Text) (a tail : Text), 58 ∉ a → (∀ p ∈ parts, 58 ∉ p) → 58 ∉ tail →
    replaceGo (lit "::") (lit "/") 0 (a ++ (parts.flatMap (lit "::" ++ ·) ++ tail)) = a ++ (parts.flatMap (lit "/" ++ ·) ++ tail)
  | [], a, tail, ha, _, ht => by
    rw [List.flatMap_nil, List.flatMap_nil, List.nil_append, replaceGo_noColon]
    simp [ha, ht]
  | p :: parts, a, tail, ha, hp, ht => by
    rw [List.flatMap_cons, List.flatMap_cons]
    simp only [List.append_assoc]
    rw [replaceGo_colons a _ ha, replace_parts parts p tail (hp p (by simp)) (fun q hq => hp q (by simp [hq])) ht]

theorem nameChar_colon {p : Text} (h : ∀ c ∈ p, nameChar c = true) : 58 ∉ p := fun e => absurd (h 58 e) (by decide)
theorem nameChar_dot {p : Text} (h : ∀ c ∈ p, nameChar c = true) : 46 ∉ p := fun e => absurd (h 46 e) (by decide)
theorem nameChar_slash {p : Text} (h : ∀ c ∈ p, nameChar c = true) : 47 ∉ p := fun e => absurd (h 47 e) (by decide)
theorem pathChar_colon {p : Text} (h : ∀ c ∈ p, pathChar c = true) : 58 ∉ p := fun e => absurd (h 58 e) (by decide)

theorem posix_eq (c : Nat) : posix c = pathChar c := by
  unfold posix pathChar nameChar
  rw [Bool.eq_iff_iff]
  simp only [Bool.or_eq_true, Bool.and_eq_true, decide_eq_true_eq, beq_iff_eq]
  omega

theorem clean_same {p : Text} (h : ∀ c ∈ p, pathChar c = true) : p.map (fun c => if posix c then c else 95) = p := by
  induction p with
  | nil => rfl
  | cons c p ih =>
    rw [List.map_cons, ih fun x hx => h x (List.mem_cons_of_mem _ hx), posix_eq, if_pos (h c (by simp))]

theorem nameChar_path {c : Nat} (h : nameChar c = true) : pathChar c = true := by simp [pathChar, h]

theorem lit_slash : lit "/" = [47] := by decide +kernel

theorem nodeDir_parts (path : Text) (parts : List Text) (tail : Text) (h1 : ∀ c ∈ path, pathChar c = true) (h2 : parts ≠ [])
    (h3 : ∀ p ∈ parts, p ≠ [] ∧ ∀ c ∈ p, nameChar c = true) (h4 : 58 ∉ tail) :
    nodeDir (path ++ lit ".py" ++ parts.flatMap (lit "::" ++ ·) ++ tail) =
      path ++ parts.flatMap (lit "/" ++ ·) ++ tail.map (fun c => if posix c then c else 95) := by
  obtain ⟨p, ps, rfl⟩ := List.exists_cons_of_ne_nil h2
  have e1 : path ++ lit ".py" ++ (p :: ps).flatMap (lit "::" ++ ·) ++ tail =
      path ++ (lit ".py::" ++ ((p ++ ps.flatMap (lit "::" ++ ·)) ++ tail)) := by
    rw [List.flatMap_cons, show lit ".py::" = lit ".py" ++ lit "::" by decide +kernel]
    simp only [List.append_assoc]
  have hdots : 46 ∉ p ++ ps.flatMap (lit "::" ++ ·) := by
    rw [List.mem_append, List.mem_flatMap]
    rintro (h | ⟨q, hq, h⟩)
    · exact nameChar_dot (h3 p (by simp)).2 h
    · rw [List.mem_append] at h
      rcases h with h | h
      · exact absurd h (by decide +kernel)
      · exact nameChar_dot (h3 q (by simp [hq])).2 h
  unfold nodeDir replaceText
  rw [e1, replaceGo_py _ _ _ (pathChar_colon h1), replaceGo_noPy _ _ _ hdots h4]
  have e2 : path ++ (lit "/" ++ ((p ++ ps.flatMap (lit "::" ++ ·)) ++ tail)) =
      (path ++ lit "/" ++ p) ++ (ps.flatMap (lit "::" ++ ·) ++ tail) := by simp only [List.append_assoc]
  rw [e2, replace_parts ps _ tail _ (fun q hq => nameChar_colon (h3 q (by simp [hq])).2) h4]
  · simp only [List.map_append]
    rw [clean_same h1, clean_same fun c hc => nameChar_path ((h3 p (by simp)).2 c hc), List.flatMap_cons,
      show (ps.flatMap (lit "/" ++ ·)).map (fun c => if posix c then c else 95) = ps.flatMap (lit "/" ++ ·) from clean_same (by
        intro c hc
        obtain ⟨q, hq, h⟩ := List.mem_flatMap.1 hc
        rcases List.mem_append.1 h with h | h
        · rw [lit_slash] at h; rw [List.mem_singleton.1 h]; decide
        · exact nameChar_path ((h3 q (by simp [hq])).2 c h)),
      show (lit "/").map (fun c => if posix c then c else 95) = lit "/" by decide +kernel]
    simp only [List.append_assoc]
  · rw [lit_slash]
    simp only [List.mem_append, List.mem_singleton]
    rintro ((h | h) | h)
    · exact pathChar_colon h1 h
    · cases h
    · exact nameChar_colon (h3 p (by simp)).2 h

theorem slashes_inj : ∀ (a b : List Text), (∀ p ∈ a, 47 ∉ p) → (∀ p ∈ b, 47 ∉ p) →
    a.flatMap (lit "/" ++ ·) = b.flatMap (lit "/" ++ ·) → a = b := by
  rw [lit_slash]
  have key : ∀ (x y : Text) (s t : List Text), 47 ∉ x → 47 ∉ y →
      x ++ s.flatMap ([47] ++ ·) = y ++ t.flatMap ([47] ++ ·) → x = y ∧ s.flatMap ([47] ++ ·) = t.flatMap ([47] ++ ·) := by
    intro x
    induction x with
    | nil =>
      intro y s t _ hy e
      cases y with
      | nil => exact ⟨rfl, e⟩
      | cons c y =>
        cases s with
        | nil => simp at e
        | cons q s =>
          simp only [List.nil_append, List.flatMap_cons, List.cons_append] at e
          exact absurd (List.cons.inj e).1.symm (fun h => hy (by simp [h]))
    | cons d x ih =>
      intro y s t hx hy e
      cases y with
      | nil =>
        cases t with
        | nil => simp at e
        | cons q t =>
          simp only [List.nil_append, List.flatMap_cons, List.cons_append] at e
          exact absurd (List.cons.inj e).1 (fun h => hx (by simp [h]))
      | cons c y =>
        simp only [List.cons_append] at e
        obtain ⟨h1, h2⟩ := List.cons.inj e
        obtain ⟨h3, h4⟩ := ih y s t (fun h => hx (List.mem_cons_of_mem _ h)) (fun h => hy (List.mem_cons_of_mem _ h)) h2
        exact ⟨by rw [h1, h3], h4⟩
  intro a
  induction a with
  | nil =>
    intro b _ _ e
    cases b with
    | nil => rfl
    | cons q b => simp at e
  | cons p a ih =>
    intro b ha hb e
    cases b with
    | nil => simp at e
    | cons q b =>
      simp only [List.flatMap_cons, List.cons_append, List.cons.injEq, true_and] at e
      obtain ⟨h1, h2⟩ := key p q a b (ha p (by simp)) (hb q (by simp)) e
      rw [h1, ih b (fun x hx => ha x (by simp [hx])) (fun x hx => hb x (by simp [hx])) h2]

/-- **C136** The directory of a test has only letters, digits and `/._-` in its name. -/
theorem C136_characters (nodeid : Text) : ∀ c ∈ nodeDir nodeid, pathChar c = true := by
  intro c hc
  unfold nodeDir at hc
  obtain ⟨d, _, rfl⟩ := List.mem_map.1 hc
  split
  · next h => rw [← posix_eq]; exact h
  · decide

/-- The full claim: tests with distinct node ids have distinct directories. -/
def C136_dirs_full : Prop := ∀ (build : Text) (i j : TestId), i.Plain → j.Plain → i.text ≠ j.text →
  testDirOf build i.text ≠ testDirOf build j.text

theorem testDirOf_inj {b x y : Text} (h : testDirOf b x = testDirOf b y) : nodeDir x = nodeDir y := List.append_cancel_left h

/-- **C136** Without parameters, two tests have the same directory only if they are the same test, as long as no file has the name
of a directory with the other file. -/
theorem C136_dirs_partial (build : Text) (i j : TestId) (hi : i.Plain) (hj : j.Plain) (h1 : i.params = none) (h2 : j.params = none)
    (h3 : Apart i.path j.path) (hne : i.text ≠ j.text) : testDirOf build i.text ≠ testDirOf build j.text := by
  intro e
  have e := testDirOf_inj e
  apply hne
  unfold TestId.text at e ⊢
  rw [h1, h2] at e ⊢
  rw [nodeDir_parts _ _ _ hi.path hi.some hi.parts (by simp), nodeDir_parts _ _ _ hj.path hj.some hj.parts (by simp)] at e
  simp only [List.map_nil, List.append_nil] at e ⊢
  have hs : ∀ l : List Text, l ≠ [] → ∃ t, l.flatMap (lit "/" ++ ·) = [47] ++ t := by
    intro l hl
    obtain ⟨p, ps, rfl⟩ := List.exists_cons_of_ne_nil hl
    rw [lit_slash]
    exact ⟨_, by rw [List.flatMap_cons, List.append_assoc]⟩
  have short : ∀ p q s t : Text, p ++ ([47] ++ s) = q ++ t → p.length < q.length → (p ++ [47]) <+: q := by
    intro p q s t e hl
    rw [← List.append_assoc] at e
    exact List.prefix_of_prefix_length_le ⟨s, rfl⟩ ⟨t, e.symm⟩ (by simp; omega)
  have hp : i.path = j.path := by
    rcases h3 with h3 | ⟨h3, h4⟩
    · exact h3
    · obtain ⟨s, hs1⟩ := hs _ hi.some
      obtain ⟨t, ht1⟩ := hs _ hj.some
      rcases Nat.lt_trichotomy i.path.length j.path.length with hl | hl | hl
      · rw [hs1] at e; exact absurd (short _ _ _ _ e hl) h3
      · exact (List.append_inj e hl).1
      · rw [ht1] at e; exact absurd (short _ _ _ _ e.symm hl) h4
  rw [hp] at e ⊢
  rw [slashes_inj _ _ (fun p hp => nameChar_slash (hi.parts p hp).2) (fun p hp => nameChar_slash (hj.parts p hp).2)
    (List.append_cancel_left e)]

/-- **C136** Two sets of parameters of one test have distinct directories if their ids have only the characters of paths. -/
theorem C136_params_partial (build : Text) (i j : TestId) (hi : i.Plain) (h1 : j.path = i.path) (h2 : j.parts = i.parts) (p q : Text)
    (hp : i.params = some p) (hq : j.params = some q) (h3 : ∀ c ∈ p, pathChar c = true) (h4 : ∀ c ∈ q, pathChar c = true)
    (hne : i.text ≠ j.text) : testDirOf build i.text ≠ testDirOf build j.text := by
  intro e
  have e := testDirOf_inj e
  apply hne
  unfold TestId.text at e ⊢
  rw [h1, h2, hp, hq] at e ⊢
  have hc : ∀ x : Text, (∀ c ∈ x, pathChar c = true) → 58 ∉ lit "[" ++ x ++ lit "]" := by
    intro x hx h
    rcases List.mem_append.1 h with h | h
    · rcases List.mem_append.1 h with h | h
      · exact absurd h (by decide +kernel)
      · exact pathChar_colon hx h
    · exact absurd h (by decide +kernel)
  simp only [] at e ⊢
  rw [nodeDir_parts _ _ _ hi.path hi.some hi.parts (hc p h3), nodeDir_parts _ _ _ hi.path hi.some hi.parts (hc q h4)] at e
  have e := List.append_cancel_left e
  simp only [List.map_append] at e
  have e := List.append_cancel_left (List.append_cancel_right e)
  rw [clean_same h3, clean_same h4] at e
  rw [e]

/-- `test[1]` and `test_1_` in `t.py`. -/
def idBrackets : TestId := ⟨lit "t", [lit "test"], some (lit "1")⟩
@[inherit_doc idBrackets] def idUnderscore : TestId := ⟨lit "t", [lit "test_1_"], none⟩
/-- `a.py::b::c` and `a/b.py::c`. -/
def idClass : TestId := ⟨lit "a", [lit "b", lit "c"], none⟩
@[inherit_doc idClass] def idFolder : TestId := ⟨lit "a/b", [lit "c"], none⟩

theorem plain_iff (i : TestId) : i.Plain ↔
    (i.path.all pathChar && !i.parts.isEmpty && i.parts.all fun p => !p.isEmpty && p.all nameChar) = true := by
  simp only [Bool.and_eq_true, List.all_eq_true, Bool.not_eq_true', List.isEmpty_eq_false_iff]
  exact ⟨fun h => ⟨⟨h.path, h.some⟩, h.parts⟩, fun h => ⟨h.1.1, h.1.2, h.2⟩⟩

/-- **C136** is false of all tests: brackets become underscores, which names can have. -/
theorem C136_dirs_counterexample : ¬ C136_dirs_full := by
  intro h
  exact h [] idBrackets idUnderscore (by rw [plain_iff]; decide +kernel) (by rw [plain_iff]; decide +kernel) (by decide +kernel) (by decide +kernel)

/-- **C136** is false of a file next to a directory of its name: `a.py::b::c` and `a/b.py::c`. -/
theorem C136_dirs_folder_counterexample : ¬ ∀ (build : Text) (i j : TestId), i.Plain → j.Plain → i.params = none → j.params = none →
    i.text ≠ j.text → testDirOf build i.text ≠ testDirOf build j.text := by
  intro h
  exact h [] idClass idFolder (by rw [plain_iff]; decide +kernel) (by rw [plain_iff]; decide +kernel) rfl rfl (by decide +kernel) (by decide +kernel)

example : Apart (lit "tests/test_a") (lit "tests/test_ab") := by
  right
  rw [← List.isPrefixOf_iff_prefix, ← List.isPrefixOf_iff_prefix]
  decide +kernel
example : nodeDir (lit "tests/test_a.py::TestX::test_y[a b-0.5]") = lit "tests/test_a/TestX/test_y_a_b-0.5_" := by decide +kernel

end Verif
