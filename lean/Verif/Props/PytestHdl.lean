import Verif.Spec.PytestHdl
import Verif.Props.Env
/-!
# C135: the settings of the fixture `hdl`
-/
namespace Verif

open Spec Env EnvSpec PytestHdl
open Runner (lit)

/-! ### Names and values -/

theorem dictGet_merge : ∀ (e d : Dict) (n : Text), dictGet (merge d e) n = (valueFor e n).or (dictGet d n)
  | [], d, n => by simp [merge, valueFor]
  | p :: e, d, n => by
    have ih := dictGet_merge e (dictSet d p.1 p.2) n
    unfold merge at ih ⊢
    rw [List.foldl_cons, ih, dictGet_set]
    unfold valueFor
    rw [List.filter_cons]
    by_cases h : p.1 = n
    · simp only [h, decide_true, if_true]
      cases hl : (e.filter fun p => decide (p.1 = n)) with
      | nil => simp [List.getLast?]
      | cons a l => simp [List.getLast?_cons]
    · simp only [h, decide_false, if_false]
      rfl

theorem splitOnce_has (c : Nat) (n v : Text) (h : c ∉ n) : splitOnce c (n ++ c :: v) = (n, v) := by
  induction n with
  | nil => simp [splitOnce]
  | cons a n ih =>
    have ha : a ≠ c := fun e => h (by simp [e])
    have := ih fun e => h (List.mem_cons_of_mem _ e)
    unfold splitOnce at this ⊢
    simp only [List.cons_append, List.takeWhile_cons, List.dropWhile_cons, bne_iff_ne, ne_eq, ha, not_false_eq_true, if_true]
    simp only [Prod.mk.injEq] at this ⊢
    exact ⟨by rw [this.1], this.2⟩

theorem splitOnce_hasNot (c : Nat) (n : Text) (h : c ∉ n) : splitOnce c n = (n, []) := by
  induction n with
  | nil => simp [splitOnce]
  | cons a n ih =>
    have ha : a ≠ c := fun e => h (by simp [e])
    have := ih fun e => h (List.mem_cons_of_mem _ e)
    unfold splitOnce at this ⊢
    simp only [List.takeWhile_cons, List.dropWhile_cons, bne_iff_ne, ne_eq, ha, not_false_eq_true, if_true]
    simp only [Prod.mk.injEq] at this ⊢
    exact ⟨by rw [this.1], this.2⟩

theorem split_cases (c : Nat) : ∀ t : Text, (∃ n v, c ∉ n ∧ t = n ++ c :: v) ∨ c ∉ t
  | [] => .inr (by simp)
  | a :: t => by
    by_cases ha : a = c
    · exact .inl ⟨[], t, by simp, by simp [ha]⟩
    · rcases split_cases c t with ⟨n, v, h3, h4⟩ | h
      · exact .inl ⟨a :: n, v, by simp [h3, Ne.symm ha], by simp [h4]⟩
      · exact .inr (by simp [h, Ne.symm ha])

theorem assigns_iff (i n v : Text) : Assigns i n v ↔ splitOnce 61 i = (n, v) := by
  constructor
  · intro h
    cases h with
    | value _ _ h => exact splitOnce_has 61 n v h
    | bare _ h => exact splitOnce_hasNot 61 _ h
  · intro h
    rcases split_cases 61 i with ⟨n', v', h1, rfl⟩ | h1
    · rw [splitOnce_has 61 n' v' h1] at h
      cases h; exact .value _ _ h1
    · rw [splitOnce_hasNot 61 i h1] at h
      cases h; exact .bare _ h1

theorem toDict_eq (items : List Text) : toDict items = merge [] (items.map (splitOnce 61)) := by
  unfold toDict merge
  rw [List.foldl_map]

/-- **C135** A list of `NAME=VALUE` on the command line gives a name the value of its last occurrence. -/
theorem C135_dict (items : List Text) (n v : Text) :
    dictGet (toDict items) n = some v ↔
      ∃ before i after, items = before ++ i :: after ∧ Assigns i n v ∧ ∀ j ∈ after, ∀ v', ¬ Assigns j n v' := by
  rw [toDict_eq, dictGet_merge]
  simp only [dictGet, Option.or_none]
  unfold valueFor
  rw [List.filter_map]
  simp only [assigns_iff]
  induction items with
  | nil => simp
  | cons a items ih =>
    rw [List.filter_cons]
    by_cases he : (items.filter ((fun p => decide (p.1 = n)) ∘ splitOnce 61)) = []
    · have hno : ∀ j ∈ items, ∀ v', splitOnce 61 j ≠ (n, v') := by
        intro j hj v' e
        have : j ∈ items.filter ((fun p => decide (p.1 = n)) ∘ splitOnce 61) := by
          rw [List.mem_filter]; exact ⟨hj, by simp [e]⟩
        rw [he] at this; simp at this
      split
      · next h1 =>
        rw [he]
        simp only [List.map_cons, List.map_nil, List.getLast?_singleton, Option.map_some, Option.some.injEq]
        have h1 : (splitOnce 61 a).1 = n := by simpa using h1
        constructor
        · intro h2
          exact ⟨[], a, items, rfl, Prod.ext h1 h2, hno⟩
        · rintro ⟨before, i, after, e1, e2, e3⟩
          cases before with
          | nil => cases e1; rw [e2]
          | cons b bs =>
            cases e1
            exact absurd e2 (hno i (by simp) v)
      · next h1 =>
        rw [he] at ih ⊢
        have h1 : (splitOnce 61 a).1 ≠ n := by simpa using h1
        simp only [List.map_nil, List.getLast?_nil, Option.map_none, reduceCtorEq, false_iff]
        rintro ⟨before, i, after, e1, e2, e3⟩
        cases before with
        | nil => cases e1; rw [e2] at h1; exact h1 rfl
        | cons b bs => cases e1; exact absurd e2 (hno i (by simp) v)
    · have hl : (List.map (splitOnce 61) (if ((fun p => decide (p.1 = n)) ∘ splitOnce 61) a = true then
          a :: items.filter ((fun p => decide (p.1 = n)) ∘ splitOnce 61) else
          items.filter ((fun p => decide (p.1 = n)) ∘ splitOnce 61))).getLast? =
          (List.map (splitOnce 61) (items.filter ((fun p => decide (p.1 = n)) ∘ splitOnce 61))).getLast? := by
        split
        · obtain ⟨x, l, hx⟩ := List.exists_cons_of_ne_nil he
          rw [hx]; simp [List.getLast?_cons]
        · rfl
      rw [hl, ih]
      obtain ⟨x, hx⟩ := List.exists_mem_of_ne_nil _ he
      rw [List.mem_filter] at hx
      have hx2 : (splitOnce 61 x).1 = n := by simpa using hx.2
      constructor
      · rintro ⟨before, i, after, e1, e2, e3⟩
        exact ⟨a :: before, i, after, by simp [e1], e2, e3⟩
      · rintro ⟨before, i, after, e1, e2, e3⟩
        cases before with
        | nil =>
          cases e1
          exact absurd (Prod.ext hx2 rfl : splitOnce 61 x = (n, (splitOnce 61 x).2)) (e3 x hx.1 _)
        | cons b bs => cases e1; exact ⟨bs, i, after, rfl, e2, e3⟩

example : dictGet (toDict [lit "W=8", lit "D", lit "W=16=x"]) (lit "W") = some (lit "16=x") := by decide +kernel
example : Assigns (lit "W=16=x") (lit "W") (lit "16=x") := by rw [assigns_iff]; decide +kernel

/-- **C135** The time scale of the command line. -/
theorem C135_timescale (t : Text) (s : Text × Text) : toTimescale t = s ↔ Scale t s := by
  unfold toTimescale
  constructor
  · rintro rfl
    rcases split_cases 47 t with ⟨a, b, h, rfl⟩ | h
    · rw [splitOnce_has 47 a b h]
      simp only [orText]
      split
      · next hb => exact .blank a b _ h (strip_trimmed a) (hb ▸ strip_trimmed b)
      · next hb => exact .both a b _ _ h (strip_trimmed a) (strip_trimmed b) hb
    · rw [splitOnce_hasNot 47 t h]
      exact .unit t _ h (strip_trimmed t)
  · intro h
    cases h with
    | both a b u p h1 h2 h3 h4 => simp only [splitOnce_has 47 a b h1, strip_eq h2, strip_eq h3, orText, if_neg h4]
    | blank a b u h1 h2 h3 => simp only [splitOnce_has 47 a b h1, strip_eq h2, strip_eq h3, orText, if_true]
    | unit _ u h1 h2 => simp only [splitOnce_hasNot 47 t h1, strip_eq h2]; rfl

example : toTimescale (lit "1ns / 1ps") = (lit "1ns", lit "1ps") := by decide +kernel
example : toTimescale (lit "10us") = (lit "10us", lit "10us") := by decide +kernel

/-! ### Markers -/

theorem foldl_proj {β : Type} (p : Hdl → β) (g : β → Marker → β) (hg : ∀ h m, p (h.mark m) = g (p h) m) :
    ∀ (ms : List Marker) (h : Hdl), p (ms.foldl Hdl.mark h) = ms.foldl g (p h)
  | [], _ => rfl
  | m :: ms, h => by rw [List.foldl_cons, foldl_proj p g hg ms, hg, List.foldl_cons]

theorem foldl_extend (f : Marker → List Text) : ∀ (ms : List Marker) (a : List Text),
    ms.foldl (fun a m => a ++ f m) a = a ++ extended f ms
  | [], a => by simp [extended]
  | m :: ms, a => by rw [List.foldl_cons, foldl_extend f ms]; simp [extended]

theorem foldl_latest {α : Type} (f : Marker → Option α) : ∀ (ms : List Marker) (a : α),
    ms.foldl (fun a m => (f m).getD a) a = (latest f ms).getD a
  | [], a => by simp [latest]
  | m :: ms, a => by
    rw [List.foldl_cons, foldl_latest f ms]
    unfold latest
    rw [List.filterMap_cons]
    cases hf : f m with
    | none => simp
    | some x =>
      cases hl : ms.filterMap f with
      | nil => simp
      | cons y l => simp [List.getLast?_cons]

theorem foldl_merge (f : Marker → Dict) : ∀ (ms : List Marker) (a : Dict),
    ms.foldl (fun a m => merge a (f m)) a = merge a (ms.flatMap f)
  | [], a => by simp [merge]
  | m :: ms, a => by
    rw [List.foldl_cons, foldl_merge f ms]
    simp [merge]

theorem applyMarkers_flat (h : Hdl) (parents : List Node) : h.applyMarkers parents = parents.reverse.flatten.foldl Hdl.mark h := by
  unfold Hdl.applyMarkers
  generalize parents.reverse = ps
  induction ps generalizing h with
  | nil => rfl
  | cons n ps ih => rw [List.foldl_cons, ih, List.flatten_cons, List.foldl_append]

/-- The markers in the order they count: those of the session first, those of the test last. -/
def Spec.markersOf (r : Request) : List Marker := r.parents.reverse.flatten

theorem new_proj {β : Type} (p : Hdl → β) (o : Options) (langs : List Text) (r : Request)
    (h1 : ∀ h m, p { h with testModule := m } = p h) (h2 : ∀ h t, p { h with toplevel := t } = p h)
    (h3 : ∀ h l, p { h with toplevelLang := l } = p h) :
    ∃ h0 : Hdl, p (Hdl.new o langs r) = p ((markersOf r).foldl Hdl.mark h0) ∧ h0 = {
    library := o.library, sources := [], includes := ⟨false, []⟩, defines := [], parameters := [], buildArgs := ⟨false, []⟩,
    toplevel := [], always := o.always, clean := o.clean, verbose := o.verbose, timescale := o.timescale, waves := o.waves,
    buildDir := r.dir, testModule := [], toplevelLibrary := o.toplevelLibrary, toplevelLang := some o.toplevelLang,
    gpiInterfaces := o.gpiInterfaces, seed := .int o.seed, elabArgs := ⟨false, []⟩, testArgs := ⟨false, []⟩,
    plusargs := ⟨false, []⟩, env := [], gui := o.gui, preCmd := ⟨false, []⟩, testDir := r.dir } := by
  refine ⟨_, ?_, rfl⟩
  unfold Hdl.new
  simp only [applyMarkers_flat]
  have hd : ∀ h : Hdl, p (h.defaults r) = p h := by
    intro h
    unfold Hdl.defaults
    simp only []
    have : p (if h.testModule = [] ∧ ¬ r.session then { h with testModule := [(splitOnce 46 r.fileName).1] } else h) = p h := by
      split
      · exact h1 _ _
      · rfl
    rw [← this]
    generalize (if h.testModule = [] ∧ ¬ r.session then { h with testModule := [(splitOnce 46 r.fileName).1] } else h) = k
    split
    · rfl
    · split
      · exact h2 _ _
      · rfl
  rw [hd, h3]
  rfl

theorem new_list (p : Hdl → List Text) (f : Marker → List Text) (o : Options) (langs : List Text) (r : Request)
    (h1 : ∀ h m, p { h with testModule := m } = p h) (h2 : ∀ h t, p { h with toplevel := t } = p h)
    (h3 : ∀ h l, p { h with toplevelLang := l } = p h)
    (hg : ∀ h m, p (h.mark m) = p h ++ f m)
    (h0 : ∀ h : Hdl, h.sources = [] → h.includes.items = [] → h.buildArgs.items = [] → h.elabArgs.items = [] →
      h.testArgs.items = [] → h.plusargs.items = [] → h.preCmd.items = [] → p h = []) :
    p (Hdl.new o langs r) = extended f (markersOf r) := by
  obtain ⟨k, e1, e2⟩ := new_proj p o langs r h1 h2 h3
  rw [e1, foldl_proj p (fun a m => a ++ f m) hg, foldl_extend, h0 k] <;> subst e2 <;> simp

theorem new_dict (p : Hdl → Dict) (f : Marker → Dict) (o : Options) (langs : List Text) (r : Request)
    (h1 : ∀ h m, p { h with testModule := m } = p h) (h2 : ∀ h t, p { h with toplevel := t } = p h)
    (h3 : ∀ h l, p { h with toplevelLang := l } = p h)
    (hg : ∀ h m, p (h.mark m) = merge (p h) (f m))
    (h0 : ∀ h : Hdl, h.defines = [] → h.parameters = [] → h.env = [] → p h = []) :
    p (Hdl.new o langs r) = merge [] ((markersOf r).flatMap f) := by
  obtain ⟨k, e1, e2⟩ := new_proj p o langs r h1 h2 h3
  rw [e1, foldl_proj p (fun a m => merge a (f m)) hg, foldl_merge, h0 k] <;> subst e2 <;> simp

theorem new_scalar {β : Type} (p : Hdl → β) (f : Marker → Option β) (init : β) (o : Options) (langs : List Text) (r : Request)
    (h1 : ∀ h m, p { h with testModule := m } = p h) (h2 : ∀ h t, p { h with toplevel := t } = p h)
    (h3 : ∀ h l, p { h with toplevelLang := l } = p h)
    (hg : ∀ h m, p (h.mark m) = (f m).getD (p h))
    (h0 : ∀ h : Hdl, h.library = o.library → h.always = o.always → h.clean = o.clean → h.verbose = o.verbose →
      h.timescale = o.timescale → h.waves = o.waves → h.seed = .int o.seed → h.gui = o.gui → h.buildDir = r.dir → h.testDir = r.dir →
      h.toplevelLibrary = o.toplevelLibrary → h.gpiInterfaces = o.gpiInterfaces → h.includes.tuple = false →
      h.buildArgs.tuple = false → h.elabArgs.tuple = false → h.testArgs.tuple = false → h.plusargs.tuple = false →
      h.preCmd.tuple = false → p h = init) :
    p (Hdl.new o langs r) = (latest f (markersOf r)).getD init := by
  obtain ⟨k, e1, e2⟩ := new_proj p o langs r h1 h2 h3
  rw [e1, foldl_proj p (fun a m => (f m).getD a) hg, foldl_latest, h0 k] <;> subst e2 <;> rfl

theorem latest_none {β : Type} (ms : List Marker) : latest (fun _ => (none : Option β)) ms = none := by
  unfold latest
  rw [List.filterMap_eq_nil_iff.2 (by simp)]; rfl

theorem latest_some {β : Type} (f : Marker → Option β) (ms : List Marker) : latest (fun m => (f m).map some) ms = (latest f ms).map some := by
  unfold latest
  rw [← List.getLast?_map, List.map_filterMap]

section
variable (o : Options) (langs : List Text) (r : Request)

theorem new_sources : (Hdl.new o langs r).sources = extended Marker.sourcesOf (markersOf r) :=
  new_list (·.sources) _ o langs r (fun _ _ => rfl) (fun _ _ => rfl) (fun _ _ => rfl)
    (fun h m => by cases m <;> simp [Hdl.mark, Marker.sourcesOf]) (by intros; assumption)
theorem new_includes : (Hdl.new o langs r).includes.items = extended Marker.includesOf (markersOf r) :=
  new_list (·.includes.items) _ o langs r (fun _ _ => rfl) (fun _ _ => rfl) (fun _ _ => rfl)
    (fun h m => by cases m <;> simp [Hdl.mark, Marker.includesOf, Seq.extend]) (by intros; assumption)
theorem new_buildArgs : (Hdl.new o langs r).buildArgs.items = extended Marker.buildArgsOf (markersOf r) :=
  new_list (·.buildArgs.items) _ o langs r (fun _ _ => rfl) (fun _ _ => rfl) (fun _ _ => rfl)
    (fun h m => by cases m <;> simp [Hdl.mark, Marker.buildArgsOf, Seq.extend]) (by intros; assumption)
theorem new_elabArgs : (Hdl.new o langs r).elabArgs.items = extended Marker.elabArgsOf (markersOf r) :=
  new_list (·.elabArgs.items) _ o langs r (fun _ _ => rfl) (fun _ _ => rfl) (fun _ _ => rfl)
    (fun h m => by cases m <;> simp [Hdl.mark, Marker.elabArgsOf, Seq.extend]) (by intros; assumption)
theorem new_testArgs : (Hdl.new o langs r).testArgs.items = extended Marker.testArgsOf (markersOf r) :=
  new_list (·.testArgs.items) _ o langs r (fun _ _ => rfl) (fun _ _ => rfl) (fun _ _ => rfl)
    (fun h m => by cases m <;> simp [Hdl.mark, Marker.testArgsOf, Seq.extend]) (by intros; assumption)
theorem new_plusargs : (Hdl.new o langs r).plusargs.items = extended Marker.plusargsOf (markersOf r) :=
  new_list (·.plusargs.items) _ o langs r (fun _ _ => rfl) (fun _ _ => rfl) (fun _ _ => rfl)
    (fun h m => by cases m <;> simp [Hdl.mark, Marker.plusargsOf, Seq.extend]) (by intros; assumption)
theorem new_preCmd : (Hdl.new o langs r).preCmd.items = extended Marker.preCmdOf (markersOf r) :=
  new_list (·.preCmd.items) _ o langs r (fun _ _ => rfl) (fun _ _ => rfl) (fun _ _ => rfl)
    (fun h m => by cases m <;> simp [Hdl.mark, Marker.preCmdOf, Seq.extend]) (by intros; assumption)

theorem new_defines : (Hdl.new o langs r).defines = merge [] ((markersOf r).flatMap Marker.definesOf) :=
  new_dict (·.defines) _ o langs r (fun _ _ => rfl) (fun _ _ => rfl) (fun _ _ => rfl)
    (fun h m => by cases m <;> simp [Hdl.mark, Marker.definesOf, merge]) (by intros; assumption)
theorem new_parameters : (Hdl.new o langs r).parameters = merge [] ((markersOf r).flatMap Marker.parametersOf) :=
  new_dict (·.parameters) _ o langs r (fun _ _ => rfl) (fun _ _ => rfl) (fun _ _ => rfl)
    (fun h m => by cases m <;> simp [Hdl.mark, Marker.parametersOf, merge]) (by intros; assumption)
theorem new_env : (Hdl.new o langs r).env = merge [] ((markersOf r).flatMap Marker.envOf) :=
  new_dict (·.env) _ o langs r (fun _ _ => rfl) (fun _ _ => rfl) (fun _ _ => rfl)
    (fun h m => by cases m <;> simp [Hdl.mark, Marker.envOf, merge]) (by intros; assumption)

theorem new_library : (Hdl.new o langs r).library = (latest Marker.libraryOf (markersOf r)).getD o.library :=
  new_scalar (·.library) _ _ o langs r (fun _ _ => rfl) (fun _ _ => rfl) (fun _ _ => rfl)
    (fun h m => by cases m <;> simp [Hdl.mark, Marker.libraryOf]) (by intros; assumption)
theorem new_always : (Hdl.new o langs r).always = (latest Marker.alwaysOf (markersOf r)).getD o.always :=
  new_scalar (·.always) _ _ o langs r (fun _ _ => rfl) (fun _ _ => rfl) (fun _ _ => rfl)
    (fun h m => by cases m <;> simp [Hdl.mark, Marker.alwaysOf]) (by intros; assumption)
theorem new_clean : (Hdl.new o langs r).clean = (latest Marker.cleanOf (markersOf r)).getD o.clean :=
  new_scalar (·.clean) _ _ o langs r (fun _ _ => rfl) (fun _ _ => rfl) (fun _ _ => rfl)
    (fun h m => by cases m <;> simp [Hdl.mark, Marker.cleanOf]) (by intros; assumption)
theorem new_verbose : (Hdl.new o langs r).verbose = (latest Marker.verboseOf (markersOf r)).getD o.verbose :=
  new_scalar (·.verbose) _ _ o langs r (fun _ _ => rfl) (fun _ _ => rfl) (fun _ _ => rfl)
    (fun h m => by cases m <;> simp [Hdl.mark, Marker.verboseOf]) (by intros; assumption)
theorem new_waves : (Hdl.new o langs r).waves = (latest Marker.wavesOf (markersOf r)).getD o.waves :=
  new_scalar (·.waves) _ _ o langs r (fun _ _ => rfl) (fun _ _ => rfl) (fun _ _ => rfl)
    (fun h m => by cases m <;> simp [Hdl.mark, Marker.wavesOf]) (by intros; assumption)
theorem new_seed : (Hdl.new o langs r).seed = (latest Marker.seedOf (markersOf r)).getD (.int o.seed) :=
  new_scalar (·.seed) _ _ o langs r (fun _ _ => rfl) (fun _ _ => rfl) (fun _ _ => rfl)
    (fun h m => by cases m <;> simp [Hdl.mark, Marker.seedOf]) (by intros; assumption)
theorem new_timescale : (Hdl.new o langs r).timescale = (latest Marker.timescaleOf (markersOf r)).or o.timescale := by
  have := new_scalar (·.timescale) (fun m => (Marker.timescaleOf m).map some) o.timescale o langs r (fun _ _ => rfl) (fun _ _ => rfl)
    (fun _ _ => rfl) (fun h m => by
      cases m with
      | timescale u p =>
        cases p with
        | none => simp [Hdl.mark, Marker.timescaleOf, orText]
        | some p => cases p <;> simp [Hdl.mark, Marker.timescaleOf, orText]
      | _ => simp [Hdl.mark, Marker.timescaleOf]) (by intros; assumption)
  rw [this, latest_some]
  cases latest Marker.timescaleOf (markersOf r) <;> rfl

theorem new_fixed {β : Type} (p : Hdl → β) (init : β)
    (h1 : ∀ h m, p { h with testModule := m } = p h) (h2 : ∀ h t, p { h with toplevel := t } = p h)
    (h3 : ∀ h l, p { h with toplevelLang := l } = p h)
    (hg : ∀ h m, p (h.mark m) = p h)
    (h0 : ∀ h : Hdl, h.library = o.library → h.always = o.always → h.clean = o.clean → h.verbose = o.verbose →
      h.timescale = o.timescale → h.waves = o.waves → h.seed = .int o.seed → h.gui = o.gui → h.buildDir = r.dir → h.testDir = r.dir →
      h.toplevelLibrary = o.toplevelLibrary → h.gpiInterfaces = o.gpiInterfaces → h.includes.tuple = false →
      h.buildArgs.tuple = false → h.elabArgs.tuple = false → h.testArgs.tuple = false → h.plusargs.tuple = false →
      h.preCmd.tuple = false → p h = init) : p (Hdl.new o langs r) = init := by
  rw [new_scalar p (fun _ => none) init o langs r h1 h2 h3 (fun h m => by simp [hg]) h0, latest_none]; rfl

theorem new_gui : (Hdl.new o langs r).gui = o.gui :=
  new_fixed o langs r (·.gui) _ (fun _ _ => rfl) (fun _ _ => rfl) (fun _ _ => rfl) (fun h m => by cases m <;> rfl) (by intros; assumption)
theorem new_buildDir : (Hdl.new o langs r).buildDir = r.dir :=
  new_fixed o langs r (·.buildDir) _ (fun _ _ => rfl) (fun _ _ => rfl) (fun _ _ => rfl) (fun h m => by cases m <;> rfl) (by intros; assumption)
theorem new_testDir : (Hdl.new o langs r).testDir = r.dir :=
  new_fixed o langs r (·.testDir) _ (fun _ _ => rfl) (fun _ _ => rfl) (fun _ _ => rfl) (fun h m => by cases m <;> rfl) (by intros; assumption)
theorem new_toplevelLibrary : (Hdl.new o langs r).toplevelLibrary = o.toplevelLibrary :=
  new_fixed o langs r (·.toplevelLibrary) _ (fun _ _ => rfl) (fun _ _ => rfl) (fun _ _ => rfl) (fun h m => by cases m <;> rfl) (by intros; assumption)
theorem new_gpiInterfaces : (Hdl.new o langs r).gpiInterfaces = o.gpiInterfaces :=
  new_fixed o langs r (·.gpiInterfaces) _ (fun _ _ => rfl) (fun _ _ => rfl) (fun _ _ => rfl) (fun h m => by cases m <;> rfl) (by intros; assumption)
theorem new_includes_list : (Hdl.new o langs r).includes.tuple = false :=
  new_fixed o langs r (·.includes.tuple) _ (fun _ _ => rfl) (fun _ _ => rfl) (fun _ _ => rfl) (fun h m => by cases m <;> rfl) (by intros; assumption)
theorem new_buildArgs_list : (Hdl.new o langs r).buildArgs.tuple = false :=
  new_fixed o langs r (·.buildArgs.tuple) _ (fun _ _ => rfl) (fun _ _ => rfl) (fun _ _ => rfl) (fun h m => by cases m <;> rfl) (by intros; assumption)
theorem new_elabArgs_list : (Hdl.new o langs r).elabArgs.tuple = false :=
  new_fixed o langs r (·.elabArgs.tuple) _ (fun _ _ => rfl) (fun _ _ => rfl) (fun _ _ => rfl) (fun h m => by cases m <;> rfl) (by intros; assumption)
theorem new_testArgs_list : (Hdl.new o langs r).testArgs.tuple = false :=
  new_fixed o langs r (·.testArgs.tuple) _ (fun _ _ => rfl) (fun _ _ => rfl) (fun _ _ => rfl) (fun h m => by cases m <;> rfl) (by intros; assumption)
theorem new_plusargs_list : (Hdl.new o langs r).plusargs.tuple = false :=
  new_fixed o langs r (·.plusargs.tuple) _ (fun _ _ => rfl) (fun _ _ => rfl) (fun _ _ => rfl) (fun h m => by cases m <;> rfl) (by intros; assumption)
theorem new_preCmd_list : (Hdl.new o langs r).preCmd.tuple = false :=
  new_fixed o langs r (·.preCmd.tuple) _ (fun _ _ => rfl) (fun _ _ => rfl) (fun _ _ => rfl) (fun h m => by cases m <;> rfl) (by intros; assumption)
end

/-! ### Arguments -/

theorem orArg_list {α : Type} (a : Option (List α)) (b : List α) (h : a ≠ some []) : orArg emptyList a b = a.getD b := by
  cases a with
  | none => rfl
  | some l => cases l with
    | nil => exact absurd rfl h
    | cons x l => rfl

theorem orArg_seq (a : Option Seq) (b : Seq) (l : List Text) (h : ∀ s, a = some s → s.items ≠ []) (h2 : ∀ s, a = some s → s.tuple = false)
    (hb : b.tuple = false) : (orArg emptySeq a b).plus l = .ok ((a.map (·.items)).getD b.items ++ l) := by
  cases a with
  | none => simp [orArg, Seq.plus, hb]
  | some s =>
    have := h s rfl
    simp [orArg, emptySeq, Seq.plus, this, h2 s rfl]

theorem merge_dict (a : Option Dict) (b : Dict) (e : Dict) (n : Text) (h : a ≠ some []) :
    dictGet (merge (orArg emptyList a (merge [] b)) e) n = (valueFor e n).or ((a.map (dictGet · n)).getD (valueFor b n)) := by
  rw [dictGet_merge, orArg_list _ _ h]
  cases a with
  | none => simp only [Option.getD_none, dictGet_merge, Option.map_none]; simp [dictGet]
  | some d => simp

/-- The full claim: an argument of `build` that is given, else the markers, else the option, reaches the runner's `build`. -/
def C135_build_full : Prop := ∀ (o : Options) (langs : List Text) (r : Request) (a : BuildArgs),
  ∃ c, (Hdl.new o langs r).build o a = .ok c ∧ WantedBuild o (markersOf r) r.dir a c

/-- **C135** Except for arguments that are empty and tuples, an argument of `build` that is given, else the markers, else the option,
reaches the runner's `build`; words of the command line come last, names and values of the command line replace others. -/
theorem C135_build_partial (o : Options) (langs : List Text) (r : Request) (a : BuildArgs) (h1 : BuildArgsFull a) (h2 : BuildArgsLists a) :
    ∃ c, (Hdl.new o langs r).build o a = .ok c ∧ WantedBuild o (markersOf r) r.dir a c := by
  unfold Hdl.build
  simp only [orArg_seq _ _ _ h1.includes h2.includes (new_includes_list o langs r),
    orArg_seq _ _ _ h1.buildArgs h2.buildArgs (new_buildArgs_list o langs r)]
  refine ⟨_, rfl, ?_⟩
  constructor
  · simp only [orArg_list _ _ h1.library, new_library]
  · simp only [orArg_list _ _ h1.sources, new_sources]
  · simp only [new_includes]
  · simp only [new_buildArgs]
  · intro n
    simp only [new_defines]
    exact merge_dict _ _ _ _ h1.defines
  · intro n
    simp only [new_parameters]
    exact merge_dict _ _ _ _ h1.parameters
  · simp only [new_timescale]
  · simp only [new_always]
  · simp only [new_clean]
  · simp only [new_verbose]
  · simp only [new_waves]
  · simp only [orArg_list _ _ h1.buildDir, new_buildDir]
  · simp only [orArg_list _ _ h1.buildDir, orArg_list _ _ h1.cwd, new_buildDir]

/-- The full claim for `test`. -/
def C135_test_full : Prop := ∀ (o : Options) (langs : List Text) (r : Request) (xcelium : Bool) (a : TestArgs),
  ∃ c, (Hdl.new o langs r).test o xcelium a = .ok c ∧ WantedTest o (markersOf r) r.dir xcelium a c

theorem orArg_seed (a : Option Seed) (b : Seed) (h : a ≠ some (.int 0) ∧ a ≠ some (.str [])) : orArg falsySeed a b = a.getD b := by
  cases a with
  | none => rfl
  | some s =>
    cases s with
    | int n =>
      have : n ≠ 0 := fun e => h.1 (by rw [e])
      simp [orArg, falsySeed, this]
    | str t =>
      cases t with
      | nil => exact absurd rfl h.2
      | cons x t => rfl

theorem getD_empty {α : Type} (l : List α) [Decidable (l = [])] : (if l = [] then none else some l).getD [] = l := by
  split
  · next h => simp [h]
  · rfl

/-- **C135** The same for `test`. -/
theorem C135_test_partial (o : Options) (langs : List Text) (r : Request) (xcelium : Bool) (a : TestArgs)
    (h1 : TestArgsFull a) (h2 : TestArgsLists a) :
    ∃ c, (Hdl.new o langs r).test o xcelium a = .ok c ∧ WantedTest o (markersOf r) r.dir xcelium a c := by
  unfold Hdl.test
  simp only [orArg_seq _ _ _ h1.elabArgs h2.elabArgs (new_elabArgs_list o langs r),
    orArg_seq _ _ _ h1.testArgs h2.testArgs (new_testArgs_list o langs r),
    orArg_seq _ _ _ h1.plusargs h2.plusargs (new_plusargs_list o langs r),
    orArg_seq _ _ _ h1.preCmd h2.preCmd (new_preCmd_list o langs r)]
  refine ⟨_, rfl, ?_⟩
  constructor
  · simp only [orArg_seed _ _ h1.seed, new_seed]
  · simp only [new_elabArgs]
  · simp only [new_testArgs]
  · simp only [new_plusargs]
  · simp only [new_preCmd, getD_empty]
  · intro n
    simp only [new_parameters, getD_empty]
    exact merge_dict _ _ _ _ h1.parameters
  · intro n
    simp only [new_env]
    exact merge_dict _ _ _ _ h1.env
  · simp only [new_timescale]
  · simp only [new_verbose]
  · simp only [new_waves]
  · simp only [new_gui]
  · simp only [orArg_list _ _ h1.toplevelLibrary, new_toplevelLibrary]
  · simp only [getD_empty, orArg_list _ _ h1.gpiInterfaces, new_gpiInterfaces]
  · simp only [orArg_list _ _ h1.buildDir, new_buildDir]
  · simp only [orArg_list _ _ h1.testDir, new_testDir]
  · simp only [orArg_list _ _ h1.testDir, new_testDir]

/-- Options of an example. -/
def hdlOptions : Options where
  library := lit "top"
  always := false
  clean := false
  verbose := true
  timescale := some (lit "1ns", lit "1ps")
  waves := false
  gui := false
  toplevelLibrary := lit "top"
  toplevelLang := lit "auto"
  gpiInterfaces := []
  seed := 7
  buildArgs := [lit "-O3"]
  includes := []
  elabArgs := []
  testArgs := []
  plusargs := [lit "+trace"]
  preCmd := []
  parameters := [(lit "W", lit "16")]
  defines := []
  env := []

/-- A test with markers at the module and at the function. -/
def hdlRequest : Request where
  session := false
  fileName := lit "test_dff.py"
  dir := lit "/b/test_dff"
  parents := [[.seed (.int 5), .parameters [(lit "W", lit "8"), (lit "D", lit "2")]], [.seed (.int 4), .sources [lit "dff.v"], .plusargs [lit "+a"]], []]

/-- **C135** is false of an empty argument: it does not replace the markers. -/
theorem C135_build_counterexample : ¬ C135_build_full := by
  intro h
  obtain ⟨c, h1, h2⟩ := h hdlOptions [] hdlRequest { sources := some [] }
  have h3 := h2.sources
  have h4 : (((Hdl.new hdlOptions [] hdlRequest).build hdlOptions { sources := some [] }).toOption.map (·.sources)) = some [lit "dff.v"] := by
    decide +kernel
  rw [h1] at h4
  simp only [Except.toOption, Option.map_some, Option.some.injEq] at h4
  rw [h4] at h3
  exact absurd h3 (by decide +kernel)

/-- **C135** is false of a tuple: `build(includes=("inc",))` fails. -/
theorem C135_build_tuple_counterexample : ¬ ∃ c, (Hdl.new hdlOptions [] hdlRequest).build hdlOptions
    { includes := some ⟨true, [lit "inc"]⟩ } = .ok c := by
  rintro ⟨c, h⟩
  have : ((Hdl.new hdlOptions [] hdlRequest).build hdlOptions { includes := some ⟨true, [lit "inc"]⟩ }).toOption = none := by decide +kernel
  rw [h] at this
  cases this

/-- **C135** is false of the seed 0: the seed of the markers is taken. -/
theorem C135_test_counterexample : ¬ C135_test_full := by
  intro h
  obtain ⟨c, h1, h2⟩ := h hdlOptions [] hdlRequest false { seed := some (.int 0) }
  have h3 := h2.seed
  have h4 : (((Hdl.new hdlOptions [] hdlRequest).test hdlOptions false { seed := some (.int 0) }).toOption.map (·.seed)) = some (.int 5) := by
    decide +kernel
  rw [h1] at h4
  simp only [Except.toOption, Option.map_some, Option.some.injEq] at h4
  rw [h4] at h3
  exact absurd h3 (by decide +kernel)

example : ((Hdl.new hdlOptions [lit "vpi"] hdlRequest).test hdlOptions false { plusargs := some ⟨false, [lit "+b"]⟩ }).toOption.map
    (fun c => (c.seed, c.plusargs)) = some (.int 5, [lit "+b", lit "+trace"]) := by decide +kernel
example : ((Hdl.new hdlOptions [lit "vpi"] hdlRequest).test hdlOptions false {}).toOption.map (fun c => (c.parameters.getD [], c.toplevelLang)) =
    some ([(lit "W", lit "16"), (lit "D", lit "2")], some (lit "vpi")) := by decide +kernel
example : TestArgsFull { plusargs := some ⟨false, [lit "+b"]⟩ } := by
  constructor <;> first | decide | (intro s h; cases h) | (constructor <;> decide)
example : TestArgsLists { plusargs := some ⟨false, [lit "+b"]⟩ } := by
  constructor <;> intro s h <;> cases h
  rfl

end Verif
