import Verif.Lemmas.Env
/-!
# C63, C71, C78-C81: environment variables, plusargs, the random seed, the top-level object, previews, entry points
-/
namespace Verif
open Verif.Env Verif.EnvSpec

/-! ### C63 -/

/-- Every text has exactly one trimmed form, so the theorems below speak about every value. -/
theorem C63_trim (v : Text) : (∃ t, Trimmed v t) ∧ ∀ t u, Trimmed v t → Trimmed v u → t = u :=
  ⟨⟨_, strip_trimmed v⟩, fun _ _ h1 h2 => (strip_eq h1).symm.trans (strip_eq h2)⟩

/-- **C63** `get_str` returns the value without the blanks around it; for an unset or blank variable the default. -/
theorem C63_str (env : Environ) (name : Text) (d : Option Text) :
    (env name = none → getStr env name d = d.getD []) ∧
    ∀ v t, env name = some v → Trimmed v t → getStr env name d = if t = [] then d.getD [] else t := by
  refine ⟨fun h => ?_, fun v t h ht => ?_⟩
  · simp [getStr, h, stripText, orText]
  · simp [getStr, h, strip_eq ht, orText]

theorem getStr_none {env : Environ} {name v t : Text} (h : env name = some v) (ht : Trimmed v t) :
    getStr env name none = t := by
  rw [(C63_str env name none).2 v t h ht]
  split
  · next e => rw [e]; rfl
  · rfl

theorem getStr_unset {env : Environ} {name : Text} (h : env name = none) : getStr env name none = [] :=
  (C63_str env name none).1 h

/-- **C63** `as_bool` reads the documented spellings, in any case, and nothing else. -/
theorem C63_as_bool (U : Unicode) (hU : U.Ok) (t : Text) :
    (∀ b, asBool U t = .ok b ↔ Means b t) ∧ ((∀ b, ¬ Means b t) → asBool U t = .error .valueError) := by
  refine ⟨asBool_iff U hU t, fun h => ?_⟩
  cases hr : asBool U t with
  | error e => rw [asBool_error U t e hr]
  | ok b => exact absurd ((asBool_iff U hU t b).1 hr) (h b)

/-- **C63** `get_bool` reads the documented spellings, in any case and with blanks around them; an unset or blank
variable gives the default (False if there is none); everything else raises ValueError. -/
theorem C63_bool (U : Unicode) (hU : U.Ok) (env : Environ) (name : Text) (d : Option Bool) :
    (env name = none → getBool U env name d = .ok (d.getD false)) ∧
    ∀ v t, env name = some v → Trimmed v t →
      (t = [] → getBool U env name d = .ok (d.getD false)) ∧
      (t ≠ [] → ∀ b, getBool U env name d = .ok b ↔ Means b t) ∧
      (t ≠ [] → (∀ b, ¬ Means b t) → getBool U env name d = .error .valueError) := by
  unfold getBool
  refine ⟨fun h => ?_, fun v t h ht => ?_⟩
  · rw [getStr_unset h]; rfl
  · rw [getStr_none h ht]
    refine ⟨fun e => by simp [e], fun hne b => ?_, fun hne hb => ?_⟩
    · rw [if_neg hne]; exact asBool_iff U hU t b
    · rw [if_neg hne]; exact (C63_as_bool U hU t).2 hb

/-- A table that maps every character beyond ASCII to itself. -/
def plainUnicode : Unicode := ⟨fun c => [c], fun _ => none⟩

theorem plainUnicode_ok : plainUnicode.Ok := fun c hc => .inr ⟨c, by simp [plainUnicode], hc⟩

example : getBool plainUnicode (fun _ => some (ofStr " YeS\n".toList)) [] none = .ok true := by decide
example : getBool plainUnicode (fun _ => some (ofStr "ye s".toList)) [] none = .error .valueError := by decide
example : Means true (ofStr "YeS".toList) := ⟨"yes", by decide, by simp [ofStr, Spells, SameLetter]⟩
example : Trimmed (ofStr " YeS\n".toList) (ofStr "YeS".toList) :=
  ⟨ofStr " ".toList, ofStr "\n".toList, by decide, by decide, by decide,
    by intro c h; simp [ofStr] at h; subst h; decide, by intro c h; simp [ofStr] at h; subst h; decide⟩

/-- **C63** `get_list` returns the parts between separators without the blanks around them, in order and without the
blank ones; if nothing is left, the default. -/
theorem C63_list (env : Environ) (name : Text) (d : Option (List Text)) (sep : Nat) (hs : isBlank sep = false) :
    (env name = none → getList env name d [sep] = .ok (d.getD [])) ∧
    ∀ fs gs : List Text, fs ≠ [] → (∀ f ∈ fs, sep ∉ f) → fs.length = gs.length →
      (∀ (i : Nat) f g, fs[i]? = some f → gs[i]? = some g → Trimmed f g) →
      env name = some (fs.intersperse [sep]).flatten →
      getList env name d [sep] =
        .ok (if (gs.filter fun g => decide (g ≠ [])) = [] then d.getD [] else gs.filter fun g => decide (g ≠ [])) := by
  refine ⟨fun h => ?_, fun fs gs hne hf hlen hg h => ?_⟩
  · unfold getList
    rw [getStr_unset h]
    simp [splitText, splitGo, stripText, bind, Except.bind, pure, Except.pure]
  · have ht := strip_trimmed (fs.intersperse [sep]).flatten
    have hmap : (splitGo [sep] 0 (stripText (fs.intersperse [sep]).flatten)).map stripText = gs := by
      rw [← fields_trimmed hs ht, splitGo_join hne hf]
      refine List.ext_getElem? fun i => ?_
      rw [List.getElem?_map]
      by_cases hi : i < fs.length
      · have h1 : fs[i]? = some fs[i] := List.getElem?_eq_getElem hi
        have h2 : gs[i]? = some (gs[i]'(hlen ▸ hi)) := List.getElem?_eq_getElem (hlen ▸ hi)
        rw [h1, h2]
        exact congrArg some (strip_eq (hg i _ _ h1 h2))
      · rw [List.getElem?_eq_none (by omega), List.getElem?_eq_none (by omega)]; rfl
    unfold getList
    rw [getStr_none h ht]
    simp only [splitText, List.cons_ne_self, reduceCtorEq, if_false, bind, Except.bind, pure, Except.pure, hmap]

/-- Every value is such a list of parts. -/
theorem C63_list_parts (sep : Nat) (v : Text) :
    ∃ fs : List Text, fs ≠ [] ∧ (∀ f ∈ fs, sep ∉ f) ∧ v = (fs.intersperse [sep]).flatten :=
  ⟨splitGo [sep] 0 v, splitGo_ne sep v, (join_splitGo sep v).2, (join_splitGo sep v).1⟩

example : getList (fun _ => some (ofStr " a, ,b c,,".toList)) [] none [44] = .ok [ofStr "a".toList, ofStr "b c".toList] := by
  decide
example : getList (fun _ => some (ofStr " , ".toList)) [] (some [ofStr "x".toList]) [44] = .ok [ofStr "x".toList] := by decide

/-- **C63** `get_int` reads a decimal integer with an optional sign and with blanks around it; an unset or blank variable
gives the default (0 if there is none); everything else raises ValueError. Stated for ASCII values; digits beyond
ASCII follow the Unicode table. -/
theorem C63_int (U : Unicode) (env : Environ) (name : Text) (d : Option Int) :
    (env name = none → getInt U env name d = .ok (d.getD 0)) ∧
    ∀ v t, env name = some v → Trimmed v t → (∀ c ∈ v, c < 128) →
      (t = [] → getInt U env name d = .ok (d.getD 0)) ∧
      (t ≠ [] → ∀ i, getInt U env name d = .ok i ↔ WritesInt t i) ∧
      (t ≠ [] → (∀ i, ¬ WritesInt t i) → getInt U env name d = .error .valueError) := by
  unfold getInt
  refine ⟨fun h => ?_, fun v t h ht hc => ?_⟩
  · rw [getStr_unset h]; rfl
  · rw [getStr_none h ht]
    have htt : Trimmed t t := by
      obtain ⟨a, b, e, h1, h2, h3, h4⟩ := ht
      exact ⟨[], [], by simp, by simp, by simp, h3, h4⟩
    have hct : ∀ c ∈ t, c < 128 := fun c hm => hc c (trimmed_mem ht c hm)
    refine ⟨fun e => by simp [e], fun hne i => ?_, fun hne hb => ?_⟩
    · rw [if_neg hne]; exact intOf_iff U htt hct i
    · rw [if_neg hne]
      cases hr : intOf U t with
      | error e => rw [intOf_error U t e hr]
      | ok i => exact absurd ((intOf_iff U htt hct i).1 hr) (hb i)

example : getInt plainUnicode (fun _ => some (ofStr " -1_20 ".toList)) [] none = .ok (-120) := by decide
example : getInt plainUnicode (fun _ => some (ofStr "1__2".toList)) [] none = .error .valueError := by decide
example : WritesInt (ofStr "-1_20".toList) (-120) :=
  ⟨120, .inr (.inr ⟨ofStr "1_20".toList, by decide, ⟨[[1], [2, 0]], by simp, by decide, by decide, by decide⟩, by decide⟩)⟩

/-! ### C71 -/

/-- **C71** `cocotb.plusargs` has a value for a name exactly if an argument `+name` or `+name=value` is given, and it is
the one of the last such argument. -/
theorem C71_plusargs (argv : List Text) (name : Text) (x : PlusVal) :
    dictGet (plusargs argv) name = some x ↔
      ∃ pre o post v, argv = pre ++ o :: post ∧ Plus o name v ∧ (∀ o' ∈ post, ∀ w, ¬ Plus o' name w) ∧
        x = match v with
          | some s => .str s
          | none => .true_ := by
  unfold plusargs
  rw [plusargs_get]
  have hval : ∀ v, valOf v = match v with
      | some s => PlusVal.str s
      | none => PlusVal.true_ := fun v => by cases v <;> rfl
  constructor
  · rintro (⟨pre, o, post, v, h1, h2, h3, h4⟩ | ⟨-, h⟩)
    · exact ⟨pre, o, post, v, h1, h2, h4, h3.trans (hval v)⟩
    · simp [dictGet] at h
  · rintro ⟨pre, o, post, v, h1, h2, h3, h4⟩
    exact .inl ⟨pre, o, post, v, h1, h2, h4.trans (hval v).symm, h3⟩

/-- **C71** Every name appears once. -/
theorem C71_names_once (argv : List Text) : ((plusargs argv).map (·.1)).Nodup := by
  unfold plusargs
  have : ∀ (argv : List Text) (d : List (Text × PlusVal)), (d.map (·.1)).Nodup → ((argv.foldl plusStep d).map (·.1)).Nodup := by
    intro argv
    induction argv with
    | nil => intro d h; exact h
    | cons o argv ih =>
      intro d h
      refine ih _ ?_
      rcases plus_dec o with ⟨n, v, hp⟩ | hn
      · rw [plusStep_plus hp]; exact dictSet_nodup h _ _
      · rw [plusStep_other hn]; exact h
  exact this argv [] (by simp)

example : plusargs (["sim", "+a=1=2", "+b", "-c", "+a=3"].map fun s => ofStr s.toList) =
    [(ofStr "a".toList, .str (ofStr "3".toList)), (ofStr "b".toList, .true_)] := by decide

/-! ### C78 -/

/-- **C78** Where the random seed comes from: `COCOTB_RANDOM_SEED` if set, else `RANDOM_SEED` if set (in both a blank
value means the time), else the last `+ntb_random_seed`, else the last `+seed`, else the time. -/
theorem C78_seed (U : Unicode) (env : Environ) (argv : List Text) (now : Int) :
    (∀ v t, env COCOTB_RANDOM_SEED = some v → Trimmed v t → (∀ c ∈ v, c < 128) →
      (t = [] → randomSeed U env (plusargs argv) now = .ok now) ∧
      (t ≠ [] → ∀ i, randomSeed U env (plusargs argv) now = .ok i ↔ WritesInt t i)) ∧
    (env COCOTB_RANDOM_SEED = none → ∀ v t, env RANDOM_SEED = some v → Trimmed v t → (∀ c ∈ v, c < 128) →
      (t = [] → randomSeed U env (plusargs argv) now = .ok now) ∧
      (t ≠ [] → ∀ i, randomSeed U env (plusargs argv) now = .ok i ↔ WritesInt t i)) ∧
    (env COCOTB_RANDOM_SEED = none → env RANDOM_SEED = none →
      (∀ v t, dictGet (plusargs argv) ntbSeed = some (.str v) → Trimmed v t → (∀ c ∈ v, c < 128) →
        ∀ i, randomSeed U env (plusargs argv) now = .ok i ↔ WritesInt t i) ∧
      (dictGet (plusargs argv) ntbSeed = none →
        (∀ v t, dictGet (plusargs argv) plusSeed = some (.str v) → Trimmed v t → (∀ c ∈ v, c < 128) →
          ∀ i, randomSeed U env (plusargs argv) now = .ok i ↔ WritesInt t i) ∧
        (dictGet (plusargs argv) plusSeed = none → randomSeed U env (plusargs argv) now = .ok now))) := by
  unfold randomSeed
  refine ⟨fun v t h ht hc => ?_, fun h0 v t h ht hc => ?_, fun h0 h1 => ⟨fun v t h ht hc i => ?_, fun h2 => ⟨fun v t h ht hc i => ?_, fun h => ?_⟩⟩⟩
  · have := (C63_int U env COCOTB_RANDOM_SEED (some now)).2 v t h ht hc
    simp only [h, Option.isSome_some, if_true]
    exact ⟨this.1, this.2.1⟩
  · have := (C63_int U env RANDOM_SEED (some now)).2 v t h ht hc
    simp only [h0, h, Option.isSome_none, Option.isSome_some, if_true, Bool.false_eq_true, if_false]
    exact ⟨this.1, this.2.1⟩
  · simp only [h0, h1, h, Option.isSome_none, Bool.false_eq_true, if_false]
    exact intOf_iff U ht hc i
  · simp only [h0, h1, h2, h, Option.isSome_none, Bool.false_eq_true, if_false]
    exact intOf_iff U ht hc i
  · simp only [h0, h1, h2, h, Option.isSome_none, Bool.false_eq_true, if_false]

example : randomSeed plainUnicode (fun _ => none) (plusargs [ofStr "+seed=12".toList]) 7 = .ok 12 := by decide
example : randomSeed plainUnicode (fun n => if n = RANDOM_SEED then some (ofStr "5".toList) else none)
    (plusargs [ofStr "+seed=12".toList]) 7 = .ok 5 := by decide

/-! ### C79 -/

/-- The listed objects, as `cocotb.tops` keeps them: under each folded name the last one. -/
theorem listTops_get (fold : Text → Text) (R : Roots) (k : Text) (h : Nat) :
    dictGet (listTops fold R) k = some h ↔
      ∃ pre n post, R.listed = pre ++ (h, n) :: post ∧ fold n = k ∧ ∀ x ∈ post, fold x.2 ≠ k := by
  unfold listTops
  have : ∀ (l : List (Nat × Text)) (d : List (Text × Nat)),
      dictGet (l.foldl (fun d h => dictSet d (fold h.2) h.1) d) k = some h ↔
        (∃ pre n post, l = pre ++ (h, n) :: post ∧ fold n = k ∧ ∀ x ∈ post, fold x.2 ≠ k) ∨
        ((∀ x ∈ l, fold x.2 ≠ k) ∧ dictGet d k = some h) := by
    intro l
    induction l with
    | nil => simp
    | cons y l ih =>
      intro d
      rw [List.foldl_cons, ih]
      constructor
      · rintro (⟨pre, n, post, rfl, h1⟩ | ⟨h1, h2⟩)
        · exact .inl ⟨y :: pre, n, post, rfl, h1⟩
        · rw [dictGet_set] at h2
          split at h2
          · next e =>
            obtain rfl := Option.some.inj h2
            exact .inl ⟨[], y.2, l, rfl, e, h1⟩
          · next e => exact .inr ⟨fun x hx => (List.mem_cons.1 hx).elim (fun ex => ex ▸ e) (h1 x), h2⟩
      · rintro (⟨pre, n, post, h0, h1, h2⟩ | ⟨h1, h2⟩)
        · cases pre with
          | nil =>
            obtain ⟨rfl, rfl⟩ := List.cons.inj h0
            exact .inr ⟨h2, by rw [dictGet_set, if_pos h1]⟩
          | cons z pre =>
            obtain ⟨rfl, rfl⟩ := List.cons.inj h0
            exact .inl ⟨pre, n, post, rfl, h1, h2⟩
        · exact .inr ⟨fun x hx => h1 x (List.mem_cons_of_mem _ hx), by
            rw [dictGet_set, if_neg (h1 y List.mem_cons_self), h2]⟩
  rw [this]
  simp [dictGet]

/-- The name that `COCOTB_TOPLEVEL` asks for: without blanks around it and without a library before the first dot. -/
def Asks (toplevel : Option Text) (name : Option Text) : Prop :=
  match toplevel with
  | none => name = none
  | some v => ∃ t, Trimmed v t ∧
      if t = [] then name = none
      else (∃ lib n, 46 ∉ lib ∧ t = lib ++ 46 :: n ∧ name = some n) ∨ (46 ∉ t ∧ name = some t)

theorem rootName_iff (v : Option Text) (name : Option Text) : Asks v name ↔ rootName v = name := by
  cases v with
  | none => simp [Asks, rootName, eq_comm]
  | some v =>
    unfold Asks rootName
    simp only
    have hone : ∀ t, Trimmed v t ↔ t = stripText v :=
      fun t => ⟨fun h => (strip_eq h).symm, fun e => e ▸ strip_trimmed v⟩
    simp only [hone, exists_eq_left]
    by_cases h0 : stripText v = []
    · simp [h0, eq_comm]
    · simp only [if_neg h0]
      by_cases h1 : 46 ∈ stripText v
      · simp only [h1, if_true, not_true, false_and, or_false]
        constructor
        · rintro ⟨lib, n, h2, h3, rfl⟩
          rw [h3, splitOnce_app h2]
        · rintro rfl
          obtain ⟨a, b, e, ha⟩ := first_of_mem h1
          exact ⟨a, b, ha, e, by rw [e, splitOnce_app ha]⟩
      · simp only [h1, if_false, not_false_eq_true, true_and]
        constructor
        · rintro (⟨lib, n, -, h3, -⟩ | h)
          · exact absurd (by rw [h3]; simp) h1
          · exact h.symm
        · exact fun h => .inr h.symm

/-- **C79** `cocotb.top`: if a name is asked for and a listed object has it up to case, the last such object; otherwise
the object the simulator finds; if it finds none, RuntimeError. -/
theorem C79_top (fold : Text → Text) (R : Roots) (v : Option Text) (name : Option Text) (hn : Asks v name) :
    (∀ n h, name = some n → (∃ pre m post, R.listed = pre ++ (h, m) :: post ∧ fold m = fold n ∧ ∀ x ∈ post, fold x.2 ≠ fold n) →
      ∃ tops, rootHandle fold R v = .ok (h, tops)) ∧
    ((∀ n, name = some n → ∀ x ∈ R.listed, fold x.2 ≠ fold n) →
      match R.find name with
      | some x => ∃ tops, rootHandle fold R v = .ok (x.1, tops)
      | none => rootHandle fold R v = .error .runtimeError) := by
  have hr := (rootName_iff v name).1 hn
  unfold rootHandle
  simp only [hr]
  refine ⟨fun n h e hl => ?_, fun hl => ?_⟩
  · subst e
    have := (listTops_get fold R (fold n) h).2 hl
    simp only [Option.bind_some, this]
    exact ⟨_, rfl⟩
  · have hnone : (name.bind fun n => dictGet (listTops fold R) (fold n)) = none := by
      cases name with
      | none => rfl
      | some n =>
        simp only [Option.bind_some]
        cases hd : dictGet (listTops fold R) (fold n) with
        | none => rfl
        | some h =>
          obtain ⟨pre, m, post, h1, h2, -⟩ := (listTops_get fold R (fold n) h).1 hd
          exact absurd h2 (hl n rfl (h, m) (by rw [h1]; simp))
    simp only [hnone]
    cases hf : R.find name with
    | none => rfl
    | some x =>
      obtain ⟨h, m⟩ := x
      cases name <;> exact ⟨_, rfl⟩

/-- **C79** `cocotb.top` is in `cocotb.tops`, and so is an object for every listed name. -/
theorem C79_tops (fold : Text → Text) (R : Roots) (v : Option Text) (top : Nat) (tops : List (Text × Nat))
    (h : rootHandle fold R v = .ok (top, tops)) :
    (∃ k, dictGet tops k = some top) ∧ ∀ x ∈ R.listed, ∃ y, dictGet tops (fold x.2) = some y := by
  have hlisted : ∀ x ∈ R.listed, ∃ y, dictGet (listTops fold R) (fold x.2) = some y := by
    intro x hx
    cases hd : dictGet (listTops fold R) (fold x.2) with
    | some y => exact ⟨y, rfl⟩
    | none =>
      exfalso
      have key : ∀ l : List (Nat × Text), (∃ z ∈ l, fold z.2 = fold x.2) →
          ∃ pre z post, l = pre ++ z :: post ∧ fold z.2 = fold x.2 ∧ ∀ w ∈ post, fold w.2 ≠ fold x.2 := by
        intro l
        induction l with
        | nil => rintro ⟨z, hz, -⟩; simp at hz
        | cons y l ih =>
          intro hz
          by_cases hl : ∃ z ∈ l, fold z.2 = fold x.2
          · obtain ⟨pre, z, post, rfl, h1⟩ := ih hl
            exact ⟨y :: pre, z, post, rfl, h1⟩
          · obtain ⟨z, hz, he⟩ := hz
            rcases List.mem_cons.1 hz with rfl | hz
            · exact ⟨[], z, l, rfl, he, fun w hw e => hl ⟨w, hw, e⟩⟩
            · exact absurd ⟨z, hz, he⟩ hl
      obtain ⟨pre, z, post, h1, h2, h3⟩ := key R.listed ⟨x, hx, rfl⟩
      rw [(listTops_get fold R (fold x.2) z.1).2 ⟨pre, z.2, post, h1, h2, h3⟩] at hd
      simp at hd
  have hset : ∀ k w, ∀ x ∈ R.listed, ∃ y, dictGet (dictSet (listTops fold R) k w) (fold x.2) = some y := by
    intro k w x hx
    rw [dictGet_set]
    split
    · exact ⟨_, rfl⟩
    · exact hlisted x hx
  unfold rootHandle at h
  simp only at h
  split at h
  · next hh =>
    simp only [Except.ok.injEq, Prod.mk.injEq] at h
    obtain ⟨rfl, rfl⟩ := h
    cases hr : rootName v with
    | none => rw [hr] at hh; simp at hh
    | some n =>
      rw [hr] at hh
      exact ⟨⟨fold n, hh⟩, hlisted⟩
  · split at h
    · simp at h
    · split at h
      · simp only [Except.ok.injEq, Prod.mk.injEq] at h
        obtain ⟨rfl, rfl⟩ := h
        exact ⟨⟨_, dictGet_set_same _ _ _⟩, hset _ _⟩
      · simp only [Except.ok.injEq, Prod.mk.injEq] at h
        obtain ⟨rfl, rfl⟩ := h
        exact ⟨⟨_, dictGet_set_same _ _ _⟩, hset _ _⟩

/-- The full claim: if a listed object has exactly the name asked for, it is `cocotb.top`. -/
def C79_exact_full : Prop :=
  ∀ (fold : Text → Text) (R : Roots) (v : Option Text) (n : Text) (h : Nat), Asks v (some n) → (h, n) ∈ R.listed →
    (∀ x ∈ R.listed, x.2 = n → x.1 = h) → ∃ tops, rootHandle fold R v = .ok (h, tops)

/-- It is false: with top-level modules `Top` and `top`, asking for `Top` gives `top`. -/
theorem C79_exact_counterexample : ¬ C79_exact_full := by
  intro h
  have := h (lowerText plainUnicode) ⟨[(0, ofStr "Top".toList), (1, ofStr "top".toList)], fun _ => none⟩
    (some (ofStr "Top".toList)) (ofStr "Top".toList) 0 ((rootName_iff _ _).2 (by decide)) (by simp) (by decide)
  obtain ⟨tops, h⟩ := this
  have hr : rootHandle (lowerText plainUnicode) ⟨[(0, ofStr "Top".toList), (1, ofStr "top".toList)], fun _ => none⟩
      (some (ofStr "Top".toList)) = .ok (1, [(ofStr "top".toList, 1)]) := by decide
  rw [hr] at h
  simp at h

/-- **C79 (partial)** It holds if no two listed objects have names that differ only in case. -/
theorem C79_exact_partial (fold : Text → Text) (R : Roots) (v : Option Text) (n : Text) (h : Nat) (hn : Asks v (some n))
    (hm : (h, n) ∈ R.listed) (hd : (R.listed.map fun x => fold x.2).Nodup) :
    ∃ tops, rootHandle fold R v = .ok (h, tops) := by
  refine (C79_top fold R v (some n) hn).1 n h rfl ?_
  obtain ⟨pre, post, e⟩ := List.append_of_mem hm
  refine ⟨pre, n, post, e, rfl, fun x hx he => ?_⟩
  rw [e, List.map_append, List.map_cons, List.nodup_append] at hd
  exact (List.nodup_cons.1 hd.2.1).1 (List.mem_map.2 ⟨x, hx, he⟩)

example : rootHandle (lowerText plainUnicode) ⟨[(0, ofStr "tb".toList), (1, ofStr "dut".toList)], fun _ => none⟩
    (some (ofStr " work.DUT ".toList)) = .ok (1, [(ofStr "tb".toList, 0), (ofStr "dut".toList, 1)]) := by decide

/-! ### C80 -/

/-- The full claim: blanks around a flag do not matter, as for the other variables. -/
def C80_flag_full : Prop :=
  ∀ (U : Unicode), U.Ok → ∀ (known : List Text) (v t : Text), Trimmed v t →
    (Means true t → previewInit U known (some v) = .ok known) ∧ (Means false t → previewInit U known (some v) = .ok [])

/-- It is false: `COCOTB_PREVIEW=" 1"` raises ValueError. -/
theorem C80_flag_counterexample : ¬ C80_flag_full := by
  intro h
  have := (h plainUnicode plainUnicode_ok [] (ofStr " 1".toList) (ofStr "1".toList) (by
    rw [show ofStr "1".toList = stripText (ofStr " 1".toList) by decide]; exact strip_trimmed _)).1
    ⟨"1", by decide, by simp [ofStr, Spells, SameLetter]⟩
  exact absurd this (by decide)

/-- **C80 (partial)** A flag without blanks around it enables all features or none; no value enables none. -/
theorem C80_flag_partial (U : Unicode) (hU : U.Ok) (known : List Text) :
    previewInit U known none = .ok [] ∧ previewInit U known (some []) = .ok [] ∧
    (∀ t, Means true t → previewInit U known (some t) = .ok known) ∧
    (∀ t, Means false t → previewInit U known (some t) = .ok []) := by
  refine ⟨rfl, rfl, fun t h => ?_, fun t h => ?_⟩ <;>
  · obtain ⟨c, r, rfl⟩ := List.exists_cons_of_ne_nil (means_nonempty h)
    show (match asBool U (c :: r) with | .ok true => _ | .ok false => _ | .error _ => _) = _
    rw [(asBool_iff U hU _ _).2 h]

theorem parseFeatures_eq (known : List Text) (fs : List Text) :
    ((∀ f ∈ fs, stripText f ≠ [] → stripText f ∈ known) →
      parseFeatures known fs = .ok ((fs.map stripText).filter fun g => decide (g ≠ []))) ∧
    ((∃ f ∈ fs, stripText f ≠ [] ∧ stripText f ∉ known) → parseFeatures known fs = .error .valueError) := by
  induction fs with
  | nil => exact ⟨fun _ => rfl, fun ⟨f, hf, _⟩ => by simp at hf⟩
  | cons f fs ih =>
    rw [parseFeatures]
    by_cases h0 : stripText f = []
    · rw [if_pos h0]
      refine ⟨fun h => ?_, fun ⟨g, hg, h1, h2⟩ => ?_⟩
      · rw [ih.1 fun x hx => h x (List.mem_cons_of_mem _ hx)]
        simp [h0]
      · rcases List.mem_cons.1 hg with rfl | hg
        · exact absurd h0 h1
        · exact ih.2 ⟨g, hg, h1, h2⟩
    · rw [if_neg h0]
      by_cases hk : stripText f ∈ known
      · rw [if_neg (by simpa using hk)]
        refine ⟨fun h => ?_, fun ⟨g, hg, h1, h2⟩ => ?_⟩
        · rw [ih.1 fun x hx => h x (List.mem_cons_of_mem _ hx)]
          simp [h0, bind, Except.bind, pure, Except.pure]
        · rcases List.mem_cons.1 hg with rfl | hg
          · exact absurd hk h2
          · rw [ih.2 ⟨g, hg, h1, h2⟩]; rfl
      · rw [if_pos (by simpa using hk)]
        exact ⟨fun h => absurd (h f List.mem_cons_self h0) hk, fun _ => rfl⟩

/-- **C80** Any other value is a list of features: exactly those named are enabled, or ValueError is raised if one is
unknown. -/
theorem C80_list (U : Unicode) (hU : U.Ok) (known : List Text) (fs : List Text) (hne : fs ≠ [])
    (hf : ∀ f ∈ fs, 44 ∉ f) (hv : (fs.intersperse [44]).flatten ≠ []) (hb : ∀ b, ¬ Means b (fs.intersperse [44]).flatten) :
    ((∀ f ∈ fs, ∀ g, Trimmed f g → g ≠ [] → g ∈ known) →
      ∃ en, previewInit U known (some (fs.intersperse [44]).flatten) = .ok en ∧
        ∀ g, g ∈ en ↔ g ≠ [] ∧ ∃ f ∈ fs, Trimmed f g) ∧
    ((∃ f ∈ fs, ∃ g, Trimmed f g ∧ g ≠ [] ∧ g ∉ known) →
      previewInit U known (some (fs.intersperse [44]).flatten) = .error .valueError) := by
  have hp : previewInit U known (some (fs.intersperse [44]).flatten) = parseFeatures known fs := by
    have hs := splitGo_join hne hf
    generalize (fs.intersperse [44]).flatten = v at *
    obtain ⟨c, r, rfl⟩ := List.exists_cons_of_ne_nil hv
    show (match asBool U (c :: r) with | .ok true => _ | .ok false => _ | .error _ => _) = _
    rw [(C63_as_bool U hU _).2 hb]
    simp [splitText, bind, Except.bind, hs]
  rw [hp]
  refine ⟨fun h => ⟨_, (parseFeatures_eq known fs).1 fun f hf' h0 => h f hf' _ (strip_trimmed f) h0, fun g => ?_⟩,
    fun ⟨f, hf', g, h1, h2, h3⟩ => (parseFeatures_eq known fs).2 ⟨f, hf', by rw [strip_eq h1]; exact ⟨h2, h3⟩⟩⟩
  rw [List.mem_filter, List.mem_map]
  constructor
  · rintro ⟨⟨f, h1, rfl⟩, h2⟩
    exact ⟨of_decide_eq_true h2, f, h1, strip_trimmed f⟩
  · rintro ⟨h1, f, h2, h3⟩
    exact ⟨⟨f, h2, strip_eq h3⟩, decide_eq_true h1⟩

example : previewInit plainUnicode [ofStr "a".toList, ofStr "b".toList] (some (ofStr " b ,,".toList)) = .ok [ofStr "b".toList] := by
  decide
example : previewInit plainUnicode [ofStr "a".toList, ofStr "b".toList] (some (ofStr "Yes".toList)) =
    .ok [ofStr "a".toList, ofStr "b".toList] := by decide

/-! ### C81 -/

theorem twoParts_iff (s a b : Text) : twoParts s = some (a, b) ↔ 58 ∉ a ∧ 58 ∉ b ∧ s = a ++ 58 :: b := by
  unfold twoParts
  constructor
  · intro h
    obtain ⟨h1, h2⟩ := join_splitGo 58 s
    split at h
    · next x y e =>
      simp only [Option.some.injEq, Prod.mk.injEq] at h
      obtain ⟨rfl, rfl⟩ := h
      rw [e] at h1 h2
      refine ⟨h2 _ (by simp), h2 _ (by simp), ?_⟩
      rw [h1]; simp [List.intersperse]
    · simp at h
  · rintro ⟨ha, hb, rfl⟩
    rw [splitGo_field ha, splitGo_free hb]

theorem parseEntries_ok : ∀ (l : List Text), (∀ s ∈ l, ∃ a b, 58 ∉ a ∧ 58 ∉ b ∧ s = a ++ 58 :: b) →
    ∃ es, parseEntries l = .ok es ∧ l = es.map fun e => e.1 ++ 58 :: e.2
  | [], _ => ⟨[], rfl, rfl⟩
  | s :: l, h => by
    obtain ⟨a, b, h1⟩ := h s List.mem_cons_self
    obtain ⟨es, h2, h3⟩ := parseEntries_ok l fun x hx => h x (List.mem_cons_of_mem _ hx)
    refine ⟨(a, b) :: es, ?_, ?_⟩
    · rw [parseEntries, (twoParts_iff s a b).2 h1]
      simp [h2, bind, Except.bind, pure, Except.pure]
    · rw [List.map_cons, ← h3, h1.2.2]

theorem parseEntries_bad : ∀ (l : List Text), (∃ s ∈ l, ¬ ∃ a b, 58 ∉ a ∧ 58 ∉ b ∧ s = a ++ 58 :: b) →
    parseEntries l = .error .runtimeError
  | [], h => by obtain ⟨s, hs, -⟩ := h; simp at hs
  | s :: l, h => by
    rw [parseEntries]
    cases ht : twoParts s with
    | none => rfl
    | some e =>
      obtain ⟨s', hs, hb⟩ := h
      rcases List.mem_cons.1 hs with rfl | hs
      · exact absurd ⟨e.1, e.2, (twoParts_iff s' e.1 e.2).1 ht⟩ hb
      · simp only [parseEntries_bad l ⟨s', hs, hb⟩]; rfl

theorem runEntries_eq (fails : Text × Text → Bool) : ∀ es : List (Text × Text),
    (∀ pre e post, es = pre ++ e :: post → (∀ x ∈ pre, fails x = false) → fails e = true →
      runEntries fails es = (pre ++ [e], false)) ∧
    ((∀ e ∈ es, fails e = false) → runEntries fails es = (es, true))
  | [] => ⟨fun pre e post h => by simp at h, fun _ => rfl⟩
  | x :: es => by
    obtain ⟨ih1, ih2⟩ := runEntries_eq fails es
    refine ⟨fun pre e post h hp hf => ?_, fun h => ?_⟩
    · cases pre with
      | nil =>
        obtain ⟨rfl, rfl⟩ := List.cons.inj h
        simp [runEntries, hf]
      | cons y pre =>
        obtain ⟨rfl, h'⟩ := List.cons.inj h
        rw [runEntries, hp x List.mem_cons_self, ih1 pre e post h' (fun z hz => hp z (List.mem_cons_of_mem _ hz)) hf]
        simp
    · rw [runEntries, h x List.mem_cons_self, ih2 fun e he => h e (List.mem_cons_of_mem _ he)]
      simp

/-- **C81** Entry points: with a malformed one among them, none is called. Otherwise they are called in the order given;
one that fails is the last that is called. `l` is the list in `PYGPI_USERS`, or the default one. -/
theorem C81_entries (env : Environ) (fails : Text × Text → Bool) (l : List Text)
    (hl : getList env PYGPI_USERS (some defaultEntries) [44] = .ok l) :
    ((∃ s ∈ l, ¬ ∃ a b, 58 ∉ a ∧ 58 ∉ b ∧ s = a ++ 58 :: b) → loadEntry env fails = ([], false)) ∧
    ∀ es : List (Text × Text), (∀ e ∈ es, 58 ∉ e.1 ∧ 58 ∉ e.2) → l = (es.map fun e => e.1 ++ 58 :: e.2) →
      ((∀ e ∈ es, fails e = false) → loadEntry env fails = (es, true)) ∧
      (∀ pre e post, es = pre ++ e :: post → (∀ x ∈ pre, fails x = false) → fails e = true →
        loadEntry env fails = (pre ++ [e], false)) := by
  have hload : loadEntry env fails = match parseEntries l with
      | .ok es => runEntries fails es
      | .error _ => ([], false) := by
    unfold loadEntry
    rw [hl]; rfl
  refine ⟨fun h => ?_, fun es he h => ?_⟩
  · rw [hload, parseEntries_bad l h]
  · obtain ⟨es', h1, h2⟩ := parseEntries_ok l (by
      intro s hs
      rw [h] at hs
      obtain ⟨e, h1, rfl⟩ := List.mem_map.1 hs
      exact ⟨e.1, e.2, (he e h1).1, (he e h1).2, rfl⟩)
    have hes : es' = es := by
      have hp : ∀ (l : List (Text × Text)), (∀ e ∈ l, 58 ∉ e.1 ∧ 58 ∉ e.2) →
          parseEntries (l.map fun e => e.1 ++ 58 :: e.2) = .ok l := by
        intro l
        induction l with
        | nil => intro _; rfl
        | cons e l ih =>
          intro hh
          have := hh e List.mem_cons_self
          rw [List.map_cons, parseEntries, (twoParts_iff _ e.1 e.2).2 ⟨this.1, this.2, rfl⟩]
          simp only [ih fun x hx => hh x (List.mem_cons_of_mem _ hx)]
          rfl
      rw [h, hp es he] at h1
      exact (Except.ok.inj h1).symm
    rw [hload, h1, hes]
    exact ⟨(runEntries_eq fails es).2, (runEntries_eq fails es).1⟩

/-- **C81** Without `PYGPI_USERS` (unset, blank, or only separators) the four built-in entry points are called. -/
theorem C81_default (env : Environ) (h : env PYGPI_USERS = none) :
    loadEntry env (fun _ => false) = (["cocotb_tools._coverage", "cocotb.logging", "cocotb._init", "cocotb.regression"].zip
      ["start_cocotb_library_coverage", "_configure", "init_package_from_simulation", "_run_regression"] |>.map
        fun e => (ofStr e.1.toList, ofStr e.2.toList), true) := by
  unfold loadEntry
  rw [(C63_list env PYGPI_USERS (some defaultEntries) 44 (by decide)).1 h]
  decide +kernel

example : loadEntry (fun _ => some (ofStr "m:f, n:g,o:h".toList)) (fun e => e.1 == ofStr "n".toList) =
    ([(ofStr "m".toList, ofStr "f".toList), (ofStr "n".toList, ofStr "g".toList)], false) := by decide +kernel
example : loadEntry (fun _ => some (ofStr "m:f,n".toList)) (fun _ => false) = ([], false) := by decide +kernel

end Verif
