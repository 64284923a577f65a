import Verif.Spec.PytestOpt
import Verif.Props.Shlex
import Verif.Lemmas.Vhpi
import Verif.Lemmas.RunnerText
/-!
# C134: options of the pytest plugin
-/
namespace Verif

open Shlex Spec Env EnvSpec PytestOpt
open Runner (lit)

/-! ### Reading texts -/

theorem map_ok {α β : Type} {x : PyM α} {f : α → β} {b : β} : x.map f = .ok b ↔ ∃ a, x = .ok a ∧ f a = b := by
  cases x with
  | ok a => simp [Except.map]
  | error e => simp [Except.map]

theorem lower_ne {U : Unicode} (hU : U.Ok) {t : Text} (h : t ≠ []) : lowerText U t ≠ [] := by
  cases t with
  | nil => exact absurd rfl h
  | cons c t =>
    intro e
    simp only [lowerText, List.map_cons, List.flatten_cons, List.append_eq_nil_iff] at e
    have e := e.1
    unfold lowerChar at e
    split at e
    · split at e <;> simp at e
    · rcases hU c (by omega) with h | ⟨d, h, -⟩
      · simp [h] at e
      · simp [e] at h

theorem lower_plain {U : Unicode} {t : Text} (h : ∀ c ∈ t, 97 ≤ c ∧ c ≤ 122) : lowerText U t = t := by
  induction t with
  | nil => rfl
  | cons c t ih =>
    have hc := h c List.mem_cons_self
    have := ih (fun d hd => h d (List.mem_cons_of_mem _ hd))
    unfold lowerText at this ⊢
    simp only [List.map_cons, List.flatten_cons, this]
    unfold lowerChar
    rw [if_pos (by omega), if_neg (by omega)]
    rfl

/-- What the code takes for granted about an option: the default of a choice is a choice, written in small letters; `yes` and
`no` are no choices. -/
def PlainOpt (o : Opt) : Prop :=
  match o.kind with
  | .choice cs d => (∀ t, d = some t → t ∈ cs ∧ ∀ c ∈ t, 97 ≤ c ∧ c ≤ 122) ∧ lit "yes" ∉ cs ∧ lit "no" ∉ cs
  | _ => True

theorem table_plain (now : Int) : ∀ o ∈ table now, PlainOpt o := by
  intro o ho
  simp only [table, List.mem_cons, List.not_mem_nil, or_false] at ho
  rcases ho with h | h | h | h | h | h | h | h | h | h | h | h | h | h | h | h | h | h | h | h | h | h | h | h | h | h | h | h | h | h |
    h | h | h | h <;> subst h <;> first | trivial | skip
  all_goals
    refine ⟨fun t e => ?_, by decide, by decide⟩
    first
    | cases e; done
    | cases e
      decide +kernel

theorem getStr_given (env : Environ) (name : Text) (d : Option Text) :
    getStr env name d = orText (getStr env name none) (d.getD []) := by
  unfold getStr
  simp only [orText, Option.getD_none]
  repeat' split
  all_goals simp_all

theorem commaItems_iff (t : Text) (ws : List Text) :
    CommaItems t ws ↔ ws = ((splitGo [44] 0 t).map stripText).filter fun g => decide (g ≠ []) := by
  constructor
  · rintro ⟨fs, h1, h2, h3, h4⟩
    rw [h3, splitGo_join h1 h2]; exact h4
  · intro h
    exact ⟨_, splitGo_ne 44 t, (join_splitGo 44 t).2, (join_splitGo 44 t).1, h⟩

theorem getList_eq (env : Environ) (name : Text) (d : Option (List Text)) :
    getList env name d [44] = .ok (if ((splitGo [44] 0 (getStr env name none)).map stripText).filter (fun g => decide (g ≠ [])) = []
      then d.getD [] else ((splitGo [44] 0 (getStr env name none)).map stripText).filter fun g => decide (g ≠ [])) := rfl

theorem mean_unset (w : World) (hU : w.U.Ok) (env : Environ) (o : Opt) (hp : PlainOpt o) (h : getStr env o.env none = []) :
    addToParser w env o = .ok (unsetValue w o.kind) := by
  unfold addToParser
  unfold PlainOpt at hp
  split <;> rename_i hk <;> rw [hk] at hp ⊢
  · simp [getBool, h, unsetValue, Except.map]
  · rw [getList_eq, h]
    simp [splitGo, stripText, Except.map, unsetValue]
  · simp [getInt, h, unsetValue, Except.map]
  · simp [h, orText, unsetValue]
  · simp only [getArgs, h, orText, unsetValue]
    rfl
  · rename_i cs d
    rw [getStr_given, h]
    simp only [orText, if_true, unsetValue]
    cases d with
    | none => rfl
    | some t =>
      obtain ⟨h1, h2⟩ := hp.1 t rfl
      rw [Option.getD_some, lower_plain h2, if_pos (.inr h1)]
  · rw [getStr_given, h]
    simp [orText, unsetValue]

theorem mean_set (w : World) (hU : w.U.Ok) (env : Environ) (o : Opt) (hp : PlainOpt o) (t : Text) (h : getStr env o.env none = t)
    (ht : t ≠ []) (v : Val) : addToParser w env o = .ok v ↔ FromEnv w o.kind t v := by
  unfold addToParser
  unfold PlainOpt at hp
  split <;> rename_i hk <;> rw [hk] at hp ⊢
  · rw [getBool, h]
    simp only [if_neg ht, map_ok, asBool_iff w.U hU]
    exact ⟨fun ⟨b, h, e⟩ => e ▸ .flag t b h, fun h => by cases h with | flag _ b h => exact ⟨b, h, rfl⟩⟩
  · rename_i p d
    rw [getList_eq, h]
    simp only [map_ok, Except.ok.injEq, exists_eq_left', Option.getD_some]
    have hi := commaItems_iff t
    constructor
    · intro e
      subst e
      split
      · next he => exact .commas p d t ((hi []).2 he.symm)
      · next he => exact .many p d t _ ((hi _).2 rfl) he
    · intro h
      cases h with
      | many _ _ _ ws h1 h2 => rw [← (hi ws).1 h1, if_neg h2]
      | commas _ _ _ h1 => rw [← (hi []).1 h1, if_pos rfl]
  · rw [getInt, h]
    simp only [if_neg ht, map_ok]
    exact ⟨fun ⟨n, h, e⟩ => e ▸ .int _ t n h, fun h => by cases h with | int _ _ n h => exact ⟨n, h, rfl⟩⟩
  · rw [h]
    simp only [orText, if_neg ht, Except.ok.injEq]
    exact ⟨fun e => e ▸ .path _ t, fun h => by cases h; rfl⟩
  · rw [getArgs, h]
    simp only [orText, if_neg ht, map_ok, C130_split]
    exact ⟨fun ⟨n, h, e⟩ => e ▸ .args t n h, fun h => by cases h with | args _ n h => exact ⟨n, h, rfl⟩⟩
  · rename_i cs d
    rw [getStr_given, h]
    simp only [orText, if_neg ht]
    have hne := lower_ne hU ht
    constructor
    · intro e
      split at e
      · next hc =>
        cases e
        exact .choice cs d t (hc.resolve_left hne)
      · rw [if_neg (fun x => hp.2.1 x.1), if_neg (fun x => hp.2.2 x.1)] at e
        cases e
    · intro e
      cases e with
      | choice _ _ _ hc => rw [if_pos (.inr hc)]
  · rw [getStr_given, h]
    simp only [orText, if_neg ht, Except.ok.injEq]
    exact ⟨fun e => e ▸ .text _ t, fun h => by cases h; rfl⟩

theorem env_value_iff (w : World) (hU : w.U.Ok) (env : Environ) (o : Opt) (hp : PlainOpt o) (v : Val) :
    addToParser w env o = .ok v ↔ EnvValue w o.kind (env o.env) v := by
  cases he : env o.env with
  | none =>
    rw [mean_unset w hU env o hp (getStr_unset he)]
    exact ⟨fun e => by cases e; exact .unset, fun e => by cases e; rfl⟩
  | some e =>
    have hs := strip_trimmed e
    by_cases ht : stripText e = []
    · rw [mean_unset w hU env o hp ((getStr_none he hs).trans ht)]
      constructor
      · intro h; cases h; exact .blank e (ht ▸ hs)
      · intro h
        cases h with
        | blank => rfl
        | set _ t _ h1 h2 => exact absurd ((strip_eq h1).symm.trans ht) h2
    · rw [mean_set w hU env o hp _ (getStr_none he hs) ht]
      constructor
      · intro h; exact .set e _ v hs ht h
      · intro h
        cases h with
        | blank _ h1 => exact absurd (strip_eq h1) ht
        | set _ t _ h1 h2 h3 => rw [strip_eq h1]; exact h3

theorem cli_some_iff (w : World) (o : Opt) (ws : List Text) (v : Val) :
    parseCli w o (some ws) = .ok v ↔ FromCli w o.kind ws v := by
  unfold parseCli
  constructor
  · intro h
    split at h
    · contradiction
    · rename_i hk e; cases e; cases h; rw [hk]; exact .flag
    · contradiction
    · rename_i hk e; cases e; cases h; rw [hk]; exact .many _ _ _
    · rename_i hk e; cases e; obtain ⟨n, h, e⟩ := map_ok.1 h; rw [hk]; exact e ▸ .int _ _ n h
    · rename_i hk e; cases e; cases h; rw [hk]; exact .path _ _
    · rename_i hk e; cases e; obtain ⟨n, h, e⟩ := map_ok.1 h; rw [hk]; exact e ▸ .args _ n ((C130_split _ _).1 h)
    · rename_i hk e
      cases e
      split at h
      · next hm => cases h; rw [hk]; exact .choice _ _ _ hm
      · cases h
    · rename_i hk e; cases e; cases h; rw [hk]; exact .text _ _
    · cases h
  · intro h
    generalize hk : o.kind = k at h
    cases h with
    | flag => rfl
    | many => rfl
    | int d t n h => exact map_ok.2 ⟨n, h, rfl⟩
    | path => rfl
    | args t ws h => exact map_ok.2 ⟨ws, (C130_split _ _).2 h, rfl⟩
    | choice cs d t h => simp only [if_pos h]
    | text => rfl

theorem cli_none (w : World) (o : Opt) : parseCli w o none = .ok (if o.kind = .flag then .bool false else .none) := by
  unfold parseCli
  cases o.kind <;> simp

theorem cli_not_none (w : World) (o : Opt) (ws : List Text) (v : Val) (h : FromCli w o.kind ws v) : v ≠ .none := by
  generalize o.kind = k at h
  cases h <;> simp

theorem ini_some_iff (w : World) (o : Opt) (d : Val) (t : Text) (v : Val) :
    getIni w o d (some t) = .ok v ↔ FromIni w o.kind t v := by
  unfold getIni
  simp only
  generalize o.kind = k
  constructor
  · intro h
    split at h
    · split at h
      · next hm => cases h; exact .yes t hm
      · split at h
        · next hm => cases h; exact .no t hm
        · cases h
    · obtain ⟨n, h, e⟩ := map_ok.1 h; exact e ▸ .paths _ _ n ((C130_split _ _).1 h)
    · obtain ⟨n, h, e⟩ := map_ok.1 h; exact e ▸ .many _ _ n ((C130_split _ _).1 h)
    · obtain ⟨n, h, e⟩ := map_ok.1 h; exact e ▸ .args _ n ((C130_split _ _).1 h)
    · obtain ⟨n, h, e⟩ := map_ok.1 h; exact e ▸ .int _ _ n h
    · cases h
      cases k with
      | flag => simp_all
      | many p d => cases p <;> simp_all
      | int d => simp_all
      | path d => exact .path d t
      | args => simp_all
      | choice cs d => exact .choice cs d t
      | text d => exact .text d t
  · intro h
    cases h with
    | yes _ h => simp only [if_pos h]
    | no _ h =>
      rw [if_neg, if_pos h]
      intro h2
      revert h h2
      generalize lowerText w.U (stripText t) = x
      simp only [iniTrue, iniFalse, List.mem_cons, List.not_mem_nil, or_false]
      rintro (h | h | h | h | h | h) <;> subst h <;> decide +kernel
    | many d _ ws h => exact map_ok.2 ⟨ws, (C130_split _ _).2 h, rfl⟩
    | paths d _ ws h => exact map_ok.2 ⟨ws, (C130_split _ _).2 h, rfl⟩
    | int d _ n h => exact map_ok.2 ⟨n, h, rfl⟩
    | path => rfl
    | args _ ws h => exact map_ok.2 ⟨ws, (C130_split _ _).2 h, rfl⟩
    | choice => rfl
    | text => rfl

/-! ### All options -/

theorem collect_ok (f : Opt → PyM Val) : ∀ (os : List Opt), (∃ vs, collect f os = .ok vs) ↔ ∀ o ∈ os, ∃ v, f o = .ok v
  | [] => by simp [collect]
  | o :: os => by
    have ih := collect_ok f os
    unfold collect
    cases ho : f o with
    | error e => simp [ho]
    | ok v =>
      cases hs : collect f os with
      | error e => simp only [hs] at ih ⊢; simp [ho]; simpa using ih
      | ok vs => simp only [hs] at ih ⊢; simp [ho]; simpa using ih

theorem collect_get (f : Opt → PyM Val) : ∀ (os : List Opt) (vs : List (Text × Val)), (os.map (·.name)).Nodup → collect f os = .ok vs →
    ∀ o ∈ os, ∃ v, f o = .ok v ∧ dictGet vs o.name = some v
  | [], _, _, _ => by simp
  | o :: os, vs, hn, h => by
    unfold collect at h
    cases ho : f o with
    | error e => simp [ho] at h
    | ok v =>
      cases hs : collect f os with
      | error e => simp [ho, hs] at h
      | ok vs' =>
        simp only [ho, hs, Except.ok.injEq] at h
        subst h
        rw [List.map_cons, List.nodup_cons] at hn
        intro p hp
        rcases List.mem_cons.1 hp with rfl | hp
        · exact ⟨v, ho, by simp [dictGet]⟩
        · obtain ⟨u, h1, h2⟩ := collect_get f os vs' hn.2 hs p hp
          refine ⟨u, h1, ?_⟩
          rw [dictGet, if_neg, h2]
          intro e
          exact hn.1 (List.mem_map.2 ⟨p, hp, e.symm⟩)

theorem table_names (now : Int) : ((table now).map (·.name)).Nodup := by
  have : (table now).map (·.name) = (table 0).map (·.name) := rfl
  rw [this]; decide +kernel

theorem populated_iff (w : World) (hU : w.U.Ok) (env : Environ) (ini cli) (o : Opt) (hp : PlainOpt o) (hk : o.kind ≠ .flag) (v : Val) :
    populated w env ini cli o = .ok v ↔ (∃ d, EnvValue w o.kind (env o.env) d) ∧
      Chosen w o.kind (cli o.name) (ini o.name) (env o.env) v := by
  unfold populated
  cases hd : addToParser w env o with
  | error e =>
    simp only [reduceCtorEq, false_iff]
    rintro ⟨⟨d, h⟩, -⟩
    rw [(env_value_iff w hU env o hp d).2 h] at hd
    cases hd
  | ok d =>
    have hd' := (env_value_iff w hU env o hp d).1 hd
    have : (∃ d, EnvValue w o.kind (env o.env) d) := ⟨d, hd'⟩
    simp only [this, true_and]
    cases hc : cli o.name with
    | none =>
      simp only [cli_none, if_neg hk, if_true]
      cases hi : ini o.name with
      | none =>
        simp only [getIni, Except.ok.injEq]
        constructor
        · rintro rfl; exact .env _ _ hd'
        · intro h
          cases h with
          | env _ _ h =>
            have := (env_value_iff w hU env o hp v).2 h
            rw [hd] at this; cases this; rfl
      | some t =>
        rw [ini_some_iff]
        exact ⟨fun h => .ini t v _ h, fun h => by cases h with | ini _ _ _ h => exact h⟩
    | some ws =>
      have hs := cli_some_iff w o ws
      cases hv : parseCli w o (some ws) with
      | error e =>
        simp only [reduceCtorEq, false_iff]
        intro h
        cases h with
        | cli _ _ _ _ h => rw [(hs v).2 h] at hv; cases hv
      | ok u =>
        have hu := (hs u).1 hv
        simp only [if_neg (cli_not_none w o ws u hu), Except.ok.injEq]
        constructor
        · rintro rfl; exact .cli ws u _ _ hu
        · intro h
          cases h with
          | cli _ _ _ _ h => have := (hs v).2 h; rw [hv] at this; cases this; rfl

theorem populated_flag (w : World) (hU : w.U.Ok) (env : Environ) (ini cli) (o : Opt) (hp : PlainOpt o) (hk : o.kind = .flag) (v : Val) :
    populated w env ini cli o = .ok v ↔ (∃ d, EnvValue w o.kind (env o.env) d) ∧
      ((cli o.name = none ∧ v = .bool false) ∨ (cli o.name = some [] ∧ v = .bool true)) := by
  unfold populated
  cases hd : addToParser w env o with
  | error e =>
    simp only [reduceCtorEq, false_iff]
    rintro ⟨⟨d, h⟩, -⟩
    rw [(env_value_iff w hU env o hp d).2 h] at hd
    cases hd
  | ok d =>
    have : (∃ d, EnvValue w o.kind (env o.env) d) := ⟨d, (env_value_iff w hU env o hp d).1 hd⟩
    simp only [this, true_and]
    unfold parseCli
    rw [hk]
    cases hc : cli o.name with
    | none => simp; exact ⟨fun h => h.symm, fun h => h.symm⟩
    | some ws =>
      cases ws with
      | nil => simp; exact ⟨fun h => h.symm, fun h => h.symm⟩
      | cons a b => simp

/-- The readings are unambiguous, so `Chosen` names one value. -/
theorem chosen_unique (w : World) (hU : w.U.Ok) (o : Opt) (hp : PlainOpt o) (hk : o.kind ≠ .flag) (c i e) (u v : Val)
    (hd : ∃ d, EnvValue w o.kind e d) (h1 : Chosen w o.kind c i e u) (h2 : Chosen w o.kind c i e v) : u = v := by
  have key := populated_iff w hU (fun _ => e) (fun _ => i) (fun _ => c) o hp hk
  have a := (key u).2 ⟨hd, h1⟩
  have b := (key v).2 ⟨hd, h2⟩
  rw [a] at b; cases b; rfl

/-- **C134** full: each option has the value of the command line, else of the configuration file, else of the environment
variable, else its default. -/
def C134_precedence_full : Prop :=
  ∀ (w : World), w.U.Ok → ∀ (env : Environ) (ini : Text → Option Text) (cli : Text → Option (List Text)) (now : Int) vals,
    configure w env ini cli (table now) = .ok vals → ∀ o ∈ table now, ∃ v, dictGet vals o.name = some v ∧
      Chosen w o.kind (cli o.name) (ini o.name) (env o.env) v

/-- The options that work: all but the flags. -/
theorem C134_precedence_partial (w : World) (hU : w.U.Ok) (env : Environ) (ini : Text → Option Text) (cli : Text → Option (List Text))
    (now : Int) (vals : List (Text × Val)) (h : configure w env ini cli (table now) = .ok vals) :
    ∀ o ∈ table now, o.kind ≠ .flag → ∃ v, dictGet vals o.name = some v ∧
      Chosen w o.kind (cli o.name) (ini o.name) (env o.env) v := by
  intro o ho hk
  unfold configure at h
  split at h
  · cases h
  · split at h
    · cases h
    · obtain ⟨v, h1, h2⟩ := collect_get _ _ _ (table_names now) h o ho
      exact ⟨v, h2, ((populated_iff w hU env ini cli o (table_plain now o ho) hk v).1 h1).2⟩

/-- **C134** A flag is on exactly when it is on the command line, whatever the configuration file and the environment say. -/
theorem C134_flags (w : World) (hU : w.U.Ok) (env : Environ) (ini : Text → Option Text) (cli : Text → Option (List Text))
    (now : Int) (vals : List (Text × Val)) (h : configure w env ini cli (table now) = .ok vals) :
    ∀ o ∈ table now, o.kind = .flag → dictGet vals o.name = some (.bool (cli o.name).isSome) := by
  intro o ho hk
  unfold configure at h
  split at h
  · cases h
  · split at h
    · cases h
    · obtain ⟨v, h1, h2⟩ := collect_get _ _ _ (table_names now) h o ho
      rcases ((populated_flag w hU env ini cli o (table_plain now o ho) hk v).1 h1).2 with ⟨a, b⟩ | ⟨a, b⟩
      · rw [h2, a, b]; rfl
      · rw [h2, a, b]; rfl

/-- **C134** full: pytest starts if the source of each option that is looked at can be read. -/
def C134_starts_full : Prop :=
  ∀ (w : World), w.U.Ok → ∀ (env : Environ) (ini : Text → Option Text) (cli : Text → Option (List Text)) (now : Int),
    (∀ o ∈ table now, ∃ v, Chosen w o.kind (cli o.name) (ini o.name) (env o.env) v) →
      ∃ vals, configure w env ini cli (table now) = .ok vals

/-- Exactly when pytest starts: every variable can be read, even if it is not needed, and what is looked at otherwise. -/
theorem C134_starts_partial (w : World) (hU : w.U.Ok) (env : Environ) (ini : Text → Option Text) (cli : Text → Option (List Text))
    (now : Int) : (∃ vals, configure w env ini cli (table now) = .ok vals) ↔
      ∀ o ∈ table now, (∃ d, EnvValue w o.kind (env o.env) d) ∧
        (if o.kind = .flag then cli o.name = none ∨ cli o.name = some []
          else ∃ v, Chosen w o.kind (cli o.name) (ini o.name) (env o.env) v) := by
  have key : (∃ vals, configure w env ini cli (table now) = .ok vals) ↔ ∀ o ∈ table now, ∃ v, populated w env ini cli o = .ok v := by
    rw [← collect_ok]
    unfold configure
    constructor
    · rintro ⟨vals, h⟩
      split at h
      · cases h
      · split at h
        · cases h
        · exact ⟨vals, h⟩
    · intro h
      have h0 := (collect_ok _ _).1 h
      have h1 : ∀ o ∈ table now, ∃ v, addToParser w env o = .ok v := by
        intro o ho
        obtain ⟨v, hv⟩ := h0 o ho
        unfold populated at hv
        split at hv
        · cases hv
        · next d hd => exact ⟨d, hd⟩
      have h2 : ∀ o ∈ table now, ∃ v, parseCli w o (cli o.name) = .ok v := by
        intro o ho
        obtain ⟨v, hv⟩ := h0 o ho
        unfold populated at hv
        split at hv
        · cases hv
        · split at hv
          · cases hv
          · next d hd => exact ⟨d, hd⟩
      obtain ⟨a, ha⟩ := (collect_ok _ _).2 h1
      obtain ⟨b, hb⟩ := (collect_ok _ _).2 h2
      rw [ha, hb]
      exact h
  rw [key]
  refine forall_congr' fun o => forall_congr' fun ho => ?_
  have hp := table_plain now o ho
  by_cases hk : o.kind = .flag
  · simp only [populated_flag w hU env ini cli o hp hk, if_pos hk]
    constructor
    · rintro ⟨v, h, ⟨a, -⟩ | ⟨a, -⟩⟩
      · exact ⟨h, .inl a⟩
      · exact ⟨h, .inr a⟩
    · rintro ⟨h, a | a⟩
      · exact ⟨_, h, .inl ⟨a, rfl⟩⟩
      · exact ⟨_, h, .inr ⟨a, rfl⟩⟩
  · simp only [populated_iff w hU env ini cli o hp hk, if_neg hk]
    exact ⟨fun ⟨v, h, a⟩ => ⟨h, v, a⟩, fun ⟨h, v, a⟩ => ⟨v, h, a⟩⟩

/-! ### Counterexamples -/

/-- A world for examples. -/
def worldEx : World := ⟨plainUnicode, id, fun t => lit "/work/" ++ t⟩

/-- Only one name is set. -/
def onlyName {α : Type} (name : String) (v : α) : Text → Option α := fun n => if n = lit name then some v else none

theorem C134_precedence_counterexample : ¬ C134_precedence_full := by
  intro h
  have hs : (configure worldEx (fun _ => none) (onlyName "cocotb_waves" (lit "true")) (fun _ => none) (table 0)).isOk = true := by
    decide +kernel
  cases hc : configure worldEx (fun _ => none) (onlyName "cocotb_waves" (lit "true")) (fun _ => none) (table 0) with
  | error e => rw [hc] at hs; cases hs
  | ok vals =>
    have hm : opt "cocotb_waves" .flag ∈ table 0 := by decide +kernel
    obtain ⟨v, h1, h2⟩ := h worldEx plainUnicode_ok _ _ _ 0 vals hc _ hm
    rw [C134_flags worldEx plainUnicode_ok _ _ _ 0 vals hc _ hm rfl] at h1
    cases h1
    have hi : onlyName "cocotb_waves" (lit "true") (opt "cocotb_waves" .flag).name = some (lit "true") := by decide +kernel
    rw [hi] at h2
    cases h2 with
    | ini _ _ _ h =>
      cases h with
      | no _ h => revert h; decide +kernel

/-- The same with the documented environment variable of a flag. -/
theorem C134_precedence_environment_counterexample :
    ∃ vals, configure worldEx (onlyName "COCOTB_WAVES" (lit "1")) (fun _ => none) (fun _ => none) (table 0) = .ok vals ∧
      dictGet vals (lit "cocotb_waves") = some (.bool false) := by
  have hs : (configure worldEx (onlyName "COCOTB_WAVES" (lit "1")) (fun _ => none) (fun _ => none) (table 0)).isOk = true := by
    decide +kernel
  cases hc : configure worldEx (onlyName "COCOTB_WAVES" (lit "1")) (fun _ => none) (fun _ => none) (table 0) with
  | error e => rw [hc] at hs; cases hs
  | ok vals =>
    have hm : opt "cocotb_waves" .flag ∈ table 0 := by decide +kernel
    exact ⟨vals, rfl, C134_flags worldEx plainUnicode_ok _ _ _ 0 vals hc _ hm rfl⟩

theorem C134_starts_counterexample : ¬ C134_starts_full := by
  intro h
  obtain ⟨vals, hv⟩ := h worldEx plainUnicode_ok (onlyName "COCOTB_RANDOM_SEED" (lit "today")) (fun _ => none)
    (onlyName "cocotb_seed" [lit "3"]) 0 (by
      intro o ho
      have key : ∀ o ∈ table 0, o.name = lit "cocotb_seed" ∧ o.kind = .int 0 ∨
          o.name ≠ lit "cocotb_seed" ∧ o.env ≠ lit "COCOTB_RANDOM_SEED" := by decide +kernel
      rcases key o ho with ⟨h1, h2⟩ | ⟨h1, h2⟩
      · rw [h1, h2]
        refine ⟨.int 3, .cli [lit "3"] _ _ _ (.int 0 _ 3 ?_)⟩
        decide +kernel
      · rw [show onlyName "cocotb_seed" [lit "3"] o.name = none from if_neg h1,
          show onlyName "COCOTB_RANDOM_SEED" (lit "today") o.env = none from if_neg h2]
        exact ⟨_, .env _ _ .unset⟩)
  have : (configure worldEx (onlyName "COCOTB_RANDOM_SEED" (lit "today")) (fun _ => none) (onlyName "cocotb_seed" [lit "3"])
    (table 0)).isOk = false := by decide +kernel
  rw [hv] at this; cases this

/-- Values from all four sources. -/
example : ∃ vals, configure worldEx (fun n => if n = lit "COCOTB_LIBRARY" then some (lit " work ") else
      if n = lit "COCOTB_DEFINES" then some (lit "A=1, B") else none)
    (fun n => if n = lit "cocotb_seed" then some (lit "5") else if n = lit "cocotb_build_args" then some (lit "-x 'y z'") else none)
    (fun n => if n = lit "cocotb_seed" then some [lit "7"] else if n = lit "cocotb_gui" then some [] else none) (table 0) = .ok vals ∧
    dictGet vals (lit "cocotb_seed") = some (.int 7) ∧ dictGet vals (lit "cocotb_build_args") = some (.list [lit "-x", lit "y z"]) ∧
    dictGet vals (lit "cocotb_library") = some (.text (lit "work")) ∧ dictGet vals (lit "cocotb_timescale") = some (.text []) ∧
    dictGet vals (lit "cocotb_defines") = some (.list [lit "A=1", lit "B"]) ∧ dictGet vals (lit "cocotb_gui") = some (.bool true) :=
  ⟨_, rfl, by decide +kernel⟩

/-! ### Choices -/

/-- **C134** full: an option with choices is one of them, or unset. -/
def C134_choices_full : Prop :=
  ∀ (w : World), w.U.Ok → ∀ (env : Environ) (ini : Text → Option Text) (cli : Text → Option (List Text)) (now : Int) vals,
    configure w env ini cli (table now) = .ok vals → ∀ o ∈ table now, ∀ cs d, o.kind = .choice cs d →
      ∃ t, dictGet vals o.name = some (.text t) ∧ (t ∈ cs ∨ t = [])

theorem C134_choices_counterexample : ¬ C134_choices_full := by
  intro h
  have hs : (configure worldEx (fun _ => none) (onlyName "cocotb_simulator" (lit "spice")) (fun _ => none) (table 0)).isOk = true ∧
    (configure worldEx (fun _ => none) (onlyName "cocotb_simulator" (lit "spice")) (fun _ => none) (table 0)).toOption.bind
      (fun vals => dictGet vals (lit "cocotb_simulator")) = some (.text (lit "spice")) := by
    decide +kernel
  cases hc : configure worldEx (fun _ => none) (onlyName "cocotb_simulator" (lit "spice")) (fun _ => none) (table 0) with
  | error e => rw [hc] at hs; cases hs.1
  | ok vals =>
    have hm : (⟨lit "cocotb_simulator", upper (lit "cocotb_simulator"), .choice [lit "auto", lit "verilator", lit "nvc", lit "ghdl",
      lit "icarus", lit "xcelium", lit "vcs", lit "questa", lit "riviera"] (some (lit "auto"))⟩ : Opt) ∈ table 0 := by decide +kernel
    obtain ⟨t, h1, h2⟩ := h worldEx plainUnicode_ok _ _ _ 0 vals hc _ hm _ _ rfl
    rw [hc] at hs
    have h3 : dictGet vals (lit "cocotb_simulator") = some (.text (lit "spice")) := hs.2
    rw [h3] at h1
    cases h1
    revert h2; decide +kernel

/-- The command line and the environment are checked; entries of the configuration file are not. -/
theorem C134_choices_partial (w : World) (hU : w.U.Ok) (env : Environ) (ini : Text → Option Text) (cli : Text → Option (List Text))
    (now : Int) (vals : List (Text × Val)) (h : configure w env ini cli (table now) = .ok vals) :
    ∀ o ∈ table now, ∀ cs d, o.kind = .choice cs d → ini o.name = none →
      ∃ t, dictGet vals o.name = some (.text t) ∧ (t ∈ cs ∨ t = []) := by
  intro o ho cs d hk hi
  have hp := table_plain now o ho
  obtain ⟨v, h1, h2⟩ := C134_precedence_partial w hU env ini cli now vals h o ho (by rw [hk]; simp)
  rw [hi, hk] at h2
  unfold PlainOpt at hp
  rw [hk] at hp
  have hd : ∃ t, unsetValue w (.choice cs d) = .text t ∧ (t ∈ cs ∨ t = []) := by
    cases d with
    | none => exact ⟨[], rfl, .inr rfl⟩
    | some t => exact ⟨t, rfl, .inl (hp.1 t rfl).1⟩
  rw [h1]
  generalize cli o.name = c at h2
  generalize env o.env = e at h2
  cases h2 with
  | cli ws _ _ _ h2 => cases h2 with | choice _ _ t h2 => exact ⟨t, rfl, .inl h2⟩
  | env e _ h2 =>
    cases h2 with
    | unset => obtain ⟨t, a, b⟩ := hd; exact ⟨t, by rw [a], b⟩
    | blank _ _ => obtain ⟨t, a, b⟩ := hd; exact ⟨t, by rw [a], b⟩
    | set _ t _ _ _ h2 => cases h2 with | choice _ _ _ h2 => exact ⟨_, rfl, .inl h2⟩

/-! ### The simulator -/

theorem intOf_strInt (U : Unicode) (n : Int) : intOf U (Runner.strInt n) = .ok n := by
  have hch : ∀ c ∈ Runner.strInt n, c = 45 ∨ (48 ≤ c ∧ c ≤ 57) := fun c h => Runner.strInt_chars h
  have hb : ∀ c ∈ Runner.strInt n, isBlank c = false := by
    intro c hc
    have := hch c hc
    unfold isBlank
    rcases this with h | h
    · subst h; decide
    · have : ∀ c < 58, 48 ≤ c → isBlank c = false := by decide
      exact this c (by omega) h.1
  have ht : Trimmed (Runner.strInt n) (Runner.strInt n) :=
    ⟨[], [], by simp, by simp, by simp, fun c h => hb c (List.mem_of_mem_head? h), fun c h => hb c (List.mem_of_getLast? h)⟩
  rw [intOf_iff U ht (fun c hc => by have := hch c hc; omega)]
  have hw : Writes (decText n.natAbs) n.natAbs := by
    refine ⟨[(decText n.natAbs).map (· - 48)], by simp, ?_, ?_, ?_⟩
    · intro g hg
      rw [List.mem_singleton] at hg
      subst hg
      refine ⟨by simpa using Runner.decText_ne_nil _, ?_⟩
      intro d hd
      obtain ⟨c, hc, rfl⟩ := List.mem_map.1 hd
      have := Runner.decText_digit hc
      omega
    · simp only [List.map_cons, List.map_nil, List.intersperse_singleton, List.flatten_cons, List.flatten_nil, List.append_nil,
        List.map_map]
      symm
      have : ∀ l : List Nat, (∀ c ∈ l, 48 ≤ c) → l.map ((48 + ·) ∘ (· - 48)) = l := by
        intro l
        induction l with
        | nil => intro _; rfl
        | cons a l ih =>
          intro h
          rw [List.map_cons, ih fun c hc => h c (List.mem_cons_of_mem _ hc)]
          have := h a List.mem_cons_self
          simp only [Function.comp_apply]
          congr 1; omega
      exact this _ fun c hc => (Runner.decText_digit hc).1
    · have h := Vhpi.digitsVal_decText n.natAbs
      unfold Vhpi.digitsVal at h
      rw [Vhpi.takeWhile_all _ _ fun c hc => by have := Runner.decText_digit hc; simp; omega] at h
      rw [List.flatten_singleton, positional, List.foldl_map]
      exact h.symm
  rw [Runner.strInt_eq]
  by_cases h : n < 0
  · rw [if_pos h]
    exact ⟨n.natAbs, .inr (.inr ⟨_, rfl, hw, by omega⟩)⟩
  · rw [if_neg h]
    exact ⟨n.natAbs, .inl ⟨hw, by omega⟩⟩

theorem getInt_strInt (U : Unicode) (env : Environ) (name : Text) (n : Int) (d : Option Int)
    (h : env name = some (Runner.strInt n)) : getInt U env name d = .ok n := by
  have hs := getStr_none h (strip_trimmed _)
  have hb : stripText (Runner.strInt n) = Runner.strInt n := by
    refine trimmed_self ?_ ?_
    all_goals
      intro c hc
      have hm : c ∈ Runner.strInt n := by first | exact List.mem_of_mem_head? hc | exact List.mem_of_getLast? hc
      have := Runner.strInt_chars hm
      rcases this with h | h
      · subst h; decide
      · have : ∀ c < 58, 48 ≤ c → isBlank c = false := by decide
        exact this c (by omega) h.1
  rw [hb] at hs
  unfold getInt
  rw [hs, if_neg (Runner.strInt_ne_nil n), intOf_strInt]

/-- **C134** full: the simulator reads the values of the options from its environment. -/
def C134_exported_full : Prop :=
  ∀ (w : World), w.U.Ok → ∀ (env : Environ) (ini : Text → Option Text) (cli : Text → Option (List Text)) (now : Int) vals,
    configure w env ini cli (table now) = .ok vals →
      (∀ d, getInt w.U (exported env vals) (lit "COCOTB_RANDOM_SEED") d = .ok (intVal vals "cocotb_seed")) ∧
      getInt w.U (exported env vals) (lit "COCOTB_ATTACH") none = .ok (intVal vals "cocotb_attach") ∧
      getBool w.U (exported env vals) (lit "COCOTB_SCHEDULER_DEBUG") none = .ok (flagOf vals "cocotb_scheduler_debug") ∧
      getBool w.U (exported env vals) (lit "COCOTB_TRUST_INERTIAL_WRITES") none = .ok (flagOf vals "cocotb_trust_inertial_writes") ∧
      getStr (exported env vals) (lit "COCOTB_RESOLVE_X") none = textOf vals "cocotb_resolve_x"

/-- `--cocotb-attach 0` does not help against `COCOTB_ATTACH=5`. -/
theorem C134_exported_counterexample : ¬ C134_exported_full := by
  intro h
  have hs : (configure worldEx (onlyName "COCOTB_ATTACH" (lit "5")) (fun _ => none) (onlyName "cocotb_attach" [lit "0"])
      (table 0)).toOption.map (fun vals => (intVal vals "cocotb_attach", getInt worldEx.U (exported (onlyName "COCOTB_ATTACH" (lit "5"))
        vals) (lit "COCOTB_ATTACH") none)) = some (0, .ok 5) := by
    decide +kernel
  cases hc : configure worldEx (onlyName "COCOTB_ATTACH" (lit "5")) (fun _ => none) (onlyName "cocotb_attach" [lit "0"]) (table 0) with
  | error e => rw [hc] at hs; cases hs
  | ok vals =>
    rw [hc] at hs
    simp only [Except.toOption, Option.map_some, Option.some.injEq, Prod.mk.injEq] at hs
    have := (h worldEx plainUnicode_ok _ _ _ 0 vals hc).2.1
    rw [hs.2, hs.1] at this
    cases this

theorem set_same (env : Environ) (n v : Text) : setVar env n v n = some v := by simp [setVar]

theorem set_ne (env : Environ) (n m v : Text) (h : m ≠ n) : setVar env n v m = env m := by simp [setVar, h]

theorem if_set_same (c : Prop) [Decidable c] (env : Environ) (n v : Text) :
    (if c then setVar env n v else env) n = if c then some v else env n := by
  split
  · exact set_same env n v
  · rfl

theorem if_set_ne (c : Prop) [Decidable c] (env : Environ) (n m v : Text) (h : m ≠ n) :
    (if c then setVar env n v else env) m = env m := by
  split
  · exact set_ne env n m v h
  · rfl

/-- The seed always arrives; the others do if they are not zero, not off, not empty. What was in the environment stays
otherwise. -/
theorem C134_exported_partial (U : Unicode) (env : Environ) (vals : List (Text × Val)) :
    (∀ d, getInt U (exported env vals) (lit "COCOTB_RANDOM_SEED") d = .ok (intVal vals "cocotb_seed")) ∧
    (getInt U (exported env vals) (lit "COCOTB_ATTACH") none =
      if intVal vals "cocotb_attach" ≠ 0 then .ok (intVal vals "cocotb_attach") else getInt U env (lit "COCOTB_ATTACH") none) ∧
    (getBool U (exported env vals) (lit "COCOTB_SCHEDULER_DEBUG") none =
      if flagOf vals "cocotb_scheduler_debug" then .ok true else getBool U env (lit "COCOTB_SCHEDULER_DEBUG") none) ∧
    (getBool U (exported env vals) (lit "COCOTB_TRUST_INERTIAL_WRITES") none =
      if flagOf vals "cocotb_trust_inertial_writes" then .ok true else getBool U env (lit "COCOTB_TRUST_INERTIAL_WRITES") none) ∧
    (exported env vals (lit "COCOTB_RESOLVE_X") =
      if textOf vals "cocotb_resolve_x" ≠ [] then some (textOf vals "cocotb_resolve_x") else env (lit "COCOTB_RESOLVE_X")) := by
  have hx : exported env vals (lit "COCOTB_RANDOM_SEED") = some (Runner.strInt (intVal vals "cocotb_seed")) := by
    unfold exported
    rw [if_set_ne _ _ _ _ _ (by decide), if_set_ne _ _ _ _ _ (by decide), if_set_ne _ _ _ _ _ (by decide), if_set_ne _ _ _ _ _ (by decide), if_set_ne _ _ _ _ _ (by decide), set_same]
  have ha : exported env vals (lit "COCOTB_ATTACH") = if intVal vals "cocotb_attach" ≠ 0 then
      some (Runner.strInt (intVal vals "cocotb_attach")) else env (lit "COCOTB_ATTACH") := by
    unfold exported
    rw [if_set_ne _ _ _ _ _ (by decide), if_set_ne _ _ _ _ _ (by decide), if_set_ne _ _ _ _ _ (by decide), if_set_same, if_set_ne _ _ _ _ _ (by decide), set_ne _ _ _ _ (by decide), set_ne _ _ _ _ (by decide)]
  have hd : exported env vals (lit "COCOTB_SCHEDULER_DEBUG") = if flagOf vals "cocotb_scheduler_debug" then
      some (lit "1") else env (lit "COCOTB_SCHEDULER_DEBUG") := by
    unfold exported
    rw [if_set_ne _ _ _ _ _ (by decide), if_set_same, if_set_ne _ _ _ _ _ (by decide), if_set_ne _ _ _ _ _ (by decide), if_set_ne _ _ _ _ _ (by decide), set_ne _ _ _ _ (by decide), set_ne _ _ _ _ (by decide)]
  have ht : exported env vals (lit "COCOTB_TRUST_INERTIAL_WRITES") = if flagOf vals "cocotb_trust_inertial_writes" then
      some (lit "1") else env (lit "COCOTB_TRUST_INERTIAL_WRITES") := by
    unfold exported
    rw [if_set_same, if_set_ne _ _ _ _ _ (by decide), if_set_ne _ _ _ _ _ (by decide), if_set_ne _ _ _ _ _ (by decide), if_set_ne _ _ _ _ _ (by decide), set_ne _ _ _ _ (by decide), set_ne _ _ _ _ (by decide)]
  have hr : exported env vals (lit "COCOTB_RESOLVE_X") = if textOf vals "cocotb_resolve_x" ≠ [] then
      some (textOf vals "cocotb_resolve_x") else env (lit "COCOTB_RESOLVE_X") := by
    unfold exported
    rw [if_set_ne _ _ _ _ _ (by decide), if_set_ne _ _ _ _ _ (by decide), if_set_same, if_set_ne _ _ _ _ _ (by decide), if_set_ne _ _ _ _ _ (by decide), set_ne _ _ _ _ (by decide), set_ne _ _ _ _ (by decide)]
  have one : ∀ env name, env name = some (lit "1") → getBool U env name none = .ok true := by
    intro env name h
    unfold getBool
    rw [getStr_none h (strip_trimmed _)]
    rfl
  have same : ∀ env env' name, env name = env' name → getBool U env name none = getBool U env' name none ∧
      getInt U env name none = getInt U env' name none := by
    intro env env' name h
    unfold getBool getInt getStr
    rw [h]
    exact ⟨rfl, rfl⟩
  refine ⟨fun d => getInt_strInt U _ _ _ d hx, ?_, ?_, ?_, hr⟩
  · split
    · next h => rw [if_pos h] at ha; exact getInt_strInt U _ _ _ none ha
    · next h => rw [if_neg h] at ha; exact (same _ _ _ ha).2
  · split
    · next h => rw [if_pos h] at hd; exact one _ _ hd
    · next h => rw [if_neg h] at hd; exact (same _ _ _ hd).1
  · split
    · next h => rw [if_pos h] at ht; exact one _ _ ht
    · next h => rw [if_neg h] at ht; exact (same _ _ _ ht).1

set_option maxRecDepth 20000 in
/-- **C134** An option that is set nowhere has the documented default. -/
theorem C134_defaults (w : World) (hU : w.U.Ok) (env : Environ) (ini : Text → Option Text) (cli : Text → Option (List Text))
    (now : Int) (vals : List (Text × Val)) (h : configure w env ini cli (table now) = .ok vals) :
    ∀ p ∈ documented w now, cli p.1 = none → ini p.1 = none → env p.2.1 = none → dictGet vals p.1 = some p.2.2 := by
  intro p hp hc hi he
  obtain ⟨o, ho, h1, h2, h3⟩ : ∃ o ∈ table now, o.name = p.1 ∧ o.env = p.2.1 ∧ unsetValue w o.kind = p.2.2 := by
    have key : (table now).map (fun o => (o.name, o.env, unsetValue w o.kind)) = documented w now := by
      simp only [table, documented, List.map_cons, List.map_nil, List.cons.injEq, and_true]
      refine ⟨?_, ?_, ?_, ?_, ?_, ?_, ?_, ?_, ?_, ?_, ?_, ?_, ?_, ?_, ?_, ?_, ?_, ?_, ?_, ?_, ?_, ?_, ?_, ?_, ?_, ?_, ?_, ?_, ?_, ?_, ?_, ?_, ?_, ?_⟩ <;> rfl
    rw [← key] at hp
    obtain ⟨o, ho, e⟩ := List.mem_map.1 hp
    exact ⟨o, ho, congrArg (·.1) e, congrArg (·.2.1) e, congrArg (·.2.2) e⟩
  by_cases hk : o.kind = .flag
  · have := C134_flags w hU env ini cli now vals h o ho hk
    rw [h1, hc] at this
    rw [this, ← h3, hk]
    rfl
  · obtain ⟨v, h4, h5⟩ := C134_precedence_partial w hU env ini cli now vals h o ho hk
    rw [h1, hc, hi, h2, he] at h5
    rw [← h1, h4, ← h3]
    cases h5 with
    | env _ _ h => cases h; rfl

theorem join_cons (x y : Text) (l : List Text) :
    ((x :: y :: l).intersperse [44]).flatten = x ++ 44 :: ((y :: l).intersperse [44]).flatten := by
  simp [List.intersperse]

theorem join_append (a : List Text) (y : Text) (l : List Text) (ha : a ≠ []) :
    ((a ++ y :: l).intersperse [44]).flatten = (a.intersperse [44]).flatten ++ 44 :: ((y :: l).intersperse [44]).flatten := by
  induction a with
  | nil => exact absurd rfl ha
  | cons x a ih =>
    cases a with
    | nil => simp [List.intersperse]
    | cons z a =>
      rw [List.cons_append, List.cons_append, join_cons, ← List.cons_append, ih (by simp), join_cons]
      simp

/-- Lists joined with commas, and joined with commas. -/
theorem join_join (gs : List (List Text)) (h : ∀ g ∈ gs, g ≠ []) :
    ((gs.map fun g => (g.intersperse [44]).flatten).intersperse [44]).flatten = (gs.flatten.intersperse [44]).flatten := by
  induction gs with
  | nil => rfl
  | cons g gs ih =>
    cases gs with
    | nil => simp [List.intersperse]
    | cons g' gs =>
      rw [List.map_cons, List.map_cons, join_cons, ← List.map_cons (f := fun g : List Text => (g.intersperse [44]).flatten), ih (fun x hx => h x (List.mem_cons_of_mem _ hx))]
      have hg' : g' ≠ [] := h g' (by simp)
      obtain ⟨y, l, rfl⟩ := List.exists_cons_of_ne_nil hg'
      rw [List.flatten_cons (l := g), List.flatten_cons, List.cons_append, join_append _ _ _ (h g (by simp))]

/-- An entry point: `module:function`. -/
def entryText (e : Text × Text) : Text := e.1 ++ 58 :: e.2

/-- **C134** The entry points given to pytest are the ones that are called in the simulator, in the same order. An item may itself hold
several, separated by commas, as the default does. -/
theorem C134_users (env : Environ) (vals : List (Text × Val)) (gs : List (List (Text × Text))) (hne : gs ≠ []) (hg : ∀ g ∈ gs, g ≠ [])
    (hl : listOf vals "pygpi_users" = gs.map fun g => ((g.map entryText).intersperse [44]).flatten)
    (hp : ∀ e ∈ gs.flatten, 58 ∉ e.1 ∧ 58 ∉ e.2 ∧ 44 ∉ e.1 ∧ 44 ∉ e.2 ∧ Trimmed (entryText e) (entryText e)) :
    loadEntry (exported env vals) (fun _ => false) = (gs.flatten, true) := by
  have hjoin : ((listOf vals "pygpi_users").intersperse [44]).flatten = ((gs.flatten.map entryText).intersperse [44]).flatten := by
    have := join_join (gs.map (List.map entryText)) (by
      intro x hx
      obtain ⟨g, h1, rfl⟩ := List.mem_map.1 hx
      simpa using hg g h1)
    rw [List.map_map] at this
    rw [hl, List.map_flatten, ← this]
    rfl
  generalize hes : gs.flatten = es at *
  have hne : es ≠ [] := by
    rw [← hes]
    intro e
    obtain ⟨g, gs', rfl⟩ := List.exists_cons_of_ne_nil hne
    rw [List.flatten_cons, List.append_eq_nil_iff] at e
    exact hg g (by simp) e.1
  have hu : exported env vals PYGPI_USERS = some ((es.map entryText).intersperse [44]).flatten := by
    rw [show PYGPI_USERS = lit "PYGPI_USERS" from rfl, ← hjoin]
    unfold exported
    rw [if_set_ne _ _ _ _ _ (by decide), if_set_ne _ _ _ _ _ (by decide), if_set_ne _ _ _ _ _ (by decide), if_set_ne _ _ _ _ _ (by decide), if_set_ne _ _ _ _ _ (by decide), set_ne _ _ _ _ (by decide), set_same]
  have hg := (C63_list (exported env vals) PYGPI_USERS (some defaultEntries) 44 (by decide)).2
    (es.map entryText) (es.map entryText) (by simpa using hne)
    (by
      intro f hf
      obtain ⟨e, he, rfl⟩ := List.mem_map.1 hf
      have := hp e he
      simp [entryText, this])
    rfl
    (by
      intro i f g h1 h2
      rw [h1] at h2
      cases h2
      obtain ⟨e, he, rfl⟩ := List.mem_map.1 (List.mem_of_getElem? h1)
      exact (hp e he).2.2.2.2)
    hu
  have hf : (es.map entryText).filter (fun g => decide (g ≠ [])) = es.map entryText := by
    rw [List.filter_eq_self]
    intro f hf
    obtain ⟨e, he, rfl⟩ := List.mem_map.1 hf
    simp [entryText]
  rw [hf, if_neg (by simpa using hne)] at hg
  exact ((C81_entries _ (fun _ => false) _ hg).2 es (fun e he => ⟨(hp e he).1, (hp e he).2.1⟩) rfl).1 (fun _ _ => rfl)

/-- The default of pytest, and another one. -/
example : ∃ gs : List (List (Text × Text)), gs ≠ [] ∧ (∀ g ∈ gs, g ≠ []) ∧
    [entryPoint, lit "my.mod:go"] = gs.map (fun g => ((g.map entryText).intersperse [44]).flatten) ∧
    ∀ e ∈ gs.flatten, 58 ∉ e.1 ∧ 58 ∉ e.2 ∧ 44 ∉ e.1 ∧ 44 ∉ e.2 ∧ Trimmed (entryText e) (entryText e) := by
  refine ⟨[[(lit "cocotb_tools._coverage", lit "start_cocotb_library_coverage"), (lit "cocotb.logging", lit "_configure"),
    (lit "cocotb._init", lit "init_package_from_simulation"), (lit "cocotb_tools._pytest._init", lit "run_regression")],
    [(lit "my.mod", lit "go")]], by decide, by decide, by decide +kernel, ?_⟩
  have key : ∀ e ∈ [[(lit "cocotb_tools._coverage", lit "start_cocotb_library_coverage"), (lit "cocotb.logging", lit "_configure"),
    (lit "cocotb._init", lit "init_package_from_simulation"), (lit "cocotb_tools._pytest._init", lit "run_regression")],
    [(lit "my.mod", lit "go")]].flatten, 58 ∉ e.1 ∧ 58 ∉ e.2 ∧ 44 ∉ e.1 ∧ 44 ∉ e.2 ∧ stripText (entryText e) = entryText e := by decide +kernel
  intro e he
  obtain ⟨h1, h2, h3, h4, h5⟩ := key e he
  have := strip_trimmed (entryText e)
  rw [h5] at this
  exact ⟨h1, h2, h3, h4, this⟩

end Verif
