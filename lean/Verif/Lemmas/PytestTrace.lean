import Verif.Lemmas.PytestSim
/-!
# What is in the specified session
-/
namespace Verif.Pytest

/-- The item an event belongs to. -/
def Event.item? : Event → Option Nat
  | .start i => some i
  | .code i _ _ _ => some i
  | .report i _ _ => some i
  | .finish i => some i
  | _ => none

theorem mem_codeEvents {i : Nat} {w : When} {g : Rng} {sts : List Step} {e : Event} (h : e ∈ codeEvents i w g sts) :
    ∃ st ∈ sts, ∃ g', e = .code i w st g' := by
  induction sts generalizing g with
  | nil => cases h
  | cons st sts ih =>
    simp only [codeEvents, List.mem_cons] at h
    rcases h with rfl | h
    · exact ⟨st, List.mem_cons_self .., _, rfl⟩
    · obtain ⟨st', hm, g', e⟩ := ih h
      exact ⟨st', List.mem_cons_of_mem _ hm, g', e⟩

theorem leaves_item {seed i : Nat} {last : Bool} {it : Item} {live : List Fin} {g : Rng} {e : Event}
    (h : e ∈ (it.leaves seed i last live g).events) : e.item? = some i := by
  simp only [Item.leaves, List.mem_append, List.mem_singleton, List.mem_cons, List.not_mem_nil, or_false] at h
  rcases h with ((((rfl | h) | rfl) | h) | h) | (rfl | rfl)
  · rfl
  · obtain ⟨st, -, g', rfl⟩ := mem_codeEvents h; rfl
  · rfl
  · split at h
    · rcases List.mem_append.mp h with h | h
      · obtain ⟨st, -, g', rfl⟩ := mem_codeEvents h; rfl
      · simp only [List.mem_singleton] at h; subst h; rfl
    · cases h
  · obtain ⟨st, -, g', rfl⟩ := mem_codeEvents h; rfl
  · rfl
  · rfl

theorem session_ge {seed i : Nat} {its : List Item} {live : List Fin} {g : Rng} {e : Event}
    (h : e ∈ session seed i its live g) : ∃ k, e.item? = some (i + k) ∧ k < its.length := by
  induction its generalizing i live g with
  | nil => cases h
  | cons it its ih =>
    simp only [session, List.mem_append] at h
    rcases h with h | h
    · exact ⟨0, leaves_item h, by simp⟩
    · obtain ⟨k, hk, hl⟩ := ih h
      exact ⟨k + 1, by rw [hk]; congr 1; omega, by simpa using hl⟩

/-- The events of one item are together. -/
theorem session_split (P : List Fin → Prop) (seed i : Nat) (its : List Item) (live : List Fin) (g : Rng) (k : Nat)
    (it : Item) (h : its[k]? = some it) (hl : P live)
    (hP : ∀ it ∈ its, ∀ i last live g, P live → P (it.leaves seed i last live g).live) :
    ∃ A B live' g' last, session seed i its live g = A ++ (it.leaves seed (i + k) last live' g').events ++ B ∧
      (∀ e ∈ A, e.item? ≠ some (i + k)) ∧ (∀ e ∈ B, e.item? ≠ some (i + k)) ∧ last = decide (k + 1 = its.length) ∧
      P live' := by
  induction its generalizing i live g k with
  | nil => simp at h
  | cons a its ih =>
    cases k with
    | zero =>
      simp only [List.getElem?_cons_zero, Option.some.injEq] at h
      subst h
      refine ⟨[], session seed (i + 1) its _ _, live, g, its.isEmpty, by simp [session]; rfl, by simp, ?_, ?_, hl⟩
      · intro e he hi
        obtain ⟨k, hk, -⟩ := session_ge he
        rw [hk] at hi
        simp at hi; omega
      · cases its <;> simp
    | succ k =>
      simp only [List.getElem?_cons_succ] at h
      obtain ⟨A, B, live', g', last, hs, hA, hB, hl, hp⟩ := ih (i + 1)
        (a.leaves seed i its.isEmpty live g).live (a.leaves seed i its.isEmpty live g).rng k h
        (hP a (List.mem_cons_self ..) _ _ _ _ hl) fun it hit => hP it (List.mem_cons_of_mem _ hit)
      have e : i + 1 + k = i + (k + 1) := by omega
      rw [e] at hs hA hB
      refine ⟨(a.leaves seed i its.isEmpty live g).events ++ A, B, live', g', last, ?_, ?_, hB, ?_, hp⟩
      · simp [session, hs]
      · intro x hx hi
        rcases List.mem_append.mp hx with hx | hx
        · rw [leaves_item hx] at hi; simp at hi
        · exact hA x hx hi
      · simp [hl]

/-! ## Reports -/

theorem log_append (a b : List Event) : log (a ++ b) = log a ++ log b := by simp [log]

theorem log_codeEvents (i : Nat) (w : When) (g : Rng) (sts : List Step) : log (codeEvents i w g sts) = [] := by
  induction sts generalizing g with
  | nil => rfl
  | cons st sts ih => simp only [codeEvents]; show log _ = []; exact ih _

theorem log_leaves (seed i : Nat) (last : Bool) (it : Item) (live : List Fin) (g : Rng) :
    ∃ o, log (it.leaves seed i last live g).events = it.log i o := by
  refine ⟨teardownResult ((it.fins live).filter fun f => decide (f.till ≤ i) || last), ?_⟩
  simp only [Item.leaves, log_append, log_codeEvents]
  by_cases h : it.setupResult = .passed
  · simp only [h, if_true, log_append, log_codeEvents, Item.log]
    rfl
  · simp only [h, if_false, Item.log]
    rfl

theorem logs_congr {f f' : Nat → Outcome} (i : Nat) (its : List Item) (h : ∀ j, i ≤ j → f j = f' j) :
    logs f i its = logs f' i its := by
  induction its generalizing i with
  | nil => rfl
  | cons it its ih =>
    simp only [logs]
    rw [h i (Nat.le_refl _), ih (i + 1) fun j hj => h j (by omega)]

theorem log_session (seed i : Nat) (its : List Item) (live : List Fin) (g : Rng) :
    ∃ f, log (session seed i its live g) = logs f i its := by
  induction its generalizing i live g with
  | nil => exact ⟨fun _ => .passed, rfl⟩
  | cons it its ih =>
    obtain ⟨f, hf⟩ := ih (i + 1) (it.leaves seed i its.isEmpty live g).live (it.leaves seed i its.isEmpty live g).rng
    obtain ⟨o, ho⟩ := log_leaves seed i its.isEmpty it live g
    refine ⟨fun j => if j = i then o else f j, ?_⟩
    simp only [session, log_append, hf, ho, logs, if_true]
    congr 1
    exact logs_congr _ _ fun j hj => by rw [if_neg (by omega)]

theorem log_sessionTrace (seed : Nat) (items : List Item) : ∃ f, log (sessionTrace seed items) = sessionLog f items := by
  obtain ⟨f, hf⟩ := log_session seed 1 items [] ⟨none, 0⟩
  refine ⟨f, ?_⟩
  simp only [sessionTrace, sessionLog, log_append, hf]
  rfl

theorem log_prefix {a b : List Event} (h : a <+: b) : log a <+: log b := h.filter _

/-! ## When a session is over -/

/-- What comes before the end. -/
def beforeEnd (seed : Nat) (items : List Item) : List Event :=
  [.sessionstart, .collection] ++ session seed 1 items [] ⟨none, 0⟩

theorem not_mem_beforeEnd (seed : Nat) (items : List Item) (b : Bool) : .sessionfinish b ∉ beforeEnd seed items := by
  intro h
  simp only [beforeEnd, List.mem_append, List.mem_cons, List.not_mem_nil, or_false] at h
  rcases h with (h | h) | h
  · cases h
  · cases h
  · obtain ⟨k, hk, -⟩ := session_ge h; cases hk

/-- A prefix of `a ++ x :: b` that contains `x`, which is not in `a`, contains all of `a`. -/
theorem prefix_of_mem {α : Type} {t a b : List α} {x : α} (h : t <+: a ++ x :: b) (hx : x ∈ t) (ha : x ∉ a) :
    a ++ [x] <+: t := by
  obtain ⟨r, hr⟩ := h
  induction a generalizing t with
  | nil =>
    cases t with
    | nil => cases hx
    | cons y t =>
      simp only [List.nil_append, List.cons_append, List.cons.injEq] at hr
      exact ⟨t, by simp [hr.1]⟩
  | cons y a ih =>
    cases t with
    | nil => cases hx
    | cons z t =>
      simp only [List.cons_append, List.cons.injEq] at hr
      obtain ⟨rfl, hr⟩ := hr
      have hxz : x ≠ z := fun e => ha (by simp [e])
      have hxt : x ∈ t := by simpa [hxz] using hx
      obtain ⟨q, hq⟩ := ih hxt (fun h => ha (List.mem_cons_of_mem _ h)) hr
      exact ⟨q, by simp [← hq]⟩

theorem sessionTrace_eq (seed : Nat) (items : List Item) :
    sessionTrace seed items = beforeEnd seed items ++ .sessionfinish false :: [.unconfigure, .shutdown] := rfl

theorem clean_eq {c : Cfg} (h : Clean c) : c.clean = c := by
  cases c
  simp only [Cfg.clean, Clean] at h ⊢
  obtain ⟨h1, h2, h3, h4⟩ := h
  simp [h3, h4, funext h1, funext h2]

/-- Without interference the observations are a part of the specified session. -/
theorem clean_prefix {c : Cfg} (h : Clean c) (items : List Item) (ins : List Input) :
    (run c items ins).trace <+: sessionTrace c.seed items := by
  obtain ⟨n, hn, hr, -⟩ := session_run h items
  simp only [run, play_dones]
  rcases Nat.le_total (count ins) n with hle | hle
  · obtain ⟨m, rfl⟩ := Nat.exists_eq_add_of_le hle
    rw [dones_add] at hn
    have := dones_mono c m (dones c (count ins) (startRegression c items))
    rw [hn] at this
    exact this
  · obtain ⟨m, hm⟩ := Nat.exists_eq_add_of_le hle
    rw [hm, dones_add, dones_idle _ _ hr, hn]
    exact List.prefix_refl _

/-- A session without interference that is over is the specified one, up to the last two announcements. -/
theorem over_trace {c : Cfg} (h : Clean c) {items : List Item} {ins : List Input} (ho : Over (run c items ins).trace) :
    ∃ x, (run c items ins).trace = beforeEnd c.seed items ++ x ∧ x <+: ending false := by
  obtain ⟨b, hb⟩ := ho
  have hp := clean_prefix h items ins
  rw [sessionTrace_eq] at hp
  have hb' : Event.sessionfinish false ∈ (run c items ins).trace := by
    have := hp.mem hb
    simp only [List.mem_append, List.mem_cons, List.not_mem_nil, or_false] at this
    rcases this with this | this | this | this
    · exact absurd this (not_mem_beforeEnd _ _ _)
    · cases this; exact hb
    · cases this
    · cases this
  obtain ⟨y, hy⟩ := prefix_of_mem hp hb' (not_mem_beforeEnd _ _ _)
  refine ⟨.sessionfinish false :: y, by rw [← hy]; simp, ?_⟩
  rw [← hy] at hp
  obtain ⟨z, hz⟩ := hp
  refine ⟨z, ?_⟩
  simpa [ending] using hz

/-- The events of an item in a session that is over. -/
theorem over_item' {c : Cfg} (h : Clean c) {items : List Item} {ins : List Input} (ho : Over (run c items ins).trace)
    {k : Nat} {it : Item} (hk : items[k]? = some it) (P : List Fin → Prop) (h0 : P [])
    (hP : ∀ it ∈ items, ∀ i last live g, P live → P (it.leaves c.seed i last live g).live) :
    ∃ A B live g last, (run c items ins).trace = A ++ (it.leaves c.seed (k + 1) last live g).events ++ B ∧
      (∀ e ∈ A, e.item? ≠ some (k + 1)) ∧ (∀ e ∈ B, e.item? ≠ some (k + 1)) ∧
      last = decide (k + 1 = items.length) ∧ P live := by
  obtain ⟨x, hx, hxe⟩ := over_trace h ho
  obtain ⟨A, B, live, g, last, hs, hA, hB, hl, hp⟩ := session_split P c.seed 1 items [] ⟨none, 0⟩ k it hk h0 hP
  have e : 1 + k = k + 1 := Nat.add_comm ..
  rw [e] at hs hA hB
  refine ⟨[.sessionstart, .collection] ++ A, B ++ x, live, g, last, ?_, ?_, ?_, hl, hp⟩
  · rw [hx, beforeEnd, hs]; simp
  · intro e he
    simp only [List.mem_append, List.mem_cons, List.not_mem_nil, or_false] at he
    rcases he with (rfl | rfl) | he
    · intro h; cases h
    · intro h; cases h
    · exact hA e he
  · intro e he
    rcases List.mem_append.mp he with he | he
    · exact hB e he
    · have := hxe.mem he
      simp only [ending, List.mem_cons, List.not_mem_nil, or_false] at this
      rcases this with rfl | rfl | rfl <;> (intro h; cases h)

theorem over_item {c : Cfg} (h : Clean c) {items : List Item} {ins : List Input} (ho : Over (run c items ins).trace)
    {k : Nat} {it : Item} (hk : items[k]? = some it) :
    ∃ A B live g last, (run c items ins).trace = A ++ (it.leaves c.seed (k + 1) last live g).events ++ B ∧
      (∀ e ∈ A, e.item? ≠ some (k + 1)) ∧ (∀ e ∈ B, e.item? ≠ some (k + 1)) ∧
      last = decide (k + 1 = items.length) := by
  obtain ⟨A, B, live, g, last, h1, h2, h3, h4, -⟩ := over_item' h ho hk (fun _ => True) trivial fun _ _ _ _ _ _ _ => trivial
  exact ⟨A, B, live, g, last, h1, h2, h3, h4⟩

/-- An event of an item is an event of that item. -/
theorem over_find {c : Cfg} (h : Clean c) {items : List Item} {ins : List Input} (ho : Over (run c items ins).trace)
    {e : Event} (he : e ∈ (run c items ins).trace) {i : Nat} (hi : e.item? = some i) :
    ∃ k it, i = k + 1 ∧ items[k]? = some it := by
  obtain ⟨x, hx, hxe⟩ := over_trace h ho
  rw [hx, beforeEnd] at he
  simp only [List.mem_append, List.mem_cons, List.not_mem_nil, or_false] at he
  rcases he with ((rfl | rfl) | he) | he
  · cases hi
  · cases hi
  · obtain ⟨k, hk, hl⟩ := session_ge he
    rw [hk] at hi
    simp only [Option.some.injEq] at hi
    exact ⟨k, items[k], by omega, by simp [hl]⟩
  · have := hxe.mem he
    simp only [ending, List.mem_cons, List.not_mem_nil, or_false] at this
    rcases this with rfl | rfl | rfl <;> cases hi

/-! ## Code -/

theorem codes_append (i : Nat) (w : When) (a b : List Event) : codes i w (a ++ b) = codes i w a ++ codes i w b := by
  simp [codes]

theorem codes_other {i : Nat} {w : When} {a : List Event} (h : ∀ e ∈ a, e.item? ≠ some i) : codes i w a = [] := by
  simp only [codes, List.filterMap_eq_nil_iff]
  intro e he
  split
  · next j w' st g =>
    rw [if_neg]
    rintro ⟨rfl, -⟩
    exact h _ he rfl
  · rfl

theorem codes_codeEvents (i : Nat) (w w' : When) (g : Rng) (sts : List Step) :
    codes i w (codeEvents i w' g sts) = if w' = w then sts else [] := by
  induction sts generalizing g with
  | nil => simp [codeEvents, codes]
  | cons st sts ih =>
    have := ih { g with drawn := g.drawn + st.draws }
    simp only [codes, codeEvents] at this ⊢
    by_cases h : w' = w
    · simp [h] at this ⊢; exact this
    · simp [h] at this ⊢; exact this

/-- The steps of an item, phase by phase. -/
theorem codes_leaves (seed i : Nat) (last : Bool) (it : Item) (live : List Fin) (g : Rng) :
    let due := (it.fins live).filter fun f => decide (f.till ≤ i) || last
    codes i .setup (it.leaves seed i last live g).events = it.setupSteps ∧
    codes i .call (it.leaves seed i last live g).events = (if it.setupResult = .passed then it.body.toList else []) ∧
    codes i .teardown (it.leaves seed i last live g).events = syncTeardowns due ++ asyncTeardowns due := by
  have hn : ∀ (w : When) (e : Event), (∀ j w' st g, e ≠ .code j w' st g) → codes i w [e] = [] := by
    intro w e h
    cases e <;> first | rfl | exact absurd rfl (h _ _ _ _)
  have h1 : ∀ w, codes i w [.start i] = [] := fun w => hn w _ (by intros; simp)
  have h2 : ∀ w w' o, codes i w [.report i w' o] = [] := fun w w' o => hn w _ (by intros; simp)
  have h3 : ∀ w w' o, codes i w [.report i w' o, .finish i] = [] := fun w w' o => by
    show codes i w ([.report i w' o] ++ [.finish i]) = []
    rw [codes_append, h2, hn w _ (by intros; simp)]; rfl
  simp only [Item.leaves, codes_append, codes_codeEvents, h1, h2, h3]
  by_cases hp : it.setupResult = .passed
  · simp [hp, codes_append, codes_codeEvents, h2]
  · simp [hp]
    try exact ⟨rfl, rfl, rfl⟩

/-- The steps of an item in a session that is over. -/
theorem over_codes {c : Cfg} (h : Clean c) {items : List Item} {ins : List Input} (ho : Over (run c items ins).trace)
    {k : Nat} {it : Item} (hk : items[k]? = some it) :
    codes (k + 1) .setup (run c items ins).trace = it.setupSteps ∧
    codes (k + 1) .call (run c items ins).trace = (if it.setupResult = .passed then it.body.toList else []) := by
  obtain ⟨A, B, live, g, last, h1, h2, h3, -⟩ := over_item h ho hk
  have := codes_leaves c.seed (k + 1) last it live g
  rw [h1]
  simp only [codes_append, codes_other h2, codes_other h3, List.nil_append, List.append_nil]
  exact ⟨this.1, this.2.1⟩

theorem mem_codes {i : Nat} {w : When} {st : Step} {g : Rng} {tr : List Event} (h : .code i w st g ∈ tr) :
    st ∈ codes i w tr := by
  simp only [codes, List.mem_filterMap]
  exact ⟨_, h, by simp⟩

theorem mem_untilBad {l : List Step} {st : Step} (h : st ∈ untilBad l) (hb : st.outcome ≠ .passed) :
    result l = st.outcome := by
  induction l with
  | nil => cases h
  | cons a l ih =>
    by_cases ha : a.outcome = .passed
    · simp only [untilBad, ha, if_true, List.mem_cons] at h
      rcases h with rfl | h
      · exact absurd ha hb
      · simp only [result, ha, if_true]; exact ih h
    · simp only [untilBad, ha, if_false, List.mem_singleton] at h
      subst h
      simp [result, ha]

theorem combine_failed {os : List Outcome} (h : Outcome.failed ∈ os) : combine os = .failed := by
  unfold combine
  have hm : Outcome.failed ∈ os.filter (· ≠ .passed) := by simp [h]
  split
  · next e => rw [e] at hm; cases hm
  · next o e => rw [e] at hm; exact (List.mem_singleton.mp hm).symm
  · rfl

/-! ## Finalizers -/

theorem nodup_map_inj {α β : Type} {f : α → β} {l : List α} (h : (l.map f).Nodup) {a b : α} (ha : a ∈ l) (hb : b ∈ l)
    (e : f a = f b) : a = b := by
  induction l with
  | nil => cases ha
  | cons x l ih =>
    simp only [List.map_cons, List.nodup_cons, List.mem_map, not_exists, not_and] at h
    rcases List.mem_cons.mp ha with ha | ha <;> rcases List.mem_cons.mp hb with hb | hb
    · rw [ha, hb]
    · rw [ha] at e; exact absurd e.symm (h.1 b hb)
    · rw [hb] at e; exact absurd e (h.1 a ha)
    · exact ih h.2 ha hb

theorem filterMap_congr' {α β : Type} {f g : α → Option β} {l : List α} (h : ∀ a ∈ l, f a = g a) :
    l.filterMap f = l.filterMap g := by
  induction l with
  | nil => rfl
  | cons a l ih =>
    simp only [List.filterMap_cons, h a (List.mem_cons_self ..), ih fun b hb => h b (List.mem_cons_of_mem _ hb)]

theorem armAll_eq (sts : List Step) (l : List Fin) :
    armAll sts l = l.map fun f => if f.key ∈ sts.map (·.id) then { f with armed := true } else f := by
  induction sts generalizing l with
  | nil => simp [armAll]
  | cons st sts ih =>
    show armAll sts (arm st.id l) = _
    rw [ih, arm, List.map_map]
    refine List.map_congr_left fun f _ => ?_
    by_cases h1 : f.key = st.id
    · by_cases h2 : st.id ∈ sts.map (·.id) <;> simp [Function.comp, h1, h2]
    · by_cases h2 : f.key ∈ sts.map (·.id) <;> simp [Function.comp, h1, h2]

theorem armAll_other {sts : List Step} {l : List Fin} (h : ∀ f ∈ l, f.key ∉ sts.map (·.id)) : armAll sts l = l := by
  rw [armAll_eq]
  conv => rhs; rw [← List.map_id l]
  refine List.map_congr_left fun f hf => ?_
  simp only [if_neg (h f hf), id]

theorem armAll_append (sts : List Step) (a b : List Fin) : armAll sts (a ++ b) = armAll sts a ++ armAll sts b := by
  simp [armAll_eq]

theorem armAll_reverse (sts : List Step) (a : List Fin) : armAll sts a.reverse = (armAll sts a).reverse := by
  simp [armAll_eq]

theorem mem_untilBad_sub {l : List Step} {st : Step} (h : st ∈ untilBad l) : st ∈ l := by
  induction l with
  | nil => cases h
  | cons a l ih =>
    by_cases ha : a.outcome = .passed
    · simp only [untilBad, ha, if_true, List.mem_cons] at h
      rcases h with rfl | h
      · exact List.mem_cons_self ..
      · exact List.mem_cons_of_mem _ (ih h)
    · simp only [untilBad, ha, if_false, List.mem_singleton] at h
      subst h; exact List.mem_cons_self ..

theorem untilBad_all {l : List Step} (h : result l = .passed) : untilBad l = l ∧ ∀ st ∈ l, st.outcome = .passed := by
  induction l with
  | nil => simp [untilBad]
  | cons a l ih =>
    by_cases ha : a.outcome = .passed
    · simp only [result, ha, if_true] at h
      simp [untilBad, ha, ih h]
      exact (ih h).2
    · simp only [result, ha, if_false] at h

theorem reached_split (fs : List Fixture) (h : result (syncOf fs) ≠ .passed) :
    ∃ st td till rest, fs = reached fs ++ .sync st td till :: rest ∧ st.outcome ≠ .passed ∧
      untilBad (syncOf fs) = syncOf (reached fs) ++ [st] ∧ ∀ x ∈ syncOf (reached fs), x.outcome = .passed := by
  induction fs with
  | nil => exact absurd rfl h
  | cons f fs ih =>
    cases f with
    | sync st td till =>
      by_cases hp : st.outcome = .passed
      · simp only [syncOf, List.filter_cons, Fixture.isSync, if_true, List.map_cons, Fixture.setup, result, hp] at h
        obtain ⟨st', td', till', rest, h1, h2, h3, h4⟩ := ih h
        refine ⟨st', td', till', rest, ?_, h2, ?_, ?_⟩
        · simp only [reached, hp, if_true, List.cons_append]; rw [← h1]
        · simp only [syncOf, List.filter_cons, Fixture.isSync, if_true, List.map_cons, Fixture.setup, untilBad, hp,
            reached, List.cons_append, List.cons.injEq, true_and]
          exact h3
        · simp only [syncOf, List.filter_cons, Fixture.isSync, if_true, List.map_cons, Fixture.setup, hp, reached,
            List.mem_cons]
          rintro x (rfl | hx)
          · exact hp
          · exact h4 x hx
      · refine ⟨st, td, till, fs, ?_, hp, ?_, ?_⟩
        · simp [reached, hp]
        · simp [syncOf, List.filter_cons, Fixture.isSync, Fixture.setup, untilBad, hp, reached]
        · simp [syncOf, reached, hp]
    | afun st =>
      obtain ⟨st', td', till', rest, h1, h2, h3, h4⟩ := ih (by simpa [syncOf, List.filter_cons, Fixture.isSync] using h)
      refine ⟨st', td', till', rest, ?_, h2, ?_, ?_⟩
      · simp only [reached, List.cons_append]; rw [← h1]
      · simpa [syncOf, List.filter_cons, Fixture.isSync, reached] using h3
      · simpa [syncOf, List.filter_cons, Fixture.isSync, reached] using h4
    | agen st subs td till =>
      obtain ⟨st', td', till', rest, h1, h2, h3, h4⟩ := ih (by simpa [syncOf, List.filter_cons, Fixture.isSync] using h)
      refine ⟨st', td', till', rest, ?_, h2, ?_, ?_⟩
      · simp only [reached, List.cons_append]; rw [← h1]
      · simpa [syncOf, List.filter_cons, Fixture.isSync, reached] using h3
      · simpa [syncOf, List.filter_cons, Fixture.isSync, reached] using h4

theorem setupSteps_eq (it : Item) :
    it.setupSteps = if result (syncOf it.fixtures) = .passed then
      untilBad (syncOf it.fixtures) ++ untilBad (asyncOf it.fixtures) else untilBad (syncOf it.fixtures) := by
  have horder : it.order.map (·.setup) = syncOf it.fixtures ++ asyncOf it.fixtures := by
    simp [Item.order, syncOf, asyncOf]
  simp [Item.setupSteps, horder, untilBad_append]

theorem passedAsync_eq (it : Item) :
    it.passedAsync = if result (syncOf it.fixtures) = .passed then
      (untilBad (asyncOf it.fixtures)).filter (·.outcome = .passed) else [] := rfl

theorem mem_syncOf {fs : List Fixture} {st : Step} : st ∈ syncOf fs ↔ ∃ f ∈ fs, f.isSync = true ∧ f.setup = st := by
  simp [syncOf, and_assoc]

theorem mem_asyncOf {fs : List Fixture} {st : Step} : st ∈ asyncOf fs ↔ ∃ f ∈ fs, f.isSync = false ∧ f.setup = st := by
  simp [asyncOf, and_assoc]

/-- The finalizer of a fixture once its item has been set up. -/
def finOf (it : Item) (f : Fixture) : Option Fin :=
  f.fin?.map fun x => if x.key ∈ it.passedAsync.map (·.id) then { x with armed := true } else x

/-- The armed finalizers of an item are those of the fixtures that were set up. -/
theorem armed_item (it : Item) (hd : (it.fixtures.map (·.setup.id)).Nodup) :
    (((armAll it.passedAsync ((reached it.fixtures).filterMap (·.fin?))).filter (·.armed)).map (·.step)) =
      it.setUp.filterMap (·.teardown?) := by
  have hinj : ∀ f ∈ it.fixtures, ∀ f' ∈ it.fixtures, f.setup = f'.setup → f = f' := fun f hf f' hf' e =>
    nodup_map_inj hd hf hf' (by simp only [e])
  -- one fixture
  have hone : ∀ fs : List Fixture,
      (((armAll it.passedAsync (fs.filterMap (·.fin?))).filter (·.armed)).map (·.step)) =
        fs.filterMap fun f => ((finOf it f).filter (·.armed)).map (·.step) := by
    intro fs
    rw [armAll_eq]
    induction fs with
    | nil => rfl
    | cons f fs ih =>
      rw [List.filterMap_cons (f := fun f => ((finOf it f).filter (·.armed)).map (·.step)), ← ih]
      cases hf : f.fin? with
      | none => simp only [List.filterMap_cons, hf, finOf, Option.map_none, Option.filter_none]
      | some x =>
        simp only [List.filterMap_cons, hf, List.map_cons, finOf, Option.map_some]
        generalize hy : (if x.key ∈ List.map (fun x => x.id) it.passedAsync then { x with armed := true } else x) = y
        by_cases hya : y.armed = true
        · simp only [List.filter_cons, hya, Option.filter, if_true, List.map_cons, Option.map_some]
        · simp only [List.filter_cons, hya, Option.filter, if_false, Option.map_none, Bool.false_eq_true]
  rw [hone, Item.setUp, List.filterMap_filter]
  by_cases hp : result (syncOf it.fixtures) = .passed
  · rw [reached_all _ hp]
    refine filterMap_congr' fun f hf => ?_
    have hs := untilBad_all hp
    cases f with
    | sync st td till =>
      have hm : st ∈ syncOf it.fixtures := mem_syncOf.mpr ⟨_, hf, rfl, rfl⟩
      have h1 : st ∈ it.setupSteps := by
        rw [setupSteps_eq, if_pos hp, hs.1]; exact List.mem_append_left _ hm
      cases td with
      | none => simp [finOf, Fixture.fin?, Fixture.teardown?]
      | some td =>
        simp only [finOf, Fixture.fin?, Fixture.teardown?, Fixture.setup, h1, hs.2 _ hm, Option.map_some]
        split <;> simp [Option.filter]
    | afun st => simp [finOf, Fixture.fin?, Fixture.teardown?]
    | agen st subs td till =>
      have hm : st ∈ asyncOf it.fixtures := mem_asyncOf.mpr ⟨_, hf, rfl, rfl⟩
      have h1 : (st ∈ it.setupSteps ∧ st.outcome = .passed) ↔ st.id ∈ it.passedAsync.map (·.id) := by
        rw [setupSteps_eq, if_pos hp, passedAsync_eq, if_pos hp]
        constructor
        · rintro ⟨h, ho⟩
          rcases List.mem_append.mp h with h | h
          · obtain ⟨f', hf', hi, he⟩ := mem_syncOf.mp (mem_untilBad_sub h)
            have := hinj _ hf _ hf' he.symm
            rw [← this] at hi
            cases hi
          · exact List.mem_map.mpr ⟨st, by simp [h, ho], rfl⟩
        · intro h
          obtain ⟨st', h', he⟩ := List.mem_map.mp h
          simp only [List.mem_filter, decide_eq_true_eq] at h'
          obtain ⟨f', hf', hi, he'⟩ := mem_asyncOf.mp (mem_untilBad_sub h'.1)
          have := nodup_map_inj hd hf hf' (show st.id = f'.setup.id by rw [he', he])
          subst this
          simp only [Fixture.setup] at he'
          subst he'
          exact ⟨List.mem_append_right _ h'.1, h'.2⟩
      by_cases hu : st.id ∈ it.passedAsync.map (·.id)
      · simp only [finOf, Fixture.fin?, Fixture.teardown?, Fixture.setup, (h1.mpr hu).1, (h1.mpr hu).2, Option.map_some]
        rw [if_pos hu]
        simp [Option.filter]
      · have : ¬ (st ∈ it.setupSteps ∧ st.outcome = .passed) := fun h => hu (h1.mp h)
        simp only [finOf, Fixture.fin?, Fixture.teardown?, Fixture.setup, hu, Option.map_some, if_false]
        by_cases ha : st ∈ it.setupSteps
        · simp [Option.filter, ha, show st.outcome ≠ .passed from fun h => this ⟨ha, h⟩]
        · simp [Option.filter, ha]
  · obtain ⟨st, td, till, rest, h1, h2, h3, h4⟩ := reached_split it.fixtures hp
    have hpa : it.passedAsync = [] := by rw [passedAsync_eq, if_neg hp]
    have hss : it.setupSteps = syncOf (reached it.fixtures) ++ [st] := by rw [setupSteps_eq, if_neg hp, h3]
    have hmem : ∀ f ∈ it.fixtures, f.setup ∈ it.setupSteps → f.setup.outcome = .passed →
        f ∈ reached it.fixtures ∧ f.isSync = true := by
      intro f hf hm ho
      rw [hss] at hm
      rcases List.mem_append.mp hm with hm | hm
      · obtain ⟨f', hf', hi, he⟩ := mem_syncOf.mp hm
        have hf'' : f' ∈ it.fixtures := by rw [h1]; exact List.mem_append_left _ hf'
        have := hinj _ hf _ hf'' he.symm
        subst this
        exact ⟨hf', hi⟩
      · simp only [List.mem_singleton] at hm
        rw [hm] at ho
        exact absurd ho h2
    have hdisj : ∀ f ∈ Fixture.sync st td till :: rest, f ∉ reached it.fixtures := by
      intro f hf hr
      rw [h1, List.map_append, List.nodup_append] at hd
      exact hd.2.2 _ (List.mem_map_of_mem hr) _ (List.mem_map_of_mem hf) rfl
    have hrest : (Fixture.sync st td till :: rest).filterMap
        (fun f => if decide (f.setup ∈ it.setupSteps) && decide (f.setup.outcome = .passed) then f.teardown? else none) = [] := by
      rw [List.filterMap_eq_nil_iff]
      intro f hf
      rw [if_neg]
      intro hc
      simp only [Bool.and_eq_true, decide_eq_true_eq] at hc
      have hff : f ∈ it.fixtures := by rw [h1]; exact List.mem_append_right _ hf
      exact hdisj f hf (hmem f hff hc.1 hc.2).1
    have hsplit : it.fixtures.filterMap
        (fun f => if decide (f.setup ∈ it.setupSteps) && decide (f.setup.outcome = .passed) then f.teardown? else none) =
      (reached it.fixtures).filterMap
        (fun f => if decide (f.setup ∈ it.setupSteps) && decide (f.setup.outcome = .passed) then f.teardown? else none) := by
      have := congrArg (List.filterMap (fun f => if decide (f.setup ∈ it.setupSteps) && decide (f.setup.outcome = .passed) then f.teardown? else none)) h1
      rw [this, List.filterMap_append, hrest, List.append_nil]
    rw [hsplit]
    refine filterMap_congr' fun f hf => ?_
    have hff : f ∈ it.fixtures := by rw [h1]; exact List.mem_append_left _ hf
    cases f with
    | sync st' td' till' =>
      have hm : st' ∈ syncOf (reached it.fixtures) := mem_syncOf.mpr ⟨_, hf, rfl, rfl⟩
      have hm' : st' ∈ it.setupSteps := by rw [hss]; exact List.mem_append_left _ hm
      cases td' with
      | none => simp [finOf, Fixture.fin?, Fixture.teardown?]
      | some td' => simp [finOf, Fixture.fin?, Fixture.teardown?, Fixture.setup, hm', h4 _ hm, hpa, Option.filter]
    | afun st' => simp [finOf, Fixture.fin?, Fixture.teardown?]
    | agen st' subs' td' till' =>
      have : ¬ (st' ∈ it.setupSteps ∧ st'.outcome = .passed) := by
        rintro ⟨ha, hb⟩
        have := (hmem _ hff ha hb).2
        cases this
      by_cases ha : st' ∈ it.setupSteps
      · simp [finOf, Fixture.fin?, Fixture.setup, hpa, Option.filter, ha,
          show st'.outcome ≠ .passed from fun h => this ⟨ha, h⟩]
      · simp [finOf, Fixture.fin?, Fixture.setup, hpa, Option.filter, ha]

end Verif.Pytest
