import Verif.Model.SimInfo
/-! # C173: name, version and arguments of the simulator -/
namespace Verif
open SimInfo

namespace SimInfoL

/-- The answers an interface gives that has these three values. -/
def answer (p w : PyStr) (l : List PyStr) : Query → Answer
  | .product => .text p
  | .version => .text w
  | .args => .list l

theorem vpi_query (sim : VpiSim) (q : Query) (v : Vpi) :
    (v.query sim q).1 = v.ask sim ∧
      (v.query sim q).2 = answer (v.ask sim).product (v.ask sim).version (v.ask sim).args q := by
  cases q <;> simp [Vpi.query, answer]

theorem vpi_run {sim : VpiSim} (qs : List Query) (v : Vpi) (h : v.product ≠ []) :
    ∀ x ∈ Vpi.run sim qs v, x.2 = answer v.product v.version v.args x.1 := by
  induction qs with
  | nil => simp [Vpi.run]
  | cons q qs ih =>
    have e : v.ask sim = v := by simp [Vpi.ask, h]
    have hq := vpi_query sim q v
    rw [e] at hq
    intro x hx
    simp only [Vpi.run, List.mem_cons] at hx
    rcases hx with rfl | hx
    · exact hq.2
    · rw [hq.1] at hx
      exact ih x hx

theorem fill_none (addr : Nat → Nat) (ss : List PyStr) : ∀ (i : Nat) (arr : List (Option Nat)) (mem : Nat → PyStr),
    fill addr i ss arr mem = none ↔ i ≤ arr.length ∧ arr.length < i + ss.length ∨ (arr.length < i ∧ ss ≠ []) := by
  induction ss with
  | nil => intro i arr mem; simp [fill]
  | cons s ss ih =>
    intro i arr mem
    simp only [fill]
    split
    · rw [ih]; simp; omega
    · simp; omega

/-- Where the loop has been, and what it has left. -/
theorem fill_some (addr : Nat → Nat) (ss : List PyStr) : ∀ (i : Nat) (arr : List (Option Nat)) (mem : Nat → PyStr)
    (arr' : List (Option Nat)) (mem' : Nat → PyStr), fill addr i ss arr mem = some (arr', mem') →
    arr'.length = arr.length ∧
    (∀ (k : Nat), arr'[k]? = if i ≤ k ∧ k < i + ss.length then some (some (addr k)) else arr[k]?) ∧
    (∀ (a : Nat), (∀ (k : Nat), k < ss.length → addr (i + k) ≠ a) → mem' a = mem a) ∧
    (∀ (k : Nat) (s : PyStr), ss[k]? = some s → (∀ (j : Nat), k < j → j < ss.length → addr (i + j) ≠ addr (i + k)) →
      mem' (addr (i + k)) = s) := by
  induction ss with
  | nil =>
    intro i arr mem arr' mem' h
    simp [fill] at h
    obtain ⟨rfl, rfl⟩ := h
    refine ⟨rfl, ?_, ?_, ?_⟩
    · intro k; rw [if_neg]; simp only [List.length_nil]; omega
    · intro a _; rfl
    · intro k s hs; simp at hs
  | cons x xs ih =>
    intro i arr mem arr' mem' h
    simp only [fill] at h
    split at h
    case isFalse => simp at h
    case isTrue hi =>
      obtain ⟨h1, h2, h3, h4⟩ := ih _ _ _ _ _ h
      refine ⟨by simpa using h1, ?_, ?_, ?_⟩
      · intro k
        rw [h2]
        by_cases hk : k = i
        · subst hk
          rw [if_neg (by omega), if_pos (by simp)]
          simp [hi]
        · by_cases hk2 : i + 1 ≤ k ∧ k < i + 1 + xs.length
          · rw [if_pos hk2, if_pos (by simp; omega)]
          · rw [if_neg hk2, if_neg (by simp; omega)]
            rw [List.getElem?_set_ne (by omega)]
      · intro a ha
        rw [h3 a (by
          intro k hk
          have := ha (k + 1) (by simp; omega)
          rwa [show i + 1 + k = i + (k + 1) by omega])]
        have h0 := ha 0 (by simp)
        simp only [Nat.add_zero] at h0
        exact if_neg (fun e => h0 e.symm)
      · intro k s hs hk
        cases k with
        | zero =>
          simp at hs; subst hs
          rw [h3 (addr (i + 0)) (by
            intro k hk'
            have := hk (k + 1) (by omega) (by simp; omega)
            rwa [show i + 1 + k = i + (k + 1) by omega])]
          simp
        | succ k =>
          have := h4 k s (by simpa using hs) (by
            intro j hj hj'
            have := hk (j + 1) (by omega) (by simp; omega)
            rwa [show i + 1 + j = i + (j + 1) by omega, show i + 1 + k = i + (k + 1) by omega])
          rwa [show i + 1 + k = i + (k + 1) by omega] at this

theorem mapM_some {mem : Nat → PyStr} {arr : List (Option Nat)} {l : List PyStr} :
    readArgs mem arr = some l ↔ arr.length = l.length ∧ ∀ (k : Nat) (s : PyStr), l[k]? = some s →
      ∃ a, arr[k]? = some (some a) ∧ mem a = s := by
  induction arr generalizing l with
  | nil =>
    simp only [readArgs, List.mapM_nil, List.length_nil]
    constructor
    · intro h; cases h; simp
    · intro ⟨h, _⟩
      have := List.length_eq_zero_iff.1 h.symm
      rw [this]; rfl
  | cons p ps ih =>
    simp only [readArgs, List.mapM_cons] at ih ⊢
    cases p with
    | none =>
      simp only [Option.map_none]
      constructor
      · intro h; cases h
      · intro ⟨h, h2⟩
        cases l with
        | nil => simp at h
        | cons x xs =>
          obtain ⟨a, ha, _⟩ := h2 0 x (by simp)
          simp at ha
    | some a =>
      simp only [Option.map_some, Option.pure_def, Option.bind_eq_bind, Option.bind_some]
      cases l with
      | nil =>
        constructor
        · intro h
          cases hm : (List.mapM (fun p => Option.map mem p) ps) <;> simp [hm] at h
        · intro ⟨h, _⟩; simp at h
      | cons x xs =>
        have := ih (l := xs)
        constructor
        · intro h
          cases hm : (List.mapM (fun p => Option.map mem p) ps) with
          | none => simp [hm] at h
          | some ys =>
            rw [hm] at this
            simp only [hm, Option.bind_some, Option.some.injEq, List.cons.injEq] at h
            obtain ⟨rfl, rfl⟩ := h
            obtain ⟨h1, h2⟩ := this.1 rfl
            refine ⟨by simp [h1], ?_⟩
            intro k s hk
            cases k with
            | zero => simp at hk; exact ⟨a, by simp, hk⟩
            | succ k => simpa using h2 k s (by simpa using hk)
        · intro ⟨h1, h2⟩
          have h3 := this.2 ⟨by simpa using h1, by
            intro k s hk
            simpa using h2 (k + 1) s (by simpa using hk)⟩
          rw [h3]
          obtain ⟨b, hb, hb2⟩ := h2 0 x (by simp)
          simp at hb
          subst hb
          simp [hb2]

theorem cut_some (s : PyStr) (hs : s ≠ []) : ∀ (t p v : PyStr), cut s t = some (p, v) →
    t = p ++ s ++ v ∧ ∀ (p' v' : PyStr), t = p' ++ s ++ v' → p.length ≤ p'.length := by
  intro t
  induction t with
  | nil => intro p v h; simp [cut, hs] at h
  | cons c t ih =>
    intro p v h
    simp only [cut] at h
    split at h
    case isTrue hp =>
      simp at h
      obtain ⟨rfl, rfl⟩ := h
      have := List.isPrefixOf_iff_prefix.1 hp
      obtain ⟨w, hw⟩ := this
      refine ⟨?_, by simp⟩
      rw [← hw]; simp
    case isFalse hp =>
      cases hc : cut s t with
      | none => simp [hc] at h
      | some x =>
        obtain ⟨p0, v0⟩ := x
        simp [hc] at h
        obtain ⟨rfl, rfl⟩ := h
        obtain ⟨h1, h2⟩ := ih p0 v0 hc
        refine ⟨by rw [h1]; simp, ?_⟩
        intro p' v' he
        cases p' with
        | nil =>
          exfalso
          apply hp
          rw [List.isPrefixOf_iff_prefix]
          exact ⟨v', by rw [he]; simp⟩
        | cons d p' =>
          simp only [List.cons_append, List.cons.injEq] at he
          have := h2 p' v' he.2
          simp; omega

theorem cut_none (s : PyStr) (hs : s ≠ []) : ∀ (t : PyStr), cut s t = none → ∀ (p v : PyStr), t ≠ p ++ s ++ v := by
  intro t
  induction t with
  | nil =>
    intro _ p v h
    have h1 := congrArg List.length h
    have h2 : s.length ≠ 0 := fun e => hs (List.length_eq_zero_iff.1 e)
    simp only [List.length_append, List.length_nil] at h1
    omega
  | cons c t ih =>
    intro h p v he
    simp only [cut] at h
    split at h
    case isTrue => simp at h
    case isFalse hp =>
      have h0 : cut s t = none := by
        cases hc : cut s t with
        | none => rfl
        | some x => simp [hc] at h
      cases p with
      | nil =>
        apply hp
        rw [List.isPrefixOf_iff_prefix]
        exact ⟨v, by rw [he]; simp⟩
      | cons d p =>
        simp only [List.cons_append, List.cons.injEq] at he
        exact ih h0 p v he.2

theorem search_ne : search ≠ [] := by decide

/-- What the text of the simulator says. -/
def said (sim : FliSim) : PyStr × PyStr :=
  match cut search sim.info with
  | some x => x
  | none => (sim.info, unknown)

theorem fli_ask {sim : FliSim} {f : Fli} (h : (f.product = [] ∧ f.version = []) ∨ (f.product, f.version) = said sim) :
    ((f.ask sim).product, (f.ask sim).version) = said sim := by
  unfold Fli.ask
  split
  · unfold said
    cases hc : cut search sim.info with
    | none => simp
    | some x => simp
  case isFalse hn =>
    rcases h with h | h
    · exact absurd h hn
    · exact h

theorem fli_run {sim : FliSim} (qs : List Query) : ∀ (f : Fli),
    ((f.product = [] ∧ f.version = []) ∨ (f.product, f.version) = said sim) →
    ∀ x ∈ Fli.run sim qs f, (x.1 = .product → x.2 = .text (said sim).1) ∧ (x.1 = .version → x.2 = .text (said sim).2) := by
  induction qs with
  | nil => simp [Fli.run]
  | cons q qs ih =>
    intro f h x hx
    have ha := fli_ask h
    simp only [Fli.run, List.mem_cons] at hx
    rcases hx with rfl | hx
    · rw [← ha]
      cases q <;> simp [Fli.query]
    · apply ih _ _ x hx
      cases q with
      | product => exact Or.inr ha
      | version => exact Or.inr ha
      | args =>
        simp only [Fli.query]
        cases f.argv with
        | some l => exact h
        | none => simp only; split <;> exact h

theorem fli_args {sim : FliSim} (hf : ∀ n, sim.fails n = false) (qs : List Query) : ∀ (f : Fli),
    (f.argv = none ∨ f.argv = some sim.args) → ∀ x ∈ Fli.run sim qs f, x.1 = .args → x.2 = .list sim.args := by
  induction qs with
  | nil => simp [Fli.run]
  | cons q qs ih =>
    intro f h x hx
    have hk : ∀ f : Fli, (f.ask sim).argv = f.argv := by
      intro f; unfold Fli.ask; split
      · cases cut search sim.info <;> rfl
      · rfl
    simp only [Fli.run, List.mem_cons] at hx
    rcases hx with rfl | hx
    · rintro rfl
      rcases h with h | h <;> simp [Fli.query, h, hf]
    · refine ih _ ?_ x hx
      cases q with
      | product => simpa [Fli.query, hk] using h
      | version => simpa [Fli.query, hk] using h
      | args => rcases h with h | h <;> simp [Fli.query, h, hf]

/-- The answers about the name, from a state in which it is known or not. -/
theorem vhpi_name {sim : VhpiSim} (hn : sim.name ≠ []) (qs : List Query) : ∀ (v : Vhpi),
    (v.product ≠ [] → ∀ x ∈ Vhpi.run sim qs v, x.1 = .product → x.2 = .text v.product) ∧
    (v.product = [] → ∃ p, (p = sim.name ∨ p = unknown) ∧ ∀ x ∈ Vhpi.run sim qs v, x.1 = .product → x.2 = .text p) := by
  have keep : ∀ (v : Vhpi) (q : Query), q ≠ .product → (v.query sim q).1.product = v.product := by
    intro v q hq
    cases q with
    | product => simp at hq
    | version => simp only [Vhpi.query]; split <;> rfl
    | args =>
      simp only [Vhpi.query]
      cases v.argv with
      | some a => rfl
      | none =>
        simp only
        split
        · rfl
        · split <;> rfl
  induction qs with
  | nil => intro v; exact ⟨by simp [Vhpi.run], fun _ => ⟨unknown, Or.inr rfl, by simp [Vhpi.run]⟩⟩
  | cons q qs ih =>
    intro v
    constructor
    · intro h x hx
      simp only [Vhpi.run, List.mem_cons] at hx
      rcases hx with rfl | hx
      · rintro rfl; simp [Vhpi.query, h]
      · have e : (v.query sim q).1.product = v.product := by
          by_cases hq : q = .product
          · subst hq; simp [Vhpi.query, h]
          · exact keep v q hq
        have := (ih (v.query sim q).1).1 (by rw [e]; exact h) x hx
        rwa [e] at this
    · intro h
      by_cases hq : q = .product
      · subst hq
        let p := if sim.fails v.calls then unknown else sim.name
        have hp : p = sim.name ∨ p = unknown := by
          show (if _ then _ else _) = _ ∨ (if _ then _ else _) = _
          split
          · exact Or.inr rfl
          · exact Or.inl rfl
        have hne : p ≠ [] := by
          rcases hp with hp | hp
          · rw [hp]; exact hn
          · rw [hp]; simp [unknown]
        have e : v.query sim .product = ({ v with product := p, calls := v.calls + 1 }, .text p) := by
          simp [Vhpi.query, h, p]
        refine ⟨p, hp, ?_⟩
        intro x hx
        simp only [Vhpi.run, List.mem_cons] at hx
        rcases hx with rfl | hx
        · intro _; rw [e]
        · rw [e] at hx
          exact (ih _).1 hne x hx
      · obtain ⟨p, hp, h2⟩ := (ih (v.query sim q).1).2 (by rw [keep v q hq]; exact h)
        refine ⟨p, hp, ?_⟩
        intro x hx
        simp only [Vhpi.run, List.mem_cons] at hx
        rcases hx with rfl | hx
        · intro hx; exact absurd hx hq
        · exact h2 x hx

theorem vhpi_version {sim : VhpiSim} (hn : sim.version ≠ []) (qs : List Query) : ∀ (v : Vhpi),
    (v.version ≠ [] → ∀ x ∈ Vhpi.run sim qs v, x.1 = .version → x.2 = .text v.version) ∧
    (v.version = [] → ∃ p, (p = sim.version ∨ p = unknown) ∧ ∀ x ∈ Vhpi.run sim qs v, x.1 = .version → x.2 = .text p) := by
  have keep : ∀ (v : Vhpi) (q : Query), q ≠ .version → (v.query sim q).1.version = v.version := by
    intro v q hq
    cases q with
    | version => simp at hq
    | product => simp only [Vhpi.query]; split <;> rfl
    | args =>
      simp only [Vhpi.query]
      cases v.argv with
      | some a => rfl
      | none =>
        simp only
        split
        · rfl
        · split <;> rfl
  induction qs with
  | nil => intro v; exact ⟨by simp [Vhpi.run], fun _ => ⟨unknown, Or.inr rfl, by simp [Vhpi.run]⟩⟩
  | cons q qs ih =>
    intro v
    constructor
    · intro h x hx
      simp only [Vhpi.run, List.mem_cons] at hx
      rcases hx with rfl | hx
      · rintro rfl; simp [Vhpi.query, h]
      · have e : (v.query sim q).1.version = v.version := by
          by_cases hq : q = .version
          · subst hq; simp [Vhpi.query, h]
          · exact keep v q hq
        have := (ih (v.query sim q).1).1 (by rw [e]; exact h) x hx
        rwa [e] at this
    · intro h
      by_cases hq : q = .version
      · subst hq
        let p := if sim.fails v.calls then unknown else sim.version
        have hp : p = sim.version ∨ p = unknown := by
          show (if _ then _ else _) = _ ∨ (if _ then _ else _) = _
          split
          · exact Or.inr rfl
          · exact Or.inl rfl
        have hne : p ≠ [] := by
          rcases hp with hp | hp
          · rw [hp]; exact hn
          · rw [hp]; simp [unknown]
        have e : v.query sim .version = ({ v with version := p, calls := v.calls + 1 }, .text p) := by
          simp [Vhpi.query, h, p]
        refine ⟨p, hp, ?_⟩
        intro x hx
        simp only [Vhpi.run, List.mem_cons] at hx
        rcases hx with rfl | hx
        · intro _; rw [e]
        · rw [e] at hx
          exact (ih _).1 hne x hx
      · obtain ⟨p, hp, h2⟩ := (ih (v.query sim q).1).2 (by rw [keep v q hq]; exact h)
        refine ⟨p, hp, ?_⟩
        intro x hx
        simp only [Vhpi.run, List.mem_cons] at hx
        rcases hx with rfl | hx
        · intro hx; exact absurd hx hq
        · exact h2 x hx

/-- The last of the calls that leave their string where the `k`-th did. -/
theorem last_same (addr : Nat → Nat) (n k : Nat) (hk : k < n) :
    ∃ j, k ≤ j ∧ j < n ∧ addr j = addr k ∧ ∀ i, j < i → i < n → addr i ≠ addr k := by
  induction n with
  | zero => omega
  | succ n ih =>
    by_cases ha : addr n = addr k
    · exact ⟨n, by omega, by omega, ha, by intro i h1 h2; omega⟩
    · have hkn : k < n := by
        rcases Nat.lt_or_ge k n with h | h
        · exact h
        · exact absurd (by rw [show n = k by omega]) ha
      obtain ⟨j, h1, h2, h3, h4⟩ := ih hkn
      refine ⟨j, h1, by omega, h3, ?_⟩
      intro i hi hi2
      by_cases e : i = n
      · subst e; exact ha
      · exact h4 i hi (by omega)

end SimInfoL
open SimInfoL

/-- C173, VPI: in any sequence of queries, either all answers are what the simulator says of itself, or, if it did not
answer at first, name and version are UNKNOWN and there are no arguments for ever. -/
theorem C173_vpi (sim : VpiSim) (hp : sim.info.product ≠ []) (qs : List Query) :
    (∀ x ∈ Vpi.run sim qs {}, x.2 = match x.1 with
      | .product => .text sim.info.product
      | .version => .text sim.info.version
      | .args => .list sim.info.args) ∨
    (sim.fails 0 = true ∧ ∀ x ∈ Vpi.run sim qs {}, x.2 = match x.1 with
      | .product => .text "UNKNOWN".toList
      | .version => .text "UNKNOWN".toList
      | .args => .list []) := by
  cases qs with
  | nil => left; simp [Vpi.run]
  | cons q qs =>
    have hq := vpi_query sim q {}
    by_cases hf : sim.fails 0 = true
    · right
      refine ⟨hf, ?_⟩
      have e : ({} : Vpi).ask sim = ⟨unknown, unknown, [], 1⟩ := by simp [Vpi.ask, hf]
      rw [e] at hq
      have hr := vpi_run (sim := sim) qs ⟨unknown, unknown, [], 1⟩ (by simp [unknown])
      intro x hx
      simp only [Vpi.run, List.mem_cons] at hx
      rcases hx with rfl | hx
      · rw [hq.2]; cases q <;> rfl
      · rw [hq.1] at hx
        rw [hr x hx]
        cases x.1 <;> rfl
    · left
      have e : ({} : Vpi).ask sim = ⟨sim.info.product, sim.info.version, sim.info.args, 1⟩ := by simp [Vpi.ask, hf]
      rw [e] at hq
      have hr := vpi_run (sim := sim) qs ⟨sim.info.product, sim.info.version, sim.info.args, 1⟩ hp
      intro x hx
      simp only [Vpi.run, List.mem_cons] at hx
      rcases hx with rfl | hx
      · rw [hq.2]; cases q <;> rfl
      · rw [hq.1] at hx
        rw [hr x hx]
        cases x.1 <;> rfl

/-- A simulator that answers from the second call on. -/
def exVpiSim : VpiSim := ⟨⟨"Icarus Verilog".toList, "12.0".toList, ["vvp".toList, "+a=1".toList]⟩, fun n => n == 0⟩

example : exVpiSim.info.product ≠ [] ∧
    Vpi.run exVpiSim [.args, .product, .version] {} = [(.args, .list []), (.product, .text unknown), (.version, .text unknown)] ∧
    Vpi.run { exVpiSim with fails := fun _ => false } [.args, .product] {} =
      [(.args, .list ["vvp".toList, "+a=1".toList]), (.product, .text "Icarus Verilog".toList)] := by
  decide +kernel

/-- C173, VHPI: in any sequence of queries the name is the same each time, the one of the simulator or UNKNOWN, and so is
the version. -/
theorem C173_vhpi_name (sim : VhpiSim) (hn : sim.name ≠ []) (hv : sim.version ≠ []) (qs : List Query) :
    (∃ p, (p = sim.name ∨ p = "UNKNOWN".toList) ∧ ∀ x ∈ Vhpi.run sim qs {}, x.1 = .product → x.2 = .text p) ∧
    (∃ p, (p = sim.version ∨ p = "UNKNOWN".toList) ∧ ∀ x ∈ Vhpi.run sim qs {}, x.1 = .version → x.2 = .text p) :=
  ⟨(vhpi_name hn qs {}).2 rfl, (vhpi_version hv qs {}).2 rfl⟩

/-- A simulator that keeps one buffer for strings. -/
def exVhpiSim (addr : Nat → Nat) : VhpiSim :=
  ⟨fun _ => false, "Riviera-PRO".toList, "2024".toList, 2, some ["vsimsa".toList, "+a=1".toList], addr⟩

example : Vhpi.run (exVhpiSim id) [.version, .product, .args, .args] {} =
    [(.version, .text "2024".toList), (.product, .text "Riviera-PRO".toList),
     (.args, .list ["vsimsa".toList, "+a=1".toList]), (.args, .list ["vsimsa".toList, "+a=1".toList])] := by
  decide +kernel

/-- C173, in full for VHPI: a simulator that gives as many arguments as it says gives these arguments. -/
def C173_vhpi_args_full : Prop := ∀ (sim : VhpiSim) (l : List PyStr), sim.fails 0 = false → sim.args = some l →
  sim.argc = l.length → (({} : Vhpi).query sim .args).2 = .list l

/-- C173: if the simulator uses the memory of a string again for the next one, as VHPI allows, all arguments are the last
one: the strings are not copied. -/
theorem C173_vhpi_args_counterexample : ¬ C173_vhpi_args_full := by
  intro h
  have := h (exVhpiSim fun _ => 0) _ rfl rfl rfl
  exact absurd this (by decide +kernel)

/-- C173, partial (the full claim is false of the code): with as many arguments as announced, the `k`-th argument is the one
of the last call that left its string in the memory of the `k`-th, and so the list is right if all strings stay. -/
theorem C173_vhpi_args_partial (sim : VhpiSim) (l : List PyStr) (hf : sim.fails 0 = false) (ha : sim.args = some l)
    (hc : sim.argc = l.length) :
    ∃ m, (({} : Vhpi).query sim .args).2 = .list m ∧ m.length = l.length ∧
      (∀ (k : Nat), k < l.length → ∃ j, k ≤ j ∧ j < l.length ∧ sim.addr j = sim.addr k ∧
        (∀ i, j < i → i < l.length → sim.addr i ≠ sim.addr k) ∧ m[k]? = l[j]?) ∧
      ((∀ i j, i < l.length → j < l.length → sim.addr i = sim.addr j → i = j) → m = l) := by
  cases hfill : fill sim.addr 0 l (List.replicate sim.argc none) (fun _ => []) with
  | none =>
    rw [fill_none] at hfill
    simp [hc] at hfill
  | some x =>
    obtain ⟨arr, mem⟩ := x
    obtain ⟨h1, h2, h3, h4⟩ := fill_some _ _ _ _ _ _ _ hfill
    simp only [List.length_replicate, Nat.zero_add, Nat.zero_le, true_and] at h1 h2 h4
    have harr : ∀ (k : Nat), k < l.length → arr[k]? = some (some (sim.addr k)) := by
      intro k hk; rw [h2, if_pos hk]
    let m := (List.range l.length).map fun k => mem (sim.addr k)
    have hread : readArgs mem arr = some m := by
      rw [mapM_some]
      refine ⟨by simp [m, h1, hc], ?_⟩
      intro k s hk
      have hk' : k < l.length := by
        have := (List.getElem?_eq_some_iff.1 hk).1
        simpa [m] using this
      refine ⟨sim.addr k, harr k hk', ?_⟩
      simpa [m, hk'] using hk
    have key : ∀ (k : Nat), k < l.length → ∃ j, k ≤ j ∧ j < l.length ∧ sim.addr j = sim.addr k ∧
        (∀ i, j < i → i < l.length → sim.addr i ≠ sim.addr k) ∧ m[k]? = l[j]? := by
      intro k hk
      obtain ⟨j, g1, g2, g3, g4⟩ := last_same sim.addr l.length k hk
      refine ⟨j, g1, g2, g3, g4, ?_⟩
      have := h4 j l[j] (by simp [g2]) (by
        intro i hi hi2
        rw [g3]; exact g4 i hi hi2)
      rw [List.getElem?_eq_getElem g2, ← this, g3]
      simp [m, hk]
    refine ⟨m, ?_, by simp [m], key, ?_⟩
    · simp [Vhpi.query, hf, ha, hfill, argsAnswer, hread]
    · intro hinj
      apply List.ext_getElem?
      intro k
      by_cases hk : k < l.length
      · obtain ⟨j, _, g2, g3, _, g5⟩ := key k hk
        rw [g5, hinj j k g2 hk g3]
      · rw [List.getElem?_eq_none (by simp [m]; omega), List.getElem?_eq_none (by omega)]

example : (({} : Vhpi).query (exVhpiSim fun _ => 0) .args).2 = .list ["+a=1".toList, "+a=1".toList] ∧
    (({} : Vhpi).query { exVhpiSim id with argc := 3 } .args).2 = .garbage ∧
    (({} : Vhpi).query { exVhpiSim id with argc := 1 } .args).2 = .garbage := by decide +kernel

/-- C173, FLI: in any sequence of queries name and version are the parts of the text of the simulator before and behind the
first " Version ", or the whole text and UNKNOWN if it is not in there. -/
theorem C173_fli_name (sim : FliSim) (qs : List Query) :
    ∃ p v, (∀ x ∈ Fli.run sim qs {}, (x.1 = .product → x.2 = .text p) ∧ (x.1 = .version → x.2 = .text v)) ∧
      ((sim.info = p ++ " Version ".toList ++ v ∧
          ∀ (p' v' : PyStr), sim.info = p' ++ " Version ".toList ++ v' → p.length ≤ p'.length) ∨
        ((∀ (p' v' : PyStr), sim.info ≠ p' ++ " Version ".toList ++ v') ∧ p = sim.info ∧ v = "UNKNOWN".toList)) := by
  refine ⟨(said sim).1, (said sim).2, fli_run qs {} (Or.inl ⟨rfl, rfl⟩), ?_⟩
  cases hc : cut search sim.info with
  | none =>
    right
    refine ⟨cut_none search search_ne _ hc, ?_, ?_⟩
    · show (said sim).1 = _; unfold said; rw [hc]
    · show (said sim).2 = _; unfold said; rw [hc]; rfl
  | some x =>
    obtain ⟨p, v⟩ := x
    left
    have e : said sim = (p, v) := by unfold said; rw [hc]
    rw [e]
    exact cut_some search search_ne _ _ _ hc

/-- A simulator, and Tcl fails in the first call. -/
def exFliSim : FliSim := ⟨"Model Technology ModelSim Version 2020.1 Version x".toList, ["-c".toList, "top".toList], fun n => n == 0⟩

example : Fli.run exFliSim [.version, .product, .args, .args] {} =
    [(.version, .text "2020.1 Version x".toList), (.product, .text "Model Technology ModelSim".toList), (.args, .garbage),
     (.args, .list ["-c".toList, "top".toList])] := by decide +kernel

/-- C173, in full for FLI: a query for the arguments gives the arguments, or none if they cannot be had. -/
def C173_fli_args_full : Prop := ∀ (sim : FliSim) (qs : List Query), ∀ x ∈ Fli.run sim qs {}, x.1 = .args →
  x.2 = .list sim.args ∨ x.2 = .list []

/-- C173: if Tcl fails, the number and the array of arguments are read though nothing has been written to them. -/
theorem C173_fli_args_counterexample : ¬ C173_fli_args_full := by
  intro h
  have := h exFliSim [.args] (.args, .garbage) (by decide +kernel) rfl
  simp at this

/-- C173, partial (the full claim is false of the code): if Tcl does not fail, every query gives the arguments. -/
theorem C173_fli_args_partial (sim : FliSim) (hf : ∀ n, sim.fails n = false) (qs : List Query) :
    ∀ x ∈ Fli.run sim qs {}, x.1 = .args → x.2 = .list sim.args :=
  fli_args hf qs {} (Or.inl rfl)

example : Fli.run { exFliSim with fails := fun _ => false } [.args, .product, .args] {} =
    [(.args, .list ["-c".toList, "top".toList]), (.product, .text "Model Technology ModelSim".toList),
     (.args, .list ["-c".toList, "top".toList])] := by decide +kernel

end Verif
