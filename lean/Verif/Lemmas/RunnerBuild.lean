import Verif.Spec.Runner
/-!
# Lemmas: commands of a build
-/
namespace Verif.Runner

theorem newest_ge {times : Times} {ps : List Text} {m n : Nat} (h : newest times ps m = .ok n) :
    m ≤ n ∧ ∀ p ∈ ps, ∃ t, times p = some t ∧ t ≤ n := by
  induction ps generalizing m with
  | nil => cases h; simp
  | cons p ps ih =>
    unfold newest at h
    cases ht : times p with
    | none => rw [ht] at h; cases h
    | some t =>
      rw [ht] at h
      obtain ⟨h1, h2⟩ := ih h
      refine ⟨by omega, fun q hq => ?_⟩
      rcases List.mem_cons.mp hq with rfl | hq
      · exact ⟨t, ht, by omega⟩
      · exact h2 q hq

theorem newest_le {times : Times} {ps : List Text} {m n o : Nat} (h : newest times ps m = .ok n) (hm : m ≤ o)
    (hp : ∀ p ∈ ps, ∀ t, times p = some t → t ≤ o) : n ≤ o := by
  induction ps generalizing m with
  | nil => cases h; exact hm
  | cons p ps ih =>
    unfold newest at h
    cases ht : times p with
    | none => rw [ht] at h; cases h
    | some t =>
      rw [ht] at h
      refine ih h ?_ fun q hq => hp q (List.mem_cons_of_mem _ hq)
      have := hp p List.mem_cons_self t ht
      omega

/-- The files the commands are given. -/
def srcsOf (cmds : List Cmd) : List (Tag × Text) := cmds.flatMap (·.srcs)

theorem perFile_ok {b : Build} {v l : String} {ss : List (Tag × Text)} {cmds : List Cmd}
    (h : perFile b v l ss = .ok cmds) :
    srcsOf cmds = ss ∧ ∀ c ∈ cmds, ∃ s, s ∈ ss ∧ (s.1 = .vhdl ∨ s.1 = .verilog) ∧ c.srcs = [s] ∧ c.args = b.argsFor s.1 := by
  induction ss generalizing cmds with
  | nil => cases h; simp [srcsOf]
  | cons s ss ih =>
    unfold perFile at h
    split at h
    · rename_i hs
      cases hp : perFile b v l ss with
      | error e => rw [hp] at h; cases h
      | ok cs =>
        rw [hp] at h
        cases h
        obtain ⟨h1, h2⟩ := ih hp
        refine ⟨by simp [srcsOf] at h1 ⊢; exact h1, fun c hc => ?_⟩
        rcases List.mem_cons.mp hc with rfl | hc
        · exact ⟨s, List.mem_cons_self, .inl hs, rfl, by rw [hs]⟩
        · obtain ⟨x, hx, h3⟩ := h2 c hc
          exact ⟨x, List.mem_cons_of_mem _ hx, h3⟩
    · split at h
      · rename_i hs
        cases hp : perFile b v l ss with
        | error e => rw [hp] at h; cases h
        | ok cs =>
          rw [hp] at h
          cases h
          obtain ⟨h1, h2⟩ := ih hp
          refine ⟨by simp [srcsOf] at h1 ⊢; exact h1, fun c hc => ?_⟩
          rcases List.mem_cons.mp hc with rfl | hc
          · exact ⟨s, List.mem_cons_self, .inr hs, rfl, by rw [hs]⟩
          · obtain ⟨x, hx, h3⟩ := h2 c hc
            exact ⟨x, List.mem_cons_of_mem _ hx, h3⟩
      · cases h

theorem ifOutdated_ok {b : Build} {out : Option Nat} {times : Times} {srcs : List (Tag × Text)}
    {k : PyM (List Cmd)} {cmds : List Cmd} (h : ifOutdated b out times srcs k = .ok cmds) :
    k = .ok cmds ∨ (cmds = [] ∧ b.always = false ∧
      ∃ o, out = some o ∧ ∀ s ∈ srcs, ∃ m, times s.2 = some m ∧ m ≤ o) := by
  unfold ifOutdated at h
  cases ho : outdated out times (srcs.map (·.2)) with
  | error e => rw [ho] at h; cases h
  | ok x =>
    rw [ho] at h
    simp only at h
    split at h
    · exact .inl h
    · rename_i hx
      simp at hx
      refine .inr ⟨by cases h; rfl, hx.2, ?_⟩
      unfold outdated at ho
      cases out with
      | none => cases ho; simp at hx
      | some o =>
        refine ⟨o, rfl, fun s hs => ?_⟩
        simp only at ho
        cases hn : newest times (srcs.map (·.2)) 0 with
        | error e => rw [hn] at ho; cases ho
        | ok m =>
          rw [hn] at ho
          simp at ho
          obtain ⟨m', h1, h2⟩ := (newest_ge hn).2 s.2 (List.mem_map_of_mem hs)
          rw [hx.1] at ho
          simp at ho
          exact ⟨m', h1, by omega⟩

theorem ifOutdated_fresh (b : Build) (times : Times) (srcs : List (Tag × Text)) (k : PyM (List Cmd)) :
    ifOutdated b none times srcs k = k := by
  simp [ifOutdated, outdated]

/-- The commands of a build are those in an empty directory, or none because the product is newer than all files. -/
theorem buildCommand_cases {sim : Sim} {b : Build} {out : Option Nat} {times : Times} {cmds : List Cmd}
    (h : buildCommand sim b out times = .ok cmds) :
    fresh sim b = .ok cmds ∨ (cmds = [] ∧ b.always = false ∧
      ∃ o, out = some o ∧ ∀ s ∈ b.files sim, ∃ m, times s.2 = some m ∧ m ≤ o) := by
  unfold fresh
  cases sim <;>
    simp only [buildCommand, Build.files, Sim.compiles, ifOutdated_fresh, decide_true, decide_false, Bool.or_true,
      Bool.or_false, if_true, if_false, reduceCtorEq, Bool.false_eq_true, List.append_nil] at h ⊢
  all_goals first
    | exact .inl h
    | (split at h
       · cases h
       · split at h
         · cases h
         · rename_i h1 h2
           rcases ifOutdated_ok h with h' | h'
           · left; rw [if_neg h1, if_neg h2]; exact h'
           · exact .inr h')
    | (split at h
       · cases h
       · rename_i h1
         rcases ifOutdated_ok h with h' | h'
         · left; rw [if_neg h1]; exact h'
         · exact .inr h')
    | exact ifOutdated_ok h

/-- What the commands of a build in an empty directory are given. -/
theorem fresh_ok {sim : Sim} {b : Build} {cmds : List Cmd} (h : fresh sim b = .ok cmds) :
    srcsOf cmds = b.files sim ∧
      (sim ≠ .questaQis → ∀ s ∈ b.files sim, sim.compiles s.1 = true) := by
  unfold fresh at h
  cases sim <;>
    simp only [buildCommand, Build.files, Sim.compiles, ifOutdated_fresh, decide_true, decide_false, Bool.or_true,
      Bool.or_false, if_true, if_false, reduceCtorEq, Bool.false_eq_true, List.append_nil] at h ⊢
  case questa =>
    obtain ⟨h1, h2⟩ := perFile_ok h
    refine ⟨h1, fun _ s hs => ?_⟩
    rw [← h1, srcsOf, List.mem_flatMap] at hs
    obtain ⟨c, hc, hs⟩ := hs
    obtain ⟨x, _, h3, h4, _⟩ := h2 c hc
    rw [h4] at hs
    simp at hs
    subst hs
    simpa using h3
  case aldec =>
    obtain ⟨h1, h2⟩ := perFile_ok h
    refine ⟨h1, fun _ s hs => ?_⟩
    rw [← h1, srcsOf, List.mem_flatMap] at hs
    obtain ⟨c, hc, hs⟩ := hs
    obtain ⟨x, _, h3, h4, _⟩ := h2 c hc
    rw [h4] at hs
    simp at hs
    subst hs
    simpa using h3
  case questaQis => cases h; simp [srcsOf]
  all_goals
    (repeat' split at h) <;> first
      | contradiction
      | (cases h
         simp_all [only, srcsOf, List.all_eq_true]
         try grind)

theorem argsFor_eq (b : Build) (t : Tag) (ht : t.language = t) : b.argsFor t = b.argsOf t := by
  unfold Build.argsFor Build.argsOf
  rw [ht]
  induction b.args with
  | nil => rfl
  | cons a l ih =>
    rw [List.filter_cons, List.filterMap_cons]
    by_cases h1 : a.1 = none <;> by_cases h2 : a.1 = some t <;> simp_all

theorem argValues_eq (b : Build) (t : Tag) (h : ∀ a ∈ b.args, a.1 = none ∨ a.1 = some t.language) :
    b.argValues = b.argsOf t := by
  unfold Build.argValues Build.argsOf
  revert h
  induction b.args with
  | nil => intro _; rfl
  | cons a l ih =>
    intro h
    rw [List.map_cons, List.filterMap_cons, ih fun a ha => h a (List.mem_cons_of_mem _ ha)]
    rw [if_pos (h a List.mem_cons_self)]

theorem only_args {tags : List Tag} {t : Tag} {b : Build} {srcs : List (Tag × Text)} (h : only tags t srcs b.args = true)
    (ht : ∀ x ∈ tags, x.language = t) : ∀ s ∈ srcs, b.argValues = b.argsOf s.1 := by
  intro s hs
  unfold only at h
  rw [Bool.and_eq_true, List.all_eq_true, List.all_eq_true] at h
  have h1 := h.1 s hs
  rw [decide_eq_true_eq] at h1
  refine argValues_eq b s.1 fun a ha => ?_
  have h2 := h.2 a ha
  rw [ht s.1 h1]
  simp at h2
  exact h2.symm

/-- Each file is compiled with the arguments for its language. -/
theorem fresh_args {sim : Sim} {b : Build} {cmds : List Cmd} (h : fresh sim b = .ok cmds)
    (hs : sim ≠ .questaQis ∧ sim ≠ .xcelium ∧ sim ≠ .vcs) :
    ∀ c ∈ cmds, ∀ s ∈ c.srcs, c.args = b.argsOf s.1 := by
  unfold fresh at h
  cases sim <;> simp only [buildCommand, ifOutdated_fresh, reduceCtorEq, ne_eq, not_true, not_false_eq_true, and_true,
    and_false, and_self] at h hs
  case questa =>
    intro c hc s hs
    obtain ⟨x, _, h3, h4, h5⟩ := (perFile_ok h).2 c hc
    rw [h4] at hs
    simp at hs
    subst hs
    rw [h5, argsFor_eq]
    rcases h3 with h3 | h3 <;> rw [h3] <;> rfl
  case aldec =>
    intro c hc s hs
    obtain ⟨x, _, h3, h4, h5⟩ := (perFile_ok h).2 c hc
    rw [h4] at hs
    simp at hs
    subst hs
    rw [h5, argsFor_eq]
    rcases h3 with h3 | h3 <;> rw [h3] <;> rfl
  all_goals
    (repeat' split at h) <;> first
      | contradiction
      | (cases h
         rename_i h1
         have h2 := only_args (Decidable.not_not.mp h1) (by decide)
         intro c hc s hs
         simp only [List.mem_cons, List.not_mem_nil, or_false] at hc
         subst hc
         exact h2 s hs)
      | (cases h
         rename_i h1 _
         have h2 := only_args (Decidable.not_not.mp h1) (by decide)
         intro c hc s hs
         simp only [List.mem_cons, List.not_mem_nil, or_false] at hc
         rcases hc with rfl | rfl
         · exact h2 s hs
         · simp at hs)
      | (cases h
         rename_i h1 _
         have h2 := only_args (Decidable.not_not.mp h1) (by decide)
         intro c hc s hs
         simp only [List.mem_cons, List.not_mem_nil, or_false] at hc
         subst hc
         exact h2 s hs)

/-! ### Histories of builds -/

theorem Disk.run_concat (sim : Sim) (d : Disk) (ops : List DiskOp) (o : DiskOp) :
    d.run sim (ops ++ [o]) = (d.run sim ops).step sim o := by
  simp [Disk.run]

theorem makes_congr {f g : Text → Option (Nat × Nat)} {cmds : List Cmd}
    (h : ∀ s ∈ srcsOf cmds, f s.2 = g s.2) : makes f cmds = makes g cmds := by
  unfold makes
  refine List.map_congr_left fun c hc => ?_
  refine congrArg (Prod.mk c.args) (List.map_congr_left fun s hs => ?_)
  rw [h s (List.mem_flatMap.mpr ⟨c, hc, hs⟩)]

/-- The product is that of the files now, or some file is newer than it. -/
def DiskInv (sim : Sim) (b : Build) (d : Disk) : Prop :=
  ∀ t i, d.out = some (t, i) → t ≤ d.now ∧ ∃ cmds, fresh sim b = .ok cmds ∧
    (i = makes d.files cmds ∨ ∃ s ∈ b.files sim, ∃ m c, d.files s.2 = some (m, c) ∧ t < m)

theorem step_build_cases (sim : Sim) (d : Disk) (b : Build) :
    d.step sim (.build b) = d ∨ ∃ cmds, cmds ≠ [] ∧
      buildCommand sim b (d.out.map (·.1)) (fun p => (d.files p).map (·.1)) = .ok cmds ∧
      d.step sim (.build b) = { d with out := some (d.now, makes d.files cmds) } := by
  cases h : buildCommand sim b (d.out.map (·.1)) (fun p => (d.files p).map (·.1)) with
  | error e => left; simp [Disk.step, h]
  | ok cmds =>
    cases cmds with
    | nil => left; simp [Disk.step, h]
    | cons c cs => right; exact ⟨c :: cs, by simp, rfl, by simp [Disk.step, h]⟩

theorem diskInv_step {sim : Sim} {b : Build} {d : Disk} {o : DiskOp} (h : DiskInv sim b d)
    (hb : ∀ b', o = .build b' → b' = b) (hp : ∀ p c n, o = .edit p c n → 1 ≤ n) : DiskInv sim b (d.step sim o) := by
  cases o with
  | edit p c n =>
    have hn := hp p c n rfl
    intro t i ho
    obtain ⟨ht, cmds, hf, hi⟩ := h t i ho
    refine ⟨by simp only [Disk.step]; omega, cmds, hf, ?_⟩
    by_cases hmem : ∃ s ∈ b.files sim, s.2 = p
    · obtain ⟨s, hs, hsp⟩ := hmem
      exact .inr ⟨s, hs, d.now + n, c, by simp [Disk.step, hsp], by omega⟩
    · have hother : ∀ s ∈ b.files sim, (d.step sim (.edit p c n)).files s.2 = d.files s.2 := by
        intro s hs
        have : s.2 ≠ p := fun e => hmem ⟨s, hs, e⟩
        simp [Disk.step, this]
      rcases hi with hi | ⟨s, hs, m, k, hm, hlt⟩
      · left
        rw [hi]
        refine makes_congr fun s hs => (hother s ?_).symm
        rw [(fresh_ok hf).1] at hs
        exact hs
      · exact .inr ⟨s, hs, m, k, by rw [hother s hs]; exact hm, hlt⟩
  | build b' =>
    cases hb b' rfl
    rcases step_build_cases sim d b with e | ⟨cmds, hne, hc, e⟩
    · rw [e]; exact h
    · rw [e]
      intro t i ho
      cases ho
      refine ⟨Nat.le_refl _, cmds, ?_, .inl rfl⟩
      rcases buildCommand_cases hc with hc | hc
      · exact hc
      · exact absurd hc.1 hne

theorem diskInv_run {sim : Sim} {b : Build} (ops : List DiskOp) {d : Disk} (h : DiskInv sim b d)
    (hb : ∀ b', .build b' ∈ ops → b' = b) (hp : ∀ p c n, .edit p c n ∈ ops → 1 ≤ n) :
    DiskInv sim b (d.run sim ops) := by
  induction ops generalizing d with
  | nil => exact h
  | cons o ops ih =>
    exact ih (diskInv_step h (fun b' e => hb b' (by simp [e])) (fun p c n e => hp p c n (by simp [e])))
      (fun b' hm => hb b' (List.mem_cons_of_mem _ hm)) (fun p c n hm => hp p c n (List.mem_cons_of_mem _ hm))

theorem upToDate_fresh {sim : Sim} {b : Build} {d : Disk} {cmds : List Cmd}
    (hc : buildCommand sim b (d.out.map (·.1)) (fun p => (d.files p).map (·.1)) = .ok cmds) (hne : b.files sim ≠ [])
    (hno : ¬ (cmds = [] ∧ b.always = false ∧ ∃ o, d.out.map (·.1) = some o ∧ ∀ s ∈ b.files sim,
      ∃ m, (fun p => (d.files p).map (·.1)) s.2 = some m ∧ m ≤ o)) :
    UpToDate sim (d.step sim (.build b)) b := by
  rcases buildCommand_cases hc with hf | hf
  · have hcne : cmds ≠ [] := fun e => hne (by rw [← (fresh_ok hf).1, e]; rfl)
    cases cmds with
    | nil => exact absurd rfl hcne
    | cons c cs => exact ⟨c :: cs, hf, by simp [Disk.step, hc]⟩
  · exact absurd hf hno

theorem upToDate_of_inv {sim : Sim} {b : Build} {d : Disk} (hinv : DiskInv sim b d)
    (hok : ∃ cmds, buildCommand sim b (d.out.map (·.1)) (fun p => (d.files p).map (·.1)) = .ok cmds)
    (hne : b.files sim ≠ []) : UpToDate sim (d.step sim (.build b)) b := by
  obtain ⟨cmds, hc⟩ := hok
  by_cases hno : cmds = [] ∧ b.always = false ∧ ∃ o, d.out.map (·.1) = some o ∧ ∀ s ∈ b.files sim,
      ∃ m, (fun p => (d.files p).map (·.1)) s.2 = some m ∧ m ≤ o
  · obtain ⟨rfl, _, o, ho, hall⟩ := hno
    cases hout : d.out with
    | none => rw [hout] at ho; cases ho
    | some x =>
      obtain ⟨t, i⟩ := x
      rw [hout] at ho
      cases ho
      obtain ⟨_, cmds, hf, hi⟩ := hinv t i hout
      have hstep : d.step sim (.build b) = d := by simp [Disk.step, hc]
      rw [hstep]
      rcases hi with hi | ⟨s, hs, m, c, hm, hlt⟩
      · exact ⟨cmds, hf, by rw [hout, hi]; rfl⟩
      · obtain ⟨m', hm', hle⟩ := hall s hs
        simp only [hm, Option.map_some, Option.some.injEq] at hm'
        simp only at hle
        omega
  · exact upToDate_fresh hc hne hno

end Verif.Runner
