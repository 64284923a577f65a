import Verif.Lemmas.SchedFrames
import Verif.Lemmas.SchedDone

/-!
Tasks that belong to some construct (`wait`, `select`, `gather`, `TaskManager`, …): created by it,
with a done callback of it registered before anything else, and never killed or cancelled
immediately by others.  Then a done callback of the construct runs with nothing else executing, and
the calls happen in the order in which the tasks end.
-/

namespace Verif.Sched

open SchedSpec

variable {D : Trig → Prop}

/-- The action does not end or enter one of the tasks `O` from outside the event loop. -/
def spares (O : List Nat) : Act → Bool
  | .kill t => decide (t ∉ O)
  | .cancelNow t => decide (t ∉ O)
  | _ => true

/-- The task of `O` that has ended and whose first done callback has not been called yet. -/
def justEnded (O : List Nat) (w : World) : List Nat :=
  match w.stack with
  | .finishing t 0 _ :: _ => if t ∈ O then [t] else []
  | _ => []

/-- Only the innermost code may be a task that has just ended. -/
def Tidy (w : World) : Prop := ∀ f rest, w.stack = f :: rest → ∀ t how, .finishing t 0 how ∉ rest

/-- `O` the tasks that belong to the construct, `A` those whose end has been announced to it. -/
structure Owned (O A : List Nat) (w : World) : Prop where
  bottom : ∀ pre f post, w.stack = pre ++ f :: post → f.tid ∈ O → post = []
  done : ∀ t ∈ O, (w.task t).state.isDone = true ↔ (t ∈ A ∨ ∃ how, w.stack = [.finishing t 0 how])
  sub : ∀ t ∈ A, t ∈ O
  nodup : A.Nodup
  cbs : ∀ t ∈ O, (w.task t).doneCbs ≠ []
  fin0 : ∀ t ∈ A, ∀ how, .finishing t 0 how ∉ w.stack
  order : (ends w.log).filter (· ∈ O) = A ++ justEnded O w

theorem TStep.doneCbs_ne {a t r r' obs} (h : TStep a t r r' obs) (hn : r.doneCbs ≠ []) :
    r'.doneCbs ≠ [] := by
  cases h <;> simp_all

theorem Owned.top {O A : List Nat} {w : World} (h : Owned O A w) {f : Frame} {rest : List Frame}
    (hst : w.stack = f :: rest) (hm : f.tid ∈ O) : rest = [] :=
  h.bottom [] f rest hst hm

theorem justEnded_quiet {O : List Nat} {w : World} (h : quiet w = true) : justEnded O w = [] := by
  unfold quiet at h
  unfold justEnded
  split <;> simp_all

theorem justEnded_of {O : List Nat} {w : World} {t : Nat} {how : How} {rest : List Frame}
    (h : w.stack = .finishing t 0 how :: rest) : justEnded O w = if t ∈ O then [t] else [] := by
  unfold justEnded; simp only [h]

theorem quiet_stack {w w' : World} (h : w'.stack = w.stack) : quiet w' = quiet w := by
  unfold quiet; rw [h]

theorem justEnded_stack {O : List Nat} {w w' : World} (h : w'.stack = w.stack) :
    justEnded O w' = justEnded O w := by
  unfold justEnded; rw [h]

theorem not_quiet {w : World} (h : quiet w = false) :
    ∃ t how rest, w.stack = .finishing t 0 how :: rest := by
  unfold quiet at h
  split at h
  · rename_i t how rest hst; exact ⟨t, how, rest, hst⟩
  · cases h

theorem quiet_no {w : World} (h : quiet w = true) {t how rest} :
    w.stack ≠ .finishing t 0 how :: rest := by
  intro h0; unfold quiet at h; simp only [h0] at h; cases h

theorem quiet_of {w : World} (h : ∀ t how rest, w.stack ≠ .finishing t 0 how :: rest) :
    quiet w = true := by
  cases hq : quiet w
  · obtain ⟨t, how, rest, h0⟩ := not_quiet hq
    exact absurd h0 (h t how rest)
  · rfl

/-- A done-callback step always changes the stack. -/
theorem cbStep_stack {w w' : World} {r : Res} (he : exec w .cbStep = some (w', r)) :
    w'.stack ≠ w.stack := by
  unfold exec at he
  split at he
  · cases he
  · split at he <;> try contradiction
    rename_i hi _ _ _ _ _ _ _ _ _ _ _ _
    split at he
    · simp [execCoro] at he
    · rename_i t i how rest hst
      simp only [if_true, Option.some.injEq, Prod.mk.injEq] at he
      rw [← he.1, hst, cbStep]
      split
      · simp [World.addLog]
      · have hx1 := (react_aux { w with stack := rest } (.complete t)).1
        have hx2 := (react_aux (react { w with stack := rest } (.complete t)) (.join t)).1
        have : (finishEnd { w with stack := rest } t how).stack = rest := by
          unfold finishEnd; cases how <;> simp [hx2.stack, hx1.stack]
        rw [this]; simp
    · cases he

theorem Tidy.step {w w' : World} {a : Act} {r : Res} (hg : Good D w) (h : Tidy w)
    (hq : quiet w = true ∨ a = .cbStep) (he : exec w a = some (w', r)) : Tidy w' := by
  have hpush : ∀ f, a ≠ .cbStep → w'.stack = f :: w.stack → Tidy w' := by
    intro f ha hst f' rest h' t how hm
    rw [hst] at h'
    simp only [List.cons.injEq] at h'
    rw [← h'.2] at hm
    have hqq : quiet w = true := by rcases hq with hq | hq; exact hq; exact absurd hq ha
    cases hw : w.stack with
    | nil => rw [hw] at hm; cases hm
    | cons g tl =>
      rw [hw] at hm
      rcases List.mem_cons.1 hm with rfl | hm
      · exact quiet_no hqq hw
      · exact h g tl hw t how hm
  have hrest : ∀ f rest, w.stack = f :: rest → w'.stack = rest → Tidy w' := by
    intro f rest h0 hst f' rest' h' t how hm
    exact h f rest h0 t how (by rw [← hst, h']; exact List.mem_cons_of_mem _ hm)
  have hrepl : ∀ f f' rest, w.stack = f :: rest → w'.stack = f' :: rest → Tidy w' := by
    intro f f' rest h0 hst f'' rest' h' t how hm
    rw [hst] at h'
    simp only [List.cons.injEq] at h'
    exact h f rest h0 t how (by rw [h'.2]; exact hm)
  cases hg.frames (exec_step he).2 with
  | same hst hd => intro f rest; rw [hst]; exact h f rest
  | popped t ha h0 hst hd =>
    intro f rest h'
    rw [hst] at h'
    simp only [List.cons.injEq] at h'
    rw [← h'.2]; simp
  | killed t ha hst hd => exact hpush _ (by rw [ha]; simp) hst
  | entered t ha hst hd => exact hpush _ (by rw [ha]; simp) hst
  | suspended t rest ha h0 hst hd => exact hrest _ _ h0 hst
  | ended t rest how hk ha h0 hst hd => exact hrepl _ _ _ h0 hst
  | next t i how rest c ha h0 hc hst hd => exact hrepl _ _ _ h0 hst
  | last t i how rest ha h0 hc hst hd => exact hrest _ _ h0 hst

/-- One step of arbitrary other code: either the end of a task of `O` is announced, with nothing
else executing, or no task of `O` had just ended. -/
theorem Owned.step {O A : List Nat} {w w' : World} {a : Act} {r : Res} (hg : Good D w) (ht : Tidy w)
    (h : Owned O A w) (hq : quiet w = true ∨ a = .cbStep) (hs : spares O a = true)
    (he : exec w a = some (w', r)) :
    (∃ t how, t ∈ O ∧ a = .cbStep ∧ w.stack = [.finishing t 0 how] ∧
      w'.stack = [.finishing t 1 how] ∧ t ∉ A ∧ Owned O (A ++ [t]) w') ∨
    ((∀ t how rest, w.stack = .finishing t 0 how :: rest → t ∉ O) ∧ Owned O A w') := by
  have he2 := (exec_step he).2
  obtain ⟨new, hlog, hT⟩ := hg.tstep he2
  have hcb : ∀ t ∈ O, (w'.task t).doneCbs ≠ [] := fun t ht => (hT t).doneCbs_ne (h.cbs t ht)
  have hnd := hg.stk.nd
  have hqz : a ≠ .cbStep → quiet w = true := by
    intro ha; rcases hq with hq | hq; exact hq; exact absurd hq ha
  have hpush : ∀ t f, a ≠ .cbStep → f.tid = t → t ∉ O → w'.stack = f :: w.stack →
      (∀ u ∈ O, (w'.task u).state.isDone = (w.task u).state.isDone) →
      (ends w'.log).filter (· ∈ O) = (ends w.log).filter (· ∈ O) →
      (∀ t how rest, w.stack = .finishing t 0 how :: rest → t ∉ O) ∧ Owned O A w' := by
    intro t f ha hf htO hst hd ho
    have hqq := hqz ha
    refine ⟨fun u how rest h0 => (quiet_no hqq h0).elim, ?_, fun u hu => ?_, h.sub, h.nodup, hcb,
      fun u hu how hm => ?_, ?_⟩
    · intro pre f' post hp hf'
      rw [hst] at hp
      cases pre with
      | nil =>
        simp only [List.nil_append, List.cons.injEq] at hp
        rw [← hp.1, hf] at hf'
        exact absurd hf' htO
      | cons p pre =>
        simp only [List.cons_append, List.cons.injEq] at hp
        exact h.bottom pre f' post hp.2 hf'
    · rw [hd u hu, h.done u hu, hst]
      constructor
      · rintro (h1 | ⟨how, h1⟩)
        · exact Or.inl h1
        · exact (quiet_no hqq h1).elim
      · rintro (h1 | ⟨how, h1⟩)
        · exact Or.inl h1
        · simp only [List.cons.injEq] at h1
          rw [h1.1] at hf
          exact absurd (hf ▸ hu) htO
    · rw [hst] at hm
      rcases List.mem_cons.1 hm with hm | hm
      · rw [← hm] at hf
        exact htO (hf ▸ h.sub u hu)
      · exact h.fin0 u hu how hm
    · rw [ho, h.order, justEnded_quiet hqq]
      unfold justEnded
      rw [hst]
      split
      · rename_i heq
        simp only [List.cons.injEq] at heq
        rw [heq.1] at hf
        simp only [Frame.tid] at hf
        rw [hf, if_neg htO]
      · rfl
  have hpop : ∀ f rest, w.stack = f :: rest → w'.stack = rest →
      (∀ t how, f = .finishing t 0 how → t ∉ O) → NoEnd w w' →
      (∀ t how rest, w.stack = .finishing t 0 how :: rest → t ∉ O) ∧ Owned O A w' := by
    intro f rest h0 hst hf hd
    have hq' : quiet w' = true := by
      refine quiet_of fun t how rest' h' => ?_
      exact ht f rest h0 t how (by rw [← hst, h']; simp)
    refine ⟨fun u how rest' h1 => ?_, ?_, fun u hu => ?_, h.sub, h.nodup, hcb,
      fun u hu how hm => ?_, ?_⟩
    · rw [h0] at h1
      simp only [List.cons.injEq] at h1
      exact hf u how h1.1
    · intro pre f' post hp hf'
      refine h.bottom (f :: pre) f' post ?_ hf'
      rw [h0, ← hst, hp]; rfl
    · rw [hd.1 u, h.done u hu]
      constructor
      · rintro (h1 | ⟨how, h1⟩)
        · exact Or.inl h1
        · rw [h0] at h1
          simp only [List.cons.injEq] at h1
          exact absurd hu (hf u how h1.1)
      · rintro (h1 | ⟨how, h1⟩)
        · exact Or.inl h1
        · exact (quiet_no hq' h1).elim
    · exact h.fin0 u hu how (by rw [h0]; rw [hst] at hm; exact List.mem_cons_of_mem _ hm)
    · rw [hd.2, h.order, justEnded_quiet hq']
      congr 1
      unfold justEnded
      rw [h0]
      split
      · rename_i heq
        simp only [List.cons.injEq] at heq
        rw [if_neg (hf _ _ heq.1)]
      · rfl
  cases hg.frames he2 with
  | same hst hd =>
    have hqq : quiet w = true := hqz (by rintro rfl; exact cbStep_stack he hst)
    right
    refine ⟨fun t how rest h0 => (quiet_no hqq h0).elim, ?_⟩
    refine ⟨by rw [hst]; exact h.bottom, fun t ht => ?_, h.sub, h.nodup, hcb,
      by rw [hst]; exact h.fin0, ?_⟩
    · rw [hd.1, hst]; exact h.done t ht
    · rw [hd.2, justEnded_stack hst]; exact h.order
  | popped t ha h0 hst hd =>
    right
    refine ⟨by rw [h0]; simp, ?_, fun u hu => ?_, h.sub, h.nodup, hcb, by rw [hst]; simp, ?_⟩
    · intro pre f post hp _
      rw [hst] at hp
      cases pre with
      | nil => simp at hp; exact hp.2
      | cons p pre => simp at hp
    · rw [hd.1, h.done u hu, h0, hst]; simp
    · rw [hd.2, h.order]
      simp [justEnded, h0, hst]
  | killed t ha hst hd =>
    right
    have htO : t ∉ O := by subst ha; simpa [spares] using hs
    refine hpush t _ (by rw [ha]; simp) rfl htO hst (fun u hu => hd.1 u fun he => htO (he ▸ hu)) ?_
    rw [hd.2.2.2, List.filter_append]
    simp [htO]
  | entered t ha hst hd =>
    right
    have htO : t ∉ O := by subst ha; simpa [spares] using hs
    exact hpush t _ (by rw [ha]; simp) rfl htO hst (fun u hu => hd.1 u) (by rw [hd.2])
  | suspended t rest ha h0 hst hd =>
    right
    exact hpop _ _ h0 hst (by simp) hd
  | ended t rest how hk ha h0 hst hd =>
    right
    have hqq : quiet w = true := quiet_of fun _ _ _ => by rw [h0]; simp
    refine ⟨fun u how rest h1 => (quiet_no hqq h1).elim, ?_, fun u hu => ?_, h.sub, h.nodup, hcb,
      fun u hu how' hm => ?_, ?_⟩
    · intro pre f post hp hf
      rw [hst] at hp
      cases pre with
      | nil =>
        simp only [List.nil_append, List.cons.injEq] at hp
        rw [← hp.2]
        refine h.top h0 ?_
        rw [← hp.1] at hf; exact hf
      | cons p pre =>
        simp only [List.cons_append, List.cons.injEq] at hp
        exact h.bottom (.running t :: pre) f post (by rw [h0, hp.2]; rfl) hf
    · by_cases hut : u = t
      · subst hut
        have : rest = [] := h.top h0 hu
        subst this
        exact ⟨fun _ => Or.inr ⟨how, hst⟩, fun _ => hd.2.2.1⟩
      · rw [hd.1 u hut, h.done u hu, hst]
        constructor
        · rintro (h1 | ⟨how', h1⟩)
          · exact Or.inl h1
          · exact (quiet_no hqq h1).elim
        · rintro (h1 | ⟨how', h1⟩)
          · exact Or.inl h1
          · simp only [List.cons.injEq, Frame.finishing.injEq] at h1
            exact absurd h1.1.1.symm hut
    · rw [hst] at hm
      rcases List.mem_cons.1 hm with hm | hm
      · simp only [Frame.finishing.injEq] at hm
        have := (h.done u (h.sub u hu)).2 (Or.inl hu)
        rw [hm.1, hd.2.1] at this; cases this
      · exact h.fin0 u hu how' (by rw [h0]; exact List.mem_cons_of_mem _ hm)
    · rw [hd.2.2.2, List.filter_append, h.order, justEnded_quiet hqq, justEnded_of hst]
      by_cases htO : t ∈ O <;> simp [htO]
  | next t i how rest c ha h0 hc hst hd =>
    by_cases hz : i = 0 ∧ t ∈ O
    · left
      obtain ⟨rfl, htO⟩ := hz
      have : rest = [] := h.top h0 htO
      subst this
      have htA : t ∉ A := fun hm => h.fin0 t hm how (by rw [h0]; simp)
      refine ⟨t, how, htO, ha, h0, hst, htA, ?_, fun u hu => ?_, ?_, ?_, hcb, fun u hu how' hm => ?_, ?_⟩
      · intro pre f post hp hf
        rw [hst] at hp
        cases pre with
        | nil => simp at hp; exact hp.2
        | cons p pre => simp at hp
      · rw [hd.1, h.done u hu, hst, h0]
        simp only [List.mem_append, List.mem_singleton, List.cons.injEq, Frame.finishing.injEq,
          and_true, true_and]
        constructor
        · rintro (h1 | ⟨_, h1, _⟩)
          · exact Or.inl (Or.inl h1)
          · exact Or.inl (Or.inr h1.symm)
        · rintro ((h1 | h1) | ⟨_, _, h1, _⟩)
          · exact Or.inl h1
          · exact Or.inr ⟨how, h1.symm, rfl⟩
          · exact absurd h1 (by simp)
      · intro u hu
        rcases List.mem_append.1 hu with hu | hu
        · exact h.sub u hu
        · simp at hu; subst hu; exact htO
      · rw [List.nodup_append]
        refine ⟨h.nodup, by simp, ?_⟩
        intro x hx y hy
        simp at hy; subst hy
        rintro rfl; exact htA hx
      · rw [hst] at hm; simp at hm
      · rw [hd.2, h.order, justEnded_of h0, if_pos htO]
        have : justEnded O w' = [] := justEnded_quiet (quiet_of fun _ _ _ => by rw [hst]; simp)
        rw [this]; simp
    · right
      have hf : ∀ u how', Frame.finishing t i how = .finishing u 0 how' → u ∉ O := by
        intro u how' h1 hu
        simp only [Frame.finishing.injEq] at h1
        exact hz ⟨h1.2.1, h1.1 ▸ hu⟩
      have hq' : quiet w' = true := quiet_of fun _ _ _ => by rw [hst]; simp
      refine ⟨fun u how rest' h1 => ?_, ?_, fun u hu => ?_, h.sub, h.nodup, hcb,
        fun u hu how' hm => ?_, ?_⟩
      · rw [h0] at h1
        simp only [List.cons.injEq] at h1
        exact hf _ _ h1.1
      · intro pre f post hp hf'
        rw [hst] at hp
        cases pre with
        | nil =>
          simp only [List.nil_append, List.cons.injEq] at hp
          rw [← hp.2]
          exact h.top h0 (by rw [← hp.1] at hf'; exact hf')
        | cons p pre =>
          simp only [List.cons_append, List.cons.injEq] at hp
          exact h.bottom (.finishing t i how :: pre) f post (by rw [h0, hp.2]; rfl) hf'
      · rw [hd.1 u, h.done u hu]
        constructor
        · rintro (h1 | ⟨how', h1⟩)
          · exact Or.inl h1
          · rw [h0] at h1
            simp only [List.cons.injEq] at h1
            exact absurd hu (hf u how' h1.1)
        · rintro (h1 | ⟨how', h1⟩)
          · exact Or.inl h1
          · exact (quiet_no hq' h1).elim
      · rw [hst] at hm
        simp at hm
        exact h.fin0 u hu how' (by rw [h0]; exact List.mem_cons_of_mem _ hm)
      · rw [hd.2, h.order, justEnded_quiet hq']
        congr 1
        unfold justEnded
        rw [h0]
        split
        · rename_i heq
          simp only [List.cons.injEq] at heq
          rw [if_neg (hf _ _ heq.1)]
        · rfl
  | last t i how rest ha h0 hc hst hd =>
    right
    refine hpop _ _ h0 hst ?_ hd
    intro u how' h1 hu
    simp only [Frame.finishing.injEq] at h1
    obtain ⟨rfl, rfl, -⟩ := h1
    have := h.cbs _ hu
    cases hcs : (w.task t).doneCbs with
    | nil => exact this hcs
    | cons c cs => rw [hcs] at hc; simp at hc

/-- In a reachable state the log says who has ended. -/
theorem mem_ends {w : World} (h : Reach w) (t : Nat) :
    t ∈ ends w.log ↔ (w.task t).state.isDone = true := by
  rw [← (doneInv h t).any]
  simp only [ends, List.mem_filterMap, List.any_eq_true]
  constructor
  · rintro ⟨o, h1, h2⟩
    refine ⟨o, h1, ?_⟩
    cases o <;> simp_all [isDoneObs]
  · rintro ⟨o, h1, h2⟩
    refine ⟨o, h1, ?_⟩
    cases o <;> simp_all [isDoneObs]

/-- A new task, which has a callback and is not done, joins. -/
theorem Owned.add {O A : List Nat} {w : World} (hr : Reach w) (h : Owned O A w) {t : Nat}
    (h1 : (w.task t).state.isDone = false) (h2 : (w.task t).state ≠ .running)
    (h3 : (w.task t).doneCbs ≠ []) : Owned (t :: O) A w := by
  obtain ⟨D, hg⟩ := hr.good
  have hn := hg.stk.notMem h2 h1
  have hn' : ∀ f ∈ w.stack, f.tid ≠ t := fun f hf he => hn (List.mem_map.2 ⟨f, hf, he⟩)
  have hj : justEnded (t :: O) w = justEnded O w := by
    unfold justEnded
    split
    · rename_i u how rest hst
      have : u ≠ t := hn' (.finishing u 0 how) (by rw [hst]; simp)
      simp [this]
    · rfl
  refine ⟨?_, fun u hu => ?_, fun u hu => List.mem_cons_of_mem _ (h.sub u hu), h.nodup, ?_, h.fin0, ?_⟩
  · intro pre f post hp hf
    rcases List.mem_cons.1 hf with hf | hf
    · exact absurd hf (hn' f (by rw [hp]; simp))
    · exact h.bottom pre f post hp hf
  · rcases List.mem_cons.1 hu with rfl | hu
    · rw [h1]
      constructor
      · intro h'; cases h'
      · rintro (h' | ⟨how, h'⟩)
        · rw [(h.done _ (h.sub _ h')).2 (Or.inl h')] at h1; cases h1
        · exact absurd rfl (hn' (.finishing u 0 how) (by rw [h']; simp))
    · exact h.done u hu
  · intro u hu
    rcases List.mem_cons.1 hu with rfl | hu
    · exact h3
    · exact h.cbs u hu
  · rw [hj, ← h.order]
    apply List.filter_congr
    intro u hu
    have : u ≠ t := by
      rintro rfl
      rw [mem_ends hr, h1] at hu; cases hu
    simp [this]

theorem Owned.nil {w : World} : Owned [] [] w := by
  refine ⟨by simp, by simp, by simp, by simp, by simp, by simp, ?_⟩
  unfold justEnded
  split <;> simp

theorem Owned.perm {O O' A : List Nat} {w : World} (h : Owned O A w) (hp : ∀ t, t ∈ O' ↔ t ∈ O) :
    Owned O' A w := by
  refine ⟨?_, ?_, ?_, h.nodup, ?_, h.fin0, ?_⟩
  · intro pre f post h1 h2; exact h.bottom pre f post h1 ((hp _).1 h2)
  · intro t ht; exact h.done t ((hp _).1 ht)
  · intro t ht; exact (hp _).2 (h.sub t ht)
  · intro t ht; exact h.cbs t ((hp _).1 ht)
  · have : justEnded O' w = justEnded O w := by unfold justEnded; simp [hp]
    rw [this, ← h.order]
    simp [hp]

end Verif.Sched
