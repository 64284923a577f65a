import Verif.Lemmas.Queue

/-! Queues: C37, C38, C39. -/

namespace Verif

open Queue QueueSpec

variable {α : Type} {lt : α → α → Bool}

theorem putItem_perm (k : Kind) (items : List α) (x : α) :
    (putItem lt k items x).Perm (items ++ [x]) := by
  cases k
  · exact List.Perm.refl _
  · exact List.Perm.refl _
  · exact Py.Heapq.heappush_perm lt items x

theorem getItem_perm {k : Kind} {items rest : List α} {x : α}
    (h : getItem lt k items = some (x, rest)) : items.Perm (x :: rest) := by
  cases k
  · simp only [getItem] at h
    split at h
    · cases h
    · cases h; exact List.Perm.refl _
  · simp only [getItem] at h
    split at h
    · cases h
    · rename_i y hy
      cases h
      obtain ⟨r, hr⟩ := List.getLast?_eq_some_iff.1 hy
      rw [hr]
      simp only [List.dropLast_concat]
      exact List.perm_append_comm
  · have := Py.Heapq.heappop_perm lt items
    simp only [getItem] at h
    rw [h] at this
    exact this

theorem getItem_none {k : Kind} {items : List α} : getItem lt k items = none ↔ items = [] := by
  cases k
  · simp only [getItem]; split <;> simp
  · simp only [getItem]
    split
    · rename_i h; simpa using h
    · rename_i h
      obtain ⟨r, hr⟩ := List.getLast?_eq_some_iff.1 h
      simp [hr]
  · simp only [getItem]
    have := Py.Heapq.heappop_perm lt items
    split at this
    · rename_i h; exact ⟨fun _ => this, fun _ => h⟩
    · rename_i x rest h
      constructor
      · intro h'; rw [h] at h'; cases h'
      · intro h'; subst h'; simp at this

/-! ### C37 -/

/-- **C37.** The number of items never exceeds a positive `maxsize`. -/
theorem C37_capacity_never_exceeded {k : Kind} {m : Int} {as : List (QAct α)} {s : QW α}
    (h : run lt (new k m) as = some s) (hm : 0 < m) : (s.items.length : Int) ≤ m := by
  have key : s.maxsize = m ∧ (s.items.length : Int) ≤ m := by
    refine run_induct (P := fun s => s.maxsize = m ∧ (s.items.length : Int) ≤ m) ?_ ?_ h
    · exact ⟨rfl, by simp [new]; omega⟩
    · intro s a s' ⟨h1, h2⟩ he
      obtain ⟨hk, hd⟩ := exec_data he
      refine ⟨hk.max.trans h1, ?_⟩
      have hput : ∀ {x}, full s = false → s'.items = putItem lt s.kind s.items x →
          (s'.items.length : Int) ≤ m := by
        intro x hf hi
        rw [hi, (putItem_perm s.kind s.items x).length_eq]
        unfold full at hf
        rw [if_neg (by omega)] at hf
        simp only [decide_eq_false_iff_not] at hf
        simp; omega
      have hget : ∀ {x}, getItem lt s.kind s.items = some (x, s'.items) →
          (s'.items.length : Int) ≤ m := by
        intro x hi
        have := (getItem_perm hi).length_eq
        simp at this; omega
      cases hd with
      | quiet hi => rw [hi]; exact h2
      | cont t o hop hn hd =>
        cases hd with
        | blocked hi => rw [hi]; exact h2
        | raised hi => rw [hi]; exact h2
        | put c x _ hf hi => exact hput hf hi
        | got c x _ hi => exact hget hi
      | call t o ob hob hn hd =>
        cases hd with
        | blocked hi => rw [hi]; exact h2
        | raised hi => rw [hi]; exact h2
        | put c x _ hf hi => exact hput hf hi
        | got c x _ hi => exact hget hi
      | putN x hf hi => exact hput hf hi
      | getN x hi => exact hget hi
      | refused ob _ hi => rw [hi]; exact h2
  exact key.2

/-- **C37.** `full()` and `empty()` agree with `qsize()`; with `maxsize <= 0` the queue is never
full. -/
theorem C37_full_empty_iff (s : QW α) :
    (full s = true ↔ 0 < s.maxsize ∧ s.maxsize ≤ s.items.length) ∧
    (empty s = true ↔ s.items.length = 0) := by
  unfold full empty
  constructor
  · split
    · simp; omega
    · simp; omega
  · simp

/-- **C37.** `put_nowait` raises exactly when the queue is full, and then changes nothing (the log
records the call and that it raised). -/
theorem C37_put_nowait_raises_iff_full {s s' : QW α} {x : α}
    (h : exec lt s (.putNowait x) = some s') :
    (full s = true → s' = { s with
      nCall := s.nCall + 1, log := s.log ++ [.startPut s.nCall x, .raised s.nCall] }) ∧
    (full s = false → s'.log = s.log ++ [.startPut s.nCall x, .put s.nCall x] ∧
      s'.items.Perm (s.items ++ [x])) := by
  simp only [exec] at h
  split at h
  · constructor
    · intro hf
      have : putNowait lt (begin s (.startPut s.nCall x)) s.nCall x = none := by
        unfold putNowait
        rw [if_pos (show full (begin s (.startPut s.nCall x)) = true from hf)]
      rw [this] at h
      simp only [Option.some.injEq] at h
      subst h
      simp [refuse, begin]
    · intro hf
      split at h
      · rename_i hp
        unfold putNowait at hp
        rw [if_neg (show ¬ full (begin s (.startPut s.nCall x)) = true by
          rw [show full (begin s (.startPut s.nCall x)) = full s from rfl, hf]; simp)] at hp
        cases hp
      · rename_i s1 hp
        simp only [Option.some.injEq] at h
        subst h
        obtain ⟨-, -, h3, h4, -⟩ := putNowait_data hp
        refine ⟨by simp [h4, begin], ?_⟩
        rw [h3]
        exact putItem_perm _ _ _
  · cases h

/-- **C37.** `get_nowait` raises exactly when the queue is empty, and then changes nothing. -/
theorem C37_get_nowait_raises_iff_empty {s s' : QW α} (h : exec lt s .getNowait = some s') :
    (empty s = true → s' = { s with
      nCall := s.nCall + 1, log := s.log ++ [.startGet s.nCall, .raised s.nCall] }) ∧
    (empty s = false → ∃ x, s'.log = s.log ++ [.startGet s.nCall, .got s.nCall x] ∧
      s.items.Perm (x :: s'.items)) := by
  simp only [exec] at h
  split at h
  · constructor
    · intro hf
      have : getNowait lt (begin s (.startGet s.nCall)) s.nCall = none := by
        unfold getNowait
        rw [if_pos (show empty (begin s (.startGet s.nCall)) = true from hf)]
      rw [this] at h
      simp only [Option.some.injEq] at h
      subst h
      simp [refuse, begin]
    · intro hf
      split at h
      · rename_i hp
        exfalso
        unfold getNowait at hp
        rw [if_neg (show ¬ empty (begin s (.startGet s.nCall)) = true by
          rw [show empty (begin s (.startGet s.nCall)) = empty s from rfl, hf]; simp)] at hp
        split at hp
        · rename_i hg
          rw [getItem_none] at hg
          unfold empty at hf
          simp only [decide_eq_false_iff_not] at hf
          exact hf (by simp [show s.items = [] from hg])
        · cases hp
      · rename_i x s1 hp
        simp only [Option.some.injEq] at h
        subst h
        obtain ⟨-, h2, h3, -⟩ := getNowait_data hp
        exact ⟨x, by simp [h3, begin], getItem_perm h2⟩
  · cases h

/-! ### C38 -/

theorem puts_append (l l' : List (Obs α)) : puts (l ++ l') = puts l ++ puts l' :=
  List.filterMap_append

theorem gots_append (l l' : List (Obs α)) : gots (l ++ l') = gots l ++ gots l' :=
  List.filterMap_append

/-- **C38.** The items put are exactly the items got plus the items still in the queue, as
multisets, for all three classes and all histories. -/
theorem C38_nothing_lost_or_duplicated {k : Kind} {m : Int} {as : List (QAct α)} {s : QW α}
    (h : run lt (new k m) as = some s) : (puts s.log).Perm (gots s.log ++ s.items) := by
  refine run_induct (P := fun s => (puts s.log).Perm (gots s.log ++ s.items)) ?_ ?_ h
  · exact List.Perm.refl _
  · intro s a s' hp he
    obtain ⟨-, hd⟩ := exec_data he
    have hput : ∀ {x}, s'.items = putItem lt s.kind s.items x → puts s'.log = puts s.log ++ [x] →
        gots s'.log = gots s.log → (puts s'.log).Perm (gots s'.log ++ s'.items) := by
      intro x hi h1 h2
      rw [h1, h2, hi]
      refine List.Perm.trans ?_ ((putItem_perm s.kind s.items x).symm.append_left _)
      rw [← List.append_assoc]
      exact hp.append_right _
    have hget : ∀ {x}, getItem lt s.kind s.items = some (x, s'.items) → puts s'.log = puts s.log →
        gots s'.log = gots s.log ++ [x] → (puts s'.log).Perm (gots s'.log ++ s'.items) := by
      intro x hi h1 h2
      rw [h1, h2]
      refine hp.trans ?_
      rw [List.append_assoc]
      exact (getItem_perm hi).append_left _
    have hsame : s'.items = s.items → puts s'.log = puts s.log → gots s'.log = gots s.log →
        (puts s'.log).Perm (gots s'.log ++ s'.items) := by
      intro h1 h2 h3; rw [h1, h2, h3]; exact hp
    cases hd with
    | quiet hi hl => exact hsame hi (by rw [hl]) (by rw [hl])
    | cont t o hop hn hd =>
      cases hd with
      | blocked hi hl => exact hsame hi (by rw [hl]) (by rw [hl])
      | raised hi hl =>
        exact hsame hi (by rw [hl, puts_append]; simp [puts]) (by rw [hl, gots_append]; simp [gots])
      | put c x _ hf hi hl =>
        exact hput hi (by rw [hl, puts_append]; simp [puts]) (by rw [hl, gots_append]; simp [gots])
      | got c x _ hi hl =>
        exact hget hi (by rw [hl, puts_append]; simp [puts]) (by rw [hl, gots_append]; simp [gots])
    | call t o ob hob hn hd =>
      have hb : puts (begin s ob).log = puts s.log ∧ gots (begin s ob).log = gots s.log := by
        rcases hob with ⟨x, -, rfl⟩ | ⟨-, rfl⟩ <;> simp [begin, puts, gots]
      cases hd with
      | blocked hi hl => exact hsame hi (by rw [hl, hb.1]) (by rw [hl, hb.2])
      | raised hi hl =>
        exact hsame hi (by rw [hl, puts_append, hb.1]; simp [puts])
          (by rw [hl, gots_append, hb.2]; simp [gots])
      | put c x _ hf hi hl =>
        exact hput hi (by rw [hl, puts_append, hb.1]; simp [puts])
          (by rw [hl, gots_append, hb.2]; simp [gots])
      | got c x _ hi hl =>
        exact hget hi (by rw [hl, puts_append, hb.1]; simp [puts])
          (by rw [hl, gots_append, hb.2]; simp [gots])
    | putN x hf hi hl =>
      exact hput hi (by rw [hl, puts_append]; simp [puts]) (by rw [hl, gots_append]; simp [gots])
    | getN x hi hl =>
      exact hget hi (by rw [hl, puts_append]; simp [puts]) (by rw [hl, gots_append]; simp [gots])
    | refused ob hob hi hl =>
      rcases hob with ⟨x, rfl⟩ | rfl <;>
      exact hsame hi (by rw [hl, puts_append]; simp [puts]) (by rw [hl, gots_append]; simp [gots])

/-- The number of the call an observation is about. -/
def callOf : Obs α → Nat
  | .startPut c _ => c
  | .startGet c => c
  | .put c _ => c
  | .got c _ => c
  | .raised c => c

/-- What the log says about call `c`: how it began and how it ended. -/
def about (c : Nat) (log : List (Obs α)) : List (Obs α) := log.filter (callOf · == c)

/-- A call that has not ended. -/
def Begun (c : Nat) (o : Op α) (l : List (Obs α)) : Prop :=
  (∃ x, o = .put c x ∧ l = [.startPut c x]) ∨ (o = .get c ∧ l = [.startGet c])

/-- A call that has ended: a `put` of `x` inserted `x` or raised, a `get` removed an item or
raised. -/
def Ended (c : Nat) (l : List (Obs α)) : Prop :=
  (∃ x, l = [.startPut c x, .put c x] ∨ l = [.startPut c x, .raised c]) ∨
  (∃ x, l = [.startGet c, .got c x]) ∨ l = [.startGet c, .raised c]

structure CallInv (s : QW α) : Prop where
  /-- calls that wait -/
  op : ∀ t o, s.op t = some o → o.call < s.nCall ∧ Begun o.call o (about o.call s.log)
  dist : ∀ t u o o', s.op t = some o → s.op u = some o' → o.call = o'.call → t = u
  fresh : ∀ c, s.nCall ≤ c → about c s.log = []
  all : ∀ c, c < s.nCall → (∃ o, Begun c o (about c s.log)) ∨ Ended c (about c s.log)

theorem about_append (c : Nat) (l l' : List (Obs α)) : about c (l ++ l') = about c l ++ about c l' :=
  List.filter_append ..

theorem about_one (c : Nat) (ob : Obs α) : about c [ob] = if callOf ob = c then [ob] else [] := by
  unfold about
  simp only [List.filter_cons, List.filter_nil]
  by_cases h : callOf ob = c <;> simp [h]

/-- A call goes on from `s`, in which task `t` executes `o`, not counted as waiting. -/
theorem CallInv.loop {s s' : QW α} {t : Nat} {o : Op α}
    (hop : ∀ u o', u ≠ t → s.op u = some o' →
      o'.call < s.nCall ∧ Begun o'.call o' (about o'.call s.log) ∧ o'.call ≠ o.call)
    (hdist : ∀ u v o' o'', u ≠ t → v ≠ t → s.op u = some o' → s.op v = some o'' →
      o'.call = o''.call → u = v)
    (hfresh : ∀ c, s.nCall ≤ c → about c s.log = [])
    (hall : ∀ c, c < s.nCall → (∃ o, Begun c o (about c s.log)) ∨ Ended c (about c s.log))
    (ho : o.call < s.nCall ∧ Begun o.call o (about o.call s.log))
    (hn : s'.nCall = s.nCall) (hd : LoopD lt s t o s') : CallInv s' := by
  -- the cases in which the call ends with observation `ob`
  have hend : ∀ ob : Obs α, callOf ob = o.call → s'.log = s.log ++ [ob] → s'.op = Sched.upd s.op t none →
      Ended o.call (about o.call s.log ++ [ob]) → CallInv s' := by
    intro ob hob hl hops hE
    have hab : ∀ c, c ≠ o.call → about c s'.log = about c s.log := by
      intro c hc
      rw [hl, about_append, about_one, if_neg (by rw [hob]; exact Ne.symm hc)]; simp
    have hself : about o.call s'.log = about o.call s.log ++ [ob] := by
      rw [hl, about_append, about_one, if_pos hob]
    have hne : ∀ u o', s'.op u = some o' → u ≠ t ∧ s.op u = some o' := by
      intro u o' h
      by_cases hu : u = t
      · subst hu; rw [hops, Sched.upd_self] at h; cases h
      · rw [hops, Sched.upd_ne _ _ hu] at h; exact ⟨hu, h⟩
    constructor
    · intro u o' h
      obtain ⟨h1, h2⟩ := hne u o' h
      obtain ⟨h3, h4, h5⟩ := hop u o' h1 h2
      rw [hn, hab _ h5]
      exact ⟨h3, h4⟩
    · intro u v o' o'' h h'
      obtain ⟨h1, h2⟩ := hne u o' h
      obtain ⟨h3, h4⟩ := hne v o'' h'
      exact hdist u v o' o'' h1 h3 h2 h4
    · intro c hc
      rw [hn] at hc
      rw [hab c (by omega)]; exact hfresh c hc
    · intro c hc
      rw [hn] at hc
      by_cases h : c = o.call
      · subst h; right; rw [hself]; exact hE
      · rw [hab c h]; exact hall c hc
  cases hd with
  | blocked hi hl hops =>
    rcases hops with hops | hops
    · constructor
      · intro u o' h
        rw [hl, hn]
        by_cases hu : u = t
        · subst hu; rw [hops, Sched.upd_self] at h; cases h; exact ho
        · rw [hops, Sched.upd_ne _ _ hu] at h
          have := hop u o' hu h
          exact ⟨this.1, this.2.1⟩
      · intro u v o' o'' h h' hc
        rw [hops] at h h'
        by_cases hu : u = t
        · by_cases hv : v = t
          · rw [hu, hv]
          · subst hu
            rw [Sched.upd_self] at h
            rw [Sched.upd_ne _ _ hv] at h'
            cases h
            exact absurd hc.symm (hop v o'' hv h').2.2
        · by_cases hv : v = t
          · subst hv
            rw [Sched.upd_self] at h'
            rw [Sched.upd_ne _ _ hu] at h
            cases h'
            exact absurd hc (hop u o' hu h).2.2
          · rw [Sched.upd_ne _ _ hu] at h
            rw [Sched.upd_ne _ _ hv] at h'
            exact hdist u v o' o'' hu hv h h' hc
      · rw [hl, hn]; exact hfresh
      · rw [hl, hn]; exact hall
    · have hne : ∀ u o', s'.op u = some o' → u ≠ t ∧ s.op u = some o' := by
        intro u o' h
        by_cases hu : u = t
        · subst hu; rw [hops, Sched.upd_self] at h; cases h
        · rw [hops, Sched.upd_ne _ _ hu] at h; exact ⟨hu, h⟩
      constructor
      · intro u o' h
        rw [hl, hn]
        obtain ⟨h1, h2⟩ := hne u o' h
        have := hop u o' h1 h2
        exact ⟨this.1, this.2.1⟩
      · intro u v o' o'' h h'
        obtain ⟨h1, h2⟩ := hne u o' h
        obtain ⟨h3, h4⟩ := hne v o'' h'
        exact hdist u v o' o'' h1 h3 h2 h4
      · rw [hl, hn]; exact hfresh
      · rw [hl, hn]; exact hall
  | raised hi hl hops =>
    refine hend _ rfl hl hops ?_
    rcases ho.2 with ⟨x, h1, h2⟩ | ⟨h1, h2⟩
    · rw [h2]; exact Or.inl ⟨x, Or.inr rfl⟩
    · rw [h2]; exact Or.inr (Or.inr rfl)
  | put c x hoo hf hi hl hops =>
    subst hoo
    refine hend (.put c x) rfl hl hops ?_
    rcases ho.2 with ⟨y, h1, h2⟩ | ⟨h1, h2⟩
    · cases h1
      simp only [Op.call] at h2 ⊢
      rw [h2]; exact Or.inl ⟨x, Or.inl rfl⟩
    · cases h1
  | got c x hoo hi hl hops =>
    subst hoo
    refine hend (.got c x) rfl hl hops ?_
    rcases ho.2 with ⟨y, h1, h2⟩ | ⟨h1, h2⟩
    · cases h1
    · simp only [Op.call] at h2 ⊢
      rw [h2]; exact Or.inr (Or.inl ⟨x, rfl⟩)

theorem callInv {k : Kind} {m : Int} {as : List (QAct α)} {s : QW α}
    (h : run lt (new k m) as = some s) : CallInv s := by
  refine run_induct (P := CallInv) ?_ ?_ h
  · constructor
    · intro t o h; cases h
    · intro t u o o' h; cases h
    · intro c _; rfl
    · intro c hc; simp [new] at hc
  · intro s a s' ih he
    obtain ⟨-, hd⟩ := exec_data he
    -- a call that begins and ends at once
    have hnow : ∀ l : List (Obs α), s'.log = s.log ++ l → (∀ o ∈ l, callOf o = s.nCall) →
        Ended s.nCall l → s'.op = s.op → s'.nCall = s.nCall + 1 → CallInv s' := by
      intro l hl hc hE ho hn
      have hself : about s.nCall s'.log = l := by
        rw [hl, about_append, ih.fresh _ (Nat.le_refl _)]
        simp only [about, List.nil_append, List.filter_eq_self, beq_iff_eq]
        exact hc
      have hother : ∀ c, c ≠ s.nCall → about c s'.log = about c s.log := by
        intro c hne
        rw [hl, about_append]
        have : about c l = [] := by
          simp only [about, List.filter_eq_nil_iff, beq_iff_eq]
          intro o ho h; exact hne (h.symm.trans (hc o ho))
        rw [this, List.append_nil]
      constructor
      · intro t o h
        rw [ho] at h
        obtain ⟨h1, h2⟩ := ih.op t o h
        rw [hother _ (by omega), hn]
        exact ⟨by omega, h2⟩
      · rw [ho]; exact ih.dist
      · intro c hc'
        rw [hother c (by omega)]
        exact ih.fresh c (by omega)
      · intro c hc'
        by_cases h : c = s.nCall
        · subst h; right; rw [hself]; exact hE
        · rw [hother c h]; exact ih.all c (by omega)
    cases hd with
    | quiet hi hl ho hn =>
      constructor
      · rw [ho, hl, hn]; exact ih.op
      · rw [ho]; exact ih.dist
      · rw [hl, hn]; exact ih.fresh
      · rw [hl, hn]; exact ih.all
    | cont t o hop hn hd =>
      refine CallInv.loop ?_ ?_ ih.fresh ih.all (ih.op t o hop) hn hd
      · intro u o' hu ho'
        have := ih.op u o' ho'
        exact ⟨this.1, this.2, fun h => hu (ih.dist u t o' o ho' hop h)⟩
      · intro u v o' o'' _ _; exact ih.dist u v o' o''
    | call t o ob hob hn hd =>
      have hoc : o.call = s.nCall ∧ callOf ob = s.nCall ∧ Begun o.call o [ob] := by
        rcases hob with ⟨x, rfl, rfl⟩ | ⟨rfl, rfl⟩
        · exact ⟨rfl, rfl, Or.inl ⟨x, rfl, rfl⟩⟩
        · exact ⟨rfl, rfl, Or.inr ⟨rfl, rfl⟩⟩
      have hself : about s.nCall (begin s ob).log = [ob] := by
        simp only [begin]
        rw [about_append, ih.fresh _ (Nat.le_refl _), about_one, if_pos hoc.2.1]; rfl
      have hother : ∀ c, c ≠ s.nCall → about c (begin s ob).log = about c s.log := by
        intro c hc
        simp only [begin]
        rw [about_append, about_one, if_neg (by rw [hoc.2.1]; exact Ne.symm hc)]; simp
      refine CallInv.loop (s := begin s ob) ?_ ?_ ?_ ?_ ?_ hn hd
      · intro u o' hu ho'
        have := ih.op u o' ho'
        refine ⟨by simp only [begin]; omega, ?_, by omega⟩
        rw [hother _ (by omega)]; exact this.2
      · intro u v o' o'' _ _; exact ih.dist u v o' o''
      · intro c hc
        simp only [begin] at hc
        rw [hother c (by omega)]; exact ih.fresh c (by omega)
      · intro c hc
        simp only [begin] at hc
        by_cases h : c = s.nCall
        · subst h; left; rw [hself]; exact ⟨o, hoc.1 ▸ hoc.2.2⟩
        · rw [hother c h]; exact ih.all c (by omega)
      · refine ⟨by simp only [begin]; omega, ?_⟩
        rw [hoc.1, hself, ← hoc.1]; exact hoc.2.2
    | putN x hf hi hl ho hn =>
      exact hnow _ hl (by simp [callOf]) (Or.inl ⟨x, Or.inl rfl⟩) ho hn
    | getN x hi hl ho hn => exact hnow _ hl (by simp [callOf]) (Or.inr (Or.inl ⟨x, rfl⟩)) ho hn
    | refused ob hob hi hl ho hn =>
      rcases hob with ⟨x, rfl⟩ | rfl
      · exact hnow _ hl (by simp [callOf]) (Or.inl ⟨x, Or.inr rfl⟩) ho hn
      · exact hnow _ hl (by simp [callOf]) (Or.inr (Or.inr rfl)) ho hn

/-- **C38.** What the log says about one call is one of: it has only begun; `put(x)` inserted `x`,
once; `get()` removed one item; or it raised (was cancelled, for example) and neither inserted nor
removed anything. -/
theorem C38_each_call_at_most_once {k : Kind} {m : Int} {as : List (QAct α)} {s : QW α}
    (h : run lt (new k m) as = some s) (c : Nat) :
    about c s.log = [] ∨ (∃ x, about c s.log = [.startPut c x]) ∨ about c s.log = [.startGet c] ∨
    (∃ x, about c s.log = [.startPut c x, .put c x]) ∨ (∃ x, about c s.log = [.startGet c, .got c x]) ∨
    (∃ x, about c s.log = [.startPut c x, .raised c]) ∨
    about c s.log = [.startGet c, .raised c] := by
  have inv := callInv h
  by_cases hc : c < s.nCall
  · rcases inv.all c hc with ⟨o, ⟨x, -, h⟩ | ⟨-, h⟩⟩ | ⟨x, h | h⟩ | ⟨x, h⟩ | h
    · exact Or.inr (Or.inl ⟨x, h⟩)
    · exact Or.inr (Or.inr (Or.inl h))
    · exact Or.inr (Or.inr (Or.inr (Or.inl ⟨x, h⟩)))
    · exact Or.inr (Or.inr (Or.inr (Or.inr (Or.inr (Or.inl ⟨x, h⟩)))))
    · exact Or.inr (Or.inr (Or.inr (Or.inr (Or.inl ⟨x, h⟩))))
    · exact Or.inr (Or.inr (Or.inr (Or.inr (Or.inr (Or.inr h)))))
  · exact Or.inl (inv.fresh c (by omega))

/-! ### C39 -/

/-- Storage and the specification's view of it. -/
def Stored (lt : α → α → Bool) (k : Kind) (items inside : List α) : Prop :=
  match k with
  | .prio => Py.Heapq.Heap lt items ∧ items.Perm inside
  | _ => items = inside

theorem Stored.put {k : Kind} {items inside : List α} (ho : Py.Heapq.Order lt)
    (h : Stored lt k items inside) (x : α) : Stored lt k (putItem lt k items x) (inside ++ [x]) := by
  cases k
  · simp only [Stored, putItem] at *; rw [h]
  · simp only [Stored, putItem] at *; rw [h]
  · simp only [Stored, putItem] at *
    have := Py.Heapq.heappush_spec ho items x h.1
    exact ⟨this.1, this.2.trans (h.2.append_right _)⟩

theorem Stored.get [DecidableEq α] {k : Kind} {items inside rest : List α} {x : α}
    (ho : Py.Heapq.Order lt) (h : Stored lt k items inside)
    (hg : getItem lt k items = some (x, rest)) :
    ∃ inside', take lt k inside x = some inside' ∧ Stored lt k rest inside' := by
  cases k
  · simp only [Stored, getItem] at *
    subst h
    split at hg
    · cases hg
    · cases hg; exact ⟨_, by simp [take], rfl⟩
  · simp only [Stored, getItem] at *
    subst h
    split at hg
    · cases hg
    · rename_i hl
      cases hg
      exact ⟨_, by simp only [take]; rw [if_pos hl], rfl⟩
  · simp only [Stored, getItem] at *
    have := Py.Heapq.heappop_spec ho items h.1
    rw [hg] at this
    obtain ⟨h1, h2, h3⟩ := this
    have hx : x ∈ inside := h.2.mem_iff.1 (h2.mem_iff.2 (by simp))
    refine ⟨inside.erase x, ?_, h1, ?_⟩
    · simp only [take]
      rw [if_pos ⟨hx, fun y hy => h3 y (h.2.mem_iff.2 hy)⟩]
    · have := (h2.symm.trans h.2).erase x
      simpa using this

/-- **C39.** In every history, each item got is the one the class promises (the oldest inside for
`Queue`, the most recently put for `LifoQueue`, a minimal one for `PriorityQueue`), and the queue
contains what the specification says. `<` has to be the strict part of a total preorder, which only
matters for `PriorityQueue`. -/
theorem C39_order [DecidableEq α] {k : Kind} {m : Int} {as : List (QAct α)} {s : QW α}
    (ho : Py.Heapq.Order lt) (h : run lt (new k m) as = some s) :
    ∃ inside, replay lt k s.log = some inside ∧ s.items.Perm inside ∧
      (k ≠ .prio → s.items = inside) := by
  have key : s.kind = k ∧ ∃ inside, replay lt k s.log = some inside ∧ Stored lt k s.items inside := by
    refine run_induct (P := fun s => s.kind = k ∧
      ∃ inside, replay lt k s.log = some inside ∧ Stored lt k s.items inside) ?_ ?_ h
    · refine ⟨rfl, [], rfl, ?_⟩
      cases k
      · rfl
      · rfl
      · refine ⟨?_, List.Perm.refl _⟩
        intro i x y _ hx; simp [new] at hx
    · intro s a s' ⟨hk, inside, hr, hst⟩ he
      obtain ⟨hkeep, hd⟩ := exec_data he
      refine ⟨hkeep.kind.trans hk, ?_⟩
      have happ : ∀ (l l' : List (Obs α)) (i : List α), replay lt k l = some i →
          replay lt k (l ++ l') = l'.foldlM (replayStep lt k) i := by
        intro l l' i h
        unfold replay at *
        rw [List.foldlM_append, h]; rfl
      have hput : ∀ {c x} {pre : List (Obs α)}, pre.foldlM (replayStep lt k) inside = some inside →
          s'.items = putItem lt s.kind s.items x → s'.log = s.log ++ (pre ++ [.put c x]) →
          ∃ inside, replay lt k s'.log = some inside ∧ Stored lt k s'.items inside := by
        intro c x pre hpre hi hl
        refine ⟨inside ++ [x], ?_, by rw [hi, hk]; exact hst.put ho x⟩
        rw [hl, happ _ _ _ hr, List.foldlM_append, hpre]; rfl
      have hget : ∀ {c x} {pre : List (Obs α)}, pre.foldlM (replayStep lt k) inside = some inside →
          getItem lt s.kind s.items = some (x, s'.items) → s'.log = s.log ++ (pre ++ [.got c x]) →
          ∃ inside, replay lt k s'.log = some inside ∧ Stored lt k s'.items inside := by
        intro c x pre hpre hi hl
        rw [hk] at hi
        obtain ⟨i', h1, h2⟩ := hst.get ho hi
        refine ⟨i', ?_, h2⟩
        rw [hl, happ _ _ _ hr, List.foldlM_append, hpre]
        simp [replayStep, h1]
      have hsame : ∀ l : List (Obs α), l.foldlM (replayStep lt k) inside = some inside →
          s'.items = s.items → s'.log = s.log ++ l →
          ∃ inside, replay lt k s'.log = some inside ∧ Stored lt k s'.items inside := by
        intro l hl hi hlog
        refine ⟨inside, ?_, by rw [hi]; exact hst⟩
        rw [hlog, happ _ _ _ hr, hl]
      cases hd with
      | quiet hi hl => exact hsame [] rfl hi (by simp [hl])
      | cont t o hop hn hd =>
        cases hd with
        | blocked hi hl => exact hsame [] rfl hi (by simp [hl])
        | raised hi hl => exact hsame [_] rfl hi hl
        | put c x _ hf hi hl => exact hput (pre := []) rfl hi hl
        | got c x _ hi hl => exact hget (pre := []) rfl hi hl
      | call t o ob hob hn hd =>
        have hpre : [ob].foldlM (replayStep lt k) inside = some inside := by
          rcases hob with ⟨x, -, rfl⟩ | ⟨-, rfl⟩ <;> rfl
        cases hd with
        | blocked hi hl => exact hsame [ob] hpre hi (by simp [hl, begin])
        | raised hi hl =>
          refine hsame [ob, .raised o.call] ?_ hi (by simp [hl, begin])
          rcases hob with ⟨x, -, rfl⟩ | ⟨-, rfl⟩ <;> rfl
        | put c x _ hf hi hl => exact hput (c := c) (pre := [ob]) hpre hi (by simp [hl, begin])
        | got c x _ hi hl => exact hget (c := c) (pre := [ob]) hpre hi (by simp [hl, begin])
      | putN x hf hi hl => exact hput (pre := [_]) rfl hi hl
      | getN x hi hl => exact hget (pre := [_]) rfl hi hl
      | refused ob hob hi hl =>
        refine hsame [ob, .raised s.nCall] ?_ hi hl
        rcases hob with ⟨x, rfl⟩ | rfl <;> rfl
  obtain ⟨-, inside, h1, h2⟩ := key
  refine ⟨inside, h1, ?_, ?_⟩
  · cases k
    · simp only [Stored] at h2; rw [h2]
    · simp only [Stored] at h2; rw [h2]
    · exact h2.2
  · intro hne
    cases k
    · exact h2
    · exact h2
    · exact absurd rfl hne

/-- **C39.** For a first-in first-out queue: the items got, followed by those inside, are the items
put, in the same order. -/
theorem C39_fifo {m : Int} {as : List (QAct α)} {s : QW α}
    (h : run lt (new .fifo m) as = some s) : puts s.log = gots s.log ++ s.items := by
  have key : s.kind = .fifo ∧ puts s.log = gots s.log ++ s.items := by
    refine run_induct (P := fun s => s.kind = .fifo ∧ puts s.log = gots s.log ++ s.items) ?_ ?_ h
    · exact ⟨rfl, rfl⟩
    · intro s a s' ⟨hk, hp⟩ he
      obtain ⟨hkeep, hd⟩ := exec_data he
      refine ⟨hkeep.kind.trans hk, ?_⟩
      have hput : ∀ {x}, s'.items = putItem lt s.kind s.items x → puts s'.log = puts s.log ++ [x] →
          gots s'.log = gots s.log → puts s'.log = gots s'.log ++ s'.items := by
        intro x hi h1 h2
        rw [h1, h2, hi, hk, hp]; simp [putItem]
      have hget : ∀ {x}, getItem lt s.kind s.items = some (x, s'.items) → puts s'.log = puts s.log →
          gots s'.log = gots s.log ++ [x] → puts s'.log = gots s'.log ++ s'.items := by
        intro x hi h1 h2
        rw [hk] at hi
        simp only [getItem] at hi
        split at hi
        · cases hi
        · rename_i y r hy
          simp only [Option.some.injEq, Prod.mk.injEq] at hi
          rw [h1, h2, hp, hy, ← hi.1, ← hi.2]; simp
      have hsame : s'.items = s.items → puts s'.log = puts s.log → gots s'.log = gots s.log →
          puts s'.log = gots s'.log ++ s'.items := by
        intro h1 h2 h3; rw [h1, h2, h3]; exact hp
      cases hd with
      | quiet hi hl => exact hsame hi (by rw [hl]) (by rw [hl])
      | cont t o hop hn hd =>
        cases hd with
        | blocked hi hl => exact hsame hi (by rw [hl]) (by rw [hl])
        | raised hi hl =>
          exact hsame hi (by rw [hl, puts_append]; simp [puts]) (by rw [hl, gots_append]; simp [gots])
        | put c x _ hf hi hl =>
          exact hput hi (by rw [hl, puts_append]; simp [puts]) (by rw [hl, gots_append]; simp [gots])
        | got c x _ hi hl =>
          exact hget hi (by rw [hl, puts_append]; simp [puts]) (by rw [hl, gots_append]; simp [gots])
      | call t o ob hob hn hd =>
        have hb : puts (begin s ob).log = puts s.log ∧ gots (begin s ob).log = gots s.log := by
          rcases hob with ⟨x, -, rfl⟩ | ⟨-, rfl⟩ <;> simp [begin, puts, gots]
        cases hd with
        | blocked hi hl => exact hsame hi (by rw [hl, hb.1]) (by rw [hl, hb.2])
        | raised hi hl =>
          exact hsame hi (by rw [hl, puts_append, hb.1]; simp [puts])
            (by rw [hl, gots_append, hb.2]; simp [gots])
        | put c x _ hf hi hl =>
          exact hput hi (by rw [hl, puts_append, hb.1]; simp [puts])
            (by rw [hl, gots_append, hb.2]; simp [gots])
        | got c x _ hi hl =>
          exact hget hi (by rw [hl, puts_append, hb.1]; simp [puts])
            (by rw [hl, gots_append, hb.2]; simp [gots])
      | putN x hf hi hl =>
        exact hput hi (by rw [hl, puts_append]; simp [puts]) (by rw [hl, gots_append]; simp [gots])
      | getN x hi hl =>
        exact hget hi (by rw [hl, puts_append]; simp [puts]) (by rw [hl, gots_append]; simp [gots])
      | refused ob hob hi hl =>
        rcases hob with ⟨x, rfl⟩ | rfl <;>
        exact hsame hi (by rw [hl, puts_append]; simp [puts]) (by rw [hl, gots_append]; simp [gots])
  exact key.2

/-- The usual order of the natural numbers is one `PriorityQueue` works with. -/
theorem natOrder : Py.Heapq.Order (fun a b : Nat => decide (a < b)) :=
  ⟨by intro a b; simp; omega, by intro a b c; simp; omega⟩

-- two tasks, a `PriorityQueue(2)`: a put blocks and is let in by a get
example : ((run (fun a b : Nat => decide (a < b)) (new .prio 2)
      [.sched .enter, .sched (.startSoon 0), .sched (.startSoon 1), .sched .pop, .put 5, .put 3,
       .put 4, .sched .pop, .get, .getNowait, .getNowait, .sched (.await (.gpi 0) false),
       .sched .pop, .getNowait]).map fun s => (s.log, s.items)) =
    some ([.startPut 0 5, .put 0 5, .startPut 1 3, .put 1 3, .startPut 2 4, .startGet 3, .got 3 3,
      .startGet 4, .got 4 5, .startGet 5, .raised 5, .put 2 4, .startGet 6, .got 6 4], []) := by
  decide +kernel

end Verif
