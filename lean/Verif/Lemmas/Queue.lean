import Verif.Spec.Queue
import Verif.Lemmas.Heapq
import Verif.Lemmas.Sched

namespace Verif.Queue

open Sched (upd World upd_self upd_ne)

variable {α : Type} {lt : α → α → Bool}

/-- Same queue, different surroundings. -/
structure Keeps (s s' : QW α) : Prop where
  kind : s'.kind = s.kind
  max : s'.maxsize = s.maxsize

/-- `true` for `get`, `false` for `put`. -/
def side : Op α → Bool
  | .get _ => true
  | .put _ _ => false

/-- What running the loop of `put`/`get` does to the data. -/
inductive LoopD (lt : α → α → Bool) (s : QW α) (t : Nat) (o : Op α) (s' : QW α) : Prop
  | blocked (hi : s'.items = s.items) (hl : s'.log = s.log)
      (ho : s'.op = upd s.op t (some o) ∨ s'.op = upd s.op t none)
      (hb : side o = false → full s = true)
  | raised (hi : s'.items = s.items) (hl : s'.log = s.log ++ [.raised o.call])
      (ho : s'.op = upd s.op t none)
  | put (c : Nat) (x : α) (hop : o = .put c x) (hf : full s = false)
      (hi : s'.items = putItem lt s.kind s.items x) (hl : s'.log = s.log ++ [.put c x])
      (ho : s'.op = upd s.op t none)
  | got (c : Nat) (x : α) (hop : o = .get c) (hi : getItem lt s.kind s.items = some (x, s'.items))
      (hl : s'.log = s.log ++ [.got c x]) (ho : s'.op = upd s.op t none)

theorem putNowait_data {s s' : QW α} {c : Nat} {x : α} (h : putNowait lt s c x = some s') :
    Keeps s s' ∧ full s = false ∧ s'.items = putItem lt s.kind s.items x ∧
    s'.log = s.log ++ [.put c x] ∧ s'.op = s.op ∧ s'.nCall = s.nCall := by
  unfold putNowait at h
  split at h
  · cases h
  · rename_i hf
    simp only [Option.some.injEq] at h
    subst h
    exact ⟨⟨rfl, rfl⟩, by simpa using hf, rfl, rfl, rfl, rfl⟩

theorem getNowait_data {s s' : QW α} {c : Nat} {x : α} (h : getNowait lt s c = some (x, s')) :
    Keeps s s' ∧ getItem lt s.kind s.items = some (x, s'.items) ∧
    s'.log = s.log ++ [.got c x] ∧ s'.op = s.op ∧ s'.nCall = s.nCall := by
  unfold getNowait at h
  split at h
  · cases h
  · split at h
    · cases h
    · rename_i y rest hg
      simp only [Option.some.injEq, Prod.mk.injEq] at h
      obtain ⟨rfl, rfl⟩ := h
      exact ⟨⟨rfl, rfl⟩, hg, rfl, rfl, rfl⟩

theorem block_data {s s' : QW α} {t : Nat} {o : Op α} (h : block s t o = some s') :
    Keeps s s' ∧ s'.items = s.items ∧ s'.log = s.log ∧ s'.nCall = s.nCall ∧
    (s'.op = upd s.op t (some o) ∨ s'.op = upd s.op t none) := by
  unfold block at h
  split at h
  · cases h
  · simp only [Option.some.injEq] at h
    subst h
    refine ⟨⟨rfl, rfl⟩, rfl, rfl, rfl, ?_⟩
    split
    · exact Or.inl rfl
    · exact Or.inr rfl

theorem loop_data {s s' : QW α} {t : Nat} {o : Op α} (h : loop lt s t o = some s') :
    Keeps s s' ∧ s'.nCall = s.nCall ∧ LoopD lt s t o s' := by
  unfold loop at h
  split at h
  · rename_i c x
    split at h
    · split at h
      · simp only [Option.some.injEq] at h
        subst h
        exact ⟨⟨rfl, rfl⟩, rfl, .raised rfl rfl rfl⟩
      · obtain ⟨h1, h2, h3, h4, h5⟩ := block_data h
        exact ⟨⟨h1.kind, h1.max⟩, h4, .blocked h2 h3 h5 (fun _ => by assumption)⟩
    · obtain ⟨h1, h2, h3, h4, h5, h6⟩ := putNowait_data h
      exact ⟨⟨h1.kind, h1.max⟩, h6, .put c x rfl h2 h3 h4 h5⟩
  · rename_i c
    split at h
    · split at h
      · simp only [Option.some.injEq] at h
        subst h
        exact ⟨⟨rfl, rfl⟩, rfl, .raised rfl rfl rfl⟩
      · obtain ⟨h1, h2, h3, h4, h5⟩ := block_data h
        exact ⟨⟨h1.kind, h1.max⟩, h4, .blocked h2 h3 h5 (by simp [side])⟩
    · simp only [Option.map_eq_some_iff] at h
      obtain ⟨⟨x, s1⟩, h, rfl⟩ := h
      obtain ⟨h1, h2, h3, h4, h5⟩ := getNowait_data h
      exact ⟨⟨h1.kind, h1.max⟩, h5, .got c x rfl h2 h3 h4⟩

/-- What a step does to the data. -/
inductive DataStep (lt : α → α → Bool) (s s' : QW α) : Prop
  | quiet (hi : s'.items = s.items) (hl : s'.log = s.log) (ho : s'.op = s.op)
      (hn : s'.nCall = s.nCall)
  /-- a waiting call went on -/
  | cont (t : Nat) (o : Op α) (hop : s.op t = some o) (hn : s'.nCall = s.nCall)
      (hd : LoopD lt s t o s')
  /-- a new `put` or `get` -/
  | call (t : Nat) (o : Op α) (ob : Obs α)
      (hob : (∃ x, o = .put s.nCall x ∧ ob = .startPut s.nCall x) ∨
        (o = .get s.nCall ∧ ob = .startGet s.nCall))
      (hn : s'.nCall = s.nCall + 1) (hd : LoopD lt (begin s ob) t o s')
  /-- a new `put_nowait` -/
  | putN (x : α) (hf : full s = false) (hi : s'.items = putItem lt s.kind s.items x)
      (hl : s'.log = s.log ++ [.startPut s.nCall x, .put s.nCall x]) (ho : s'.op = s.op)
      (hn : s'.nCall = s.nCall + 1)
  /-- a new `get_nowait` -/
  | getN (x : α) (hi : getItem lt s.kind s.items = some (x, s'.items))
      (hl : s'.log = s.log ++ [.startGet s.nCall, .got s.nCall x]) (ho : s'.op = s.op)
      (hn : s'.nCall = s.nCall + 1)
  /-- a refused one -/
  | refused (ob : Obs α) (hob : (∃ x, ob = .startPut s.nCall x) ∨ ob = .startGet s.nCall)
      (hi : s'.items = s.items) (hl : s'.log = s.log ++ [ob, .raised s.nCall]) (ho : s'.op = s.op)
      (hn : s'.nCall = s.nCall + 1)

theorem exec_data {s s' : QW α} {a : QAct α} (h : exec lt s a = some s') :
    Keeps s s' ∧ DataStep lt s s' := by
  cases a <;> simp only [exec] at h
  case sched a =>
    split at h
    · split at h
      · cases h
      · rename_i w' r he
        split at h
        · unfold continueOp at h
          split at h
          · split at h
            · cases h; exact ⟨⟨rfl, rfl⟩, .quiet rfl rfl rfl rfl⟩
            · rename_i t rest hst o ho
              split at h
              · obtain ⟨h1, h2, h3⟩ := loop_data h
                refine ⟨⟨h1.kind, h1.max⟩, .cont _ o ho h2 ?_⟩
                cases h3 with
                | blocked a b c d => exact .blocked a b c d
                | raised a b c => exact .raised a b c
                | put c x h1 h2 h3 h4 h5 => exact .put c x h1 h2 h3 h4 h5
                | got c x h1 h2 h3 h4 => exact .got c x h1 h2 h3 h4
              · simp only [Option.some.injEq] at h
                subst h
                exact ⟨⟨rfl, rfl⟩, .cont _ o ho rfl (.raised rfl rfl rfl)⟩
          · cases h; exact ⟨⟨rfl, rfl⟩, .quiet rfl rfl rfl rfl⟩
        · simp only [Option.some.injEq] at h
          subst h
          exact ⟨⟨rfl, rfl⟩, .quiet rfl rfl rfl rfl⟩
    · cases h
  case put x =>
    split at h
    · split at h
      · obtain ⟨h1, h2, h3⟩ := loop_data h
        exact ⟨⟨h1.kind, h1.max⟩, .call _ _ _ (Or.inl ⟨x, rfl, rfl⟩) h2 h3⟩
      · cases h
    · cases h
  case get =>
    split at h
    · split at h
      · obtain ⟨h1, h2, h3⟩ := loop_data h
        exact ⟨⟨h1.kind, h1.max⟩, .call _ _ _ (Or.inr ⟨rfl, rfl⟩) h2 h3⟩
      · cases h
    · cases h
  case putNowait x =>
    split at h
    · split at h
      · simp only [Option.some.injEq] at h
        subst h
        exact ⟨⟨rfl, rfl⟩, .refused _ (Or.inl ⟨x, rfl⟩) rfl (by simp [refuse, begin]) rfl rfl⟩
      · rename_i s1 hp
        simp only [Option.some.injEq] at h
        subst h
        obtain ⟨h1, h2, h3, h4, h5, h6⟩ := putNowait_data hp
        exact ⟨⟨h1.kind, h1.max⟩, .putN x h2 h3 (by simp [h4, begin]) h5 h6⟩
    · cases h
  case getNowait =>
    split at h
    · split at h
      · simp only [Option.some.injEq] at h
        subst h
        exact ⟨⟨rfl, rfl⟩, .refused _ (Or.inr rfl) rfl (by simp [refuse, begin]) rfl rfl⟩
      · rename_i x s1 hp
        simp only [Option.some.injEq] at h
        subst h
        obtain ⟨h1, h2, h3, h4, h5⟩ := getNowait_data hp
        exact ⟨⟨h1.kind, h1.max⟩, .getN x h2 (by simp [h3, begin]) h4 h5⟩
    · cases h

theorem run_append {s : QW α} (as bs : List (QAct α)) :
    run lt s (as ++ bs) = (run lt s as).bind fun s' => run lt s' bs := by
  induction as generalizing s with
  | nil => rfl
  | cons a as ih =>
    simp only [List.cons_append, run]
    split
    · exact ih
    · rfl

/-- Induction over histories. -/
theorem run_induct {P : QW α → Prop} {s0 s : QW α} {as : List (QAct α)} (h0 : P s0)
    (hs : ∀ s a s', P s → exec lt s a = some s' → P s') (hr : run lt s0 as = some s) : P s := by
  induction as generalizing s0 with
  | nil => cases hr; exact h0
  | cons a as ih =>
    simp only [run] at hr
    split at hr
    · rename_i s1 he
      exact ih (hs _ _ _ h0 he) hr
    · cases hr

end Verif.Queue
