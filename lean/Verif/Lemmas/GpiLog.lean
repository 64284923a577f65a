import Verif.Spec.GpiLog
/-!
# Lemmas about log messages of the GPI
-/
namespace Verif.GpiLog

theorem effective_iff (own : Name → Nat) (n : Name) (l : Nat) : Effective own n l ↔ effective own n = l := by
  constructor
  · intro h
    induction h with
    | @own n h => cases n <;> simp [effective, h]
    | inherited h _ ih => simp [effective, h, ih]
    | unset h => simp [effective, h]
  · rintro rfl
    induction n with
    | nil =>
      rw [effective]
      by_cases h : own [] = 0
      · rw [h]; exact .unset h
      · exact .own h
    | cons c p ih =>
      rw [effective]
      split
      · next h => exact .own h
      · next h => exact .inherited (by simpa using h) ih

theorem run_snoc (h : List Op) (o : Op) : run (h ++ [o]) = step (run h) o := by simp [run]

theorem lastOr_snoc (d x : Nat) (l : List Nat) : lastOr d (l ++ [x]) = x := by simp [lastOr]

/-- Induction on histories from the end. -/
theorem snoc_induction {α : Type} {P : List α → Prop} (h0 : P []) (h1 : ∀ l x, P l → P (l ++ [x])) (l : List α) : P l := by
  have : ∀ l : List α, P l.reverse := by
    intro l
    induction l with
    | nil => exact h0
    | cons a l ih => rw [List.reverse_cons]; exact h1 _ _ ih
  simpa using this l.reverse

theorem run_levels (h : List Op) : (run h).levels = ownLevel h := by
  induction h using snoc_induction with
  | h0 => funext n; simp [run, init, ownLevel, lastOr]
  | h1 h o ih =>
    funext n
    rw [run_snoc]
    cases o with
    | setLevel name level =>
      have e : (step (run h) (.setLevel name level)).levels n = if n = name then level else (run h).levels n := by
        simp only [step]; split <;> rfl
      rw [e, ih]
      by_cases hn : n = name
      · subst hn
        simp [ownLevel, List.filterMap_append, lastOr_snoc]
      · rw [if_neg hn]
        simp [ownLevel, List.filterMap_append, Ne.symm hn]
    | disable l => simp [step, ih, ownLevel, List.filterMap_append]
    | setup => simp [step, ih, ownLevel, List.filterMap_append]

theorem run_disabled (h : List Op) : (run h).disabled = disabledLevel h := by
  induction h using snoc_induction with
  | h0 => simp [run, init, disabledLevel, lastOr]
  | h1 h o ih =>
    rw [run_snoc]
    cases o with
    | setLevel name level =>
      have e : (step (run h) (.setLevel name level)).disabled = (run h).disabled := by
        simp only [step]; split <;> rfl
      rw [e, ih]
      simp [disabledLevel, List.filterMap_append]
    | disable l => simp [step, disabledLevel, List.filterMap_append, lastOr_snoc]
    | setup => simp [step, ih, disabledLevel, List.filterMap_append]

theorem run_ready (h : List Op) : (run h).ready = true ↔ Op.setup ∈ h := by
  induction h using snoc_induction with
  | h0 => simp [run, init]
  | h1 h o ih =>
    rw [run_snoc]
    cases o with
    | setLevel name level =>
      have e : (step (run h) (.setLevel name level)).ready = (run h).ready := by
        simp only [step]; split <;> rfl
      rw [e, ih]; simp
    | disable l => simp [step, ih]
    | setup => simp [step]

theorem enabled_iff (h : List Op) (name : Name) (level : Nat) :
    isEnabledFor (run h) name level = true ↔ ToLog h name level := by
  unfold isEnabledFor ToLog
  rw [run_levels, run_disabled]
  simp only [ge_iff_le, Bool.and_eq_true, decide_eq_true_eq, Nat.not_le]
  constructor
  · rintro ⟨h1, h2⟩
    exact ⟨h1, _, (effective_iff _ _ _).2 rfl, h2⟩
  · rintro ⟨h1, l, h2, h3⟩
    rw [effective_iff] at h2
    exact ⟨h1, by omega⟩

/-- The level C++ knows is that of the logger. -/
theorem run_loc {h : List Op} (hn : Op.setLevel gpi 0 ∉ h) : (run h).loc = 0 ∨ (run h).loc = ownLevel h gpi ∧ ownLevel h gpi ≠ 0 := by
  induction h using snoc_induction with
  | h0 => exact .inl rfl
  | h1 h o ih =>
    have ih := ih fun hx => hn (by simp [hx])
    rw [← run_levels] at ih ⊢
    rw [run_snoc]
    cases o with
    | setLevel name level =>
      by_cases hname : name = gpi
      · subst hname
        have hl : level ≠ 0 := fun e => hn (by simp [e])
        by_cases hr : (run h).ready = true
        · right
          rw [step, if_pos ⟨hr, rfl⟩]
          simp [effective, gpi, hl]
        · left
          rw [step, if_neg (by simp [hr])]
          have : ∀ h : List Op, (run h).ready = false → (run h).loc = 0 := by
            intro h
            induction h using snoc_induction with
            | h0 => intro _; rfl
            | h1 h o ih =>
              rw [run_snoc]
              cases o with
              | setLevel n l =>
                simp only [step]
                split
                · next hc => intro hf; exact absurd (show (run h).ready = false from hf) (by simp [hc.1])
                · exact ih
              | disable l => exact ih
              | setup => intro hf; cases hf
          exact this h (by simpa using hr)
      · rw [step, if_neg (fun hc => hname hc.2)]
        simpa [Ne.symm hname] using ih
    | disable l => exact ih
    | setup => exact ih

theorem formatNoArgs_plain {t : Text} (h : 37 ∉ t) : formatNoArgs t = some t := by
  induction t with
  | nil => rfl
  | cons c t ih =>
    have hc : c ≠ 37 := fun e => h (by simp [e])
    have ih := ih fun hx => h (by simp [hx])
    rw [formatNoArgs]
    · rw [ih]; rfl
    · intro t' e; exact absurd e hc
    · intro e; exact absurd e hc

end Verif.GpiLog
