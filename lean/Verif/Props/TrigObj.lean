import Verif.Spec.TrigObj
/-!
# C163: one trigger object for each edge of a signal
-/
namespace Verif
open TrigObj TrigObjSpec

namespace TrigObjL

/-- The place of the object an expression stands for. -/
def place : Want → Option Place
  | .edge e h _ => some (.attr e h)
  | .single k => some (.single k)
  | .timer => none

/-- What a place is for. -/
def placeTrig : Place → Trig
  | .attr e h => .edge e h
  | .single k => .single k

/-- Objects in their places are what they should be. -/
def Inv (W : World) (s : St) : Prop :=
  (∀ p i, s.kept p = some i → s.made[i]? = some (placeTrig p)) ∧
  ∀ e h i, s.kept (.attr e h) = some i → Offered W e h

theorem offered_iff (W : World) (e : Edge) (h : Nat) :
    Offered W e h ↔ hasAttr e (W.kind h) = true ∧ attrFails W e h = false := by
  unfold Offered attrFails hasAttr
  cases hk : W.kind h <;> cases e <;> cases hc : W.const h <;> simp

theorem accepts_eq (e : Edge) (k : Kind) : accepts e k = hasAttr e k := by cases k <;> rfl

theorem getAttr_spec (W : World) (e : Edge) (h : Nat) (s : St) (hi : Inv W s) :
    Inv W (getAttr W e h s).1 ∧ (∃ l, (getAttr W e h s).1.made = s.made ++ l) ∧
    (∀ p i, s.kept p = some i → (getAttr W e h s).1.kept p = some i) ∧
    ((∃ i, (getAttr W e h s).2 = .ok i ∧ (getAttr W e h s).1.kept (.attr e h) = some i ∧ Offered W e h) ∨
      ∃ x, (getAttr W e h s).2 = .error x ∧ (hasAttr e (W.kind h) = true → x = .typeError) ∧ ¬ Offered W e h) := by
  unfold getAttr
  by_cases ha : hasAttr e (W.kind h) = true
  · simp only [ha, Bool.not_true, Bool.false_eq_true, if_false]
    cases hk : s.kept (.attr e h) with
    | some i => exact ⟨hi, ⟨[], by simp⟩, fun _ _ h => h, .inl ⟨i, rfl, hk, hi.2 e h i hk⟩⟩
    | none =>
      dsimp only
      by_cases hf : attrFails W e h = true
      · simp only [hf, if_true]
        refine ⟨hi, ⟨[], by simp⟩, fun _ _ h => h, .inr ⟨_, rfl, fun _ => rfl, fun ho => ?_⟩⟩
        rw [offered_iff, hf] at ho
        cases ho.2
      · have hf' : attrFails W e h = false := by simpa using hf
        have ho : Offered W e h := (offered_iff W e h).mpr ⟨ha, hf'⟩
        simp only [hf', Bool.false_eq_true, if_false, make]
        refine ⟨⟨fun p i hp => ?_, fun e' h' i hp => ?_⟩, ⟨[.edge e h], rfl⟩, fun p i hp => ?_, .inl ⟨s.made.length, rfl, by simp, ho⟩⟩
        · dsimp only at hp ⊢
          split at hp
          · next he => subst he; cases hp; simp [placeTrig]
          · have := hi.1 p i hp
            rw [List.getElem?_append_left (List.getElem?_eq_some_iff.mp this).1]
            exact this
        · dsimp only at hp
          split at hp
          · next he => cases he; exact ho
          · exact hi.2 e' h' i hp
        · split
          · next he => subst he; rw [hk] at hp; cases hp
          · exact hp
  · have ha' : hasAttr e (W.kind h) = false := by simpa using ha
    simp only [ha', Bool.not_false, if_true]
    refine ⟨hi, ⟨[], by simp⟩, fun _ _ h => h, .inr ⟨_, rfl, fun h => by simp at h, fun ho => ?_⟩⟩
    rw [offered_iff, ha'] at ho
    cases ho.1

theorem eval_spec (W : World) (s : St) (w : Want) (hi : Inv W s) :
    Inv W (eval W s w).1 ∧ (∃ l, (eval W s w).1.made = s.made ++ l) ∧
    (∀ p i, s.kept p = some i → (eval W s w).1.kept p = some i) ∧
    (∀ i, (eval W s w).2 = .ok i → (eval W s w).1.made[i]? = some (meant w) ∧
      (∀ p, place w = some p → (eval W s w).1.kept p = some i) ∧ (place w = none → s.made.length ≤ i)) := by
  have edge : ∀ e h, ∀ i, (getAttr W e h s).2 = .ok i → (getAttr W e h s).1.made[i]? = some (.edge e h) ∧
      (getAttr W e h s).1.kept (.attr e h) = some i := by
    intro e h i hok
    obtain ⟨h1, _, _, h4⟩ := getAttr_spec W e h s hi
    rcases h4 with ⟨j, hj, hk, _⟩ | ⟨x, hx, _⟩
    · rw [hj] at hok; cases hok
      exact ⟨h1.1 _ _ hk, hk⟩
    · rw [hx] at hok; cases hok
  match w with
  | .edge e h false =>
    obtain ⟨h1, h2, h3, _⟩ := getAttr_spec W e h s hi
    refine ⟨h1, h2, h3, fun i hok => ⟨(edge e h i hok).1, fun p hp => ?_, fun hn => by cases hn⟩⟩
    cases hp; exact (edge e h i hok).2
  | .edge e h true =>
    unfold eval
    by_cases ha : accepts e (W.kind h) = true
    · simp only [ha, if_true]
      obtain ⟨h1, h2, h3, _⟩ := getAttr_spec W e h s hi
      refine ⟨h1, h2, h3, fun i hok => ⟨(edge e h i hok).1, fun p hp => ?_, fun hn => by cases hn⟩⟩
      cases hp; exact (edge e h i hok).2
    · simp only [ha, Bool.false_eq_true, if_false]
      exact ⟨hi, ⟨[], by simp⟩, fun _ _ h => h, fun i hok => by cases hok⟩
  | .single k =>
    rw [show eval W s (.single k) = getSingle k s from rfl]
    unfold getSingle
    cases hk : s.kept (.single k) with
    | some j =>
      refine ⟨hi, ⟨[], by simp⟩, fun _ _ h => h, fun i hok => ?_⟩
      cases hok
      exact ⟨hi.1 _ _ hk, fun p hp => (by cases hp; exact hk), fun hn => by cases hn⟩
    | none =>
      simp only [make]
      refine ⟨⟨fun p i hp => ?_, fun e' h' i hp => ?_⟩, ⟨[.single k], rfl⟩, fun p i hp => ?_, fun i hok => ?_⟩
      · dsimp only at hp ⊢
        split at hp
        · next he => subst he; cases hp; simp [placeTrig]
        · have := hi.1 p i hp
          rw [List.getElem?_append_left (List.getElem?_eq_some_iff.mp this).1]
          exact this
      · dsimp only at hp
        rw [if_neg (by simp)] at hp
        exact hi.2 e' h' i hp
      · split
        · next he => subst he; rw [hk] at hp; cases hp
        · exact hp
      · cases hok
        exact ⟨by simp [meant], fun p hp => (by cases hp; simp), fun hn => by cases hn⟩
  | .timer =>
    refine ⟨⟨fun p i hp => ?_, fun e' h' i hp => hi.2 e' h' i hp⟩, ⟨[.timer], rfl⟩, fun p i hp => hp, fun i hok => ?_⟩
    · have := hi.1 p i hp
      simp only [eval, make]
      rw [List.getElem?_append_left (List.getElem?_eq_some_iff.mp this).1]
      exact this
    · cases hok
      exact ⟨by simp [eval, make, meant], fun p hp => (by cases hp), fun _ => Nat.le_refl _⟩

theorem evals_spec (W : World) (ws : List Want) : ∀ s, Inv W s →
    (∃ l, (evals W s ws).1.made = s.made ++ l) ∧
    (∀ w i, (w, Except.ok i) ∈ (evals W s ws).2 → (evals W s ws).1.made[i]? = some (meant w) ∧
      ∀ p, place w = some p → ∀ j, s.kept p = some j → i = j) ∧
    (∀ w i, (w, Except.ok i) ∈ (evals W s ws).2 → place w = none → s.made.length ≤ i) ∧
    ((evals W s ws).2.Pairwise fun a b => ∀ i j, a.2 = .ok i → b.2 = .ok j → (i = j ↔ Same a.1 b.1)) := by
  induction ws with
  | nil => intro s _; exact ⟨⟨[], by simp [evals]⟩, by simp [evals], by simp [evals], by simp [evals]⟩
  | cons w ws ih =>
    intro s hi
    obtain ⟨h1, ⟨l, h2⟩, h3, h4⟩ := eval_spec W s w hi
    obtain ⟨⟨l', g1⟩, g2, g3, g4⟩ := ih (eval W s w).1 h1
    refine ⟨⟨l ++ l', ?_⟩, fun v i hv => ?_, fun v i hv hp => ?_, ?_⟩
    · simp only [evals]; rw [g1, h2, List.append_assoc]
    · simp only [evals, List.mem_cons, Prod.mk.injEq] at hv ⊢
      rcases hv with ⟨rfl, hv⟩ | hv
      · obtain ⟨a1, a2, a3⟩ := h4 i hv.symm
        refine ⟨?_, fun p hp j hj => ?_⟩
        · rw [g1, List.getElem?_append_left (List.getElem?_eq_some_iff.mp a1).1]
          exact a1
        · have e1 := a2 p hp
          rw [h3 p j hj] at e1
          cases e1; rfl
      · refine ⟨(g2 v i hv).1, fun p hp j hj => (g2 v i hv).2 p hp j (h3 p j hj)⟩
    · simp only [evals, List.mem_cons, Prod.mk.injEq] at hv
      rcases hv with ⟨rfl, hv⟩ | hv
      · exact (h4 i hv.symm).2.2 hp
      · have := g3 v i hv hp
        rw [h2, List.length_append] at this
        omega
    · simp only [evals, List.pairwise_cons]
      refine ⟨fun b hb i j hai hbj => ?_, g4⟩
      obtain ⟨v, r⟩ := b
      dsimp only at hbj ⊢
      subst hbj
      obtain ⟨a1, a2, a3⟩ := h4 i hai
      obtain ⟨b1, b2⟩ := g2 v j hb
      have b3 := g3 v j hb
      have hlt : i < (eval W s w).1.made.length := (List.getElem?_eq_some_iff.mp a1).1
      have hsame : ∀ p, place w = some p → place v = some p → i = j := fun p hw hv => (b2 p hv i (a2 p hw)).symm
      have hback : i = j → meant w = meant v := by
        rintro rfl
        have : (evals W (eval W s w).1 ws).1.made[i]? = some (meant w) := by
          rw [g1, List.getElem?_append_left hlt]; exact a1
        rw [b1] at this
        exact (Option.some.inj this).symm
      cases w with
      | edge e h c =>
        cases v with
        | edge e' h' c' =>
          simp only [Same]
          constructor
          · intro hij
            have := hback hij
            simp only [meant, Trig.edge.injEq] at this
            exact this
          · rintro ⟨rfl, rfl⟩
            exact hsame _ rfl rfl
        | single k => exact ⟨fun hij => by have := hback hij; simp [meant] at this, fun h => h.elim⟩
        | timer => exact ⟨fun hij => by have := hback hij; simp [meant] at this, fun h => h.elim⟩
      | single k =>
        cases v with
        | edge e' h' c' => exact ⟨fun hij => by have := hback hij; simp [meant] at this, fun h => h.elim⟩
        | single k' =>
          simp only [Same]
          constructor
          · intro hij
            have := hback hij
            simp only [meant, Trig.single.injEq] at this
            exact this
          · rintro rfl
            exact hsame _ rfl rfl
        | timer => exact ⟨fun hij => by have := hback hij; simp [meant] at this, fun h => h.elim⟩
      | timer =>
        refine ⟨fun hij => ?_, fun h => by cases v <;> exact h.elim⟩
        have hm := hback hij
        cases v with
        | edge e' h' c' => simp [meant] at hm
        | single k' => simp [meant] at hm
        | timer =>
          have := b3 rfl
          omega

theorem inv_init (W : World) : Inv W init := ⟨fun _ _ h => (by cases h), fun _ _ _ h => (by cases h)⟩

theorem evals_inv (W : World) (ws : List Want) : ∀ s, Inv W s → Inv W (evals W s ws).1 := by
  induction ws with
  | nil => intro s h; exact h
  | cons w ws ih => intro s h; exact ih _ (eval_spec W s w h).1

end TrigObjL
open TrigObjL

/-- **C163** Two expressions give the same trigger object exactly if they are for the same edge of the same signal, by
whichever spelling, or for the same phase. -/
theorem C163_same (W : World) (ws : List Want) :
    (evals W init ws).2.Pairwise fun a b => ∀ i j, a.2 = .ok i → b.2 = .ok j → (i = j ↔ Same a.1 b.1) :=
  (evals_spec W ws init (inv_init W)).2.2.2

/-- **C163** The object is for the edge and the signal, or the phase, that was asked for, and stays so. -/
theorem C163_meant (W : World) (ws : List Want) (w : Want) (i : Nat) (h : (w, Except.ok i) ∈ (evals W init ws).2) :
    (evals W init ws).1.made[i]? = some (meant w) :=
  ((evals_spec W ws init (inv_init W)).2.1 w i h).1

/-- **C163** At any time, an edge can be asked for exactly if the object is a signal that can change, with one bit for rising and
falling edges; otherwise the constructor raises TypeError. -/
theorem C163_offered (W : World) (ws : List Want) (e : Edge) (h : Nat) (c : Bool) :
    ((∃ i, (eval W (evals W init ws).1 (.edge e h c)).2 = .ok i) ↔ Offered W e h) ∧
    (¬ Offered W e h → c = true → (eval W (evals W init ws).1 (.edge e h c)).2 = .error .typeError) := by
  have hi := evals_inv W ws init (inv_init W)
  obtain ⟨_, _, _, hr⟩ := getAttr_spec W e h _ hi
  have hx : hasAttr e (W.kind h) = false → ¬ Offered W e h := by
    intro hf ho
    rw [offered_iff, hf] at ho
    cases ho.1
  cases c with
  | false =>
    refine ⟨⟨fun ⟨i, hok⟩ => ?_, fun ho => ?_⟩, fun _ hc => by cases hc⟩
    · rcases hr with ⟨_, _, _, ho⟩ | ⟨x, hx, _⟩
      · exact ho
      · rw [eval, hx] at hok; cases hok
    · rcases hr with ⟨i, hok, _⟩ | ⟨_, _, _, hn⟩
      · exact ⟨i, hok⟩
      · exact absurd ho hn
  | true =>
    have hev : ∀ s, eval W s (.edge e h true) = if hasAttr e (W.kind h) then getAttr W e h s else (s, .error .typeError) := by
      intro s; rw [← accepts_eq]; rfl
    rw [hev]
    cases ha : hasAttr e (W.kind h) with
    | false =>
      refine ⟨⟨fun ⟨i, hok⟩ => (by cases hok), fun ho => absurd ho (hx ha)⟩, fun _ _ => rfl⟩
    | true =>
      simp only [if_true]
      refine ⟨⟨fun ⟨i, hok⟩ => ?_, fun ho => ?_⟩, fun hn _ => ?_⟩
      · rcases hr with ⟨_, _, _, ho⟩ | ⟨x, hx, _⟩
        · exact ho
        · rw [hx] at hok; cases hok
      · rcases hr with ⟨i, hok, _⟩ | ⟨_, _, _, hn⟩
        · exact ⟨i, hok⟩
        · exact absurd ho hn
      · rcases hr with ⟨_, _, _, ho⟩ | ⟨x, hx, ht, _⟩
        · exact absurd ho hn
        · rw [hx, ht ha]

/-- A bit, a vector and a parameter. -/
def sampleTrigs : World := ⟨fun h => if h = 0 then .logic else if h = 1 then .logicArray 8 else .integer, fun h => h = 2⟩

example : (evals sampleTrigs init [.edge .rising 0 true, .edge .change 1 true, .edge .rising 1 true, .edge .rising 0 false,
    .single .readOnly, .timer, .timer, .single .readOnly, .edge .change 2 true]).2.map (·.2) =
    [.ok 0, .ok 1, .error .typeError, .ok 0, .ok 2, .ok 3, .ok 4, .ok 2, .error .typeError] := rfl

example : Offered sampleTrigs .change 1 ∧ ¬ Offered sampleTrigs .rising 1 ∧ ¬ Offered sampleTrigs .change 2 := by
  simp [Offered, sampleTrigs]

end Verif
