import Verif.Model.Shutdown
/-!
# C66: shutdown callbacks
-/
namespace Verif
open Verif.Shutdown

namespace Shutdown

/-- What has been called, and then what is still to be called, is what was registered. -/
def Inv (s : State) : Prop := s.registered = s.called ++ s.callbacks

theorem inv_register {s : State} (h : Inv s) (cb : Nat) : Inv (register cb s) := by
  unfold Inv register at *
  simp [h]

theorem inv_registers {s : State} (h : Inv s) : ∀ cs : List Nat, Inv (cs.foldl (fun s c => register c s) s)
  | [] => h
  | c :: cs => inv_registers (inv_register h c) cs

theorem inv_turn {B : Behaviour} {s : State} (h : Inv s) : Inv (turn B s).1 := by
  unfold turn
  split
  · exact h
  · next cb rest e =>
    refine inv_registers ?_ _
    unfold Inv at *
    simp [h, e]

theorem inv_shutdown {B : Behaviour} : ∀ (n : Nat) {s : State}, Inv s → Inv (shutdown B n s).1
  | 0, _, h => h
  | n + 1, s, h => by
    have ht := inv_turn (B := B) h
    rw [shutdown]
    split
    · next s' e => rw [e] at ht; exact inv_shutdown n ht
    · exact ht

theorem inv_run (B : Behaviour) (evs : List Ev) : Inv (run B evs) := by
  unfold run
  have : ∀ (evs : List Ev) (s : State), Inv s → Inv (evs.foldl (step B) s) := by
    intro evs
    induction evs with
    | nil => intro s h; exact h
    | cons e evs ih =>
      intro s h
      refine ih _ ?_
      cases e with
      | register cb => exact inv_register h cb
      | shutdown n => exact inv_shutdown n h
  exact this evs init rfl

theorem turn_returned {B : Behaviour} {s : State} (h : (turn B s).2 = .returned) : (turn B s).1.callbacks = [] := by
  unfold turn at *
  split
  · next e => exact e
  · next cb rest e =>
    rw [e] at h
    simp only at h
    split at h <;> simp at h

theorem shutdown_returned {B : Behaviour} : ∀ (n : Nat) {s : State}, (shutdown B n s).2 = .returned →
    (shutdown B n s).1.callbacks = []
  | 0, s, h => by simp [shutdown] at h
  | n + 1, s, h => by
    rw [shutdown] at h ⊢
    split at h
    · exact shutdown_returned n h
    · exact turn_returned (B := B) (s := s) h

end Shutdown

/-- **C66** At every moment the calls made are the first of the registrations, each once and in order: nothing is called
twice, out of order, or without being registered. -/
theorem C66_order (B : Behaviour) (evs : List Ev) : (run B evs).called <+: (run B evs).registered :=
  ⟨(run B evs).callbacks, (inv_run B evs).symm⟩

/-- **C66** When the shutdown returns, everything registered has been called exactly once and in order, including what
callbacks registered. -/
theorem C66_all (B : Behaviour) (evs : List Ev) (n : Nat) (h : (shutdown B n (run B evs)).2 = .returned) :
    (run B (evs ++ [.shutdown n])).called = (run B (evs ++ [.shutdown n])).registered := by
  have hi := inv_run B (evs ++ [.shutdown n])
  have he : run B (evs ++ [.shutdown n]) = (shutdown B n (run B evs)).1 := by
    simp [run, List.foldl_append, step]
  rw [he] at hi ⊢
  unfold Shutdown.Inv at hi
  rw [shutdown_returned n h, List.append_nil] at hi
  exact hi.symm

theorem Shutdown.shutdown_quiet {B : Behaviour} (hB : ∀ l c, (B l c).registers = [] ∧ (B l c).raises = false) :
    ∀ (n : Nat) (s : State), s.callbacks.length < n → (shutdown B n s).2 = .returned
  | 0, s, h => by omega
  | n + 1, s, h => by
    cases hc : s.callbacks with
    | nil => simp [shutdown, turn, hc]
    | cons cb rest =>
      have : turn B s = ({ s with callbacks := rest, called := s.called ++ [cb] }, .running) := by
        simp [turn, hc, hB]
      rw [shutdown, this]
      exact shutdown_quiet hB n _ (by rw [hc] at h; simp at h ⊢; omega)

/-- **C66** If no callback raises or registers further ones, one turn for each and one more is enough: the shutdown
returns. -/
theorem C66_returns (B : Behaviour) (hB : ∀ l c, (B l c).registers = [] ∧ (B l c).raises = false) (evs : List Ev) :
    (shutdown B ((run B evs).callbacks.length + 1) (run B evs)).2 = .returned :=
  shutdown_quiet hB _ _ (Nat.lt_succ_self _)

/-- The full claim: when a call of the shutdown is over, everything registered has been called. -/
def C66_full : Prop :=
  ∀ (B : Behaviour) (evs : List Ev) (n : Nat), (shutdown B n (run B evs)).2 ≠ .running →
    (run B (evs ++ [.shutdown n])).called = (run B (evs ++ [.shutdown n])).registered

/-- It is false: after a callback that raises the later ones are not called. -/
theorem C66_counterexample : ¬ C66_full := by
  intro h
  exact absurd (h (fun _ c => ⟨[], c == 0⟩) [.register 0, .register 1] 5 (by decide)) (by decide)

/-- **C66 (partial)** It holds if no callback raises. -/
theorem C66_partial (B : Behaviour) (evs : List Ev) (n : Nat) (h : (shutdown B n (run B evs)).2 ≠ .running)
    (hr : ∀ l c, (B l c).raises = false) :
    (run B (evs ++ [.shutdown n])).called = (run B (evs ++ [.shutdown n])).registered := by
  refine C66_all B evs n ?_
  have key : ∀ (n : Nat) (s : State), (shutdown B n s).2 ≠ .raised := by
    intro n
    induction n with
    | zero => intro s; simp [shutdown]
    | succ n ih =>
      intro s
      rw [shutdown]
      split
      · exact ih _
      · next r hne =>
        unfold turn
        split
        · simp
        · simp [hr]
  cases hs : (shutdown B n (run B evs)).2 with
  | running => exact absurd hs h
  | returned => rfl
  | raised => exact absurd hs (key n _)

/-- Callback 0 registers 2, callback 1 registers 3; both new ones are called, in order. -/
example : (run (fun _ c => ⟨if c < 2 then [c + 2] else [], false⟩) [.register 0, .register 1, .shutdown 9]).called =
    [0, 1, 2, 3] := by decide

end Verif
