import Verif.Model.MockTop
import Verif.Spec.MockTop
/-! # C175: `cocotb.top` while tests are collected -/
namespace Verif
open MockTop
open MockTop.Spec (Handle Plain Number)

namespace MockTopL

theorem plainOf {e : Expr} (ih : (Handle e → eval e = .ok .mock) ∧ (Number e → ∃ n, eval e = .ok (.int n))) (h : Plain e) :
    ∃ v, eval e = .ok v := by
  cases h with
  | handle h => exact ⟨_, ih.1 h⟩
  | str s => exact ⟨_, rfl⟩
  | number h => obtain ⟨n, hn⟩ := ih.2 h; exact ⟨_, hn⟩

theorem all (e : Expr) : (Handle e → eval e = .ok .mock) ∧ (Number e → ∃ n, eval e = .ok (.int n)) := by
  induction e with
  | top => exact ⟨fun _ => rfl, (fun h => by cases h)⟩
  | int n => exact ⟨(fun h => by cases h), fun _ => ⟨n, rfl⟩⟩
  | str s => exact ⟨(fun h => by cases h), (fun h => by cases h)⟩
  | attr e n ih =>
    refine ⟨fun h => ?_, (fun h => by cases h)⟩
    cases h with
    | attr _ h => simp [eval, ih.1 h, Res.bind, getAttr]
  | item e k ih ihk =>
    refine ⟨fun h => ?_, (fun h => by cases h)⟩
    cases h with
    | item h k =>
      obtain ⟨w, hw⟩ := plainOf ihk k
      simp [eval, ih.1 h, hw, Res.bind, getItem]
  | call e k ih ihk =>
    refine ⟨fun h => ?_, (fun h => by cases h)⟩
    cases h with
    | call h k =>
      obtain ⟨w, hw⟩ := plainOf ihk k
      simp [eval, ih.1 h, hw, Res.bind, callVal]
  | cmp o a b iha ihb =>
    refine ⟨(fun h => by cases h), fun h => ?_⟩
    cases h with
    | cmpL h k =>
      obtain ⟨w, hw⟩ := plainOf ihb k
      simp [eval, iha.1 h, hw, Res.bind, cmpVals, ofBool]
    | cmpR k h =>
      obtain ⟨w, hw⟩ := plainOf iha k
      cases w <;> simp [eval, ihb.1 h, hw, Res.bind, cmpVals, ofBool]
    | cmpN h k =>
      obtain ⟨m, hm⟩ := iha.2 h
      obtain ⟨n, hn⟩ := ihb.2 k
      simp [eval, hm, hn, Res.bind, cmpVals, ofBool]
  | not e ih =>
    refine ⟨(fun h => by cases h), fun h => ?_⟩
    cases h with
    | not h =>
      obtain ⟨w, hw⟩ := plainOf ih h
      simp [eval, hw, Res.bind, ofBool]
  | ite c a b ihc iha ihb =>
    refine ⟨(fun h => by cases h), fun h => ?_⟩
    cases h with
    | ite hc ha hb =>
      obtain ⟨w, hw⟩ := plainOf ihc hc
      obtain ⟨m, hm⟩ := iha.2 ha
      obtain ⟨n, hn⟩ := ihb.2 hb
      simp only [eval, hw, Res.bind]
      split
      · exact ⟨m, hm⟩
      · exact ⟨n, hn⟩
  | toInt e ih =>
    refine ⟨(fun h => by cases h), fun h => ?_⟩
    cases h with
    | toInt h => exact ⟨0, by simp [eval, ih.1 h, Res.bind, intOf]⟩
  | len e ih =>
    refine ⟨(fun h => by cases h), fun h => ?_⟩
    cases h with
    | len h => exact ⟨0, by simp [eval, ih.1 h, Res.bind, lenOf]⟩
  | add a b iha ihb =>
    refine ⟨(fun h => by cases h), fun h => ?_⟩
    cases h with
    | add ha hb =>
      obtain ⟨m, hm⟩ := iha.2 ha
      obtain ⟨n, hn⟩ := ihb.2 hb
      exact ⟨m + n, by simp [eval, hm, hn, Res.bind, addVals]⟩
  | range e ih =>
    refine ⟨(fun h => by cases h), fun h => ?_⟩
    cases h with
    | range h =>
      obtain ⟨n, hn⟩ := ih.2 h
      exact ⟨n, by simp [eval, hn, Res.bind, rangeOf]⟩
  | list e ih => exact ⟨(fun h => by cases h), (fun h => by cases h)⟩
  | key e ih => exact ⟨(fun h => by cases h), (fun h => by cases h)⟩
  | isIn a b iha ihb => exact ⟨(fun h => by cases h), (fun h => by cases h)⟩

theorem handle {e : Expr} (h : Handle e) : eval e = .ok .mock := (all e).1 h

theorem number {e : Expr} (h : Number e) : ∃ n, eval e = .ok (.int n) := (all e).2 h

theorem plain {e : Expr} (h : Plain e) : ∃ v, eval e = .ok v := plainOf (all e) h

end MockTopL
open MockTopL

/-- `cocotb.top.u_core.fifo[0].depth`. -/
def exTopExpr : Expr := .attr (.item (.attr (.attr .top "u_core".toList) "fifo".toList) (.int 0)) "depth".toList

/-- C175, in full: a module that uses `cocotb.top` can be collected: no operation on the stand-in and what it returns
raises or does not end. -/
def C175_collect_full : Prop := ∀ e : Expr, Handle e →
  eval (.toInt e) ≠ .raises ∧ (∀ n, eval (.add e (.int n)) ≠ .raises) ∧ eval (.range e) ≠ .raises ∧
  eval (.key e) ≠ .raises ∧ eval (.list e) ≠ .forever

/-- C175: arithmetic, use as an index and as a key raise, and a loop over the stand-in does not end. -/
theorem C175_collect_counterexample :
    ¬ C175_collect_full ∧ ∀ e : Expr, Handle e → (∀ n, eval (.add e (.int n)) = .raises) ∧ eval (.range e) = .raises ∧
      eval (.key e) = .raises ∧ eval (.list e) = .forever ∧ ∀ n, eval (.isIn (.int n) e) = .forever := by
  constructor
  · intro h
    exact (h .top .top).2.2.2.2 rfl
  · intro e he
    simp [eval, handle he, Res.bind, addVals, rangeOf, keyOf, listOf, contains]

/-- C175, partial (the full claim is false of the code): children, items and method calls of the stand-in are the stand-in
at any depth, and expressions that only compare it, measure it, turn it into a number or choose by it have a value. -/
theorem C175_collect_partial : (∀ e : Expr, Handle e → eval e = .ok .mock) ∧ (∀ e : Expr, Plain e → ∃ v, eval e = .ok v) ∧
    ∀ e : Expr, Number e → ∃ n, eval e = .ok (.int n) :=
  ⟨fun _ h => handle h, fun _ h => plain h, fun _ h => number h⟩

example : Handle exTopExpr ∧ Number (.range (.add (.toInt exTopExpr) (.int 2))) ∧
    eval (.range (.add (.toInt exTopExpr) (.int 2))) = .ok (.int 2) :=
  ⟨.attr _ (.item (.attr _ (.attr _ .top)) (.number (.int 0))),
    .range (.add (.toInt (.attr _ (.item (.attr _ (.attr _ .top)) (.number (.int 0))))) (.int 2)), by decide +kernel⟩

/-- C175: values of the stand-in: its number and its length are 0, as a condition it is false. -/
theorem C175_values (e : Expr) (h : Handle e) :
    eval (.toInt e) = .ok (.int 0) ∧ eval (.len e) = .ok (.int 0) ∧ eval (.not e) = .ok (.int 1) := by
  simp [eval, handle h, Res.bind, intOf, lenOf, truth, ofBool]

/-- C175, in full: every comparison with the stand-in, from the left or the right, is false, as the comments of the class
say. -/
def C175_compare_full : Prop := ∀ (o : Cmp) (a b : Expr), Handle a → Plain b →
  eval (.cmp o a b) = .ok (.int 0) ∧ eval (.cmp o b a) = .ok (.int 0)

/-- C175: `!=` is true: the method for it has a name that Python does not know. -/
theorem C175_compare_counterexample : ¬ C175_compare_full := by
  intro h
  have := (h .ne .top (.int 0) .top (.number (.int 0))).1
  exact absurd this (by decide +kernel)

/-- C175, partial (the full claim is false of the code): all comparisons but `!=` are false, also of the stand-in with
itself, and `!=` is true. -/
theorem C175_compare_partial (o : Cmp) (a b : Expr) (ha : Handle a) (hb : Plain b) :
    eval (.cmp o a b) = .ok (.int (if o = .ne then 1 else 0)) ∧ eval (.cmp o b a) = .ok (.int (if o = .ne then 1 else 0)) := by
  obtain ⟨w, hw⟩ := plain hb
  cases w <;> cases o <;> simp [eval, handle ha, hw, Res.bind, cmpVals, ofBool, mockCmp, Cmp.swap]

example : eval (.cmp .lt (.int 3) exTopExpr) = .ok (.int 0) ∧ eval (.cmp .ne exTopExpr exTopExpr) = .ok (.int 1) := by
  decide +kernel

end Verif
