import Verif.Spec.Logic
/-!
# Properties of `Logic`, `Bit` and resolvers (C04 - C08)
-/
namespace Verif
open Spec Logic

/-! ## C04 -/

theorem ofLiteralChar_iff (c : Char) (v : Logic) :
    ofLiteralChar c = some v ↔ (c, v) ∈ Spec.literals := by
  unfold ofLiteralChar
  split <;> simp_all [Spec.literals] <;> grind

/-- C04: a string is accepted by `Logic` exactly when it is one of the documented one-character
literals, and denotes that value; everything else raises `ValueError`. -/
theorem C04_new_str (s : PyStr) :
    (∀ c v, s = [c] → (c, v) ∈ Spec.literals → new .logic (.str s) = .ok ⟨.logic, v⟩) ∧
    ((¬ ∃ c v, s = [c] ∧ (c, v) ∈ Spec.literals) → new .logic (.str s) = .error .valueError) := by
  constructor
  · rintro c v rfl h
    simp [new, ofLiteralStr, (ofLiteralChar_iff c v).2 h, Cls.allows]
  · intro h
    have : ofLiteralStr s = none := by
      unfold ofLiteralStr
      split
      · rename_i c
        cases hc : ofLiteralChar c with
        | none => rfl
        | some v => exact absurd ⟨c, v, rfl, (ofLiteralChar_iff c v).1 hc⟩ h
      · rfl
    simp [new, this]

/-- C04: integers (and booleans): only 0 and 1. Other types raise `TypeError`. -/
theorem C04_new_int (cls : Cls) (i : Int) :
    new cls (.int i) =
      if i = 0 then .ok ⟨cls, F0⟩ else if i = 1 then .ok ⟨cls, F1⟩ else .error .valueError := by
  unfold new ofLiteralInt
  by_cases h0 : i = 0
  · cases cls <;> simp [h0, Cls.allows]
  · by_cases h1 : i = 1
    · cases cls <;> simp [h1, Cls.allows]
    · simp [h0, h1]

theorem C04_new_other (cls : Cls) : new cls .other = .error .typeError := rfl

/-- C04: `Bit` accepts exactly what `Logic` accepts with value 0 or 1. -/
theorem C04_bit (value : Lit) :
    new .bit value = match new .logic value with
      | .ok o => if o.v = F0 ∨ o.v = F1 then .ok ⟨.bit, o.v⟩ else .error .valueError
      | .error e => .error e := by
  unfold new
  simp only
  split
  · simp
  · rename_i v h
    simp only [Cls.allows]
    cases v <;> simp

/-- C04: constructing from an existing object gives the same value; `str` round-trips. -/
theorem C04_roundtrip (o : Obj) :
    new .logic (.obj o) = .ok ⟨.logic, o.v⟩ ∧ new .logic (.str [o.v.chr]) = .ok ⟨.logic, o.v⟩ := by
  rcases o with ⟨c, v⟩
  constructor
  · rfl
  · cases v <;> rfl

/-- C04: distinct values print differently. -/
theorem C04_str_injective (a b : Logic) (h : a.chr = b.chr) : a = b := by
  cases a <;> cases b <;> first | rfl | (exact absurd h (by decide))

/-- C04: `==` against a literal is equality with the value the literal denotes, and `False` for a
non-literal. -/
theorem C04_eq (a : Obj) (l : Lit) (hl : l ≠ .other) :
    Logic.eq a l = some (match new .logic l with | .ok o => decide (a.v = o.v) | .error _ => false) := by
  cases l with
  | str s => simp only [Logic.eq]; cases new .logic (.str s) <;> rfl
  | int i => simp only [Logic.eq]; cases new .logic (.int i) <;> rfl
  | obj o => rfl
  | other => exact absurd rfl hl

example : new .logic (.str ['h']) = .ok ⟨.logic, H⟩ ∧ new .logic (.str ['0', '1']) = .error .valueError
    ∧ new .bit (.str ['L']) = .error .valueError ∧ new .bit (.int 1) = .ok ⟨.bit, F1⟩ := by decide

/-! ## C05 -/

/-- C05: `&` implements IEEE-1164. -/
theorem C05_and (a b : Logic) : Logic.and a b = inject (and4 (strip a) (strip b)) := by
  cases a <;> cases b <;> decide
/-- C05: `|` implements IEEE-1164. -/
theorem C05_or (a b : Logic) : Logic.or a b = inject (or4 (strip a) (strip b)) := by
  cases a <;> cases b <;> decide
/-- C05: `^` implements IEEE-1164. -/
theorem C05_xor (a b : Logic) : Logic.xor a b = inject (xor4 (strip a) (strip b)) := by
  cases a <;> cases b <;> decide
/-- C05: `~` implements IEEE-1164. -/
theorem C05_not (a : Logic) : Logic.not a = inject (not4 (strip a)) := by
  cases a <;> decide

theorem C05_comm (a b : Logic) :
    a.and b = b.and a ∧ a.or b = b.or a ∧ a.xor b = b.xor a := by
  cases a <;> cases b <;> decide

theorem C05_assoc (a b c : Logic) :
    (a.and b).and c = a.and (b.and c) ∧ (a.or b).or c = a.or (b.or c) ∧
    (a.xor b).xor c = a.xor (b.xor c) := by
  cases a <;> cases b <;> cases c <;> decide

theorem C05_deMorgan (a b : Logic) :
    (a.and b).not = a.not.or b.not ∧ (a.or b).not = a.not.and b.not := by
  cases a <;> cases b <;> decide

/-- C05: double negation forgets only the strength. -/
theorem C05_not_not (a : Logic) : a.not.not = inject (strip a) := by cases a <;> decide

/-- C05: on values with a Boolean meaning the operators are Boolean; 0/L decides `&`, 1/H decides `|`. -/
theorem C05_boolean (a b : Logic) (x y : Bool) (ha : boolVal a = some x) (hb : boolVal b = some y) :
    boolVal (a.and b) = some (x && y) ∧ boolVal (a.or b) = some (x || y) ∧
    boolVal (a.xor b) = some (Bool.xor x y) ∧ boolVal a.not = some (!x) := by
  cases a <;> cases b <;> simp_all [boolVal] <;> subst_vars <;> decide

theorem C05_dominate (a b : Logic) (h : boolVal a = some false) :
    a.and b = F0 ∧ b.and a = F0 ∧ a.not.or b = F1 ∧ b.or a.not = F1 := by
  cases a <;> cases b <;> simp_all [boolVal] <;> decide

/-- C05: the operators never produce `Z W L H -`. -/
theorem C05_range (a b : Logic) :
    (∀ v ∈ [a.and b, a.or b, a.xor b, a.not], v = U ∨ v = X ∨ v = F0 ∨ v = F1) := by
  cases a <;> cases b <;> decide

/-- C05: on `Logic` objects the Python operators never raise and yield these values. -/
theorem C05_binop (f : Logic → Logic → Logic) (a b : Logic) :
    binop f ⟨.logic, a⟩ ⟨.logic, b⟩ = .ok ⟨.logic, f a b⟩ ∧
    inv ⟨.logic, a⟩ = .ok ⟨.logic, a.not⟩ := by
  simp [binop, opMethod, isInstance, new, Cls.allows, inv]

example : boolVal H = some true ∧ boolVal F0 = some false ∧ Logic.and H F1 = F1 ∧ Logic.or U L = U := by
  decide

/-! ## C06 -/

/-- C06: every expression over Bits evaluates without error to the Bit of the Boolean value. -/
theorem C06_bit_expr (e : BExp) (env : Nat → Bool) :
    e.run (fun i => bitOf (env i)) = .ok (bitOf (e.eval env)) := by
  induction e with
  | var i => rfl
  | and a b iha ihb =>
    simp only [BExp.run, iha, ihb, BExp.eval]
    cases a.eval env <;> cases b.eval env <;> rfl
  | or a b iha ihb =>
    simp only [BExp.run, iha, ihb, BExp.eval]
    cases a.eval env <;> cases b.eval env <;> rfl
  | xor a b iha ihb =>
    simp only [BExp.run, iha, ihb, BExp.eval]
    cases a.eval env <;> cases b.eval env <;> rfl
  | not a iha =>
    simp only [BExp.run, iha, BExp.eval]
    cases a.eval env <;> rfl

/-- C06: mixing a Bit and a Logic, in either order, gives the Logic operation. -/
theorem C06_mixed (a b : Logic) :
    binop Logic.and ⟨.bit, a⟩ ⟨.logic, b⟩ = .ok ⟨.logic, a.and b⟩ ∧
    binop Logic.and ⟨.logic, b⟩ ⟨.bit, a⟩ = .ok ⟨.logic, b.and a⟩ ∧
    binop Logic.or ⟨.bit, a⟩ ⟨.logic, b⟩ = .ok ⟨.logic, a.or b⟩ ∧
    binop Logic.or ⟨.logic, b⟩ ⟨.bit, a⟩ = .ok ⟨.logic, b.or a⟩ ∧
    binop Logic.xor ⟨.bit, a⟩ ⟨.logic, b⟩ = .ok ⟨.logic, a.xor b⟩ ∧
    binop Logic.xor ⟨.logic, b⟩ ⟨.bit, a⟩ = .ok ⟨.logic, b.xor a⟩ := by
  simp [binop, opMethod, isInstance, new, Cls.allows, C05_comm a b]

/-- C06: every expression over arbitrary Logic objects never raises, and the result is a `Bit`
only if all operands are. -/
theorem C06_no_error (e : BExp) (env : Nat → Obj) (h : ∀ i, (env i).cls.allows (env i).v = true) :
    ∃ o, e.run env = .ok o ∧ o.cls.allows o.v = true := by
  have two : ∀ (f : Logic → Logic → Logic),
      (∀ a b, Cls.bit.allows a = true → Cls.bit.allows b = true → Cls.bit.allows (f a b) = true) →
      ∀ x y : Obj, x.cls.allows x.v = true → y.cls.allows y.v = true →
      ∃ o, binop f x y = .ok o ∧ o.cls.allows o.v = true := by
    intro f hf x y hx hy
    rcases x with ⟨cx, x⟩; rcases y with ⟨cy, y⟩
    cases cx <;> cases cy
    · exact ⟨⟨.logic, f x y⟩, by simp [binop, opMethod, isInstance, new, Cls.allows], rfl⟩
    · exact ⟨⟨.logic, f x y⟩, by simp [binop, opMethod, isInstance, new, Cls.allows], rfl⟩
    · exact ⟨⟨.logic, f y x⟩, by simp [binop, opMethod, isInstance, new, Cls.allows], rfl⟩
    · have := hf x y hx hy
      exact ⟨⟨.bit, f x y⟩, by simp [binop, opMethod, isInstance, new, this], this⟩
  induction e with
  | var i => exact ⟨env i, rfl, h i⟩
  | and a b iha ihb =>
    obtain ⟨x, hx, hx'⟩ := iha; obtain ⟨y, hy, hy'⟩ := ihb
    simp only [BExp.run, hx, hy]
    exact two _ (by intro a b; cases a <;> cases b <;> decide) x y hx' hy'
  | or a b iha ihb =>
    obtain ⟨x, hx, hx'⟩ := iha; obtain ⟨y, hy, hy'⟩ := ihb
    simp only [BExp.run, hx, hy]
    exact two _ (by intro a b; cases a <;> cases b <;> decide) x y hx' hy'
  | xor a b iha ihb =>
    obtain ⟨x, hx, hx'⟩ := iha; obtain ⟨y, hy, hy'⟩ := ihb
    simp only [BExp.run, hx, hy]
    exact two _ (by intro a b; cases a <;> cases b <;> decide) x y hx' hy'
  | not a iha =>
    obtain ⟨⟨c, x⟩, hx, hx'⟩ := iha
    simp only [BExp.run, hx]
    cases c
    · exact ⟨⟨.logic, x.not⟩, by simp [bind, Except.bind, inv, new, Cls.allows], rfl⟩
    · have : Cls.bit.allows x.not = true := by revert hx'; cases x <;> decide
      exact ⟨⟨.bit, x.not⟩, by simp [bind, Except.bind, inv, new, this], this⟩

example : (BExp.xor (.var 0) (.not (.and (.var 1) (.var 0)))).run (fun _ => bitOf true) =
    .ok (bitOf true) := by decide

/-! ## C07 -/

/-- C07: without a configured resolver, conversion raises `ValueError` exactly for unresolvable
values, and otherwise `int` and `bool` give the Boolean meaning. -/
theorem C07_noresolver (rng : Nat → Bool) (a : Logic) :
    (boolVal a = none → a.toInt none rng = .error .valueError ∧ a.toBool none = .error .valueError) ∧
    (∀ b, boolVal a = some b → a.toInt none rng = .ok (if b then 1 else 0) ∧ a.toBool none = .ok b) ∧
    (a.isResolvable = true ↔ boolVal a ≠ none) := by
  cases a <;> simp [boolVal, toInt, Logic.toBool, isResolvable, code]

/-- C07: the full claim about agreement for every configured resolver. -/
def C07_agree_full : Prop :=
  ∀ (r : Resolver) (rng : Nat → Bool) (a : Logic) (n : Int) (b : Bool),
    a.toInt (some r) rng = .ok n → a.toBool (some r) = .ok b → n = if b then 1 else 0

/-- C07: the code violates it: with `COCOTB_RESOLVE_X=ones`, `int(Logic('X'))` is 1 while
`bool(Logic('X'))` is `False`. -/
theorem C07_agree_counterexample : ¬ C07_agree_full := by
  intro h
  have := h .ones (fun _ => false) X 1 false (by decide) (by decide)
  revert this; decide

/-- C07 (partial): agreement holds for the resolvers `error`, `weak` and `zeros`, and for every
resolver on values that have a Boolean meaning (`L`/`H` under `error` raise on `int`). -/
theorem C07_agree_partial (r : Resolver) (rng : Nat → Bool) (a : Logic) (n : Int) (b : Bool)
    (hr : r = .error ∨ r = .weak ∨ r = .zeros ∨ boolVal a ≠ none)
    (hn : a.toInt (some r) rng = .ok n) (hb : a.toBool (some r) = .ok b) :
    n = if b then 1 else 0 := by
  have hb' : b = decide (a = F1 ∨ a = H) := by simpa [Logic.toBool] using hb.symm
  subst hb'
  have key : ∀ m : Int, pyIntBase2 (r.apply [a.chr] rng).1 = .ok m →
      m = if decide (a = F1 ∨ a = H) = true then 1 else 0 := by
    intro m hm
    cases r <;> cases a <;> simp [boolVal] at hr <;>
      simp [Resolver.apply, Resolver.randomStr, Resolver.randomFixed, Resolver.table, chr,
        pyIntBase2, parseBinNat, parseBinDigits, binDigit] at hm ⊢ <;> omega
  exact key n hn

example : H.toInt (some .random) (fun _ => false) = .ok 1 ∧ H.toBool (some .random) = .ok true := by
  decide

/-! ## C08 -/

/-- C08: one value resolved by any resolver with any random stream: never raises (for `Logic`)
and yields the documented value. -/
theorem C08_logic (r : Resolver) (rng : Nat → Bool) (a : Logic) :
    ∃ b, Logic.resolve ⟨.logic, a⟩ r rng = .ok ⟨.logic, b⟩ ∧ resolveOk r a b := by
  cases r
  case random =>
    cases h : rng 0 <;> cases a <;>
      simp [Logic.resolve, Resolver.apply, Resolver.randomStr, Resolver.randomFixed, chr, h,
        new, ofLiteralStr, ofLiteralChar, Cls.allows, resolveOk, boolVal, bitChar]
  all_goals
    cases a <;>
      simp [Logic.resolve, Resolver.apply, Resolver.table, chr, new, ofLiteralStr, ofLiteralChar,
        Cls.allows, resolveOk, boolVal]

/-- C08: a `Bit` resolves to itself. -/
theorem C08_bit (r : Resolver) (rng : Nat → Bool) (b : Bool) :
    Logic.resolve (bitOf b) r rng = .ok (bitOf b) := by
  cases b <;> cases r <;> rfl

/-- C08: an unknown resolver name raises `ValueError`, exactly the five names are accepted. -/
theorem C08_names (s : String) :
    (∃ r, Resolver.ofName s = .ok r) ↔ s ∈ ["error", "weak", "zeros", "ones", "random"] := by
  unfold Resolver.ofName
  repeat' split
  all_goals simp_all

theorem randomStr_spec (l : List Logic) (rng : Nat → Bool) :
    ∃ l', (Resolver.randomStr (chrs l) rng).1 = chrs l' ∧ l'.length = l.length ∧
      ∀ (i : Nat) a b, l[i]? = some a → l'[i]? = some b → resolveOk .random a b := by
  induction l generalizing rng with
  | nil => exact ⟨[], rfl, rfl, by simp⟩
  | cons x xs ih =>
    have step : ∀ (b : Logic) (rng' : Nat → Bool),
        (Resolver.randomStr (chrs (x :: xs)) rng).1 = b.chr :: (Resolver.randomStr (chrs xs) rng').1 →
        resolveOk .random x b →
        ∃ l', (Resolver.randomStr (chrs (x :: xs)) rng).1 = chrs l' ∧
          l'.length = (x :: xs).length ∧
          ∀ (i : Nat) a b, (x :: xs)[i]? = some a → l'[i]? = some b → resolveOk .random a b := by
      intro b rng' h1 h2
      obtain ⟨l', e1, e2, e3⟩ := ih rng'
      refine ⟨b :: l', ?_, by simp [e2], ?_⟩
      · rw [h1, e1]; rfl
      · intro i a c ha hc
        cases i with
        | zero => simp at ha hc; subst ha hc; exact h2
        | succ i => simp at ha hc; exact e3 i a c ha hc
    cases hx : Resolver.randomFixed x.chr with
    | some d =>
      have : ∃ b : Logic, b.chr = d ∧ resolveOk .random x b := by
        cases x <;> simp [Resolver.randomFixed, chr] at hx <;> subst hx
        · exact ⟨F0, rfl, by simp [resolveOk, boolVal]⟩
        · exact ⟨F1, rfl, by simp [resolveOk, boolVal]⟩
        · exact ⟨F0, rfl, by simp [resolveOk, boolVal]⟩
        · exact ⟨F1, rfl, by simp [resolveOk, boolVal]⟩
      obtain ⟨b, hb1, hb2⟩ := this
      exact step b rng (by simp [chrs, Resolver.randomStr, hx, hb1]) hb2
    | none =>
      refine step (if rng 0 then F1 else F0) (fun i => rng (i + 1)) ?_ ?_
      · simp only [chrs, List.map_cons, Resolver.randomStr, hx]
        cases rng 0 <;> rfl
      · cases x <;> simp [Resolver.randomFixed, chr] at hx <;> simp [resolveOk, boolVal] <;>
          cases rng 0 <;> simp

/-- C08: the string resolver used by `LogicArray.resolve` acts element by element, keeps the
length, and produces only documented values, for arrays of any length and any random stream. -/
theorem C08_array (r : Resolver) (rng : Nat → Bool) (l : List Logic) :
    ∃ l', (r.apply (chrs l) rng).1 = chrs l' ∧ l'.length = l.length ∧
      ∀ (i : Nat) a b, l[i]? = some a → l'[i]? = some b → resolveOk r a b := by
  by_cases hr : r = .random
  · subst hr; exact randomStr_spec l rng
  · have hone : ∀ a : Logic, ∃ b : Logic, r.table a.chr = b.chr ∧ resolveOk r a b := by
      intro a
      obtain ⟨b, h1, h2⟩ := C08_logic r rng a
      refine ⟨b, ?_, h2⟩
      cases r <;> cases a <;> simp [resolveOk, boolVal] at h2 hr <;> subst h2 <;> rfl
    have happ : (r.apply (chrs l) rng).1 = (chrs l).map r.table := by
      cases r <;> first | rfl | exact absurd rfl hr
    rw [happ]
    clear happ
    induction l with
    | nil => exact ⟨[], rfl, rfl, by simp⟩
    | cons x xs ih =>
      obtain ⟨l', e1, e2, e3⟩ := ih
      obtain ⟨b, hb1, hb2⟩ := hone x
      refine ⟨b :: l', ?_, by simp [e2], ?_⟩
      · simp only [chrs, List.map_cons, hb1] at e1 ⊢
        rw [e1]
      · intro i a c ha hc
        cases i with
        | zero => simp at ha hc; subst ha hc; exact hb2
        | succ i => simp at ha hc; exact e3 i a c ha hc

/-- C08: resolving twice gives the same as resolving once (the second time no randomness is used). -/
theorem C08_idempotent (r : Resolver) (rng rng' : Nat → Bool) (l : List Logic) :
    (r.apply (r.apply (chrs l) rng).1 rng').1 = (r.apply (chrs l) rng).1 := by
  by_cases hr : r = .random
  · subst hr
    have : ∀ (l : List Logic) (rng : Nat → Bool), ∀ c ∈ (Resolver.randomStr (chrs l) rng).1,
        c = '0' ∨ c = '1' := by
      intro l
      induction l with
      | nil => simp [chrs, Resolver.randomStr]
      | cons x xs ih =>
        intro rng c hc
        cases hx : Resolver.randomFixed x.chr with
        | some d =>
          simp only [chrs, List.map_cons, Resolver.randomStr, hx, List.mem_cons] at hc
          rcases hc with rfl | hc
          · cases x <;> simp [Resolver.randomFixed, chr] at hx <;> simp [← hx]
          · exact ih _ c hc
        | none =>
          simp only [chrs, List.map_cons, Resolver.randomStr, hx, List.mem_cons] at hc
          rcases hc with rfl | hc
          · cases rng 0 <;> simp [bitChar]
          · exact ih _ c hc
    have fix : ∀ (s : PyStr) (rng : Nat → Bool), (∀ c ∈ s, c = '0' ∨ c = '1') →
        (Resolver.randomStr s rng).1 = s := by
      intro s
      induction s with
      | nil => intros; rfl
      | cons c cs ih =>
        intro rng h
        rcases h c (by simp) with rfl | rfl <;>
          simp [Resolver.randomStr, Resolver.randomFixed, ih rng (fun d hd => h d (by simp [hd]))]
    exact fix _ _ (this l rng)
  · have happ : ∀ (s : PyStr) (rng : Nat → Bool), (r.apply s rng).1 = s.map r.table := by
      intro s rng
      cases r <;> first | rfl | exact absurd rfl hr
    rw [happ, happ, List.map_map]
    apply List.map_congr_left
    intro c hc
    simp only [chrs, List.mem_map] at hc
    obtain ⟨a, _, rfl⟩ := hc
    cases r <;> cases a <;> rfl

example : (Resolver.random.apply (chrs [H, Z, F0, U]) (fun i => i == 0)).1 = chrs [F1, F1, F0, F0] := by
  decide

end Verif
