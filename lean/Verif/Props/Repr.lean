import Verif.Spec.Repr
import Verif.Lemmas.LogicArray
import Verif.Lemmas.Range
/-!
# C166: the text `repr` gives can be evaluated and then gives the same value
-/
namespace Verif
open Spec ReprM ReprS

namespace ReprL

/-- The text does not go on with a digit. -/
def NoDig (s : PyStr) : Prop := ∀ c r, s = c :: r → isDig c = false

/-- `t` is the text of an expression with value `w`. -/
structure Good (t : PyStr) (w : Val) : Prop where
  head : ∃ c r, t = c :: r ∧ c ≠ ']' ∧ c ≠ ')'
  eval : ∀ n rest, 2 * t.length ≤ n → NoDig rest → evalExpr n (t ++ rest) = some (w, rest)

/-- `t` is the text of expressions with values `ws`, separated by commas. -/
def GoodArgs (t : PyStr) (ws : List Val) : Prop :=
  ∀ n rest close, (close = ']' ∨ close = ')') → 2 * t.length + 1 ≤ n →
    evalArgs n close (t ++ close :: rest) = some (ws, rest)

theorem take_all (p : Char → Bool) (w r : PyStr) (hw : ∀ c ∈ w, p c = true) (hr : ∀ c s, r = c :: s → p c = false) :
    (w ++ r).takeWhile p = w ∧ (w ++ r).dropWhile p = r := by
  rw [List.takeWhile_append_of_pos hw, List.dropWhile_append_of_pos hw]
  cases r with
  | nil => simp
  | cons c s => simp [hr c s rfl]

theorem isDig_decChar (d : Nat) (h : d < 10) : isDig (decChar d) = true := by
  unfold isDig; rw [decDigit_decChar d h]; rfl

theorem number_dec (k : Nat) (rest : PyStr) (h : NoDig rest) : number (decStr k ++ rest) = some (k, rest) := by
  obtain ⟨h1, h2⟩ := take_all isDig (decStr k) rest
    (fun c hc => by obtain ⟨d, hd, rfl⟩ := decStr_digits k c hc; exact isDig_decChar d hd) h
  unfold number
  rw [h1, h2, parseDec_decStr]; rfl

theorem decStr_cons (k : Nat) : ∃ d r, d < 10 ∧ decStr k = decChar d :: r := by
  cases h : decStr k with
  | nil => exact absurd h (decStr_ne_nil k)
  | cons c r =>
    obtain ⟨d, hd, rfl⟩ := decStr_digits k c (by rw [h]; simp)
    exact ⟨d, r, hd, rfl⟩

theorem decChar_ne (d : Nat) (h : d < 10) : decChar d ≠ '\'' ∧ decChar d ≠ '[' ∧ decChar d ≠ '-' ∧ decChar d ≠ ']' ∧
    decChar d ≠ ')' := by
  match d, h with
  | 0, _ | 1, _ | 2, _ | 3, _ | 4, _ | 5, _ | 6, _ | 7, _ | 8, _ | 9, _ => decide

theorem good_int (i : Int) : Good (intStr i) (.int i) := by
  unfold intStr
  by_cases hi : i < 0
  · rw [if_pos hi]
    refine ⟨⟨'-', _, rfl, by decide, by decide⟩, ?_⟩
    intro n rest hn hr
    obtain ⟨m, rfl⟩ : ∃ m, n = m + 1 := ⟨n - 1, by simp at hn; omega⟩
    simp only [List.cons_append, evalExpr, number_dec _ _ hr]
    rw [if_neg (by decide), if_neg (by decide), if_pos trivial]
    congr 3
    omega
  · rw [if_neg hi]
    obtain ⟨d, r, hd, e⟩ := decStr_cons i.natAbs
    obtain ⟨n1, n2, n3, n4, n5⟩ := decChar_ne d hd
    refine ⟨⟨_, r, e, n4, n5⟩, ?_⟩
    intro n rest hn hr
    obtain ⟨m, rfl⟩ : ∃ m, n = m + 1 := ⟨n - 1, by rw [e] at hn; simp at hn; omega⟩
    have hnum := number_dec i.natAbs rest hr
    rw [e] at hnum ⊢
    simp only [List.cons_append, evalExpr] at hnum ⊢
    rw [if_neg n1, if_neg n2, if_neg n3, if_pos (isDig_decChar d hd), hnum]
    simp only
    congr 3
    omega

theorem good_str (s : PyStr) (h : plainStr s) : Good (quote s) (.str s) := by
  refine ⟨⟨'\'', _, rfl, by decide, by decide⟩, ?_⟩
  intro n rest hn hr
  obtain ⟨m, rfl⟩ : ∃ m, n = m + 1 := ⟨n - 1, by simp [quote] at hn; omega⟩
  obtain ⟨h1, h2⟩ := take_all (fun c => decide (c ≠ '\'')) s ('\'' :: rest)
    (fun c hc => by simpa using (h c hc).2.2.1) (fun c r e => by cases e; decide)
  have hq : quote s ++ rest = '\'' :: (s ++ '\'' :: rest) := by simp [quote]
  rw [hq]
  simp only [evalExpr, if_true]
  rw [h1, h2]
  have hb : ¬ ('\\' ∈ s ∨ '\n' ∈ s) := by
    rintro (e | e)
    · exact (h _ e).2.2.2 rfl
    · exact absurd (h _ e).1 (by decide)
  simp only [hb, if_false]

theorem args_nil : GoodArgs [] [] := by
  intro n rest close _ hn
  obtain ⟨m, rfl⟩ : ∃ m, n = m + 1 := ⟨n - 1, by simp at hn; omega⟩
  simp [evalArgs]

theorem noDig_close (close : Char) (hc : close = ']' ∨ close = ')') (rest : PyStr) : NoDig (close :: rest) := by
  intro c r e
  cases e
  rcases hc with rfl | rfl <;> decide

theorem args_one {t : PyStr} {w : Val} (h : Good t w) : GoodArgs t [w] := by
  intro n rest close hc hn
  obtain ⟨m, rfl⟩ : ∃ m, n = m + 1 := ⟨n - 1, by omega⟩
  have he := h.eval m (close :: rest) (by omega) (noDig_close close hc rest)
  obtain ⟨c, r, rfl, h1, h2⟩ := h.head
  simp only [List.cons_append] at he ⊢
  unfold evalArgs
  rw [if_neg (by rcases hc with rfl | rfl <;> assumption), he]
  rcases hc with rfl | rfl <;> simp

theorem args_cons {t ts : PyStr} {w : Val} {ws : List Val} (h : Good t w) (hs : GoodArgs ts ws) :
    GoodArgs (t ++ ", ".toList ++ ts) (w :: ws) := by
  intro n rest close hc hn
  obtain ⟨m, rfl⟩ : ∃ m, n = m + 1 := ⟨n - 1, by omega⟩
  have hcomma : ", ".toList = [',', ' '] := by decide
  rw [hcomma] at hn ⊢
  have hlen : (t ++ [',', ' '] ++ ts).length = t.length + 2 + ts.length := by simp; omega
  rw [hlen] at hn
  have he := h.eval m (',' :: ' ' :: (ts ++ close :: rest)) (by omega)
    (fun c r e => by cases e; decide)
  have ha := hs m rest close hc (by omega)
  have e : t ++ [',', ' '] ++ ts ++ close :: rest = t ++ ',' :: ' ' :: (ts ++ close :: rest) := by simp
  rw [e]
  obtain ⟨c, r, rfl, h1, h2⟩ := h.head
  simp only [List.cons_append] at he ⊢
  unfold evalArgs
  rw [if_neg (by rcases hc with rfl | rfl <;> assumption), he]
  simp only [ha]

theorem good_list {t : PyStr} {ws : List Val} (h : GoodArgs t ws) : Good ('[' :: t ++ [']']) (.list ws) := by
  refine ⟨⟨'[', _, rfl, by decide, by decide⟩, ?_⟩
  intro n rest hn _
  obtain ⟨m, rfl⟩ : ∃ m, n = m + 1 := ⟨n - 1, by simp at hn; omega⟩
  have ha := h m rest ']' (Or.inl rfl) (by simp at hn; omega)
  have e : '[' :: t ++ [']'] ++ rest = '[' :: (t ++ ']' :: rest) := by simp
  rw [e]
  simp only [evalExpr, ha]
  simp

theorem good_call {name t : PyStr} {ws : List Val} {w : Val} (h : GoodArgs t ws) (hn : name ≠ [])
    (ha : ∀ c ∈ name, c.isAlpha = true ∧ isDig c = false) (hc : construct name ws = some w) :
    Good (name ++ '(' :: t ++ [')']) w := by
  cases name with
  | nil => exact absurd rfl hn
  | cons x name =>
    have hx := ha x (by simp)
    have hx' : ∀ y : Char, y.isAlpha = false → x ≠ y := by
      intro y hy e; rw [e] at hx; rw [hx.1] at hy; cases hy
    refine ⟨⟨x, _, rfl, hx' _ (by decide), hx' _ (by decide)⟩, ?_⟩
    intro n rest hl _
    obtain ⟨m, rfl⟩ : ∃ m, n = m + 1 := ⟨n - 1, by simp at hl; omega⟩
    have hargs := h m rest ')' (Or.inr rfl) (by simp at hl; omega)
    obtain ⟨h1, h2⟩ := take_all Char.isAlpha (x :: name) ('(' :: (t ++ ')' :: rest))
      (fun c hc => (ha c hc).1) (fun c r e => by cases e; decide)
    have e : x :: name ++ '(' :: t ++ [')'] ++ rest = x :: (name ++ '(' :: (t ++ ')' :: rest)) := by simp
    rw [e]
    simp only [List.cons_append] at h1 h2
    unfold evalExpr
    rw [if_neg (hx' _ (by decide)), if_neg (hx' _ (by decide)), if_neg (hx' _ (by decide)),
      if_neg (by rw [hx.2]; decide), h1, h2]
    simp only [hargs, hc]

theorem plain_dir (d : Dir) : plainStr (dirStr d) := by
  cases d <;> intro c hc <;> revert c <;> decide

theorem good_range (r : Range) (h : r.Valid) : ∃ t, reprRange r = .ok t ∧ Good t (.range r) := by
  obtain ⟨l, d, x, rfl⟩ := h.exists_mk3
  have hg := good_call (name := "Range".toList) (w := .range (.mk3 l d x))
    (args_cons (good_int l) (args_cons (good_str _ (plain_dir d)) (args_one (good_int x))))
    (by decide) (by decide) (by
      have : Range.mkStr l (String.ofList (dirStr d)) x = .ok (.mk3 l d x) := by
        unfold Range.mkStr
        rw [show Dir.parse (String.ofList (dirStr d)) = .ok d by clear h; cases d <;> decide +kernel]
      unfold construct
      rw [if_pos rfl]
      simp only [this])
  refine ⟨_, ?_, hg⟩
  have e : "Range(".toList = "Range".toList ++ ['('] := by decide
  simp only [reprRange, Range.direction_mk3, bind, Except.bind, Range.left_mk3, Range.right_mk3, e,
    List.append_assoc, List.cons_append, List.nil_append]

theorem plain_chrs (l : List Logic) : plainStr (chrs l) := by
  intro c hc
  obtain ⟨x, -, rfl⟩ : ∃ x ∈ l, x.chr = c := by simpa [chrs] using hc
  cases x <;> decide

theorem good_logic (o : Logic.Obj) (h : o.cls.allows o.v = true) : Good (reprLogic o) (.logic o) := by
  have hp := good_str [o.v.chr] (plain_chrs [o.v])
  obtain ⟨cls, v⟩ := o
  cases cls with
  | logic =>
    have hg := good_call (name := "Logic".toList) (w := .logic ⟨.logic, v⟩) (args_one hp) (by decide) (by decide)
      (by cases v <;> rfl)
    simpa [reprLogic, clsName] using hg
  | bit =>
    have hg := good_call (name := "Bit".toList) (w := .logic ⟨.bit, v⟩) (args_one hp) (by decide) (by decide)
      (by revert h; cases v <;> first | (intro h; exact absurd h (by decide)) | (intro _; rfl))
    simpa [reprLogic, clsName] using hg

theorem good_la (a : LA) (l : List Logic) (h : Rep a l) : ∃ t, reprLA a = .ok t ∧
    Good t (.la ⟨none, none, some (chrs l), a.range, false⟩) := by
  obtain ⟨tr, e1, g1⟩ := good_range a.range h.valid
  have hg := good_call (name := "LogicArray".toList) (w := .la ⟨none, none, some (chrs l), a.range, false⟩)
    (args_cons (good_str _ (plain_chrs l)) (args_one g1)) (by decide) (by decide) (by
      have : LA.new (.str (chrs l)) (.range a.range) = .ok ⟨none, none, some (chrs l), a.range, false⟩ := by
        simp only [LA.new, LA.normRange, normStr_chrs, chrs_literals, if_true, chrs_length, h.len, ne_eq, not_true,
          if_false]
      unfold construct
      rw [if_neg (by decide), if_neg (by decide), if_neg (by decide), if_pos rfl]
      simp only [this])
  refine ⟨_, ?_, hg⟩
  have e : "LogicArray(".toList = "LogicArray".toList ++ ['('] := by decide
  simp only [reprLA, (getStr_rep h).1, e1, bind, Except.bind, e, List.append_assoc, List.cons_append, List.nil_append]

theorem LikeAll.length {vs ws : List Val} : LikeAll vs ws → vs.length = ws.length := by
  intro h
  induction vs generalizing ws with
  | nil => cases h; rfl
  | cons v vs ih => cases h with
    | cons _ w _ ws _ h => simp [ih h]

mutual
theorem good_val : ∀ v, Like v v → ∃ t w, reprVal v = .ok t ∧ Good t w ∧ Like v w
  | .int i, _ => ⟨_, _, rfl, good_int i, .int i⟩
  | .str s, .str _ h => ⟨_, _, rfl, good_str s h, .str s h⟩
  | .logic o, .logic _ h => ⟨_, _, rfl, good_logic o h, .logic o h⟩
  | .range r, .range _ h => by
    obtain ⟨t, h1, h2⟩ := good_range r h
    exact ⟨t, _, h1, h2, .range r h⟩
  | .la a, .la _ _ l h _ _ => by
    obtain ⟨t, h1, h2⟩ := good_la a l h
    exact ⟨t, _, h1, h2, .la _ _ l h (rep_ofStr l a.range h.valid h.len false) rfl⟩
  | .list vs, .list _ _ h => by
    obtain ⟨t, ws, h1, h2, h3⟩ := good_vals vs h
    exact ⟨'[' :: t ++ [']'], _, by simp only [reprVal, h1, bind, Except.bind], good_list h2, .list _ _ h3⟩
  | .arr vs r, .arr _ _ _ h hr hl => by
    obtain ⟨t, ws, h1, h2, h3⟩ := good_vals vs h
    obtain ⟨tr, r1, r2⟩ := good_range r hr
    have hg := good_call (name := "Array".toList) (w := .arr ws r) (args_cons (good_list h2) (args_one r2))
      (by decide) (by decide) (by
        have : Arr.new ws (.range r) = .ok ⟨ws, r, false⟩ := by
          simp only [Arr.new, ← LikeAll.length h3, hl, ne_eq, not_true, if_false]
        unfold construct
        rw [if_neg (by decide), if_neg (by decide), if_neg (by decide), if_neg (by decide), if_pos rfl]
        simp only [this])
    refine ⟨_, _, ?_, hg, .arr _ _ _ h3 hr hl⟩
    have e : "Array(".toList = "Array".toList ++ ['('] := by decide
    simp only [reprVal, h1, r1, bind, Except.bind, e, List.append_assoc, List.cons_append, List.nil_append]

theorem good_vals : ∀ vs, LikeAll vs vs → ∃ t ws, reprs vs = .ok t ∧ GoodArgs t ws ∧ LikeAll vs ws
  | [], _ => ⟨[], [], rfl, args_nil, .nil⟩
  | [v], .cons _ _ _ _ h _ => by
    obtain ⟨t, w, h1, h2, h3⟩ := good_val v h
    exact ⟨t, [w], by simp only [reprs, h1], args_one h2, .cons _ _ _ _ h3 .nil⟩
  | v :: v' :: vs, .cons _ _ _ _ h hs => by
    obtain ⟨t, w, h1, h2, h3⟩ := good_val v h
    obtain ⟨ts, ws, g1, g2, g3⟩ := good_vals (v' :: vs) hs
    exact ⟨_, _, by simp only [reprs, h1, g1, bind, Except.bind], args_cons h2 g2, .cons _ _ _ _ h3 g3⟩
end

mutual
theorem Like.join : ∀ {v w x : Val}, Like v x → Like w x → Like v w
  | _, _, _, .int i, h => by cases h; exact .int i
  | _, _, _, .str s p, h => by cases h; exact .str s p
  | _, _, _, .logic o p, h => by cases h; exact .logic o p
  | _, _, _, .range o p, h => by cases h; exact .range o p
  | _, _, _, .la a b l h1 h2 h3, h => by
    cases h with
    | la c _ m k1 k2 k3 =>
      have := h2.unique k2
      subst this
      exact .la _ _ _ h1 k1 (h3.trans k3.symm)
  | _, _, _, .list vs ws p, h => by
    cases h with
    | list us _ q => exact .list _ _ (LikeAll.join p q)
  | _, _, _, .arr vs ws r p hr hl, h => by
    cases h with
    | arr us _ _ q _ _ => exact .arr _ _ _ (LikeAll.join p q) hr hl

theorem LikeAll.join : ∀ {v w x : List Val}, LikeAll v x → LikeAll w x → LikeAll v w
  | _, _, _, .nil, h => by cases h; exact .nil
  | _, _, _, .cons _ _ _ _ p ps, h => by
    cases h with
    | cons _ _ _ _ q qs => exact .cons _ _ _ _ (Like.join p q) (LikeAll.join ps qs)
end

end ReprL
open ReprL

/-- C166: for every Logic, Bit, Range and LogicArray, and every list or Array of such values, ints and simple strings, however
deeply nested, evaluating the text `repr` gives yields the same value again. -/
theorem C166_roundtrip (v : Val) (h : Like v v) : ∃ t w, reprVal v = .ok t ∧ pyEval t = some w ∧ Like v w := by
  obtain ⟨t, w, h1, h2, h3⟩ := good_val v h
  refine ⟨t, w, h1, ?_, h3⟩
  have := h2.eval (2 * t.length) [] (Nat.le_refl _) (fun c r e => by cases e)
  rw [List.append_nil] at this
  unfold pyEval
  rw [this]

/-- C166: values that print the same text are the same. -/
theorem C166_distinct (v w : Val) (hv : Like v v) (hw : Like w w) (t : PyStr) (h1 : reprVal v = .ok t)
    (h2 : reprVal w = .ok t) : Like v w := by
  obtain ⟨t1, x, a1, a2, a3⟩ := C166_roundtrip v hv
  obtain ⟨t2, y, b1, b2, b3⟩ := C166_roundtrip w hw
  rw [h1] at a1
  rw [h2] at b1
  cases a1
  cases b1
  rw [a2] at b2
  cases b2
  exact Like.join a3 b3

/-- An Array that holds a LogicArray, a Bit and a list of ints. -/
example : ∃ a : LA, LA.new (.str "1X0".toList) (.range (.mk3 2 .downto 0)) = .ok a ∧
    Like (.arr [.la a, .logic ⟨.bit, .F1⟩, .list [.int (-12), .int 7]] (.mk3 0 .to 2))
      (.arr [.la a, .logic ⟨.bit, .F1⟩, .list [.int (-12), .int 7]] (.mk3 0 .to 2)) ∧
    reprVal (.arr [.la a, .logic ⟨.bit, .F1⟩, .list [.int (-12), .int 7]] (.mk3 0 .to 2)) =
      .ok "Array([LogicArray('1X0', Range(2, 'downto', 0)), Bit('1'), [-12, 7]], Range(0, 'to', 2))".toList := by
  have hr := rep_ofStr [.F1, .X, .F0] (.mk3 2 .downto 0) (Range.valid_mk3 _ _ _) (by decide) false
  exact ⟨_, rfl, .arr _ _ _ (.cons _ _ _ _ (.la _ _ _ hr hr rfl) (.cons _ _ _ _ (.logic _ rfl)
    (.cons _ _ _ _ (.list _ _ (.cons _ _ _ _ (.int _) (.cons _ _ _ _ (.int _) .nil))) .nil)))
    (Range.valid_mk3 _ _ _) (by decide), by decide +kernel⟩

end Verif
