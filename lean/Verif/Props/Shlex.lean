import Verif.Model.Shlex
import Verif.Spec.Shlex
import Verif.Props.Env
/-!
# C130: arguments for pytest in the simulator
-/
namespace Verif

open Shlex Spec Env EnvSpec

theorem isWs_iff (c : Nat) : isWs c = true ↔ ShellBlank c := by
  simp [isWs, ShellBlank, or_assoc]

theorem ws_special {c : Nat} (h : isWs c = true) : c ≠ 34 ∧ c ≠ 39 ∧ c ≠ 92 := by
  rw [isWs_iff] at h
  unfold ShellBlank at h
  omega

/-- In quotes. -/
theorem go_single {t : Text} (h : 39 ∉ t) (tok : Text) (q : Bool) (r : Text) :
    go (.quote 39) tok q (t ++ 39 :: r) = go .word (tok ++ t) true r := by
  induction t generalizing tok q with
  | nil => simp [go]
  | cons c t ih =>
    simp only [List.mem_cons, not_or] at h
    rw [List.cons_append]
    rw [go, if_neg (fun e => h.1 e.symm), if_neg (by simp), ih h.2]
    simp

theorem go_double {t v : Text} (h : InDouble t v) (tok : Text) (q : Bool) (r : Text) :
    go (.quote 34) tok q (t ++ 34 :: r) = go .word (tok ++ v) true r := by
  induction h generalizing tok q with
  | nil => simp [go]
  | @plain c t v h1 h2 h3 ih =>
    rw [List.cons_append]
    rw [go, if_neg h1, if_neg (by simp [h2]), ih]
    simp
  | @esc c t v h1 h2 ih =>
    rw [List.cons_append, List.cons_append]
    rw [go, if_neg (by decide), if_pos (by simp), go, if_pos rfl, if_neg (by rcases h1 with h | h <;> simp [h]), ih]
    simp
  | @other c t v h1 h2 h3 ih =>
    rw [List.cons_append, List.cons_append]
    rw [go, if_neg (by decide), if_pos (by simp), go, if_pos rfl, if_pos ⟨h2, h1⟩, ih]
    simp

/-- A part of a word is read, also as its first part. -/
theorem go_part {p v : Text} (h : Part p v) (tok : Text) (q : Bool) (r : Text) :
    ∃ q', (tok ++ v ≠ [] ∨ q' = true) ∧ go .word tok q (p ++ r) = go .word (tok ++ v) q' r ∧
      (tok = [] → q = false → go .blank [] false (p ++ r) = go .word v q' r) := by
  cases h with
  | @plain c h1 h2 h3 h4 =>
    have h1 : ¬ isWs c = true := by rw [isWs_iff]; exact h1
    refine ⟨q, Or.inl (by simp), ?_, ?_⟩
    · simp only [List.cons_append, List.nil_append]
      rw [go, if_neg h1, if_neg (by omega), if_neg h4]
    · rintro rfl rfl
      simp only [List.cons_append, List.nil_append]
      rw [go, if_neg h1, if_neg h4, if_neg (by omega)]
  | esc c =>
    refine ⟨q, Or.inl (by simp), ?_, ?_⟩
    · simp only [List.cons_append, List.nil_append]
      rw [go, if_neg (by decide), if_neg (by decide), if_pos rfl, go, if_neg (by simp)]
    · rintro rfl rfl
      simp only [List.cons_append, List.nil_append]
      rw [go, if_neg (by decide), if_pos rfl, go, if_neg (by simp)]
      rfl
  | single h =>
    refine ⟨true, Or.inr rfl, ?_, ?_⟩
    · simp only [List.cons_append, List.append_assoc, List.nil_append]
      rw [go, if_neg (by decide), if_pos (by simp), go_single h]
    · rintro rfl rfl
      simp only [List.cons_append, List.append_assoc, List.nil_append]
      rw [go, if_neg (by decide), if_neg (by decide), if_pos (by simp), go_single h]
      rfl
  | double h =>
    refine ⟨true, Or.inr rfl, ?_, ?_⟩
    · simp only [List.cons_append, List.append_assoc, List.nil_append]
      rw [go, if_neg (by decide), if_pos (by simp), go_double h]
    · rintro rfl rfl
      simp only [List.cons_append, List.append_assoc, List.nil_append]
      rw [go, if_neg (by decide), if_neg (by decide), if_pos (by simp), go_double h]
      rfl

theorem go_word {w v : Text} (h : Word w v) : ∀ (tok : Text) (q : Bool) (r : Text),
    ∃ q', (tok ++ v ≠ [] ∨ q' = true) ∧ go .word tok q (w ++ r) = go .word (tok ++ v) q' r := by
  induction h with
  | one h =>
    intro tok q r
    obtain ⟨q', h1, h2, -⟩ := go_part h tok q r
    exact ⟨q', h1, h2⟩
  | @more t v t' v' h h' ih =>
    intro tok q r
    obtain ⟨q1, a1, a2, -⟩ := go_part h tok q (t' ++ r)
    obtain ⟨q2, b1, b2⟩ := ih (tok ++ v) q1 r
    refine ⟨q2, by rw [← List.append_assoc]; exact b1, ?_⟩
    rw [List.append_assoc, a2, b2, List.append_assoc]

theorem go_first {w v : Text} (h : Word w v) (r : Text) :
    ∃ q', (v ≠ [] ∨ q' = true) ∧ go .blank [] false (w ++ r) = go .word v q' r := by
  cases h with
  | one h =>
    obtain ⟨q', h1, -, h2⟩ := go_part h [] false r
    exact ⟨q', h1, h2 rfl rfl⟩
  | @more t v t' v' h h' =>
    obtain ⟨q1, a1, -, a2⟩ := go_part h [] false (t' ++ r)
    obtain ⟨q2, b1, b2⟩ := go_word h' v q1 r
    exact ⟨q2, b1, by rw [List.append_assoc, a2 rfl rfl, b2]⟩

theorem split_complete {t : Text} {ws : List Text} (h : Command t ws) : split t = .ok ws := by
  unfold split
  induction h with
  | nil => rfl
  | @blank c t ws hc _ ih => rw [go, if_pos ((isWs_iff c).2 hc)]; exact ih
  | @last t v h =>
    obtain ⟨q, h1, h2⟩ := go_first h []
    rw [List.append_nil] at h2
    rw [h2, go, if_pos h1]
  | @word t v c t' ws h hc _ ih =>
    obtain ⟨q, h1, h2⟩ := go_first h (c :: t')
    rw [h2, go, if_pos ((isWs_iff c).2 hc), if_pos h1, ih]

theorem single_sound : ∀ (t tok : Text) (q : Bool) (ws : List Text), go (.quote 39) tok q t = .ok ws →
    ∃ s r, t = s ++ 39 :: r ∧ 39 ∉ s ∧ go .word (tok ++ s) true r = .ok ws
  | [], tok, q, ws, h => by simp [go] at h
  | c :: t, tok, q, ws, h => by
    rw [go] at h
    split at h
    · rename_i hc; subst hc; exact ⟨[], t, rfl, by simp, by simpa using h⟩
    · rename_i hc
      rw [if_neg (by simp)] at h
      obtain ⟨s, r, rfl, h2, h3⟩ := single_sound t _ _ ws h
      exact ⟨c :: s, r, rfl, by simp [h2]; exact fun e => hc e.symm, by simpa using h3⟩

theorem double_sound : ∀ (n : Nat) (t tok : Text) (q : Bool) (ws : List Text), t.length ≤ n → go (.quote 34) tok q t = .ok ws →
    ∃ s v r, t = s ++ 34 :: r ∧ InDouble s v ∧ go .word (tok ++ v) true r = .ok ws
  | _, [], tok, q, ws, _, h => by simp [go] at h
  | 0, c :: t, tok, q, ws, hn, h => by simp at hn
  | n + 1, c :: t, tok, q, ws, hn, h => by
    rw [go] at h
    split at h
    · rename_i hc; subst hc; exact ⟨[], [], t, rfl, .nil, by simpa using h⟩
    · rename_i hc
      split at h
      · rename_i h92
        obtain ⟨rfl, -⟩ := h92
        cases t with
        | nil => simp [go] at h
        | cons d t =>
          rw [go, if_pos rfl] at h
          obtain ⟨s, v, r, rfl, h2, h3⟩ := double_sound n t _ _ ws (by simp at hn; omega) h
          by_cases hd : d ≠ 92 ∧ d ≠ 34
          · rw [if_pos hd] at h3
            exact ⟨92 :: d :: s, 92 :: d :: v, r, rfl, .other hd.2 hd.1 h2, by simpa using h3⟩
          · rw [if_neg hd] at h3
            exact ⟨92 :: d :: s, d :: v, r, rfl, .esc (by omega) h2, by simpa using h3⟩
      · rename_i h92
        obtain ⟨s, v, r, rfl, h2, h3⟩ := double_sound n t _ _ ws (by simp at hn; omega) h
        exact ⟨c :: s, c :: v, r, rfl, .plain hc (fun e => h92 ⟨e, rfl⟩) h2, by simpa using h3⟩

/-- What may come after a part of a word that stands for `v`. -/
def Rest (tok : Text) (t : Text) (ws : List Text) : Prop :=
  (t = [] ∧ ws = [tok]) ∨ (∃ c r ws', t = c :: r ∧ ShellBlank c ∧ ws = tok :: ws' ∧ Command r ws') ∨
    ∃ w v r, t = w ++ r ∧ Word w v ∧ ((r = [] ∧ ws = [tok ++ v]) ∨ ∃ c r' ws', r = c :: r' ∧ ShellBlank c ∧ ws = (tok ++ v) :: ws' ∧ Command r' ws')

theorem rest_part {p v tok t : Text} {ws : List Text} (hp : Part p v) (h : Rest (tok ++ v) t ws) : Rest tok (p ++ t) ws := by
  rcases h with ⟨rfl, rfl⟩ | ⟨c, r, ws', rfl, hc, rfl, hr⟩ | ⟨w, v', r, rfl, hw, h⟩
  · exact Or.inr (Or.inr ⟨p, v, [], rfl, .one hp, Or.inl ⟨rfl, rfl⟩⟩)
  · exact Or.inr (Or.inr ⟨p, v, c :: r, rfl, .one hp, Or.inr ⟨c, r, ws', rfl, hc, rfl, hr⟩⟩)
  · refine Or.inr (Or.inr ⟨p ++ w, v ++ v', r, by simp, .more hp hw, ?_⟩)
    rw [← List.append_assoc]
    exact h

theorem rest_first {p v t : Text} {ws : List Text} (hp : Part p v) (h : Rest v t ws) : Command (p ++ t) ws := by
  rcases h with ⟨rfl, rfl⟩ | ⟨c, r, ws', rfl, hc, rfl, hr⟩ | ⟨w, v', r, rfl, hw, h⟩
  · rw [List.append_nil]; exact .last (.one hp)
  · exact .word (.one hp) hc hr
  · rw [← List.append_assoc]
    rcases h with ⟨rfl, rfl⟩ | ⟨c, r', ws', rfl, hc, rfl, hr⟩
    · rw [List.append_nil]; exact .last (.more hp hw)
    · exact .word (.more hp hw) hc hr

theorem split_sound : ∀ (n : Nat) (t : Text), t.length ≤ n → ∀ ws,
    (go .blank [] false t = .ok ws → Command t ws) ∧
    (∀ tok q, (tok ≠ [] ∨ q = true) → go .word tok q t = .ok ws → Rest tok t ws)
  | n, [], _, ws => by
    constructor
    · intro h; simp only [go, Except.ok.injEq] at h; subst h; exact .nil
    · intro tok q hq h
      rw [go, if_pos hq] at h
      injection h with h
      exact Or.inl ⟨rfl, h.symm⟩
  | 0, c :: t, hn, ws => by simp at hn
  | n + 1, c :: t, hn, ws => by
    have hn : t.length ≤ n := by simp at hn; omega
    have ih := split_sound n
    -- the parts that begin with a special character
    have hquote : ∀ (tok : Text) (q : Bool), c = 39 ∨ c = 34 → go (.quote c) tok q t = .ok ws →
        ∃ p v r, c :: t = p ++ r ∧ Part p v ∧ Rest (tok ++ v) r ws := by
      intro tok q hc h
      rcases hc with rfl | rfl
      · obtain ⟨s, r, rfl, h2, h3⟩ := single_sound t tok q ws h
        exact ⟨39 :: s ++ [39], s, r, by simp, .single h2, (ih r (by simp at hn; omega) ws).2 _ _ (Or.inr rfl) h3⟩
      · obtain ⟨s, v, r, rfl, h2, h3⟩ := double_sound t.length t tok q ws (Nat.le_refl _) h
        exact ⟨34 :: s ++ [34], v, r, by simp, .double h2, (ih r (by simp at hn; omega) ws).2 _ _ (Or.inr rfl) h3⟩
    have hesc : ∀ (tok : Text) (q : Bool), c = 92 → go (.esc false) tok q t = .ok ws →
        ∃ p v r, c :: t = p ++ r ∧ Part p v ∧ Rest (tok ++ v) r ws := by
      intro tok q hc h
      subst hc
      cases t with
      | nil => simp [go] at h
      | cons d t =>
        rw [go, if_neg (by simp)] at h
        exact ⟨[92, d], [d], t, rfl, .esc d, (ih t (by simp at hn; omega) ws).2 _ _ (Or.inl (by simp)) h⟩
    constructor
    · intro h
      rw [go] at h
      split at h
      · rename_i hc
        exact .blank ((isWs_iff c).1 hc) ((ih t hn ws).1 h)
      · rename_i hc
        split at h
        · rename_i h92
          obtain ⟨p, v, r, e, hp, hr⟩ := hesc [] false h92 h
          rw [e]; exact rest_first hp hr
        · rename_i h92
          split at h
          · rename_i hq
            obtain ⟨p, v, r, e, hp, hr⟩ := hquote [] false hq h
            rw [e]; exact rest_first hp hr
          · rename_i hq
            have hp : Part [c] [c] := .plain (by rw [← isWs_iff]; exact hc) (by omega) (by omega) h92
            exact rest_first hp ((ih t hn ws).2 _ _ (Or.inl (by simp)) h)
    · intro tok q htok h
      rw [go] at h
      split at h
      · rename_i hc
        split at h
        · rename_i ws' h'
          injection h with h
          subst h
          exact Or.inr (Or.inl ⟨c, t, ws', rfl, (isWs_iff c).1 hc, rfl, (ih t hn ws').1 h'⟩)
        · cases h
      · rename_i hc
        split at h
        · rename_i hq
          obtain ⟨p, v, r, e, hp, hr⟩ := hquote tok q hq h
          rw [e]; exact rest_part hp hr
        · rename_i hq
          split at h
          · rename_i h92
            obtain ⟨p, v, r, e, hp, hr⟩ := hesc tok q h92 h
            rw [e]; exact rest_part hp hr
          · rename_i h92
            have hp : Part [c] [c] := .plain (by rw [← isWs_iff]; exact hc) (by omega) (by omega) h92
            exact rest_part hp ((ih t hn ws).2 _ _ (Or.inl (by simp)) h)

/-- C130: an option or variable with arguments is split as a shell would split it; a quotation that is not closed or a
backslash at the end raises ValueError. -/
theorem C130_split (t : Text) (ws : List Text) : split t = .ok ws ↔ Command t ws :=
  ⟨fun h => (split_sound t.length t (Nat.le_refl _) ws).1 h, split_complete⟩

theorem go_error : ∀ (t : Text) (st : St) (tok : Text) (q : Bool) (e : PyErr), go st tok q t = .error e → e = .valueError
  | [], .blank, tok, q, e, h => by simp [go] at h
  | [], .word, tok, q, e, h => by simp [go] at h
  | [], .quote _, tok, q, e, h => by simp [go] at h; exact h.symm
  | [], .esc _, tok, q, e, h => by simp [go] at h; exact h.symm
  | c :: t, st, tok, q, e, h => by
    have ih := go_error t
    cases st with
    | blank =>
      rw [go] at h
      split at h
      · exact ih _ _ _ _ h
      · split at h
        · exact ih _ _ _ _ h
        · split at h
          · exact ih _ _ _ _ h
          · exact ih _ _ _ _ h
    | word =>
      rw [go] at h
      split at h
      · split at h
        · split at h
          · cases h
          · rename_i h'
            injection h with h
            subst h
            exact ih _ _ _ _ h'
        · exact ih _ _ _ _ h
      · split at h
        · exact ih _ _ _ _ h
        · split at h
          · exact ih _ _ _ _ h
          · exact ih _ _ _ _ h
    | quote _ =>
      rw [go] at h
      split at h
      · exact ih _ _ _ _ h
      · split at h
        · exact ih _ _ _ _ h
        · exact ih _ _ _ _ h
    | esc _ =>
      rw [go] at h
      split at h
      · exact ih _ _ _ _ h
      · exact ih _ _ _ _ h

/-- C130: a text that is no command line raises ValueError. -/
theorem C130_split_error (t : Text) (h : ∀ ws, ¬ Command t ws) : split t = .error .valueError := by
  cases hs : split t with
  | ok ws => exact absurd ((C130_split t ws).1 hs) (h ws)
  | error e => rw [go_error t _ _ _ e hs]

example : ∃ ws, Command (ofStr "-k 'a b'".toList) ws ∧ ws.length = 2 := by
  refine ⟨[ofStr "-k".toList, ofStr "a b".toList], ?_, rfl⟩
  rw [← C130_split]; decide +kernel

theorem safe_plain {c : Nat} (h : safe c = true) : ¬ ShellBlank c ∧ c ≠ 34 ∧ c ≠ 39 ∧ c ≠ 92 ∧ isBlank c = false := by
  have : c < 128 := by
    unfold safe at h
    simp only [Bool.or_eq_true, Bool.and_eq_true, decide_eq_true_eq, beq_iff_eq] at h
    omega
  have key : ∀ c < 128, safe c = true → isWs c = false ∧ c ≠ 34 ∧ c ≠ 39 ∧ c ≠ 92 ∧ isBlank c = false := by decide +kernel
  obtain ⟨h1, h2⟩ := key c this h
  exact ⟨by rw [← isWs_iff, h1]; simp, h2⟩

theorem safe_word : ∀ (t : Text), t ≠ [] → t.all safe = true → Word t t
  | [], h, _ => absurd rfl h
  | [c], _, h => by
    obtain ⟨h1, h2, h3, h4, -⟩ := safe_plain (c := c) (by simpa using h)
    exact .one (.plain h1 h2 h3 h4)
  | c :: d :: t, _, h => by
    simp only [List.all_cons, Bool.and_eq_true] at h
    obtain ⟨h1, h2, h3, h4, -⟩ := safe_plain h.1
    have ih := safe_word (d :: t) (by simp) (by simp [h.2])
    exact .more (t := [c]) (v := [c]) (.plain h1 h2 h3 h4) ih

/-- A text in single quotes, its own quotes replaced. -/
theorem quoted_word (t : Text) : Word (39 :: (t.flatMap fun c => if c = 39 then [39, 34, 39, 34, 39] else [c]) ++ [39]) t := by
  -- the text up to the first quote
  suffices h : ∀ (t s : Text), 39 ∉ s → Word (39 :: (s ++ t.flatMap fun c => if c = 39 then [39, 34, 39, 34, 39] else [c]) ++ [39]) (s ++ t) by
    have := h t [] (by simp)
    simpa using this
  intro t
  induction t with
  | nil =>
    intro s hs
    simp only [List.flatMap_nil, List.append_nil]
    exact .one (.single hs)
  | cons c t ih =>
    intro s hs
    by_cases hc : c = 39
    · subst hc
      have h := ih [] (by simp)
      have hd : Part [34, 39, 34] [39] := .double (t := [39]) (.plain (by decide) (by decide) .nil)
      have := Word.more (.single hs) (Word.more hd h)
      simpa using this
    · have h := ih (s ++ [c]) (by simp [hs]; exact fun e => hc e.symm)
      simpa [hc] using h

theorem quote_word (t : Text) : Word (Shlex.quote t) t := by
  unfold Shlex.quote
  split
  · rename_i h; subst h; exact .one (.single (t := []) (by simp))
  · rename_i h
    split
    · rename_i hs; exact safe_word t h hs
    · exact quoted_word t

theorem join_command : ∀ (args : List Text), Command (Shlex.join args) args
  | [] => .nil
  | [a] => by
    have : Shlex.join [a] = Shlex.quote a := by simp [Shlex.join]
    rw [this]; exact .last (quote_word a)
  | a :: b :: args => by
    have : Shlex.join (a :: b :: args) = Shlex.quote a ++ 32 :: Shlex.join (b :: args) := by simp [Shlex.join]
    rw [this]; exact .word (quote_word a) (Or.inl rfl) (join_command (b :: args))

/-- C130: joining arguments and splitting them again gives the arguments, whatever they contain. -/
theorem C130_round_trip (args : List Text) : split (Shlex.join args) = .ok args := (C130_split _ _).2 (join_command args)

theorem trimmed_self {t : Text} (h1 : ∀ c, t.head? = some c → isBlank c = false) (h2 : ∀ c, t.getLast? = some c → isBlank c = false) :
    stripText t = t := strip_eq ⟨[], [], by simp, by simp, by simp, h1, h2⟩

theorem quote_ends (t : Text) : ∃ a b s, Shlex.quote t = a :: s ∧ (Shlex.quote t).getLast? = some b ∧ isBlank a = false ∧ isBlank b = false := by
  unfold Shlex.quote
  split
  · exact ⟨39, 39, _, rfl, rfl, by decide, by decide⟩
  · rename_i h
    split
    · rename_i hs
      cases t with
      | nil => exact absurd rfl h
      | cons c t =>
        have hb : ∀ d ∈ c :: t, isBlank d = false := fun d hd => (safe_plain (List.all_eq_true.1 hs d hd)).2.2.2.2
        obtain ⟨b, hbl⟩ := Option.isSome_iff_exists.1 (show ((c :: t).getLast?).isSome = true by simp)
        exact ⟨c, b, t, rfl, hbl, hb c (by simp), hb b (List.mem_of_getLast? hbl)⟩
    · refine ⟨39, 39, _, rfl, ?_, by decide, by decide⟩
      exact List.getLast?_concat

theorem join_ends (args : List Text) : (∀ c, (Shlex.join args).head? = some c → isBlank c = false) ∧
    (∀ c, (Shlex.join args).getLast? = some c → isBlank c = false) := by
  induction args with
  | nil => simp [Shlex.join]
  | cons a args ih =>
    obtain ⟨x, y, s, h1, h2, h3, h4⟩ := quote_ends a
    cases args with
    | nil =>
      have : Shlex.join [a] = Shlex.quote a := by simp [Shlex.join]
      rw [this]
      constructor
      · intro c hc; rw [h1] at hc; simp at hc; rw [← hc]; exact h3
      · intro c hc; rw [h2] at hc; injection hc with hc; rw [← hc]; exact h4
    | cons b args =>
      have : Shlex.join (a :: b :: args) = Shlex.quote a ++ 32 :: Shlex.join (b :: args) := by simp [Shlex.join]
      rw [this]
      constructor
      · intro c hc; rw [h1] at hc; simp at hc; rw [← hc]; exact h3
      · intro c hc
        apply ih.2
        have hne : Shlex.join (b :: args) ≠ [] := by
          obtain ⟨x', _, s', h1', _⟩ := quote_ends b
          cases args with
          | nil => simp [Shlex.join, h1']
          | cons d l => simp [Shlex.join, h1']
        rw [List.getLast?_append] at hc
        cases hj : Shlex.join (b :: args) with
        | nil => exact absurd hj hne
        | cons z zs =>
          rw [hj] at hc
          rw [List.getLast?_cons_cons] at hc
          obtain ⟨w, hw⟩ := Option.isSome_iff_exists.1 (show ((z :: zs).getLast?).isSome = true by simp)
          rw [hw] at hc ⊢
          simpa using hc

/-- C130: the arguments for pytest in the simulator arrive as they were given, whatever they contain: those of the user's
pytest, or those given for it. -/
theorem C130_args (env : Environ) (own : List Text) (s : Session) :
    getArgs (handOver env own s) PYTEST_ARGS none = .ok (if own = [] then s.args else own) := by
  have hv : handOver env own s PYTEST_ARGS = some (Shlex.join (if own = [] then s.args else own)) := by
    unfold handOver setVar
    simp only
    rw [if_neg (by decide), if_neg (by decide), if_pos trivial]
  have he := join_ends (if own = [] then s.args else own)
  have : getStr (handOver env own s) PYTEST_ARGS none = Shlex.join (if own = [] then s.args else own) := by
    rw [getStr, hv, Option.getD_some, trimmed_self he.1 he.2]
    simp [orText]
  rw [getArgs, this, ← C130_round_trip, orText]
  by_cases h : Shlex.join (if own = [] then s.args else own) = []
  · rw [if_pos h, h]; rfl
  · rw [if_neg h]

/-- C130, the full claim: pytest in the simulator gets the arguments of the user's pytest, or those given for it, and the
node id and keywords of the test that runs the simulation. -/
def C130_received_full : Prop :=
  ∀ (env : Environ) (own : List Text) (s : Session), receive (handOver env own s) = .ok { s with args := if own = [] then s.args else own }

/-- C130: false of the code: the keyword of a test with a comma in its parameters arrives as two. -/
theorem C130_received_counterexample : ¬ C130_received_full := by
  intro h
  have h := h (fun _ => none) [] ⟨[], ofStr "t.py::t[1,2]".toList, [ofStr "t[1,2]".toList]⟩
  have e : receive (handOver (fun _ => none) [] ⟨[], ofStr "t.py::t[1,2]".toList, [ofStr "t[1,2]".toList]⟩) =
    .ok ⟨[], ofStr "t.py::t[1,2]".toList, [ofStr "t[1".toList, ofStr "2]".toList]⟩ := by
    decide +kernel
  rw [e] at h
  injection h with h
  injection h with _ _ h
  revert h; decide

/-- A text that is left as it is by `strip()`. -/
def Spec.NoBlankEnds (t : Text) : Prop :=
  (∀ c, t.head? = some c → isBlank c = false) ∧ (∀ c, t.getLast? = some c → isBlank c = false)

/-- C130: the arguments always arrive, whatever they contain; the node id if no blank is around it; the keywords that
are not empty, if moreover they have no comma. (pytest's own list of keywords has an empty one, the name of the
session.) -/
theorem C130_received_partial (env : Environ) (own : List Text) (s : Session) (hn : NoBlankEnds s.nodeid)
    (hk : ∀ k ∈ s.keywords, 44 ∉ k ∧ NoBlankEnds k) :
    receive (handOver env own s) =
      .ok ⟨if own = [] then s.args else own, s.nodeid, s.keywords.filter fun k => decide (k ≠ [])⟩ := by
  have h1 := C130_args env own s
  have h2 : getStr (handOver env own s) PYTEST_NODEID none = s.nodeid := by
    have : handOver env own s PYTEST_NODEID = some s.nodeid := by
      unfold handOver setVar
      simp only
      rw [if_neg (by decide), if_pos trivial]
    rw [getStr, this, Option.getD_some, trimmed_self hn.1 hn.2]
    simp [orText]
  have h3 : getList (handOver env own s) PYTEST_KEYWORDS none [44] = .ok (s.keywords.filter fun k => decide (k ≠ [])) := by
    have hv : handOver env own s PYTEST_KEYWORDS = some (s.keywords.intersperse [44]).flatten := by
      unfold handOver setVar
      simp only
      rw [if_pos trivial]
    by_cases hne : s.keywords = []
    · rw [hne] at hv ⊢
      unfold getList getStr
      rw [hv]
      decide
    · have := (C63_list (handOver env own s) PYTEST_KEYWORDS none 44 (by decide)).2 s.keywords s.keywords hne
        (fun f hf => (hk f hf).1) rfl (fun i f g hf hg => by
          rw [hf] at hg; injection hg with hg; subst hg
          have := (hk f (List.mem_of_getElem? hf)).2
          exact ⟨[], [], by simp, by simp, by simp, this.1, this.2⟩) hv
      rw [this]
      split
      · rename_i h; rw [h]; rfl
      · rfl
  unfold receive
  rw [h1, h3, h2]
  rfl

example : NoBlankEnds (ofStr "t.py::t[a b]".toList) ∧ (44 ∉ ofStr "t[a b]".toList ∧ NoBlankEnds (ofStr "t[a b]".toList)) := by
  refine ⟨⟨?_, ?_⟩, by decide, ?_, ?_⟩ <;> (intro c h; simp [ofStr] at h; subst h; decide)

end Verif
