import Verif.Py.Text
/-!
# Regular expressions

The part of Python's `re` that cocotb's own patterns use: characters, `.`, `$`, groups, `|`, `*` and escapes. Matching
is a relation: the engine of `re` backtracks through all ways to match, so for these constructs it finds a match exactly
when there is one.
-/
namespace Verif

/-- A compiled pattern. -/
inductive Re where
  | eps
  | char (c : Nat)
  | any
  | eos
  | seq (a b : Re)
  | alt (a b : Re)
  | star (a : Re)
  deriving DecidableEq, Repr

/-- `r.Match s t`: the pattern can match at the start of `s` and leave `t`. -/
inductive Re.Match : Re → Text → Text → Prop where
  | eps {s} : Match .eps s s
  | char {c t} : Match (.char c) (c :: t) t
  /-- `.`: any character except a newline. -/
  | any {c t} : c ≠ 10 → Match .any (c :: t) t
  /-- `$`: the end of the text, or the position before a newline at the end. -/
  | eosEnd : Match .eos [] []
  | eosNewline : Match .eos [10] [10]
  | seq {a b s u t} : Match a s u → Match b u t → Match (.seq a b) s t
  | altLeft {a b s t} : Match a s t → Match (.alt a b) s t
  | altRight {a b s t} : Match b s t → Match (.alt a b) s t
  | starNil {a s} : Match (.star a) s s
  | starCons {a s u t} : Match a s u → Match (.star a) u t → Match (.star a) s t

/-- `re.search(r, s)` finds a match. -/
def Re.Search (r : Re) (s : Text) : Prop := ∃ pre suf t, s = pre ++ suf ∧ r.Match suf t

/-- An open group while a pattern is parsed: the alternatives before the last `|`, and the items since, last first. -/
structure ReFrame where
  alts : Option Re
  items : List Re

/-- The items of a frame in sequence. -/
def reSeq (items : List Re) : Re := items.foldl (fun r i => .seq i r) .eps

/-- The whole of a frame. -/
def ReFrame.close (f : ReFrame) : Re :=
  match f.alts with
  | none => reSeq f.items
  | some a => .alt a (reSeq f.items)

def ReFrame.push (f : ReFrame) (r : Re) : ReFrame := { f with items := r :: f.items }

/-- ASCII letters and digits: a backslash before one of them has a special meaning, or is an error. -/
def isAsciiAlnum (c : Nat) : Bool := (48 ≤ c && c ≤ 57) || (65 ≤ c && c ≤ 90) || (97 ≤ c && c ≤ 122)

/-- `re.compile`; `none` for a pattern that is an error or uses a construct that is not modelled. -/
def reParseGo : List ReFrame → ReFrame → Text → Option Re
  | [], f, [] => some f.close
  | _ :: _, _, [] => none
  | st, f, 92 :: c :: cs => if isAsciiAlnum c then none else reParseGo st (f.push (.char c)) cs
  | _, _, [92] => none
  | st, f, c :: cs =>
    if c = 40 then
      -- a `?` after the parenthesis starts an extension, not modelled
      if cs.head? = some 63 then none else reParseGo (f :: st) ⟨none, []⟩ cs
    else if c = 41 then
      match st with
      | [] => none
      | g :: st => reParseGo st (g.push f.close) cs
    else if c = 124 then reParseGo st ⟨some f.close, []⟩ cs
    else if c = 42 then
      match f.items with
      | [] => none
      | .star _ :: _ => none
      | r :: rs => reParseGo st { f with items := .star r :: rs } cs
    else if c = 46 then reParseGo st (f.push .any) cs
    else if c = 36 then reParseGo st (f.push .eos) cs
    -- `[`, `^`, `?`, `+`, `{`
    else if c ∈ [91, 94, 63, 43, 123] then none
    else reParseGo st (f.push (.char c)) cs

/-- `re.compile(p)`. -/
def reParse (p : Text) : Option Re := reParseGo [] ⟨none, []⟩ p

/-- `re._special_chars_map`. -/
def reSpecial : List Nat := ofStr "()[]{}?*+-|^$\\.&~# \t\n\r".toList ++ [11, 12]

/-- `re.escape(s)`. -/
def reEscape (s : Text) : Text := s.flatMap fun c => if c ∈ reSpecial then [92, c] else [c]

/-- `"|".join(l)`. -/
def joinText (sep : Text) : List Text → Text
  | [] => []
  | [x] => x
  | x :: xs => x ++ sep ++ joinText sep xs

end Verif
