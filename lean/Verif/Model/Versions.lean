import Verif.Py.Str
/-!
# Versions of simulators, `sim_versions.py` and `LooseVersion`
-/
namespace Verif.Vers

/-- What the functions raise. -/
inductive Err where
  | typeError | attributeError | valueError | assertion
  deriving DecidableEq, Repr

/-- A component: `int` or `str`. -/
inductive Comp where
  | num (n : Int)
  | str (t : Text)
  deriving DecidableEq, Repr

/-- What a character is to `component_re`, `(\d+ | [a-z]+ | \.)`, distutils_version.py:300. -/
inductive Cls where
  | digit | lower | dot | other
  deriving DecidableEq, Repr

/-- The class of a character. -/
def cls (U : Unicode) (c : Nat) : Cls :=
  if (digitOf U c).isSome then .digit else if 97 ≤ c ∧ c ≤ 122 then .lower else if c = 46 then .dot else .other

/-- `component_re.split(vstring)` without empty strings: the matches are the longest runs of digits and of letters and
single dots, what is between them are runs of other characters. distutils_version.py:312. -/
def pieces (U : Unicode) : Text → List Text
  | [] => []
  | c :: cs =>
    match pieces U cs with
    | [] => [[c]]
    | [] :: rest => [c] :: rest
    | (d :: p) :: rest =>
      if cls U c = cls U d ∧ cls U c ≠ .dot then (c :: d :: p) :: rest else [c] :: (d :: p) :: rest

/-- `int(obj)`, or `obj` if that raises ValueError. distutils_version.py:314-318. -/
def comp (U : Unicode) (t : Text) : Comp :=
  match intOf U t with
  | .ok n => .num n
  | .error _ => .str t

/-- `LooseVersion.parse`. distutils_version.py:307-320. -/
def parse (U : Unicode) (t : Text) : List Comp := ((pieces U t).filter (· ≠ [46])).map (comp U)

/-- `<` of two strings: by code points. -/
def textLt : Text → Text → Bool
  | _, [] => false
  | [], _ :: _ => true
  | a :: x, b :: y => a < b || (a == b && textLt x y)

/-- `<` of two components: `int` and `str` cannot be compared. -/
def compLt : Comp → Comp → Except Err Bool
  | .num a, .num b => .ok (a < b)
  | .str a, .str b => .ok (textLt a b)
  | _, _ => .error .typeError

/-- `<` of two lists: of the first components that are not equal, else of the lengths. -/
def listLt : List Comp → List Comp → Except Err Bool
  | [], [] => .ok false
  | [], _ :: _ => .ok true
  | _ :: _, [] => .ok false
  | a :: x, b :: y => if a = b then listLt x y else compLt a b

/-- The classes. Those without methods of their own are `loose`. sim_versions.py:27-182. -/
inductive Sim where
  | loose | icarus | questa | verilator | nvc
  deriving DecidableEq, Repr

/-- An object: its class and `version`, which is not there if the string was empty. distutils_version.py:302-304. -/
structure Ver where
  sim : Sim
  version : Option (List Comp)
  deriving DecidableEq, Repr

/-- The constructor, with `QuestaVersion.parse`. distutils_version.py:302-320, sim_versions.py:86-97. -/
def make (U : Unicode) (k : Sim) (t : Text) : Ver :=
  ⟨k, if t = [] then none else some (parse U (if k = .questa then t.takeWhile (· != 32) else t))⟩

/-- What a version is compared with. -/
inductive Other where
  | ver (v : Ver)
  | str (t : Text)

/-- `LooseVersion._cmp`; `-1`, `0`, `1` are an `Ordering`. distutils_version.py:331-342. -/
def cmp (U : Unicode) (v : Ver) (o : Other) : Except Err Ordering :=
  let w := match o with
    | .ver w => w
    | .str t => make U .loose t
  match v.version, w.version with
  | some a, some b =>
    if a = b then .ok .eq
    else
      match listLt a b with
      | .error e => .error e
      | .ok true => .ok .lt
      | .ok false =>
        match listLt b a with
        | .error e => .error e
        | .ok _ => .ok .gt
  | _, _ => .error .attributeError

/-- The comparison operators. distutils_version.py:52-80. -/
inductive Op where
  | eq | lt | le | gt | ge
  deriving DecidableEq, Repr

/-- `Version.__eq__` and the others. distutils_version.py:52-80. -/
def rich (U : Unicode) (op : Op) (v : Ver) (o : Other) : Except Err Bool :=
  match cmp U v o with
  | .error e => .error e
  | .ok c =>
    .ok (match op with
      | .eq => c = .eq
      | .lt => c = .lt
      | .le => c ≠ .gt
      | .gt => c = .gt
      | .ge => c ≠ .lt)

/-- `cmdline.split("\n", 1)[0]`. -/
def firstLine (t : Text) : Text := t.takeWhile (· != 10)

/-- `Icarus Verilog version `. -/
def icarusPrefix : Text :=
  [73, 99, 97, 114, 117, 115, 32, 86, 101, 114, 105, 108, 111, 103, 32, 118, 101, 114, 115, 105, 111, 110, 32]

/-- `re.match(r"^Icarus Verilog version (\d+\.\d+)", firstline)`, the group. sim_versions.py:64. -/
def icarusMatch (U : Unicode) (l : Text) : Option Text :=
  if icarusPrefix.isPrefixOf l then
    let r := l.drop icarusPrefix.length
    let a := r.takeWhile fun c => (digitOf U c).isSome
    match r.drop a.length with
    | 46 :: r =>
      let b := r.takeWhile fun c => (digitOf U c).isSome
      if a = [] ∨ b = [] then none else some (a ++ 46 :: b)
    | _ => none
  else none

/-- `Verilator`. -/
def verilatorName : Text := [86, 101, 114, 105, 108, 97, 116, 111, 114]

/-- `nvc`. -/
def nvcName : Text := [110, 118, 99]

/-- `from_commandline` of Verilator and NVC. sim_versions.py:151-154, 178-182. -/
def fromNamed (U : Unicode) (k : Sim) (name : Text) (t : Text) : Except Err Ver :=
  match splitGo [32] 0 (stripText (firstLine t)) with
  | sim :: version :: _ => if sim = name then .ok (make U k version) else .error .assertion
  | _ => .error .valueError

/-- `IcarusVersion.from_commandline`. sim_versions.py:61-70. -/
def fromIcarus (U : Unicode) (t : Text) : Except Err Ver :=
  match icarusMatch U (firstLine t) with
  | some v => .ok (make U .icarus v)
  | none => .error .valueError

/-- `version > NvcVersion("1.16")` of the runner for NVC; `true`: `--preserve-case`. runner.py:1548-1558. -/
def nvcPreserve (U : Unicode) (t : Text) : Except Err Bool :=
  match fromNamed U .nvc nvcName t with
  | .error e => .error e
  | .ok v => rich U .gt v (.ver (make U .nvc [49, 46, 49, 54]))

end Verif.Vers
