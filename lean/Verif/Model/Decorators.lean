import Verif.Py.Dict
import Verif.Py.Dec
import Verif.Py.Product
/-!
# Test decorators and test generation

src/cocotb/_decorators.py and src/cocotb/_test_factory.py. Simplifications: the test function and its
arguments are opaque; `str.isidentifier` is a parameter; timeouts, exception types and module contents
are numbers; arguments of wrong types (which raise TypeError) are not modelled; docstrings are left out;
a set of exception types is a list without duplicates.
-/
namespace Verif.Deco

/-- A value an option can have, as far as `_repr` distinguishes them: members of an Enum, strings, values of
type int, float, bool or NoneType (known by their `repr`), classes and other objects with a `__qualname__`,
objects without, and `Param(value, name)`. The numbers stand for the identity of the object. -/
inductive Obj where
  | enum (id : Nat) (name : PyStr)
  | str (s : PyStr)
  | prim (repr : PyStr)
  | named (id : Nat) (qualname : PyStr)
  | other (id : Nat)
  | param (value : Obj) (name : Option PyStr)
  deriving DecidableEq, Repr

/-- One option: a name and its values, or several names and the rows of their values. -/
inductive Opt where
  | one (name : PyStr) (values : List Obj)
  | many (names : List PyStr) (rows : List (List Obj))
  deriving DecidableEq, Repr

/-- `_repr`, _decorators.py:246-262. -/
def repr_ (ident : PyStr → Bool) : Obj → Option PyStr
  | .enum _ name => some name
  | .str s => if s.length ≤ 10 ∧ ident s then some s else none
  | .prim r => some r
  | .param v name => match name with
    | some n => some n
    | none => repr_ ident v
  | .named _ q => some q
  | .other _ => none

/-- The loop of `_reprs`, _decorators.py:234-243, with the result so far; `n` is `len(values)`. -/
def reprsLoop (ident : PyStr → Bool) (n : Nat) : List Obj → List PyStr → List PyStr
  | [], result => result
  | v :: vs, result => match repr_ ident v with
    | none => (List.range n).map decStr
    | some r => reprsLoop ident n vs (result ++ [r])

/-- `_reprs`, _decorators.py:233-243. -/
def reprs (ident : PyStr → Bool) (values : List Obj) : List PyStr := reprsLoop ident values.length values []

/-- `[value_array[nam_idx] for value_array in values]`, _decorators.py:179-182. -/
def column (j : Nat) : List (List Obj) → PyM (List Obj)
  | [] => .ok []
  | row :: rows => match row[j]? with
    | none => .error .indexError
    | some v => match column j rows with
      | .error e => .error e
      | .ok vs => .ok (v :: vs)

/-- The dictionary `transformed`, _decorators.py:176-182, from the `j`-th name on. -/
def transform (rows : List (List Obj)) : List PyStr → Nat → List (PyStr × List Obj) → PyM (List (PyStr × List Obj))
  | [], _, d => .ok d
  | n :: ns, j, d => match column j rows with
    | .error e => .error e
    | .ok vs => transform rows ns (j + 1) (dictSet d n vs)

/-- `option_reprs`, _decorators.py:169-184. -/
def optionReprs (ident : PyStr → Bool) : List Opt → List (PyStr × List PyStr) → PyM (List (PyStr × List PyStr))
  | [], d => .ok d
  | .one n vs :: os, d => optionReprs ident os (dictSet d n (reprs ident vs))
  | .many ns rows :: os, d => match transform rows ns 0 [] with
    | .error e => .error e
    | .ok t => optionReprs ident os (t.foldl (fun d x => dictSet d x.1 (reprs ident x.2)) d)

/-- `len(option[1])`, _decorators.py:187. -/
def Opt.size : Opt → Nat
  | .one _ vs => vs.length
  | .many _ rows => rows.length

/-- `x.value if isinstance(x, Param) else x`, _decorators.py:198-202 and 212. -/
def unwrap : Obj → Obj
  | .param v _ => v
  | v => v

/-- One argument of one test: the value is recorded and the name extended, _decorators.py:203-207 and 212-214. -/
def addArg (rs : List (PyStr × List PyStr)) (i : Nat) (n : PyStr) (v : Obj)
    (acc : List (PyStr × Obj) × PyStr) : PyM (List (PyStr × Obj) × PyStr) :=
  match dictGet rs n with
  | none => .error .keyError
  | some l => match l[i]? with
    | none => .error .indexError
    | some r => .ok (dictSet acc.1 n (unwrap v), acc.2 ++ '/' :: n ++ '=' :: r)

/-- `for n, vn in zip(option_name, selected_value)`, _decorators.py:211-214. -/
def addArgs (rs : List (PyStr × List PyStr)) (i : Nat) : List (PyStr × Obj) →
    List (PyStr × Obj) × PyStr → PyM (List (PyStr × Obj) × PyStr)
  | [], acc => .ok acc
  | (n, v) :: l, acc => match addArg rs i n v acc with
    | .error e => .error e
    | .ok acc => addArgs rs i l acc

/-- The body of the loop over the options, _decorators.py:193-214. -/
def addOption (rs : List (PyStr × List PyStr)) (o : Opt) (i : Nat)
    (acc : List (PyStr × Obj) × PyStr) : PyM (List (PyStr × Obj) × PyStr) :=
  match o with
  | .one n vs => match vs[i]? with
    | none => .error .indexError
    | some v => addArg rs i n v acc
  | .many ns rows => match rows[i]? with
    | none => .error .indexError
    | some row => addArgs rs i (ns.zip row) acc

/-- The loop over the options for one selection, _decorators.py:193-216. -/
def buildTest (rs : List (PyStr × List PyStr)) : List Opt → List Nat →
    List (PyStr × Obj) × PyStr → PyM (List (PyStr × Obj) × PyStr)
  | o :: os, i :: is, acc => match addOption rs o i acc with
    | .error e => .error e
    | .ok acc => buildTest rs os is acc
  | _, _, acc => .ok acc

/-- What the decorators have set. -/
structure Settings where
  timeout : Option Nat
  expectFail : Bool
  expectError : List Nat
  skip : Bool
  stage : Int
  deriving DecidableEq, Repr

/-- `TestGenerator`. -/
structure Gen where
  name : PyStr
  settings : Settings
  options : List Opt
  deriving DecidableEq, Repr

/-- `Test`: name, keyword arguments and settings. -/
structure Test where
  name : PyStr
  kwargs : List (PyStr × Obj)
  settings : Settings
  deriving DecidableEq, Repr

/-- All selections, one after the other; stops at the first exception. -/
def buildAll (g : Gen) (rs : List (PyStr × List PyStr)) : List (List Nat) → PyM (List Test)
  | [] => .ok []
  | sel :: sels => match buildTest rs g.options sel ([], g.name) with
    | .error e => .error e
    | .ok (kw, name) => match buildAll g rs sels with
      | .error e => .error e
      | .ok ts => .ok (⟨name, kw, g.settings⟩ :: ts)

/-- `list(generator.generate_tests())`, _decorators.py:168-230. -/
def generateTests (ident : PyStr → Bool) (g : Gen) : PyM (List Test) :=
  match optionReprs ident g.options [] with
  | .error e => .error e
  | .ok rs => buildAll g rs (pyProduct (g.options.map fun o => List.range o.size))

/-- `TestGenerator(func)`, _decorators.py:136-166. -/
def Gen.new (qualname : PyStr) : Gen := ⟨qualname, ⟨none, false, [], false, 0⟩, []⟩

/-- The checks of `parametrize` on one option given as a tuple, _decorators.py:520-541. -/
def checkOption (ident : PyStr → Bool) : Opt → PyM Unit
  | .one n _ => if ident n then .ok () else .error .valueError
  | .many ns rows =>
    if ns.all ident then
      if rows.all fun row => row.length = ns.length then .ok () else .error .valueError
    else .error .valueError

/-- The loop over the options, _decorators.py:520-541. -/
def checkOptions (ident : PyStr → Bool) : List Opt → PyM Unit
  | [] => .ok ()
  | o :: os => match checkOption ident o with
    | .error e => .error e
    | .ok _ => checkOptions ident os

/-- A decorator. The arguments of `test` that are `none` are not given; `raises` of `xfail` is a list of
exception types if given. -/
inductive Dec where
  | test (timeout : Option Nat) (expectFail : Option Bool) (expectError : Option (List Nat))
      (skip : Option Bool) (stage : Option Int) (name : Option PyStr)
  | parametrize (byTuple : List Opt) (byName : List (PyStr × List Obj))
  | skipif (condition : Bool)
  | xfail (condition : Bool) (raises : Option (List Nat))
  deriving DecidableEq, Repr

/-- `set.add`. -/
def setAdd (l : List Nat) (x : Nat) : List Nat := if x ∈ l then l else l ++ [x]

/-- The wrapper made by `test(...)`, _decorators.py:405-424. -/
def applyTest (timeout : Option Nat) (expectFail : Option Bool) (expectError : Option (List Nat))
    (skip : Option Bool) (stage : Option Int) (name : Option PyStr) (g : Gen) : Gen :=
  { g with
    name := match name with | some n => n | none => g.name
    settings :=
      { timeout := match timeout with | some t => some t | none => g.settings.timeout
        expectFail := match expectFail with | some b => g.settings.expectFail || b | none => g.settings.expectFail
        expectError := match expectError with
          | some es => es.foldl setAdd g.settings.expectError
          | none => g.settings.expectError
        skip := match skip with | some b => g.settings.skip || b | none => g.settings.skip
        stage := match stage with | some s => s | none => g.settings.stage } }

/-- One decorator applied, _decorators.py:405-424, 518-553, 586-593 and 650-673. -/
def applyDec (ident : PyStr → Bool) (d : Dec) (g : Gen) : PyM Gen :=
  match d with
  | .test a b c d e f => .ok (applyTest a b c d e f g)
  | .parametrize byTuple byName => match checkOptions ident byTuple with
    | .error e => .error e
    | .ok _ => .ok { g with options := byTuple ++ byName.map (fun x => .one x.1 x.2) ++ g.options }
  | .skipif c => .ok { g with settings := { g.settings with skip := g.settings.skip || c } }
  | .xfail c raises =>
    if c then
      match raises with
      | some es => .ok { g with settings := { g.settings with expectError := es.foldl setAdd g.settings.expectError } }
      | none => .ok { g with settings := { g.settings with expectFail := true } }
    else .ok g

/-- A decorated function; the decorators are listed from top to bottom and applied from bottom to top. -/
def decorate (ident : PyStr → Bool) (qualname : PyStr) : List Dec → PyM Gen
  | [] => .ok (Gen.new qualname)
  | d :: ds => match decorate ident qualname ds with
    | .error e => .error e
    | .ok g => applyDec ident d g

/-! ### TestFactory -/

/-- The name of an option: a string or a tuple of strings. -/
inductive Key where
  | one (n : PyStr)
  | many (ns : List PyStr)
  deriving DecidableEq, Repr

/-- The value of an option: an object, or a sequence of objects. Sequences are told from other objects only
where the option has several names. -/
inductive FVal where
  | one (v : Obj)
  | many (vs : List Obj)
  deriving DecidableEq, Repr

/-- `TestFactory`: the constant keyword arguments and the options. -/
structure Factory where
  qualname : PyStr
  constant : List (PyStr × Obj)
  kwargs : List (Key × List FVal)
  deriving DecidableEq, Repr

/-- `for opt in optionlist: if len(name) != len(opt)`, _test_factory.py:132-137; `len` of something that is
no sequence raises TypeError. -/
def checkRows (n : Nat) : List FVal → PyM Unit
  | [] => .ok ()
  | .one _ :: _ => .error .typeError
  | .many vs :: l => if vs.length = n then checkRows n l else .error .valueError

/-- `add_option`, _test_factory.py:111-138. -/
def addOptionF (k : Key) (l : List FVal) (f : Factory) : PyM Factory :=
  match k with
  | .one _ => .ok { f with kwargs := dictSet f.kwargs k l }
  | .many ns => match checkRows ns.length l with
    | .error e => .error e
    | .ok _ => .ok { f with kwargs := dictSet f.kwargs k l }

/-- `d.update(pairs)`. -/
def dictUpdate {α : Type} (d : List (PyStr × α)) (l : List (PyStr × α)) : List (PyStr × α) :=
  l.foldl (fun d x => dictSet d x.1 x.2) d

/-- What one option contributes to the keyword arguments, _test_factory.py:233-244. (The last case cannot
occur: `add_option` checks.) -/
def splitOpt (k : Key) (v : FVal) : List (PyStr × FVal) :=
  match k, v with
  | .one n, v => [(n, v)]
  | .many ns, .many vs => ns.zip (vs.map .one)
  | .many _, .one _ => []

/-- `testoptions_split`, _test_factory.py:233-244. -/
def splitAll (l : List (Key × FVal)) : List (PyStr × FVal) :=
  l.foldl (fun d x => dictUpdate d (splitOpt x.1 x.2)) []

/-- `f"{prefix}{test_func_name}{postfix}_{(index + 1):03d}"`, _test_factory.py:229. -/
def factoryName (pre name post : PyStr) (index : Nat) : PyStr :=
  pre ++ name ++ post ++ '_' :: zeroPad 3 (decStr (index + 1))

/-- A generated test. -/
structure FTest where
  name : PyStr
  kwargs : List (PyStr × FVal)
  deriving DecidableEq, Repr

/-- The test for one combination, _test_factory.py:226-292. -/
def factoryTest (f : Factory) (pre name post : PyStr) (index : Nat) (v : List FVal) : FTest :=
  ⟨factoryName pre name post index,
   dictUpdate (f.constant.map fun x => (x.1, .one x.2))
     (splitAll ((f.kwargs.map (·.1)).zip v))⟩

/-- The loop of `generate_tests` from `index` on; the module's globals are the tests stored by name,
_test_factory.py:226-297. -/
def factoryLoop (f : Factory) (pre name post : PyStr) : Nat → List (List FVal) → List (PyStr × FTest) →
    List (PyStr × FTest)
  | _, [], glbs => glbs
  | index, v :: vs, glbs =>
    factoryLoop f pre name post (index + 1) vs
      (dictSet glbs (factoryTest f pre name post index v).name (factoryTest f pre name post index v))

/-- `generate_tests`, _test_factory.py:140-297: what the module contains afterwards. -/
def factoryGenerate (f : Factory) (pre post : PyStr) (name : Option PyStr) (glbs : List (PyStr × FTest)) :
    List (PyStr × FTest) :=
  factoryLoop f pre (match name with | some n => n | none => f.qualname) post 0
    (pyProduct (f.kwargs.map (·.2))) glbs

end Verif.Deco
