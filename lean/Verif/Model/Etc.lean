import Verif.Model.Config

/-!
# Model of the class helpers, first results, and help texts of `src/eprempy/etc.py`
-/

namespace Eprem.Etc

open Eprem.Config (splitOn joinWith)

/-- Text. -/
abbrev Str := List Char

/-! ## Singletons -/

/-- A class below `Singleton`, as the list of its name and the names of its bases up to `Singleton`, which
itself is the empty list (single inheritance). -/
abbrev Cls := List Nat

/-- An instance: its class, and a serial number, which is its identity. -/
structure Inst where
  cls : Cls
  serial : Nat
  deriving DecidableEq

/-- The state of the classes: the instance in the dictionary of each class that has set `_exists` and `_instance`
itself (`etc.py` 274-275, 281-282), and the number of instances made. -/
structure State where
  own : Cls → Option Inst
  made : Nat

/-- `cls._instance` if `cls._exists` (`etc.py` 278-279): the attribute of the class or of its nearest base that
has one. -/
def lookup (own : Cls → Option Inst) : Cls → Option Inst
  | [] => own []
  | n :: base => match own (n :: base) with
    | some i => some i
    | none => lookup own base

/-- `cls(*args)` (`etc.py` 277-283): the instance that `__new__` returns. -/
def call (s : State) (c : Cls) : Inst × State :=
  match lookup s.own c with
  | some i => (i, s)
  | none =>
    let new : Inst := ⟨c, s.made⟩
    (new, ⟨fun d => if d = c then some new else s.own d, s.made + 1⟩)

/-- Several calls, one after the other. -/
def calls (s : State) : List Cls → List Inst × State
  | [] => ([], s)
  | c :: cs =>
    let (i, s') := call s c
    let (is, s'') := calls s' cs
    (i :: is, s'')

/-- The state when the module is loaded. -/
def State.start : State := ⟨fun _ => none, 0⟩

/-! ## Text of objects -/

/-- The `__repr__` of a class: written by hand, by `autostr`, or by `str2repr`. -/
inductive Repr
  | custom (text : Str)
  | autostr
  | str2repr

/-- The part of the dictionary of a class that matters: the text its `__str__` gives, and its `__repr__`. -/
structure ClassDict where
  str : Option Str
  repr : Option Repr

/-- `@autostr` in the default style (`etc.py` 239-250): a class with its own `__repr__` keeps it. -/
def ClassDict.autostr (c : ClassDict) : ClassDict :=
  match c.repr with
  | some _ => c
  | none => { c with repr := some .autostr }

/-- `@str2repr` (`etc.py` 153-160): the `__repr__` is always replaced. -/
def ClassDict.str2repr (c : ClassDict) : ClassDict := { c with repr := some .str2repr }

/-- What `repr(x)` gives for an instance of a class with the given name and method resolution order (without
`object`); nothing stands for `object.__repr__`.  The decorators' `f"{name}({self})"` goes through the first
`__str__` in the order; `_defines_str` (`etc.py` 253-265) holds if there is one, and `str2repr` asks only the
class of the instance (`etc.py` 153-158). -/
def reprOf (name : Str) (mro : List ClassDict) : Option Str :=
  match mro.findSome? ClassDict.repr with
  | none => none
  | some (.custom t) => some t
  | some .autostr => match mro.findSome? ClassDict.str with
    | some t => some (name ++ "(".toList ++ t ++ ")".toList)
    | none => some name
  | some .str2repr => match mro.head?.bind ClassDict.str with
    | some t => some (name ++ "(".toList ++ t ++ ")".toList)
    | none => some name

/-! ## First results -/

/-- What a method gives: a result, with its truth value, or an exception. -/
inductive Outcome (α : Type)
  | result (x : α) (truth : Bool)
  | raised

/-- `apply(methods, …)` (`etc.py` 120-128): the result, or nothing (an exception of a method leaves the call and is
`none`), and the number of methods called. -/
def firstResult {α : Type} : List (Outcome α) → Option (Option α) × Nat
  | [] => (some none, 0)
  | .raised :: _ => (none, 1)
  | .result x true :: _ => (some (some x), 1)
  | .result _ false :: r => ((firstResult r).1, (firstResult r).2 + 1)

/-! ## Help texts -/

/-- The modes of `doc2help`; any other text is like `summary`. -/
inductive Mode
  | summary | phrase | full
  deriving DecidableEq

/-- The character after `str.lower()`, for ASCII letters. -/
def lower (c : Char) : Char := if 'A' ≤ c ∧ c ≤ 'Z' then Char.ofNat (c.toNat + 32) else c

/-- `s.rstrip('.')`. -/
def rstripDots (s : Str) : Str := (s.reverse.dropWhile (· = '.')).reverse

/-- `doc2help(obj, mode)` without replacements, for a text or the docstring of an object, which is nothing if there
is none (`etc.py` 65-84).  `wrap` is `textwrap.wrap(…, width=70)`; `none` is an `IndexError`. -/
def doc2help (wrap : Str → List Str) (doc : Option Str) (mode : Mode) : Option Str :=
  let target := doc.getD "None".toList
  let doclines := splitOn '\n' (target.dropWhile (· = '\n'))
  let summary := doclines.headD []
  match mode with
  | .full =>
    let body := joinWith '\n' (wrap (joinWith ' ' (doclines.tail.map (fun s => s.dropWhile (fun c => c = ' ' ∨ c = '\t')))))
    some (summary ++ "\n\n".toList ++ body.dropWhile (· = ' '))
  | .phrase => match summary with
    | [] => none
    | c :: r => some (lower c :: rstripDots r)
  | .summary => some summary

end Eprem.Etc
