import Verif.Model.Symbolic
import Verif.Model.Aliased
import Mathlib.Algebra.Field.Defs
import Mathlib.Data.Rat.Cast.Defs

/-!
# Model of `parameter/_config.py` and `parameter/_runtime.py`: configuration files and parameters

Text is a list of characters; white space, digits and word characters are restricted to ASCII.  The values of numbers are
elements of a field `R`; the built-in conversions `float` and `complex` and real powers are parameters (`Numbers`), while
`int` is modelled.

The extraction of definitions from C source files by regular expressions (`_src.py`), which gives the dictionaries
`reference` and `definitions` below, is modelled in `Model/Source.lean`.  Not modelled: the construction of a `Variable`
from a value and unit.
-/

namespace Eprem.Config

open Eprem Eprem.Symbolic

/-! ## Text -/

/-- `s.split(d)` for a single character. -/
def splitOn (d : Char) : Str → List Str
  | [] => [[]]
  | c :: s =>
    if c = d then [] :: splitOn d s
    else match splitOn d s with
      | [] => [[c]]
      | p :: ps => (c :: p) :: ps

/-- `s.strip(chars)`. -/
def stripBy (p : Char → Bool) (s : Str) : Str := ((s.dropWhile p).reverse.dropWhile p).reverse

/-- `d.join(parts)` for a single character. -/
def joinWith (d : Char) : List Str → Str
  | [] => []
  | [p] => p
  | p :: q :: ps => p ++ d :: joinWith d (q :: ps)

/-- `strip_inline_comments(string, comments)` (`paths.py` 211-216), for single characters as comment markers. -/
def stripInlineComments (s : Str) (comments : List Char) : Str :=
  strip (comments.foldl (fun s c => (splitOn c s).headD []) s)

/-! ## Configuration files -/

/-- Exceptions: `ValueError`, `TypeError`, `KeyError`, `RecursionError`, and those of symbolic expressions. -/
inductive Err
  | value | type | key | recursion | symbolic (e : Symbolic.Err)
  deriving DecidableEq

/-- The body of the loop of `_parse_config` (`_config.py` 256-261): the pair in a line, if there is one.  Tuple unpacking
raises `ValueError` unless there is exactly one `=`. -/
def parseLine (comments : List Char) (line : Str) : Except Err (Option (Str × Str)) :=
  match line with
  | [] => .ok none
  | c :: _ =>
    if c ∈ comments then .ok none
    else match splitOn '=' (stripInlineComments line comments) with
      | [key, value] => .ok (some (strip key, strip value))
      | _ => .error .value

/-- The loop of `_parse_config` (`_config.py` 252-262). -/
def parseLines (comments : List Char) (pairs : Dict Str Str) : List Str → Except Err (Dict Str Str)
  | [] => .ok pairs
  | line :: lines => match parseLine comments line with
    | .error e => .error e
    | .ok none => parseLines comments pairs lines
    | .ok (some (k, v)) => parseLines comments (pairs.set k v) lines

/-- `_parse_config(filepath, comments)` (`_config.py` 241-262) on the text of the file.  Line ends are newline characters
(Python translates the others); an empty line after the last newline character is skipped like all empty lines. -/
def parseConfig (comments : List Char) (text : Str) : Except Err (Dict Str Str) :=
  parseLines comments [] (splitOn '\n' text)

/-! ## Conversion of values -/

/-- The types of parameters (`_src.py` 389-396). -/
inductive Ty
  | int | float | str | list
  deriving DecidableEq

/-- Values of parameters: `None`, numbers, text, lists of numbers, and a list with one other value. -/
inductive Val (R : Type)
  | none
  | num (x : R)
  | text (s : Str)
  | list (l : List R)
  | single (v : Val R)
  deriving DecidableEq

/-- The parts of Python's arithmetic that are left open: `float(text)`, `complex(text)`, and `x ** e`. -/
structure Numbers (R : Type) where
  toFloat : Str → Option R
  toComplex : Str → Option R
  pow : R → Rat → R

variable {R : Type} [Field R]

/-- The digits of a numeral, in which single underscores may separate digits. -/
def numeralDigits (s : Str) : Option Str :=
  if (splitOn '_' s).all (fun p => !p.isEmpty && p.all isDigit) then some (splitOn '_' s).flatten else none

/-- `int(text)`. -/
def pyInt (s : Str) : Option Int :=
  match takeSign (strip s) with
  | (neg, ds) => (numeralDigits ds).map (fun ds => if neg then -(natVal ds : Int) else (natVal ds : Int))

/-- `cast(text, strict=False)` (`_config.py` 371-407); with `strict=True`, `none` is a `TypeError`. -/
def cast (N : Numbers R) (s : Str) : Option R :=
  match pyInt s with
  | some n => some (n : R)
  | none => match N.toFloat s with
    | some x => some x
    | none => N.toComplex s

/-- `[cast(i) for i in items]` (`_config.py` 365): a list of results, if there are no failures. -/
def allSome {α : Type} : List (Option α) → Option (List α)
  | [] => some []
  | none :: _ => none
  | some x :: l => match allSome l with
    | none => none
    | some xs => some (x :: xs)

/-- `item.strip(" ''")` (`_config.py` 364). -/
def stripItem (s : Str) : Str := stripBy (fun c => c = ' ' || c = '\'') s

/-- `definition.strip('[]')` (`_config.py` 72, 361). -/
def stripBrackets (s : Str) : Str := stripBy (fun c => c = '[' || c = ']') s

/-- `stringlist(string)` (`_config.py` 357-365). -/
def stringlist (N : Numbers R) (s : Str) : Option (List R) :=
  if s.head? = some '[' ∧ s.getLast? = some ']' then
    if stripBrackets s = [] then some []
    else allSome ((splitOn ',' (stripBrackets s)).map (fun item => cast N (stripItem item)))
  else none

/-- `_convert(arg, realtype)` for text (`_config.py` 307-354): text that cannot be converted remains as it is. -/
def convert (N : Numbers R) (t : Ty) (s : Str) : Val R :=
  match t with
  | .str => .text s
  | .int => match pyInt s with
    | some n => .num (n : R)
    | none => .text s
  | .float => match N.toFloat s with
    | some x => .num x
    | none => .text s
  | .list => match stringlist N s with
    | some l => .list l
    | none => .text s

/-- `isinstance(definition, argument['type'])` (`_config.py` 59), for the results of `convert`. -/
def isType : Ty → Val R → Bool
  | .str, .text _ => true
  | .int, .num _ => true
  | .float, .num _ => true
  | .list, .list _ => true
  | _, _ => false

/-! ## Default values -/

/-- What default values are computed from: the parameters with their types and default definitions, and the values of
constants (`_config.py` 21-27). -/
structure Env (R : Type) where
  numbers : Numbers R
  reference : Dict Str (Ty × Str)
  basetypes : Str → Option R

/-- `\w`, restricted to ASCII. -/
def isWord (c : Char) : Bool :=
  isDigit c || decide (('a'.toNat ≤ c.toNat ∧ c.toNat ≤ 'z'.toNat) ∨ ('A'.toNat ≤ c.toNat ∧ c.toNat ≤ 'Z'.toNat) ∨ c = '_')

/-- The prefix of members of the structure of parameters (`_config.py` 66). -/
def configDot : Str := ['c', 'o', 'n', 'f', 'i', 'g', '.']

/-- `_struct_member.match(text)` (`_config.py` 66): `\Aconfig\.\w*\Z`. -/
def structMember (s : Str) : Bool := s.take 7 == configDot && (s.drop 7).all isWord

/-- `text.replace('config.', '')` (`_config.py` 71, 74, 78); `skip` characters remain to be dropped. -/
def dropConfig : Nat → Str → Str
  | _, [] => []
  | skip + 1, _ :: s => dropConfig skip s
  | 0, c :: s => if (c :: s).take 7 = configDot then dropConfig 6 s else c :: dropConfig 0 s

/-- The special value with no number (`_config.py` 43-46). -/
def nProcs : Str := ['N', '_', 'P', 'R', 'O', 'C', 'S']

/-- The special name of 1/3 (`_config.py` 43-46). -/
def third : Str := ['t', 'h', 'i', 'r', 'd']

/-- `[self._evaluate(s.strip()) for s in parts]` (`_config.py` 97-100), up to the first exception. -/
def evalParts (rec : Str → Except Err (Val R)) : List Str → Except Err (List (Val R))
  | [] => .ok []
  | s :: l => match rec (strip s) with
    | .error e => .error e
    | .ok v => match evalParts rec l with
      | .error e => .error e
      | .ok vs => .ok (v :: vs)

/-- `terms[0] + float(f'{operator}1')*terms[1]` (`_config.py` 101): the first two terms; `TypeError` if they are not
numbers. -/
def sumParts (rec : Str → Except Err (Val R)) (sign : R) (parts : List Str) : Except Err (Option R) :=
  match evalParts rec parts with
  | .error e => .error e
  | .ok (.num x :: .num y :: _) => .ok (some (x + sign * y))
  | .ok _ => .error .type

/-- `_compute_sum(arg)` (`_config.py` 86-101). -/
def computeSum (rec : Str → Except Err (Val R)) (s : Str) : Except Err (Option R) :=
  if '+' ∈ s then sumParts rec 1 (splitOn '+' s)
  else if '-' ∈ s then sumParts rec (-1) (splitOn '-' s)
  else .ok none

/-- The product of the evaluated terms of an expression (`_config.py` 78-83). -/
def productOf (N : Numbers R) (rec : Str → Except Err (Val R)) : List Term → Except Err R
  | [] => .error .type
  | [t] => match rec t.base with
    | .error e => .error e
    | .ok (.num x) => .ok ((t.coeff : R) * N.pow x t.exp)
    | .ok _ => .error .type
  | t :: u :: ts => match rec t.base with
    | .error e => .error e
    | .ok (.num x) => match productOf N rec (u :: ts) with
      | .error e => .error e
      | .ok y => .ok ((t.coeff : R) * N.pow x t.exp * y)
    | .ok _ => .error .type

/-- The last part of `_resolve` (`_config.py` 77-84). -/
def resolveProduct (N : Numbers R) (rec : Str → Except Err (Val R)) (s : Str) : Except Err (Val R) :=
  if '*' ∈ s ∨ '/' ∈ s then match exprOfString false (dropConfig 0 s) with
    | .error e => .error (.symbolic e)
    | .ok ts => match productOf N rec ts with
      | .error e => .error e
      | .ok x => .ok (.num x)
  else .error .type

/-- `_resolve(definition)` (`_config.py` 68-84).  The result of `_compute_sum` is not used if it is zero. -/
def resolve [DecidableEq R] (N : Numbers R) (rec : Str → Except Err (Val R)) (s : Str) : Except Err (Val R) :=
  if structMember s then rec (dropConfig 0 s)
  else if structMember (stripBrackets s) then match rec (dropConfig 0 (stripBrackets s)) with
    | .error e => .error e
    | .ok (.num x) => .ok (.list [x])
    | .ok v => .ok (.single v)
  else match computeSum rec s with
    | .error e => .error e
    | .ok (some x) => if x = 0 then resolveProduct N rec s else .ok (.num x)
    | .ok none => resolveProduct N rec s

/-- `if value := cast(current, strict=False)` (`_config.py` 52): a number other than zero. -/
def truthyCast [DecidableEq R] (N : Numbers R) (s : Str) : Option R :=
  match cast N s with
  | some x => if x = 0 then none else some x
  | none => none

/-- `_evaluate(current)` for text (`_config.py` 48-64, 103-114).  The first argument bounds the depth of the recursion. -/
def evaluate [DecidableEq R] (E : Env R) : Nat → Str → Except Err (Val R)
  | 0, _ => .error .recursion
  | n + 1, s =>
    match truthyCast E.numbers s with
    | some x => .ok (.num x)
    | none =>
      if s = nProcs then .ok .none
      else if s = third then .ok (.num (1 / 3))
      else match E.reference.get? s with
        | some (t, d) => if isType t (convert E.numbers t d) then .ok (convert E.numbers t d) else evaluate E n d
        | none => match E.basetypes s with
          | some x => .ok (.num x)
          | none => resolve E.numbers (evaluate E n) s

/-- `Defaults.__getitem__(name)` (`_config.py` 37-41). -/
def getDefault [DecidableEq R] (E : Env R) (n : Nat) (name : Str) : Except Err (Val R) :=
  if name ∈ E.reference.keys then evaluate E n name else .error .key

/-! ## Constants -/

/-- `any(c in target for c in {'*', '/', 'sqrt'})` (`_src.py` 242). -/
def hasOperator (s : Str) : Bool := s.any (fun c => c = '*' || c = '/') || s.tails.any (fun t => ['s', 'q', 'r', 't'].isPrefixOf t)

/-- `_evaluate(expression)` (`_src.py` 257-265): the product of the terms.  A term whose base is neither a definition nor
`'1'` is left out. -/
def constantProduct (N : Numbers R) (known : Str → Bool) (rec : Str → Except Err R) : List Term → Except Err R
  | [] => .ok 1
  | t :: ts =>
    match constantProduct N known rec ts with
    | .error e => .error e
    | .ok y =>
      if known t.base then match rec t.base with
        | .error e => .error e
        | .ok x => .ok ((t.coeff : R) * N.pow x t.exp * y)
      else if t.base = Symbolic.one then .ok ((t.coeff : R) * y)
      else .ok y

/-- `BaseTypesH._compute(key)` (`_src.py` 236-246). -/
def computeConstant (N : Numbers R) (definitions : Dict Str Str) (types : Str → Option Ty) : Nat → Str → Except Err R
  | 0, _ => .error .recursion
  | n + 1, key => match definitions.get? key with
    | none => .error .key
    | some target => match types key with
      | none => .error .type
      | some t =>
        if hasOperator target then match exprOfString false target with
          | .error e => .error (.symbolic e)
          | .ok ts => constantProduct N (fun k => (definitions.get? k).isSome) (computeConstant N definitions types n) ts
        else match convert N t target with
          | .num x => .ok x
          | _ => .error .value

/-! ## The runtime interface -/

/-- All default values (`_runtime.py` 208-213, `_config.py` 29-41). -/
def allDefaults [DecidableEq R] (E : Env R) (n : Nat) : List Str → Except Err (List (Str × Val R))
  | [] => .ok []
  | k :: ks => match getDefault E n k with
    | .error e => .error e
    | .ok v => match allDefaults E n ks with
      | .error e => .error e
      | .ok l => .ok ((k, v) :: l)

/-- The user's values of known parameters (`_runtime.py` 218-225). -/
def userValues (E : Env R) (cfg : Dict Str Str) : List (Str × Val R) :=
  E.reference.filterMap (fun p => (cfg.get? p.1).map (fun s => (p.1, convert E.numbers p.2.1 s)))

/-- `d.update(items)` (`_runtime.py` 213, 226). -/
def updateAll (d : Dict Str (Val R)) (items : List (Str × Val R)) : Dict Str (Val R) :=
  items.foldl (fun d p => d.set p.1 p.2) d

/-- The values in `interface_factory` (`_runtime.py` 206-226): local values, default values, and the user's values. -/
def initValues [DecidableEq R] (E : Env R) (n : Nat) (localValues : List (Str × Val R)) (cfg : Option (Dict Str Str)) :
    Except Err (Dict Str (Val R)) :=
  match allDefaults E n E.reference.keys with
  | .error e => .error e
  | .ok defaults =>
    let init := updateAll (updateAll [] localValues) defaults
    match cfg with
    | none => .ok init
    | some cfg => .ok (updateAll init (userValues E cfg))

/-- The aliased mapping of values and units (`_runtime.py` 140-152, 227-231). -/
def interface (values : Dict Str (Val R)) (units : Str → Option Str) (aliases : List (Finset Str)) :
    Aliased.AMap Str (Option Str × Val R) :=
  .ofGroups (values.map (fun p => (p.1, units p.1, p.2))) aliases

/-- The text of the unit of angles (`_runtime.py` 174). -/
def rad : Str := ['r', 'a', 'd']
/-- The text of the other unit of angles (`_runtime.py` 175). -/
def deg : Str := ['d', 'e', 'g']
/-- The parameter that tells whether angles are in degrees (`_runtime.py` 173). -/
def useDegrees : Str := ['u', 's', 'e', 'D', 'e', 'g', 'r', 'e', 'e', 's']

/-- The truth value of a value of a parameter (`_runtime.py` 174). -/
def truthy [DecidableEq R] : Val R → Bool
  | .none => false
  | .num x => x ≠ 0
  | .text s => s ≠ []
  | .list l => !l.isEmpty
  | .single _ => true

/-- `Interface.__getitem__(name)` (`_runtime.py` 165-178): the unit, if there is one, and the value. -/
def getParameter [DecidableEq R] (m : Aliased.AMap Str (Option Str × Val R)) (name : Str) :
    Except Err (Option Str × Val R) :=
  match m.getItem name with
  | .error _ => .error .key
  | .ok this => match m.getItem useDegrees with
    | .error _ => .error .key
    | .ok usedeg =>
      if this.1 = some rad ∧ truthy usedeg.2 = true then .ok (some deg, this.2) else .ok this

end Eprem.Config
