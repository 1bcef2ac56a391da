import Verif.Model.Metric

/-!
# Model of `quantity.parse`: `quantity/_functions.py`, `container.unwrap`, `container.distribute`

The inputs are numbers, strings, instances of `metric.Unit`, `None`, ranges of numbers, and lists or tuples of such objects
(the code does not distinguish lists from tuples).  The values of numbers are elements of a type `R`; `toFloat` is the
built-in `float` applied to strings, which fails with `ValueError` on strings that are no numbers.

Not modelled: numpy arrays, dictionaries and other iterables; numpy numbers.
-/

namespace Eprem.Measurable

open Eprem Eprem.Symbolic Eprem.Metric

/-- The Python objects that are told apart by `parse` (`_functions.py` 174-263). -/
inductive Obj (R : Type)
  | none
  | num (x : R)
  | str (s : Name)
  | unit (s : Name)
  | range (l : List R)
  | seq (l : List (Obj R))

/-- Exceptions: `ParsingTypeError`, `ParsingValueError`, a plain `TypeError`, and those of the parser of expressions. -/
inductive Err
  | parsingType | parsingValue | type | symbolic (e : Symbolic.Err)

/-- The members of the returned tuples: objects, or pairs of an object and a unit. -/
inductive Item (R : Type)
  | obj (o : Obj R)
  | pair (o : Obj R) (unit : Name)

variable {R : Type}

/-- `container.unwrap(obj)` (`container.py` 153-159). -/
def unwrap : Obj R → Obj R
  | .seq [x] => unwrap x
  | x => x

/-- `isinstance(arg, (list, tuple))` (`_functions.py` 210). -/
def Obj.isSeq : Obj R → Bool
  | .seq _ => true
  | _ => false

/-- `type(arg) == str` (`_functions.py` 214-215). -/
def Obj.isStr : Obj R → Bool
  | .str _ => true
  | _ => false

/-- `type(arg) == metric.Unit` (`_functions.py` 214-215). -/
def Obj.isUnit : Obj R → Bool
  | .unit _ => true
  | _ => false

/-- `isinstance(arg, numbers.Real)` (`_functions.py` 239, 256). -/
def Obj.isNum : Obj R → Bool
  | .num _ => true
  | _ => false

/-- `_wrap_measurable(values, unit, distribute)` (`_functions.py` 266-270, `container.py` 674-695). -/
def wrapMeasurable (values : List (Obj R)) (unit : Name) (distribute : Bool) : List (Item R) :=
  if distribute then values.map (fun v => .pair v unit) else values.map .obj ++ [.obj (.str unit)]

/-- `[float(arg) for arg in args]` (`_functions.py` 230, 233): the first argument that is no number decides about the exception. -/
def floats (toFloat : Name → Option R) : List (Obj R) → Except Bool (List R)
  | [] => .ok []
  | .num x :: args => match floats toFloat args with
    | .error e => .error e
    | .ok xs => .ok (x :: xs)
  | .str s :: args => match toFloat s with
    | none => .error true
    | some x => match floats toFloat args with
      | .error e => .error e
      | .ok xs => .ok (x :: xs)
  | _ :: _ => .error false

/-- The test `last in ['1', metric.unit('1')]` (`_functions.py` 249-251) reads the string as an expression. -/
def readable (s : Name) : Except Err Unit :=
  if s = Symbolic.one then .ok ()
  else match exprOfString false s with
    | .error e => .error (.symbolic e)
    | .ok _ => .ok ()

/-- The values and the unit of a sequence with a last member that is a unit (`_functions.py` 254-263). -/
def withUnit (l : List (Obj R)) (unit : Name) (distribute : Bool) : Except Err (List (Item R)) :=
  if l.dropLast.all Obj.isNum then .ok (wrapMeasurable l.dropLast unit distribute)
  else match l with
    | .seq values :: _ => .ok (wrapMeasurable values unit distribute)
    | .range values :: _ => .ok (wrapMeasurable (values.map .num) unit distribute)
    | _ => .error .parsingType

/-- Sequences with at most one string and one unit, that are not sequences of sequences (`_functions.py` 238-263).  If the
last member is not a string or unit, the exact exception depends on its type. -/
def parseUnit (l : List (Obj R)) (distribute : Bool) : Except Err (List (Item R)) :=
  if l.all Obj.isNum then .ok (wrapMeasurable l Symbolic.one distribute)
  else match l.getLast? with
    | some (.str s) => match readable s with
      | .error e => .error e
      | .ok _ => withUnit l s distribute
    | some (.unit s) => withUnit l s distribute
    | _ => .error .parsingType

/-- Sequences with two or more strings (`_functions.py` 222-236).  The strings are converted to numbers, and the sequence is
parsed again; `distribute` is not passed on.  A plain `TypeError` of `float` is not caught. -/
def parseStrings (toFloat : Name → Option R) (l : List (Obj R)) : Except Err (List (Item R)) :=
  match floats toFloat l with
  | .ok xs => parseUnit (xs.map .num) false
  | .error false => .error .type
  | .error true => match floats toFloat l.dropLast with
    | .error true => .error .parsingValue
    | .error false => .error .type
    | .ok xs => parseUnit (xs.map .num ++ l.getLast?.toList) false

/-- The parts of `_recursive_parse` after the recursive calls (`_functions.py` 281-294).  The results of the calls end with
their units. -/
def combine (parsed : List (List (Item R))) (sameUnit : Item R → Item R → Bool) : Except Err (List (Item R)) :=
  match parsed.filterMap List.getLast? with
  | [] => .error .parsingValue
  | u :: us =>
    if us.any (fun v => !sameUnit v u) then .error .parsingValue
    else .ok (parsed.flatMap List.dropLast ++ [u])

/-- The comparison of units in `_recursive_parse` (`_functions.py` 286): units are strings. -/
def sameUnit : Item R → Item R → Bool
  | .obj (.str s), .obj (.str t) => decide (s = t)
  | _, _ => false

mutual
/-- `parse(x, distribute=distribute)` (`_functions.py` 118-263).  Redundant lists are stripped one at a time. -/
def parse (toFloat : Name → Option R) (distribute : Bool) : Obj R → Except Err (List (Item R))
  | .none => .error .parsingType
  | .num x => .ok (if distribute then [.pair (.num x) Symbolic.one] else [.obj (.num x), .obj (.str Symbolic.one)])
  | .str s =>
    if s = [] then .error .parsingValue
    else match toFloat s with
      | none => .error .parsingType
      | some x => .ok (if distribute then [.pair (.num x) Symbolic.one] else [.obj (.num x), .obj (.str Symbolic.one)])
  | .unit _ => .error .parsingType
  | .range l => if l = [] then .error .parsingValue else .ok (wrapMeasurable (l.map .num) Symbolic.one distribute)
  | .seq [] => .error .parsingValue
  | .seq [x] => parse toFloat distribute x
  | .seq (x :: y :: l) =>
    if (x :: y :: l).all Obj.isSeq then
      match parseAll toFloat distribute (x :: y :: l) with
      | .error e => .error e
      | .ok parsed => if distribute then .ok parsed.flatten else combine parsed sameUnit
    else if 1 < (x :: y :: l).countP Obj.isUnit then .error .parsingValue
    else if 1 < (x :: y :: l).countP Obj.isStr then parseStrings toFloat (x :: y :: l)
    else parseUnit (x :: y :: l) distribute
/-- The recursive calls in `_recursive_parse` (`_functions.py` 273-283). -/
def parseAll (toFloat : Name → Option R) (distribute : Bool) : List (Obj R) → Except Err (List (List (Item R)))
  | [] => .ok []
  | x :: l => match parse toFloat distribute x with
    | .error e => .error e
    | .ok r => match parseAll toFloat distribute l with
      | .error e => .error e
      | .ok rs => .ok (r :: rs)
end

end Eprem.Measurable
