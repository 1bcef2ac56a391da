import Verif.Model.Float

/-!
# Model of `src/eprempy/symbolic`

Strings are lists of characters.  Exceptions are values of `Err`.  The parser is
modelled at character level: the regular expressions of `_operand.py` and
`_operator.py` are written out as deterministic recognisers, with Python's
greedy/lazy/backtracking choices resolved by hand (explained at each function).

Simplifications: `\d` and `\s` are restricted to ASCII; the parser tokens are
the defaults `* / ( ) ^`; powers of a coefficient other than 1 to a non-integer
exponent (where Python goes through the C library's `pow`) give `Err.inexact`,
meaning "outside the model".
-/

namespace Eprem.Symbolic

/-- Python strings as lists of characters. -/
abbrev Str := List Char

/-- The exceptions that can leave the modelled functions. -/
inductive Err
  | typeError
  | zeroDivision
  | operatorWithoutOperand
  | failedToParse
  | ratioError
  | productError
  | notImplemented
  /-- outside the model: C-library `pow` at a non-integer exponent -/
  | inexact
  /-- artefact of the fuel argument; proved unreachable from `parse` -/
  | fuel
  deriving DecidableEq, Repr

/-- The base string of a constant term (`_operand.py` 73). -/
def one : Str := ['1']

/-! ## Terms -/

/-- `symbolic.Term` / `symbolic.Operand` (`_operand.py` 20-107).  `isTerm`
distinguishes the subclass `Term` (irreducible base) from a plain `Operand`. -/
structure Operand where
  isTerm : Bool
  coeff : Rat
  base : Str
  exp : Rat
  deriving DecidableEq, Repr

/-- A `symbolic.Term`. -/
structure Term where
  coeff : Rat
  base : Str
  exp : Rat
  deriving DecidableEq, Repr

/-- `x or 1` on a number: Python's falsy zero becomes one. -/
def orOne (q : Rat) : Rat := if q = 0 then 1 else q

/-- `x or '1'` on a string. -/
def orOneStr (s : Str) : Str := if s = [] then one else s

/-- `Operand.__init__` (`_operand.py` 65-76), for `Term`. -/
def mkTerm (c : Rat) (b : Str) (e : Rat) : Term :=
  ⟨orOne c, orOneStr b, orOne e⟩

/-- `Operand.__init__` (`_operand.py` 65-76), for either class. -/
def mkOperand (isTerm : Bool) (c : Rat) (b : Str) (e : Rat) : Operand :=
  ⟨isTerm, orOne c, orOneStr b, orOne e⟩

/-- `Fraction ** p` for a rational `p`, as in `fractions.Fraction.__pow__`: exact
for integer `p`; otherwise through floats (only `1 ** p` is modelled). -/
def fracPow (c p : Rat) : Except Err Rat :=
  if p.den = 1 then
    if c = 0 ∧ p.num < 0 then .error .zeroDivision else .ok (c ^ p.num)
  else if c = 1 then .ok 1
  else .error .inexact

/-- `Operand.__pow__` (`_operand.py` 83-87) with an exact (int or Fraction)
power. -/
def Operand.pow (o : Operand) (p : Rat) : Except Err Operand := do
  let c ← fracPow o.coeff p
  return mkOperand o.isTerm c o.base (o.exp * p)

/-- `Operand.__pow__` (`_operand.py` 83-87) for a `Term` and an exact power. -/
def Term.pow (t : Term) (p : Rat) : Except Err Term := do
  let c ← fracPow t.coeff p
  return mkTerm c t.base (t.exp * p)

/-- `operand ** 0.5` (`_parser.py` 239; `_operand.py` 83-87): the exponent is
multiplied as a float. -/
def Operand.sqrt (o : Operand) : Except Err Operand := do
  let c ← if o.coeff = 1 then .ok 1 else .error .inexact
  return mkOperand o.isTerm c o.base (fl o.exp / 2)

/-- `pow(term, float(p))` as in `Expression.__pow__` (`_expression.py` 220-223):
both `Fraction ** float` and `Fraction * float` produce floats.  Simplification:
the C library's `pow` at an integral power is taken to be correctly rounded. -/
def Term.fpow (t : Term) (p : Rat) : Except Err Term :=
  let e := fl (fl t.exp * p)
  if p.den = 1 then
    if fl t.coeff = 0 ∧ p < 0 then .error .zeroDivision
    else .ok (mkTerm (fl (fl t.coeff ^ p.num)) t.base e)
  else if t.coeff = 1 then .ok (mkTerm 1 t.base e)
  else .error .inexact

/-! ## Reduction -/

/-- One step of the dictionary loop in `reduce` (`_expression.py` 413-424):
`reduced[t.base]` is updated in place or appended (insertion order). -/
def accum : List Term → Term → List Term
  | [], t => [t]
  | x :: xs, t =>
    if x.base = t.base then
      { x with coeff := x.coeff * t.coeff, exp := x.exp + t.exp } :: xs
    else x :: accum xs t

/-- Python's `<=` on strings: lexicographic by code point. -/
def strLe : Str → Str → Bool
  | [], _ => true
  | _ :: _, [] => false
  | a :: as, b :: bs => if a.toNat < b.toNat then true
      else if b.toNat < a.toNat then false else strLe as bs

/-- Insert into an ordered list in front of the first element that is not
smaller. -/
def insertBy (le : Term → Term → Bool) (a : Term) : List Term → List Term
  | [] => [a]
  | b :: l => if le a b then a :: b :: l else b :: insertBy le a l

/-- Python's stable `sorted` (modelled by insertion sort: every stable sort gives
the same list). -/
def sortBy (le : Term → Term → Bool) : List Term → List Term
  | [] => []
  | a :: l => insertBy le a (sortBy le l)

/-- The doubly sorted list of variable terms (`_expression.py` 429-439): first by
base, then stably by exponent with `reverse=True` (which keeps the order of
equal elements). -/
def sortedVars (tmp : List Term) : List Term :=
  sortBy (fun a b => decide (b.exp ≤ a.exp)) (sortBy (fun a b => strLe a.base b.base) tmp)

/-- `reduce` (`_expression.py` 397-445).  `functools.reduce` of an empty list
raises `TypeError`.  Simplification: base validation in `term_factory` is
omitted because every base comes from an existing `Term`. -/
def reduce (ts : List Term) : Except Err (List Term) :=
  if ts = [] then .error .typeError
  else
    let reduced := ts.foldl accum []
    let c := (reduced.map Term.coeff).foldl (· * ·) 1
    let tmp := (reduced.filter (fun t => decide (t.base ≠ one ∧ t.exp ≠ 0))).map
      (fun t => mkTerm 1 t.base t.exp)
    let vars := sortedVars tmp
    let constant := mkTerm c one 1
    if vars = [] then .ok [constant]
    else if c = 1 then .ok vars
    else .ok (constant :: vars)

/-! ## Tokenizer -/

/-- `\d`, restricted to ASCII. -/
def isDigit (c : Char) : Bool := decide ('0'.toNat ≤ c.toNat ∧ c.toNat ≤ '9'.toNat)

/-- `[a-zA-Z#_]` (`_operand.py` 125). -/
def isLetter (c : Char) : Bool :=
  decide (('a'.toNat ≤ c.toNat ∧ c.toNat ≤ 'z'.toNat) ∨
    ('A'.toNat ≤ c.toNat ∧ c.toNat ≤ 'Z'.toNat) ∨ c = '#' ∨ c = '_')

/-- `\s` and `str.strip`, restricted to ASCII. -/
def isSpace (c : Char) : Bool :=
  decide (c = ' ' ∨ (9 ≤ c.toNat ∧ c.toNat ≤ 13) ∨ (28 ≤ c.toNat ∧ c.toNat ≤ 31))

/-- The value of a digit character. -/
def digitVal (c : Char) : Nat := c.toNat - '0'.toNat

/-- The number written by a list of decimal digits. -/
def natVal (ds : Str) : Nat := ds.foldl (fun acc c => 10 * acc + digitVal c) 0

/-- A token matched by `OperandFactory.rational` (`_operand.py` 112-122). -/
inductive Num
  /-- numerator `/` denominator -/
  | frac (neg : Bool) (num den : Str)
  /-- integer part, fractional digits, decimal exponent -/
  | dec (neg : Bool) (int frac : Str) (eneg : Bool) (e : Str)
  deriving DecidableEq, Repr

/-- Apply a sign. -/
def signed (neg : Bool) (q : Rat) : Rat := if neg then -q else q

/-- `fractions.Fraction(string)` on a matched token. -/
def Num.value : Num → Except Err Rat
  | .frac neg n d =>
    if natVal d = 0 then .error .zeroDivision
    else .ok (signed neg ((natVal n : Rat) / (natVal d : Rat)))
  | .dec neg n f eneg e =>
    let m : Rat := ((natVal (n ++ f) : Nat) : Rat) / ((10 ^ f.length : Nat) : Rat)
    let s : Rat := ((10 ^ natVal e : Nat) : Rat)
    .ok (signed neg (if eneg then m / s else m * s))

/-- `[-+]?` -/
def takeSign : Str → Bool × Str
  | '-' :: s => (true, s)
  | '+' :: s => (false, s)
  | s => (false, s)

/-- `(?=\d|\.\d)` -/
def startsNumber : Str → Bool
  | [] => false
  | [c] => isDigit c
  | c :: d :: _ => isDigit c || (c == '.' && isDigit d)

/-- `(?:[eE][-+]?\d+)`: sign, digits and the remainder. -/
def takeExp : Str → Option (Bool × Str × Str)
  | [] => none
  | c :: s =>
    if c = 'e' ∨ c = 'E' then
      let (neg, r) := takeSign s
      let ds := r.takeWhile isDigit
      if ds = [] then none else some (neg, ds, r.dropWhile isDigit)
    else none

/-- `(?:\.\d*)?` -/
def takeFrac : Str → Str × Str
  | '.' :: s => (s.takeWhile isDigit, s.dropWhile isDigit)
  | s => ([], s)

/-- The pattern `rational` (`_operand.py` 112-122) when nothing that must match
follows it.  The denominator `\d+?` is lazy, so exactly one digit is taken. -/
def matchRational (s : Str) : Option (Num × Str) :=
  let (neg, s1) := takeSign s
  if startsNumber s1 then
    let n := s1.takeWhile isDigit
    let r := s1.dropWhile isDigit
    match r with
    | '/' :: d :: r' =>
      if isDigit d then some (.frac neg n [d], r')
      else some (.dec neg n [] false [], r)
    | _ =>
      let (f, r1) := takeFrac r
      match takeExp r1 with
      | some (eneg, e, r2) => some (.dec neg n f eneg e, r2)
      | none => some (.dec neg n f false [], r1)
  else none

/-- `\^` followed by `rational`, optional (`_operand.py` 136, `(?P<exponent>..)?`). -/
def matchExponent : Str → Option Num × Str
  | '^' :: s =>
    match matchRational s with
    | some (n, r) => (some n, r)
    | none => (none, '^' :: s)
  | s => (none, s)

/-- Does the string start with a base character? -/
def startsLetter : Str → Bool
  | [] => false
  | c :: _ => isLetter c

/-- The optional coefficient of the pattern `variable`: `rational` when a base
must follow.  Backtracking then extends the lazy denominator to all its digits,
and gives up a decimal exponent that is not followed by a letter. -/
def matchCoefficient (s : Str) : Option (Option Num × Str) :=
  let (neg, s1) := takeSign s
  if startsNumber s1 then
    let n := s1.takeWhile isDigit
    let r := s1.dropWhile isDigit
    match r with
    | '/' :: r0 =>
      let d := r0.takeWhile isDigit
      let r' := r0.dropWhile isDigit
      if d ≠ [] ∧ startsLetter r' then some (some (.frac neg n d), r') else none
    | _ =>
      let (f, r1) := takeFrac r
      match takeExp r1 with
      | some (eneg, e, r2) =>
        if startsLetter r2 then some (some (.dec neg n f eneg e), r2)
        else if startsLetter r1 then some (some (.dec neg n f false []), r1)
        else none
      | none =>
        if startsLetter r1 then some (some (.dec neg n f false []), r1) else none
  else if startsLetter s then some (none, s)
  else none

/-- A matched variable: optional coefficient, base, optional exponent. -/
structure VarMatch where
  coeff : Option Num
  base : Str
  exp : Option Num
  rest : Str
  deriving DecidableEq, Repr

/-- The pattern `variable` in `match` mode (`_operand.py` 143-148). -/
def matchVariable (s : Str) : Option VarMatch :=
  match matchCoefficient s with
  | none => none
  | some (c, r) =>
    let letters := r.takeWhile isLetter
    let r1 := r.dropWhile isLetter
    let digits := r1.takeWhile isDigit
    let r2 := r1.dropWhile isDigit
    let (e, r3) := matchExponent r2
    some ⟨c, letters ++ digits, e, r3⟩

/-- The pattern `constant` in `match` mode (`_operand.py` 138-142). -/
def matchConstant (s : Str) : Option (Num × Option Num × Str) :=
  match matchRational s with
  | none => none
  | some (c, r) =>
    let (e, r1) := matchExponent r
    some (c, e, r1)

/-- The value of an optional number, default 1 (`standardize`, `_operand.py`
569-607; a `None` group is replaced by the default). -/
def numOr1 : Option Num → Except Err Rat
  | none => .ok 1
  | some n => n.value

/-- `_build_variable` (`_operand.py` 445-451). -/
def buildVariable (m : VarMatch) : Except Err Operand := do
  let c ← numOr1 m.coeff
  let e ← numOr1 m.exp
  return mkOperand true c m.base e

/-- `_build_constant` (`_operand.py` 453-460): note the conversion to float. -/
def buildConstant (c : Num) (e : Option Num) : Except Err Operand := do
  let c ← c.value
  let e ← numOr1 e
  let v ← fracPow c e
  return mkOperand true (fl v) one 1

/-- `_match_simplex` in `match` mode (`_operand.py` 400-428).  Both matches are
prefixes of the same string, so they are the same text when they leave the same
remainder. -/
def matchSimplex (s : Str) : Option (Except Err Operand × Str) :=
  match matchVariable s, matchConstant s with
  | none, none => none
  | some v, some (c, e, r) =>
    if v.rest.length = r.length then some (buildConstant c e, r)
    else some (buildVariable v, v.rest)
  | some v, none => some (buildVariable v, v.rest)
  | none, some (c, e, r) => some (buildConstant c e, r)

/-- The loop of `find_bounds` (`_operand.py` 555-567): position, whether an
opening separator was seen, nesting count, position of the first opening. -/
def findBoundsAux : Str → Nat → Bool → Int → Nat → Option (Nat × Nat)
  | [], _, _, _, _ => none
  | c :: s, i, init, count, i0 =>
    let (init', count', i0') :=
      if c = '(' then (true, count + 1, if init then i0 else i)
      else if c = ')' then (init, count - 1, i0)
      else (init, count, i0)
    if init' ∧ count' = 0 then some (i0', i + 1)
    else findBoundsAux s (i + 1) init' count' i0'

/-- `OperandFactory.find_bounds` (`_operand.py` 491-567). -/
def findBounds (s : Str) : Option (Nat × Nat) := findBoundsAux s 0 false 0 0

/-- `_match_complex` in `match` mode (`_operand.py` 462-489).  It is only called
when `_match_simplex` failed on the same string, hence `_match_simplex(target[:i0],
'fullmatch')` can not succeed (a full match of a prefix would be a match of the
string) and the coefficient branch is not reached from `Parser`. -/
def matchComplex (s : Str) : Option (Except Err Operand × Str) :=
  match findBounds s with
  | none => none
  | some (i0, e0) =>
    if i0 ≠ 0 then none
    else
      let base := (s.take (e0 - 1)).drop 1
      let (e, r) := matchExponent (s.drop e0)
      some ((do let e ← numOr1 e
                return mkOperand false 1 base e), r)

/-- `str.strip()`. -/
def strip (s : Str) : Str :=
  ((s.dropWhile isSpace).reverse.dropWhile isSpace).reverse

/-- `OperandFactory.parse` and `search` (`_operand.py` 354-398). -/
def parseOperand (s : Str) : Option (Except Err Operand × Str) :=
  let t := strip s
  match matchSimplex t with
  | some m => some m
  | none => matchComplex t

/-- The operations of `_operator.py` 44-51. -/
inductive Operator
  | multiply | divide | sqrt
  deriving DecidableEq, Repr

/-- `\s*X\s*(?!Y)` at the start of a string (`_operator.py` 44-50).  When `Y`
follows the white space, the greedy `\s*` gives back one character, if it has
one.  (The look-behind is vacuous at the start of the string.) -/
def matchOp (x y : Char) (s : Str) : Option Str :=
  match s.dropWhile isSpace with
  | [] => none
  | c :: r =>
    if c = x then
      let ws := r.takeWhile isSpace
      let r' := r.dropWhile isSpace
      if r'.head? = some y then
        match ws.getLast? with
        | none => none
        | some w => some (w :: r')
      else some r'
    else none

/-- `\s*sqrt\s*` (`_operator.py` 51). -/
def matchSqrt (s : Str) : Option Str :=
  match s.dropWhile isSpace with
  | 's' :: 'q' :: 'r' :: 't' :: r => some (r.dropWhile isSpace)
  | _ => none

/-- `OperatorFactory.parse` (`_operator.py` 54-62): first pattern that matches. -/
def parseOperator (s : Str) : Option (Operator × Str) :=
  match matchOp '*' '/' s with
  | some r => some (.multiply, r)
  | none =>
    match matchOp '/' '*' s with
    | some r => some (.divide, r)
    | none =>
      match matchSqrt s with
      | some r => some (.sqrt, r)
      | none => none

/-! ## Parser -/

/-- `_operator_error` (`_parser.py` 198-225). -/
def operatorError (strict : Bool) (cur : Operator) (prev : Option Operator) :
    Option Err :=
  if strict then
    if prev = some .divide then
      match cur with
      | .divide => some .ratioError
      | .multiply => some .productError
      | .sqrt => none
    else none
  else none

/-- `_evaluate` (`_parser.py` 227-240). -/
def evaluate (op : Operator) (o : Operand) : Except Err Operand :=
  match op with
  | .multiply => .ok o
  | .divide => o.pow (-1)
  | .sqrt => o.sqrt

/-- The loop of `_parse_operand` (`_parser.py` 139-196) with `_get_operator`,
`_get_operand` and `_compute_operand` inlined.  `e` is `initial.exponent`. -/
def parseLoop (strict : Bool) (e : Rat) :
    Nat → Option Operator → Str → Except Err (List Operand)
  | 0, _, s => if s = [] then .ok [] else .error .fuel
  | fuel + 1, prev, s =>
    if s = [] then .ok []
    else do
      let (op, s1) ←
        match parseOperator s with
        | some (op, r) =>
          match operatorError strict op prev with
          | some err => .error err
          | none => .ok (some op, r)
        | none => .ok (none, s)
      match parseOperand s1 with
      | some (o, r) =>
        let o ← o
        let o ← o.pow e
        let new ← match op with
          | some op => evaluate op o
          | none => .ok o
        let rest ← parseLoop strict e fuel op r
        return new :: rest
      | none =>
        match op with
        | some _ => .error .operatorWithoutOperand
        | none => .error .failedToParse

/-- Apply a partial function to all members and concatenate. -/
def concatMapM (f : Operand → Except Err (List Term)) :
    List Operand → Except Err (List Term)
  | [] => .ok []
  | o :: os => do
    let a ← f o
    let b ← concatMapM f os
    return a ++ b

/-- `_resolve_operations` and `_update_terms` (`_parser.py` 129-137, 242-248). -/
def resolve (strict : Bool) : Nat → Operand → Except Err (List Term)
  | 0, _ => .error .fuel
  | fuel + 1, cur => do
    let operands ← parseLoop strict cur.exp cur.base.length none cur.base
    let terms ← concatMapM
      (fun o => if o.isTerm then .ok [⟨o.coeff, o.base, o.exp⟩] else resolve strict fuel o)
      operands
    return terms ++ [mkTerm cur.coeff one 1]

/-- `Parser.parse` (`_parser.py` 124-127).  The fuel is the length of the string
plus two: each nesting level is at least two characters shorter. -/
def parse (strict : Bool) (s : Str) : Except Err (List Term) :=
  let o := mkOperand false 1 s 1
  resolve strict (o.base.length + 2) o

/-! ## Formatting -/

/-- Decimal digits of a natural number (`str(int)`); `fuel` bounds the number of
digits. -/
def showNatAux : Nat → Nat → Str
  | 0, _ => []
  | fuel + 1, n =>
    if n < 10 then [Char.ofNat (48 + n)]
    else showNatAux fuel (n / 10) ++ [Char.ofNat (48 + n % 10)]

/-- `str(n)` for a natural number. -/
def showNat (n : Nat) : Str := showNatAux (n + 1) n

/-- `str(int)`. -/
def showInt (z : Int) : Str := if z < 0 then '-' :: showNat z.natAbs else showNat z.natAbs

/-- `str(fractions.Fraction)`. -/
def showRat (q : Rat) : Str :=
  if q.den = 1 then showInt q.num else showInt q.num ++ '/' :: showNat q.den

/-- `_format_coefficient` (`_operand.py` 722-738).  The test
`float(c) == int(c)` is modelled by `c` being an integer (a non-integer that
rounds to an integer as a float would be printed truncated; this needs more
than 53 significant bits). -/
def formatCoefficient (t : Term) : Str :=
  if t.base ≠ one ∧ t.coeff = 1 then []
  else if t.base ≠ one ∧ t.coeff.den ≠ 1 then '(' :: showRat t.coeff ++ [')']
  else showRat t.coeff

/-- `Term.format` without style (`_operand.py` 696-720, 740-750). -/
def formatTerm (t : Term) : Str :=
  if t.base = one then formatCoefficient t
  else formatCoefficient t ++ t.base ++ (if t.exp = 1 then [] else '^' :: showRat t.exp)

/-- `standard(iterable, joiner='*')` (`_expression.py` 348-383). -/
def standard : List Term → Str
  | [] => []
  | [t] => '(' :: formatTerm t ++ [')']
  | t :: ts => '(' :: formatTerm t ++ [')', '*'] ++ standard ts

/-! ## Expressions -/

/-- `expression_factory(string)` (`_expression.py` 334-345, 365-394): the empty string is null, so that it is not parsed and
the expression has no terms. -/
def exprOfString (strict : Bool) (s : Str) : Except Err (List Term) :=
  if s = [] then .ok []
  else do
    let ts ← parse strict s
    reduce ts

/-- `expression_factory(terms)` for a list of terms, as used by the operators
(`_expression.py` 334-345): format, join, parse and reduce. -/
def exprOfTerms (ts : List Term) : Except Err (List Term) :=
  exprOfString false (standard ts)

/-- `Expression.__mul__` on two expressions (`_expression.py` 179-190). -/
def exprMul (a b : List Term) : Except Err (List Term) := do
  if b = [] then .error .notImplemented else pure ()
  let r ← reduce (a ++ b)
  exprOfTerms r

/-- Apply a partial function to every term. -/
def mapTerms (f : Term → Except Err Term) : List Term → Except Err (List Term)
  | [] => .ok []
  | t :: ts => do
    let a ← f t
    let b ← mapTerms f ts
    return a :: b

/-- `Expression.__truediv__` on two expressions (`_expression.py` 196-207). -/
def exprDiv (a b : List Term) : Except Err (List Term) := do
  if b = [] then .error .notImplemented else pure ()
  let inv ← mapTerms (fun t => t.pow (-1)) b
  let r ← reduce (a ++ inv)
  exprOfTerms r

/-- `Expression.__pow__` (`_expression.py` 213-224); `p` is the value of
`float(exp)`. -/
def exprPow (a : List Term) (p : Rat) : Except Err (List Term) := do
  if p = 0 then .error .notImplemented else pure ()
  let ts ← mapTerms (fun t => t.fpow p) a
  let r ← reduce ts
  exprOfTerms r

/-- `Expression.__eq__` (`_expression.py` 158-177): same number of terms and equal
lists after sorting by base, exponent and coefficient.  `Operand.__eq__`
(`_operand.py` 96-105) compares exponent and coefficient as floats. -/
def termEq (a b : Term) : Bool :=
  a.base = b.base ∧ fl a.exp = fl b.exp ∧ fl a.coeff = fl b.coeff

/-- Sort key `('base', 'exponent', 'coefficient')` (`_expression.py` 176). -/
def keyLe (a b : Term) : Bool :=
  if a.base = b.base then
    if a.exp = b.exp then a.coeff ≤ b.coeff else a.exp ≤ b.exp
  else strLe a.base b.base

/-- `Expression.__eq__` (`_expression.py` 158-177). -/
def exprEq (a b : List Term) : Bool :=
  a.length = b.length ∧
    ((sortBy keyLe a).zip (sortBy keyLe b)).all (fun p => termEq p.1 p.2)

end Eprem.Symbolic
