import Verif.Model.Symbolic

/-!
# Operands and terms as the user creates them

Model of `OperandFactory.create` with its argument forms, of `symbolic.term`,
and of what a `Term` does when it is called, cast, formatted or compared
(`symbolic/_operand.py`).  Numbers are exact (`int` or `Fraction`).
-/

namespace Eprem.Symbolic

/-- The exceptions of this part. -/
inductive TermErr
  /-- `OperandTypeError` -/
  | operandType
  /-- `OperandValueError` -/
  | operandValue
  | typeError
  | valueError
  | zeroDivision
  /-- outside the model: C-library `pow` at a non-integer exponent, or fuel -/
  | inexact
  deriving DecidableEq, Repr

/-- The exceptions of the tokenizer, seen from here. -/
def TermErr.of : Err → TermErr
  | .zeroDivision => .zeroDivision
  | .typeError => .typeError
  | _ => .inexact

/-- Lift a result of the tokenizer. -/
def lift {α : Type} : Except Err α → Except TermErr α
  | .ok a => .ok a
  | .error e => .error (.of e)

/-! ## Matching the whole text -/

/-- The pattern `rational` (`_operand.py` 126-137) in `fullmatch` mode: the lazy
denominator extends to all the digits. -/
def fullRational (s : Str) : Option Num :=
  let (neg, s1) := takeSign s
  if startsNumber s1 then
    let n := s1.takeWhile isDigit
    let r := s1.dropWhile isDigit
    match r with
    | '/' :: d => if !d.isEmpty && d.all isDigit then some (.frac neg n d) else none
    | _ =>
      let (f, r1) := takeFrac r
      match takeExp r1 with
      | some (eneg, e, r2) => if r2.isEmpty then some (.dec neg n f eneg e) else none
      | none => if r1.isEmpty then some (.dec neg n f false []) else none
  else none

/-- The optional exponent (`(?P<exponent>…)?`, `_operand.py` 148-166) when the text
must end after it. -/
def fullExponent : Str → Option (Option Num)
  | [] => some none
  | '^' :: s => (fullRational s).map some
  | _ => none

/-- The pattern `variable` (`_operand.py` 155-160) in `fullmatch` mode. -/
def fullVariable (s : Str) : Option VarMatch :=
  match matchCoefficient s with
  | none => none
  | some (c, r) =>
    let letters := r.takeWhile isLetter
    let r1 := r.dropWhile isLetter
    let digits := r1.takeWhile isDigit
    match fullExponent (r1.dropWhile isDigit) with
    | none => none
    | some e => some ⟨c, letters ++ digits, e, []⟩

/-- Not the raising operator. -/
def notCaret (c : Char) : Bool := c != '^'

/-- The pattern `constant` (`_operand.py` 150-154) in `fullmatch` mode; a rational
has no `^` in it. -/
def fullConstant (s : Str) : Option (Num × Option Num) :=
  match fullRational (s.takeWhile notCaret), fullExponent (s.dropWhile notCaret) with
  | some c, some e => some (c, e)
  | _, _ => none

/-- `_match_simplex` in `fullmatch` mode (`_operand.py` 400-428): when both patterns
match they match the same text, which is then a constant. -/
def fullSimplex (s : Str) : Option (Except Err Operand) :=
  match fullConstant s with
  | some (c, e) => some (buildConstant c e)
  | none => (fullVariable s).map buildVariable

/-- The coefficient of a complex operand (`_operand.py` 471-474): that of whatever
operand the text before the group is, or none. -/
def prefixCoefficient (s : Str) : Option (Except Err Rat) :=
  (fullSimplex s).map fun m => m.map Operand.coeff

/-- `_match_complex` in `fullmatch` mode (`_operand.py` 462-489). -/
def fullComplex (s : Str) : Option (Except Err Operand) :=
  match findBounds s with
  | none => none
  | some (i0, e0) =>
    let body := (s.take (e0 - 1)).drop (i0 + 1)
    let (e, rest) := matchExponent (s.drop e0)
    match prefixCoefficient (s.take i0) with
    | some (.error x) => some (.error x)
    | some (.ok c) =>
      if rest.isEmpty = true then
        some (do let e ← numOr1 e
                 return mkOperand false c body e)
      else none
    | none =>
      if i0 = 0 ∧ rest.isEmpty = true then
        some (do let e ← numOr1 e
                 return mkOperand false 1 body e)
      else none

/-- `search(b, mode='fullmatch')` (`_operand.py` 373-398). -/
def searchFull (s : Str) : Option (Except Err Operand) :=
  match fullSimplex s with
  | some m => some m
  | none => fullComplex s

/-! ## Creating operands -/

/-- `term_factory` with keyword arguments that have already been checked
(`_operand.py` 832-841; `Operand.__init__`, 65-76). -/
def termOf (c : Rat) (b : Str) (e : Rat) : Operand := mkOperand true c b e

/-- Does the text begin or end with the raising operator? (`_operand.py` 313-315) -/
def caretEnds (s : Str) : Bool := s.head? == some '^' || s.getLast? == some '^'

/-- The end of `create` (`_operand.py` 325-351): apply the given coefficient and
exponent to the matched operand; `interior` is the operand found in its base. -/
def applyGiven (c0 e0 : Rat) (m : Operand) (interior : Except TermErr Operand) :
    Except TermErr Operand := do
  let p ← lift (fracPow m.coeff e0)
  let c := c0 * p
  let e := m.exp * e0
  if m.isTerm then return termOf c m.base e
  else
    let i ← interior
    if i.isTerm then
      let q ← lift (fracPow i.coeff e)
      return termOf (c * q) i.base (e * i.exp)
    else return mkOperand false c m.base e

/-- `create` after `normalize` (`_operand.py` 312-351), not strict.  `fuel` bounds the
nesting of the recursive call on the base, which is shorter than the text. -/
def createFrom : Nat → Rat → Str → Rat → Except TermErr Operand
  | 0, _, _, _ => .error .inexact
  | fuel + 1, c0, b0, e0 =>
    if caretEnds b0 then .error .operandValue
    else
      match searchFull b0 with
      | none => .ok (mkOperand false c0 b0 e0)
      | some m => do
        let o ← lift m
        applyGiven c0 e0 o (createFrom fuel 1 o.base 1)

/-- An argument of `create`. -/
inductive TArg
  /-- an `int` or a `Fraction` -/
  | real (q : Rat)
  | text (s : Str)
  /-- any other object, with its `str` -/
  | other (shown : Str)
  deriving DecidableEq, Repr

/-- `Fraction(text)`: the pattern `rational` between blanks (underscores between
digits, which Python also accepts, are not modelled). -/
def fractionOf (s : Str) : Except TermErr Rat :=
  match fullRational (strip s) with
  | none => .error .valueError
  | some n => lift n.value

/-- `_standard_coefficient` (`_operand.py` 587-589). -/
def standardCoefficient : TArg → Except TermErr Rat
  | .real q => .ok (orOne q)
  | .text s => if s.isEmpty then .ok 1 else fractionOf s
  | .other _ => .error .typeError

/-- `_standard_base` (`_operand.py` 591-593); a falsy base is the default. -/
def standardBase : TArg → Str
  | .real q => if q = 0 then one else showRat q
  | .text s => orOneStr s
  | .other s => s

/-- `_standard_exponent` (`_operand.py` 595-599): every `^` is removed from a text. -/
def standardExponent : TArg → Except TermErr Rat
  | .real q => .ok (orOne q)
  | .text s =>
    if s.isEmpty then .ok 1
    else if (s.filter notCaret).isEmpty then .ok 1
    else fractionOf (s.filter notCaret)
  | .other _ => .error .typeError

/-- `normalize` (`_operand.py` 184-264): the forms of one, two and three arguments. -/
def normalizeArgs : List TArg → Except TermErr (Rat × Str × Rat)
  | [.text s] => .ok (1, orOneStr s, 1)
  | [.real q] => .ok (orOne q, one, 1)
  | [.real q, .text s] => .ok (orOne q, orOneStr s, 1)
  | [.real q, .real p] => .ok (orOne q, one, orOne p)
  | [.text s, .real p] => .ok (1, orOneStr s, orOne p)
  | [.text s, .text p] => do
    let e ← standardExponent (.text p)
    return (1, orOneStr s, e)
  | [c, b, e] => do
    let c ← standardCoefficient c
    let e ← standardExponent e
    return (c, standardBase b, e)
  | [_] => .error .operandType
  | [_, _] => .error .operandType
  | _ => .error .operandValue

/-- `OperandFactory().create(*args)` (`_operand.py` 266-351). -/
def create (args : List TArg) : Except TermErr Operand := do
  let (c, b, e) ← normalizeArgs args
  createFrom (b.length + 1) c b e

/-! ## `symbolic.term` -/

/-- `[a-zA-Z#_]+\d*` in `fullmatch` mode (`_operand.py` 658-661). -/
def isName (s : Str) : Bool :=
  startsLetter s && ((s.dropWhile isLetter).dropWhile isDigit).isEmpty

/-- `Term.base_is_valid` (`_operand.py` 662-667). -/
def baseIsValid (s : Str) : Bool := (fullRational s).isSome || isName s

/-- Keyword arguments of `symbolic.term`. -/
structure TermKw where
  coefficient : Option Rat := none
  base : Option Str := none
  exponent : Option Rat := none
  deriving DecidableEq, Repr

/-- No keyword argument was given. -/
def TermKw.isEmpty (k : TermKw) : Bool :=
  k.coefficient.isNone && k.base.isNone && k.exponent.isNone

/-- `_validate_term_base` (`_operand.py` 846-851), then the term. -/
def checkedTerm (c : Rat) (b : Str) (e : Rat) : Except TermErr Term :=
  if baseIsValid b then .ok (mkTerm c b e) else .error .valueError

/-- A term from keyword arguments only (`_operand.py` 832-841). -/
def termByName (k : TermKw) : Except TermErr Term :=
  match k.base with
  | none => .ok (mkTerm (k.coefficient.getD 1) one (k.exponent.getD 1))
  | some b => checkedTerm (k.coefficient.getD 1) b (k.exponent.getD 1)

/-- `Fraction(coefficient or 1)` in `Operand.__init__` (`_operand.py` 71, 75) for a
positional argument. -/
def asNumber : TArg → Except TermErr Rat
  | .real q => .ok q
  | .text s => if s.isEmpty then .ok 0 else fractionOf s
  | .other _ => .error .typeError

/-- The base of a term given by position: `base_is_valid(str(base))` is tested, then
the base itself is stored (`_operand.py` 821-831). Only text and other objects;
a number given as the base stays a number and is not modelled. -/
def positional (c : Rat) (b : TArg) (e : Rat) : Except TermErr Term :=
  match b with
  | .text s => checkedTerm c s e
  | .real _ => .error .inexact
  | .other s => if baseIsValid s then .error .inexact else .error .valueError

/-- `symbolic.term` (`term_factory`, `_operand.py` 815-844). -/
def term (args : List TArg) (k : TermKw) : Except TermErr Term :=
  match args with
  | [] => termByName k
  | [b] => if k.isEmpty then positional 1 b 1 else .error .typeError
  | [c, b, e] =>
    if k.isEmpty then do
      let t ← positional 1 b 1
      let c ← asNumber c
      let e ← asNumber e
      return mkTerm c t.base e
    else .error .typeError
  | _ => .error .typeError

/-! ## What a term does -/

/-- `Term.__call__` (`_operand.py` 669-694) at an exact number: `value ** exponent`
is exact when the exponent is an integer. -/
def Term.call (t : Term) (value : TArg) : Except TermErr Term :=
  match value with
  | .real v =>
    if t.base = one then .error .typeError
    else do
      let p ← lift (fracPow v t.exp)
      return mkTerm (t.coeff * p) one 1
  | _ => .error .typeError

/-- `Term.__float__` (`_operand.py` 756-767). -/
def Term.toFloat (t : Term) : Except TermErr Rat :=
  if t.base = one then .ok (fl t.coeff) else .error .typeError

/-- `Term.__int__` (`_operand.py` 752-767): `int(Fraction)` truncates. -/
def Term.toInt (t : Term) : Except TermErr Int :=
  if t.base = one then .ok (t.coeff.num.tdiv t.coeff.den) else .error .typeError

/-- `Operand.__eq__` (`_operand.py` 96-105). -/
def sameOperand (t : Term) (o : Operand) : Bool :=
  o.base = t.base ∧ fl o.exp = fl t.exp ∧ fl o.coeff = fl t.coeff

/-- `Term.__eq__` (`_operand.py` 769-775) with a number, a text or another object. -/
def Term.eqTo (t : Term) : TArg → Except TermErr Bool
  | .real q => do
    let f ← t.toFloat
    return decide (f = fl q)
  | .text s => do
    let o ← create [.text s]
    return sameOperand t o
  | .other _ => .ok false

/-- A formatting style contains `tex`, in any case. -/
def asksTex (style : Str) : Bool :=
  (style.map Char.toLower).tails.any fun s => ['t', 'e', 'x'].isPrefixOf s

/-- `_format_exponent` (`_operand.py` 742-750). -/
def formatExponent (t : Term) (style : Str) : Except TermErr Str :=
  if t.base = one ∨ t.exp = 1 then .ok []
  else if style.isEmpty then .ok ('^' :: showRat t.exp)
  else if asksTex style then .ok ('^' :: '{' :: showRat t.exp ++ ['}'])
  else .error .valueError

/-- `Term.format` (`_operand.py` 696-722); no style is the empty style. -/
def Term.formatAs (t : Term) (style : Str) : Except TermErr Str :=
  if t.base = one then .ok (formatCoefficient t)
  else do
    let e ← formatExponent t style
    if asksTex style then
      if t.base = ['#'] then return '$' :: formatCoefficient t ++ t.base ++ e ++ ['$']
      else return '$' :: formatCoefficient t ++ "\\mathrm{".toList ++ t.base ++ '}' :: e ++ ['$']
    else return formatCoefficient t ++ t.base ++ e

/-- `symbolic.asterms` (`_operand.py` 854-856). -/
def asTerms : List Str → Except TermErr (List Operand)
  | [] => .ok []
  | s :: ss => do
    let a ← create [.text s]
    let b ← asTerms ss
    return a :: b

end Eprem.Symbolic
