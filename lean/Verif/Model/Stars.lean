import Verif.Model.Symbolic

/-!
# Model of the parser with `raising='**'`: `symbolic/_operand.py`, `symbolic/_parser.py`

The tokens are inserted into regular expressions after a backslash: `\**` is zero or more asterisks.  The functions are those
of `Model/Symbolic.lean`, apart from the pattern for exponents; operators, bounds and numbers are the same.
-/

namespace Eprem.Symbolic.Stars

open Eprem.Symbolic

/-- `\**` followed by `rational`, optional (`_operand.py` 148).  The pattern `rational` can not start with an asterisk, so that
all asterisks are taken. -/
def matchExponent (s : Str) : Option Num × Str :=
  match matchRational (s.dropWhile (fun c => c == '*')) with
  | some (n, r) => (some n, r)
  | none => (none, s)

/-- The pattern `variable` in `match` mode (`_operand.py` 155-160). -/
def matchVariable (s : Str) : Option VarMatch :=
  match matchCoefficient s with
  | none => none
  | some (c, r) =>
    let letters := r.takeWhile isLetter
    let r1 := r.dropWhile isLetter
    let digits := r1.takeWhile isDigit
    let r2 := r1.dropWhile isDigit
    let (e, r3) := matchExponent r2
    some ⟨c, letters ++ digits, e, r3⟩

/-- The pattern `constant` in `match` mode (`_operand.py` 150-154). -/
def matchConstant (s : Str) : Option (Num × Option Num × Str) :=
  match matchRational s with
  | none => none
  | some (c, r) =>
    let (e, r1) := matchExponent r
    some (c, e, r1)

/-- `_match_simplex` in `match` mode (`_operand.py` 400-428). -/
def matchSimplex (s : Str) : Option (Except Err Operand × Str) :=
  match matchVariable s, matchConstant s with
  | none, none => none
  | some v, some (c, e, r) =>
    if v.rest.length = r.length then some (buildConstant c e, r)
    else some (buildVariable v, v.rest)
  | some v, none => some (buildVariable v, v.rest)
  | none, some (c, e, r) => some (buildConstant c e, r)

/-- `_match_complex` in `match` mode (`_operand.py` 462-489). -/
def matchComplex (s : Str) : Option (Except Err Operand × Str) :=
  match findBounds s with
  | none => none
  | some (i0, e0) =>
    if i0 ≠ 0 then none
    else
      let base := (s.take (e0 - 1)).drop 1
      let (e, r) := matchExponent (s.drop e0)
      some ((do let e ← numOr1 e
                return mkOperand false 1 base e), r)

/-- `OperandFactory.parse` and `search` (`_operand.py` 354-398). -/
def parseOperand (s : Str) : Option (Except Err Operand × Str) :=
  let t := strip s
  match matchSimplex t with
  | some m => some m
  | none => matchComplex t

/-- The loop of `_parse_operand` (`_parser.py` 139-196); the order of operators is ignored. -/
def parseLoop (e : Rat) : Nat → Str → Except Err (List Operand)
  | 0, s => if s = [] then .ok [] else .error .fuel
  | fuel + 1, s =>
    if s = [] then .ok []
    else
      let (op, s1) := match parseOperator s with
        | some (op, r) => (some op, r)
        | none => (none, s)
      match parseOperand s1 with
      | some (o, r) => do
        let o ← o
        let o ← o.pow e
        let new ← match op with
          | some op => evaluate op o
          | none => .ok o
        let rest ← parseLoop e fuel r
        return new :: rest
      | none =>
        match op with
        | some _ => .error .operatorWithoutOperand
        | none => .error .failedToParse

/-- `_resolve_operations` and `_update_terms` (`_parser.py` 129-137, 242-248). -/
def resolve : Nat → Operand → Except Err (List Term)
  | 0, _ => .error .fuel
  | fuel + 1, cur => do
    let operands ← parseLoop cur.exp cur.base.length cur.base
    let terms ← concatMapM (fun o => if o.isTerm then .ok [⟨o.coeff, o.base, o.exp⟩] else resolve fuel o) operands
    return terms ++ [mkTerm cur.coeff one 1]

/-- `symbolic.expression(string, raising='**')` (`_expression.py` 334-345, 365-394; `_parser.py` 124-127). -/
def expression (s : Str) : Except Err (List Term) :=
  if s = [] then .ok []
  else do
    let o := mkOperand false 1 s 1
    let ts ← resolve (o.base.length + 2) o
    reduce ts

end Eprem.Symbolic.Stars
