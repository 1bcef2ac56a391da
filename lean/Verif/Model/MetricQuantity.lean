import Verif.Model.Metric

/-!
# Model of `metric/_defined.py`: quantities, named units, reductions

The singleton registries and per-instance caches of the package are left out here: every function below computes what
a fresh object would.  `NamedUnit(string)` resolves a string with `named`; see `Model/MetricCache.lean` for the registry.
-/

namespace Eprem.Metric

open Eprem Eprem.Symbolic

/-- Exceptions of the metric package. -/
inductive MErr
  /-- raised by `symbolic` -/
  | symbolic (e : Symbolic.Err)
  /-- `UnitParsingError` -/
  | unitParsing
  /-- `SystemAmbiguityError` -/
  | systemAmbiguity
  /-- `UnitConversionError` -/
  | conversion
  /-- `ValueError` -/
  | value
  /-- `KeyError` -/
  | key
  /-- `RecursionError` -/
  | recursion
  deriving DecidableEq, Repr

/-- Lift an exception of `symbolic`. -/
def ofSym {α : Type} : Except Symbolic.Err α → Except MErr α
  | .ok a => .ok a
  | .error e => .error (.symbolic e)

/-- Which property of a quantity: `'dimensions'` or `'units'`. -/
inductive Prop_
  | dimensions | units
  deriving DecidableEq

/-- `q[key][system]` for a `dict` entry (`_defined.py` 91-93). -/
def QEntry.get (key : Prop_) (s : System) : QEntry → Option Name
  | .compound _ => none
  | .defined dm dc um uc =>
    match key, s with
    | .dimensions, .mks => some dm
    | .dimensions, .cgs => some dc
    | .units, .mks => some um
    | .units, .cgs => some uc

/-- `str.replace(old, new)` for a non-empty `old`; the first argument bounds the number of steps. -/
def replaceAux (old new : Name) : Nat → Name → Name
  | 0, s => s
  | _ + 1, [] => []
  | n + 1, c :: s =>
    match strip? old (c :: s) with
    | some rest => new ++ replaceAux old new n rest
    | none => c :: replaceAux old new n s

/-- `str.replace` -/
def replace (old new s : Name) : Name := replaceAux old new (s.length + 1) s

/-- `k.replace(' ', '_')` -/
def underscore (k : Name) : Name := k.map (fun c => if c = ' ' then '_' else c)

/-- `base.replace('_', ' ')` -/
def spaces (k : Name) : Name := k.map (fun c => if c = '_' then ' ' else c)

/-- `for k in _QUANTITIES: string = string.replace(k, k.replace(' ', '_'))` (`_defined.py` 100-101). -/
def markNames (s : Name) : Name :=
  quantities.foldl (fun s p => if ' ' ∈ p.1 then replace p.1 (underscore p.1) s else s) s

/-- The operand of a term of a compound quantity (`_defined.py` 116-122), as written inside an expression.
`OperandFactory.create` omits the parentheses around a simple `v`; the parser reads both alike. -/
def operandText (v : Name) (e : ℚ) : Name :=
  '(' :: ((if e = 1 then v else '(' :: v ++ [')', '^'] ++ showRat e) ++ [')'])

/-- `str(expression)` (`_expression.py` 67-87). -/
def showExpr : List Term → Name
  | [] => []
  | [t] => formatTerm t
  | t :: ts => formatTerm t ++ ' ' :: showExpr ts

/-- Join with `*`. -/
def joinStar : List Name → Name
  | [] => []
  | [s] => s
  | s :: ss => s ++ '*' :: joinStar ss

/-- Apply a partial function to all members. -/
def mapE {α β ε : Type} (f : α → Except ε β) : List α → Except ε (List β)
  | [] => .ok []
  | a :: l => match f a with
    | .error e => .error e
    | .ok b => match mapE f l with
      | .error e => .error e
      | .ok bs => .ok (b :: bs)

/-- `_Property.__getitem__(quantity)[system]`, `_get_property`, `_parse` and `_expand` (`_defined.py` 66-122).  An
unknown name is parsed as an expression in itself, and Python recurses until it raises `RecursionError`; here the
recursion is cut off by the first argument. -/
def property (key : Prop_) (s : System) : Nat → Name → Except MErr Name
  | 0, _ => .error .recursion
  | n + 1, q =>
    let parse (string : Name) : Except MErr Name := do
      let terms ← ofSym (exprOfString false (markNames string))
      let parts ← mapE (fun t : Term => (property key s n (spaces t.base)).map (fun v => operandText v t.exp)) terms
      let e ← ofSym (exprOfString false (joinStar parts))
      return showExpr e
    match Dict.get? quantities q with
    | some (.compound string) => parse string
    | some entry => .ok ((entry.get key s).getD [])
    | none => parse q

/-- `UNITS[q][s]` and `DIMENSIONS[q][s]` (`_defined.py` 137-148); no chain of compound quantities in the table is
longer than five. -/
def unitsOf (s : System) (q : Name) : Except MErr Name := property .units s 8 q
def dimensionsOf (s : System) (q : Name) : Except MErr Name := property .dimensions s 8 q

/-! ## Named units -/

/-- `NamedUnit(string)` for a fresh registry (`_defined.py` 219-252, 254-288). -/
def namedUnit (n : Name) : Except MErr Entry :=
  match named n with
  | some e => .ok e
  | none => .error .unitParsing

/-- `is_fundamental_in` (`_defined.py` 621-628). -/
def isFundamentalIn (e : Entry) (s : System) : Except MErr Bool := do
  let canonical ← unitsOf s e.base.quantity
  return decide (e.symbol = canonical ∨ e.name = canonical)

/-- `is_defined_in` (`_defined.py` 610-619). -/
def isDefinedIn (e : Entry) (s : System) : Except MErr Bool := do
  if ← isFundamentalIn e s then return true
  let canonical ← unitsOf s e.base.quantity
  match named canonical with
  | some r => return decide (e.base = r.base)
  | none => return false

/-- `NamedUnit.dimensions` (`_defined.py` 549-589): `none` is `None`. -/
def dimensions (e : Entry) (s : System) : Except MErr (Option (List Term)) := do
  let inMks ← isDefinedIn e .mks
  let inCgs ← isDefinedIn e .cgs
  let keep := inMks == inCgs || (match s with | .mks => inMks | .cgs => inCgs)
  if keep then
    let d ← dimensionsOf s e.base.quantity
    let x ← ofSym (exprOfString false d)
    return (if x = [] then none else some x)
  else return none

/-- Equality of two dimensions, one of which may be `None`. -/
def dimEq : Option (List Term) → Option (List Term) → Bool
  | none, none => true
  | some a, some b => exprEq a b
  | _, _ => false

/-- `_resolve_system(None)` (`_defined.py` 486-506). -/
def resolveSystem (e : Entry) : Except MErr System := do
  let fm ← isFundamentalIn e .mks
  let fc ← isFundamentalIn e .cgs
  if fm != fc then return (if fm then .mks else .cgs)
  let dm ← dimensions e .mks
  let dc ← dimensions e .cgs
  if dimEq dm dc then return .mks
  if dm = none then return .cgs
  if dc = none then return .mks
  .error .systemAmbiguity

/-- `str(float)` of a power of ten between 1e-24 and 1e24, the scales of the prefixes and their quotients
(`repr` switches to an exponent below 1e-4 and from 1e16). -/
def showScale (q : ℚ) : Name :=
  match (List.range 48).find? (fun k => decide (q = 10 ^ k)) with
  | some k => if k < 16 then showNat (10 ^ k) ++ ['.', '0']
    else c! "1e+" ++ showNat k
  | none =>
    match (List.range 48).find? (fun k => decide (q = 1 / 10 ^ k)) with
    | some k => if k ≤ 4 then c! "0." ++ List.replicate (k - 1) '0' ++ ['1']
      else c! "1e-" ++ (if k < 10 then ['0'] else []) ++ showNat k
    | none => showRat q

/-- `Reduction(terms, scale)` (`_defined.py` 291-318): the scale and the unit terms of `scale * expression(terms)`; the
scale is turned into a string and parsed. -/
structure Reduction where
  scale : ℚ
  units : List Term
  deriving DecidableEq

/-- `Reduction.__init__` and `Reduction.units`. -/
def mkReduction (terms : List Term) (scale : ℚ) : Except MErr Reduction := do
  let x ← ofSym (exprOfTerms terms)
  let c ← ofSym (exprOfString false (showScale scale))
  let p ← ofSym (exprMul c x)
  return ⟨scale, p.filter (fun t => decide (t.base ≠ one))⟩

/-- `_BASE_QUANTITIES.find(dimension, unique=True)['name']` (`_reference.py` 359-370). -/
def baseQuantity (d : Name) : Option Name :=
  Dict.get? [(c! "1", c! "identity"), (c! "N", c! "amount"), (c! "I", c! "current"), (c! "L", c! "length"),
    (c! "J", c! "luminous intensity"), (c! "M", c! "mass"), (c! "H", c! "temperature"), (c! "T", c! "time")] d

/-- The unit of the base quantity of a dimension (`_defined.py` 536-543). -/
def baseUnitOf (s : System) (d : Name) : Except MErr Name :=
  match baseQuantity d with
  | none => .error .value
  | some q => match Dict.get? quantities q with
    | some entry => .ok ((entry.get .units s).getD [])
    | none => .error .value

/-- `_reduce` (`_defined.py` 508-547). -/
def reduceIn (e : Entry) (s : System) : Except MErr (Option Reduction) := do
  if !(← isDefinedIn e s) then return none
  match ← dimensions e s with
  | none => return none
  | some x =>
    if x.length = 1 then
      let canonical ← unitsOf s e.base.quantity
      if e.symbol = canonical then
        let r ← mkReduction [mkTerm 1 e.symbol 1] 1
        return some r
      else
        let c ← namedUnit canonical
        match ratio e c with
        | none => .error .value
        | some sc =>
          let r ← mkReduction [mkTerm 1 canonical 1] sc
          return some r
    else
      let terms ← mapE (fun t : Term => (baseUnitOf s t.base).map (fun u => mkTerm 1 u t.exp)) x
      let r ← mkReduction terms e.scale
      return some r

/-- `NamedUnit.reduce()` (`_defined.py` 477-484). -/
def reduceUnit (e : Entry) : Except MErr (Option Reduction) := do
  let s ← resolveSystem e
  reduceIn e s

end Eprem.Metric
