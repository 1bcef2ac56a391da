import Verif.Model.Measured

/-!
# Model of the conversion to a metric system: `metric/_conversions.py` 404-572, `metric/_defined.py` 773-781

`UNITS` and the registry `_converters` only store what they compute, and are left out.
-/

namespace Eprem.Metric

open Eprem Eprem.Symbolic

/-- `get_quantity(unit)` (`_defined.py` 773-781). -/
def getQuantity (unit : List Term) : Except MErr (List Term) := do
  let ts ← mapE (fun t : Term => (namedUnit t.base).map (fun u => mkTerm 1 (underscore u.base.quantity) t.exp)) unit
  ofSym (exprOfTerms ts)

/-- `str.lower()` for the letters of ASCII. -/
def lower (s : Name) : Name := s.map (fun c => if 'A' ≤ c ∧ c ≤ 'Z' then Char.ofNat (c.toNat + 32) else c)

/-- `_get_substitutions(quantity)[system]` (`_conversions.py` 489-514). -/
def substitution (s : System) (quantity : Name) : Except MErr Name :=
  if lower quantity = c! "mass number" ∨ lower quantity = c! "mass_number" then unitsOf s c! "mass" else unitsOf s quantity

/-- The units of a quantity in both systems, as expressions: `EQUIVALENT['units'].values()` (`_defined.py` 172-183). -/
def equivalents : Except MErr (List (List Term × List Term)) :=
  mapE (fun p : Name × QEntry => do
    let m ← unitsOf .mks p.1
    let c ← unitsOf .cgs p.1
    return (← ofSym (exprOfString false m), ← ofSym (exprOfString false c))) quantities

/-- The other system. -/
def System.other : System → System
  | .mks => .cgs
  | .cgs => .mks

/-- The unit of the system in a pair of units. -/
def System.pick {α : Type} (s : System) (p : α × α) : α := match s with | .mks => p.1 | .cgs => p.2

/-- `_is_ambiguous(unit, system)` (`_conversions.py` 552-571).  The set of targets counts equal lists of terms once. -/
def isAmbiguous (unit : Name) (s : System) : Except MErr Bool := do
  let e ← ofSym (exprOfString false unit)
  let table ← equivalents
  let targets := (table.filter (fun p => exprEq (s.other.pick p) e)).map s.pick
  return decide (targets.eraseDups.length > 1)

/-- The unit to which `convert(source, system)` converts (`_conversions.py` 528-548, 436). -/
def systemTarget (s : System) (source : Name) (quantity : Option Name) : Except MErr Name :=
  if source = c! "1" then .ok c! "1"
  else match quantity with
    | some q => substitution s q
    | none => do
      if ← isAmbiguous source s then .error .conversion
      let e ← ofSym (exprOfString false source)
      let q ← getQuantity e
      substitution s (showExpr q)

variable {K : Type} [Field K] [DecidableEq K]

/-- `convert(source, system, quantity)` (`_conversions.py` 517-549): the unit and the factor. -/
def convertSystem (c : Conv K) (st : Cache K) (s : System) (source : Name) (quantity : Option Name) :
    Cache K × Except MErr (Name × K) :=
  match systemTarget s source quantity with
  | .error e => (st, .error e)
  | .ok unit =>
    if source = unit ∧ source ≠ c! "1" then (st, .ok (unit, 1))
    else match conversionFactory c st source unit with
      | (st, .error e) => (st, .error e)
      | (st, .ok f) => (st, .ok (unit, f))

end Eprem.Metric
