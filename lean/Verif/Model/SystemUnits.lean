import Verif.Model.MetricSystem
import Verif.Model.MetricUnit

/-!
# Model of the units of a metric system: `System.get_unit` (`metric/_systems.py`), `normalize` (`metric/_units.py`) and
`Dimension.quantities` (`metric/_dimensions.py`)

The registries of units and quantities, and the tables that are filled on demand, only store what they compute (C23),
and are left out.
-/

namespace Eprem.Metric

open Eprem Eprem.Symbolic

/-- An argument given as text, or as an instance of `Unit` or `Dimension` with these terms. -/
inductive Given
  | text (s : Name)
  | parsed (ts : List Term)
  deriving DecidableEq

/-- `bool(arg)` (`symbolic/_expression.py` 23-30 for an expression). -/
def Given.truthy : Given → Bool
  | .text s => !s.isEmpty
  | .parsed ts => !ts.isEmpty

/-- `str(arg)`. -/
def Given.str : Given → Name
  | .text s => s
  | .parsed ts => showExpr ts

/-- `unit_factory(arg)` (`_units.py` 395-438). -/
def Given.unit : Given → Except MErr (List Term)
  | .text s => freshUnit s
  | .parsed ts => .ok ts

/-- A part of an iterable argument of `symbolic.expression` (`symbolic/_expression.py` 383). -/
def inParens (x : List Term) : Name := '(' :: (showExpr x ++ [')'])

/-- `symbolic.power(UNITS[term.base][system], term.exponent)` (`_units.py` 473; `symbolic/__init__.py` 87-89). -/
def unitPower (s : System) (t : Term) : Except MErr (List Term) :=
  match unitsOf s t.base with
  | .error e => .error e
  | .ok v => match ofSym (exprOfString false v) with
    | .error e => .error e
    | .ok x => ofSym (exprPow x t.exp)

/-- The units of the terms of a quantity, multiplied (`_units.py` 472-476). -/
def unitOfQuantity (s : System) (terms : List Term) : Except MErr (List Term) :=
  match mapE (unitPower s) terms with
  | .error e => .error e
  | .ok parts => match ofSym (exprOfString false (joinStar (parts.map inParens))) with
    | .error e => .error e
    | .ok x => unitOfExpr x

/-- `normalize(unit, system, quantity)` (`_units.py` 441-476) and `Unit.normalize` (`_units.py` 33-39). -/
def normalizeUnit (s : System) (u : List Term) (quantity : Option Name) : Except MErr (List Term) :=
  match (match quantity with | none => getQuantity u | some q => ofSym (exprOfString false q)) with
  | .error e => .error e
  | .ok terms => unitOfQuantity s terms

/-- `System._unit_from_unit(target)` (`_systems.py` 323-330). -/
def unitFromUnit (s : System) (g : Given) : Except MErr (List Term) :=
  match g.unit with
  | .error e => .error e
  | .ok u => normalizeUnit s u none

/-- `dimension == target` for a text in the table of dimensions (`_systems.py` 338; `_dimensions.py` 27): two texts are
compared as texts, a `Dimension` is compared with the expression of the text (`symbolic/_expression.py` 158-182). -/
def sameDimension (listed : Name) : Given → Except MErr Bool
  | .text s => .ok (decide (listed = s))
  | .parsed ts => match ofSym (exprOfString false listed) with
    | .error e => .error e
    | .ok x => .ok (exprEq ts x)

/-- The quantities of a table which have the dimension, in the order of the table: the loops in
`System._unit_from_dimension` (`_systems.py` 337-338) and in `Dimension.quantities` (`_dimensions.py` 27). -/
def quantitiesIn (s : System) (g : Given) : List Name → Except MErr (List Name)
  | [] => .ok []
  | q :: qs => match dimensionsOf s q with
    | .error e => .error e
    | .ok d => match sameDimension d g with
      | .error e => .error e
      | .ok same => match quantitiesIn s g qs with
        | .error e => .error e
        | .ok found => .ok (if same then q :: found else found)

/-- `dimension.quantities(system)` (`_dimensions.py` 21-29), in the order of the table; the code makes a `set`. -/
def quantitiesOf (s : System) (d : List Term) : Except MErr (List Name) :=
  quantitiesIn s (.parsed d) (quantities.map (·.1))

/-- The unit of a quantity of the table, `unit_factory(UNITS[quantity][system])` (`_systems.py` 339, 27). -/
def listedUnit (s : System) (q : Name) : Except MErr (List Term) :=
  match unitsOf s q with
  | .error e => .error e
  | .ok v => freshUnit v

/-- `System._unit_from_dimension(target)` (`_systems.py` 332-339); `none` is `None`.  The search does not go on after
the first match, but nothing that it would meet afterwards raises an exception (`c112_quantities`). -/
def unitFromDimension (s : System) (g : Given) : Except MErr (Option (List Term)) :=
  match quantitiesIn s g (quantities.map (·.1)) with
  | .error e => .error e
  | .ok [] => .ok none
  | .ok (q :: _) => match listedUnit s q with
    | .error e => .error e
    | .ok u => .ok (some u)

/-- `System._unit_from_quantity(quantity)` (`_systems.py` 341-346; 199-218, 228-236, 73-81): the name is put in lower
case. -/
def unitFromQuantity (s : System) (q : Name) : Except MErr (List Term) := listedUnit s (lower q)

/-- What `get_unit` raises: `SearchError`, or what one of the searches raises. -/
inductive SearchErr
  | search
  | raised (e : MErr)
  deriving DecidableEq

/-- The loop in `System._get_unit` (`_systems.py` 306-311) over the arguments that are given, with what each search
returns; `none` is a search without result. -/
def searchLoop (identity : Except MErr (List Term)) :
    List (Name × Except MErr (Option (List Term))) → Except SearchErr (List Term)
  | [] => .error .search
  | (arg, result) :: rest =>
    if arg = one then (match identity with | .ok u => .ok u | .error e => .error (.raised e))
    else match result with
      | .error e => .error (.raised e)
      | .ok none => searchLoop identity rest
      | .ok (some u) => if u.isEmpty then searchLoop identity rest else .ok u

/-- The argument `unit` and its search (`_systems.py` 284-293, 304-305). -/
def caseOfUnit (s : System) (unit : Option Given) : List (Name × Except MErr (Option (List Term))) :=
  match unit with
  | none => []
  | some g => if g.truthy then [(g.str, (unitFromUnit s g).map some)] else []

/-- The argument `dimension` and its search (`_systems.py` 284-293, 304-305). -/
def caseOfDimension (s : System) (dimension : Option Given) : List (Name × Except MErr (Option (List Term))) :=
  match dimension with
  | none => []
  | some g => if g.truthy then [(g.str, unitFromDimension s g)] else []

/-- The argument `quantity`, the name of a quantity, and its search (`_systems.py` 284-293, 304-305). -/
def caseOfQuantity (s : System) (quantity : Option Name) : List (Name × Except MErr (Option (List Term))) :=
  match quantity with
  | none => []
  | some q => if q.isEmpty then [] else [(q, (unitFromQuantity s q).map some)]

/-- `System.get_unit(unit=..., dimension=..., quantity=...)` (`_systems.py` 260-314). -/
def getUnit (s : System) (unit dimension : Option Given) (quantity : Option Name) : Except SearchErr (List Term) :=
  searchLoop (listedUnit s c! "identity") (caseOfUnit s unit ++ caseOfDimension s dimension ++ caseOfQuantity s quantity)

end Eprem.Metric
