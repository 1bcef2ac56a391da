import Verif.Model.MetricCache

/-!
# Model of the dimension of a unit: `metric/_systems.py` 239-258, `metric/_units.py` 333-352
-/

namespace Eprem.Metric

open Eprem Eprem.Symbolic

/-- `NamedUnit.systems['allowed']` (`_defined.py` 437-459, 590-608): whether the unit is allowed in mks and in cgs. -/
def allowedIn (e : Entry) : Except MErr (Bool × Bool) :=
  match isDefinedIn e .mks with
  | .error x => .error x
  | .ok m => match isDefinedIn e .cgs with
    | .error x => .error x
    | .ok c => .ok (if m = false ∧ c = false then (true, true) else (m, c))

/-- The loop over the terms of a unit in `System.get_dimension` (`_systems.py` 241-253), also in `Unit._dimensions_in`
(`_units.py` 335-347): the dimension so far, and whether the system was among the allowed systems of some unit. -/
def dimensionLoop (s : System) : List Term → List Term → Bool → Except MErr (List Term × Bool)
  | [], x, found => .ok (x, found)
  | t :: rest, x, found =>
    match namedUnit t.base with
    | .error err => .error err
    | .ok e => match allowedIn e with
      | .error err => .error err
      | .ok (m, c) =>
        match dimensions e (if m = true ∧ c = true then s else if m = true then .mks else .cgs) with
        | .error err => .error err
        | .ok none => .error .value
        | .ok (some d) =>
          match exprPow d t.exp with
          | .error err => .error (.symbolic err)
          | .ok p => match exprMul x p with
            | .error err => .error (.symbolic err)
            | .ok x' => dimensionLoop s rest x' (found || (match s with | .mks => m | .cgs => c))

/-- `System.get_dimension(unit)` (`_systems.py` 239-258) and `Unit.dimensions[system]` where it is not `None`
(`_units.py` 322-352), for the terms of a unit. -/
def getDimension (s : System) (u : List Term) : Except MErr (List Term) :=
  match dimensionLoop s u [mkTerm 1 one 1] false with
  | .error e => .error e
  | .ok (x, found) => if found then .ok x else .error .value

end Eprem.Metric
