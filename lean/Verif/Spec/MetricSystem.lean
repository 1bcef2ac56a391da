import Verif.Model.MetricSystem
import Verif.Spec.Metric

/-! # Specification of the conversion to a metric system (C83) -/

namespace Eprem.Metric

open Eprem Eprem.Symbolic

/-- The quantity that a unit measures. -/
def quantityOf (n : Name) : Option Name := (named n).map (fun e => e.base.quantity)

/-- The power to which a quantity occurs in a product of units. -/
def quantityExponent (q : Name) (a : List Term) : ℚ :=
  ((a.filter (fun t => decide (quantityOf t.base = some q))).map Term.exp).sum

/-- The unit that the system has for the quantity which the unit `n` measures. -/
def canonicalUnit (s : System) (n : Name) : List Term :=
  match quantityOf n with
  | none => []
  | some q => match unitsOf s q with
    | .error _ => []
    | .ok v => match exprOfString false v with
      | .error _ => []
      | .ok c => c

/-- The units of the other system that belong to quantities with different units in the system. -/
def sharedUnits : System → List (List Term)
  | .mks => [[⟨1, c! "cm", 1⟩], [⟨1, c! "cm", 1⟩, ⟨1, c! "s", -1⟩], [⟨1, c! "1", 1⟩], [⟨1, c! "cm", -1⟩], [⟨1, c! "s", 1⟩]]
  | .cgs => [[⟨1, c! "C", 1⟩, ⟨1, c! "m", -2⟩]]

end Eprem.Metric
