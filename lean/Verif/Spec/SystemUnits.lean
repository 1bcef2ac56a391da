import Verif.Model.SystemUnits
import Verif.Spec.MetricSystem
import Verif.Spec.Dimension

/-! # Specification of the units of a metric system (C112) -/

namespace Eprem.Metric

open Eprem Eprem.Symbolic

/-- The table lists the quantity `q` with a dimension that is equal to `d`. -/
def ListedWith (s : System) (d : List Term) (q : Name) : Prop :=
  q ∈ quantities.map (·.1) ∧
    ∃ text e, dimensionsOf s q = .ok text ∧ exprOfString false text = .ok e ∧ exprEq d e = true

/-- The dimension of the base unit of a named unit, in the system: from the definitions of the units, not from the
tables of the package. -/
def unitDim (s : System) (b : Name) : DimExp :=
  match named b with
  | some e => dimOf s e.base.symbol
  | none => []

/-- The product of units `u` has the dimension `d`: each base dimension occurs in `d` with the exponent that the
units make it. -/
def MeasuredIn (s : System) (u d : List Term) : Prop :=
  ∀ x ∈ baseDims, exponent x d = (u.map (fun t => t.exp * DimExp.exponent x (unitDim s t.base))).sum

end Eprem.Metric
