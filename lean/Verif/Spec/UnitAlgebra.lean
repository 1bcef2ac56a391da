import Verif.Spec.Units

/-!
# Specification vocabulary for products of any number of units (C71, C86)
-/

namespace Eprem.Metric

open Eprem Eprem.Symbolic

/-- How many base units are in a unit with this symbol: one, but for a derived unit those of its definition, counted with the
absolute values of their exponents, and none in the number one. -/
def weightOf (b : Name) : ℚ :=
  if b = one then 0 else match derivedUnits.find? (fun p => decide (p.1 = b)) with
  | none => 1
  | some p => (p.2.map (fun q => |q.2|)).sum

/-- How many base units are in a product of powers. -/
def weight (u : List Term) : ℚ := (u.map (fun t => weightOf t.base * |t.exp|)).sum

/-- A unit with exponents that are multiples of a quarter, and of a half for derived units. -/
structure QuarterUnit (u : List Term) : Prop where
  unit : IsUnit 4 u
  derived : ∀ t ∈ u, t.base ∈ derivedUnits.map Prod.fst → ∃ z : ℤ, t.exp = z / 2

end Eprem.Metric
