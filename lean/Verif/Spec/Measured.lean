import Verif.Model.Measured
import Verif.Spec.Metric

/-!
# Specification vocabulary for measured objects (C34, C35, C72)

The *amount* of an object at a position is its number times the size of its unit: five kilometers are the same amount as
five thousand meters.
-/

namespace Eprem.Measured

open Eprem Eprem.Symbolic Eprem.Metric Eprem.Numeric

/-- The amount at a position, if `ρ` gives the sizes of units. -/
noncomputable def Obj.amount (ρ : Name → ℝ) (x : Obj ℝ) (p : List Nat) : ℝ := x.data.get p * value ρ x.unit

/-- The same, for physical arrays: what is seen from outside is `data`. -/
noncomputable def PArr.amount {κ : Type} (ρ : Name → ℝ) (x : PArr κ ℝ) (p : List Nat) : ℝ :=
  x.data.data.get p * value ρ x.unit

/-- The same amounts at all positions. -/
structure SameAmounts (ρ : Name → ℝ) (x y : Obj ℝ) : Prop where
  shape : y.data.shape = x.data.shape
  amount : ∀ p, y.amount ρ p = x.amount ρ p

/-- The sizes agree with the tables of units and conversions. -/
def TableSizes (φ : Name → ℚ) : Prop := Sizes named (fun a b => conversions.get? (a, b)) φ

/-- A unit with the symbol `s` converts by name to a unit with the name `v`, and back: the tables define, directly or
through other units, a conversion in both directions. -/
def Convertible (nodes : List Name) (s v : Name) : Prop :=
  (∃ f, convertAsStrings (realEnv nodes) s v = some f) ∧ (∃ g, convertAsStrings (realEnv nodes) v s = some g)

/-- A named unit, other than `1`, that can be used as the unit of an object: `n` is one of its names, `s` its symbol. -/
def IsSymbolOf (n s : Name) : Prop := s ≠ one ∧ freshUnit n = .ok [⟨1, s, 1⟩] ∧ ∃ e, named n = some e ∧ e.symbol = s

end Eprem.Measured
