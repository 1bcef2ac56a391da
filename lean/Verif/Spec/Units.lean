import Verif.Model.Metric
import Verif.Spec.Symbolic

/-!
# Specification of the sizes of derived units (C71)

The definitions of the derived units of the SI and of the Gaussian system in terms of their base units, written down
from the definitions of the systems and not from the tables of the package.
-/

namespace Eprem.Metric

open Eprem

/-- The definitions of the derived units: exponents of base units. -/
def derivedUnits : List (Name × List (Name × ℚ)) := [
  (c! "N", [(c! "kg", 1), (c! "m", 1), (c! "s", -2)]),
  (c! "J", [(c! "kg", 1), (c! "m", 2), (c! "s", -2)]),
  (c! "W", [(c! "kg", 1), (c! "m", 2), (c! "s", -3)]),
  (c! "Pa", [(c! "kg", 1), (c! "m", -1), (c! "s", -2)]),
  (c! "C", [(c! "A", 1), (c! "s", 1)]),
  (c! "V", [(c! "kg", 1), (c! "m", 2), (c! "s", -3), (c! "A", -1)]),
  (c! "Ω", [(c! "kg", 1), (c! "m", 2), (c! "s", -3), (c! "A", -2)]),
  (c! "S", [(c! "kg", -1), (c! "m", -2), (c! "s", 3), (c! "A", 2)]),
  (c! "F", [(c! "kg", -1), (c! "m", -2), (c! "s", 4), (c! "A", 2)]),
  (c! "H", [(c! "kg", 1), (c! "m", 2), (c! "s", -2), (c! "A", -2)]),
  (c! "Wb", [(c! "kg", 1), (c! "m", 2), (c! "s", -2), (c! "A", -1)]),
  (c! "T", [(c! "kg", 1), (c! "s", -2), (c! "A", -1)]),
  (c! "lx", [(c! "cd", 1), (c! "m", -2)]),
  (c! "Gy", [(c! "m", 2), (c! "s", -2)]),
  (c! "dyn", [(c! "g", 1), (c! "cm", 1), (c! "s", -2)]),
  (c! "erg", [(c! "g", 1), (c! "cm", 2), (c! "s", -2)]),
  (c! "statC", [(c! "g", 1/2), (c! "cm", 3/2), (c! "s", -1)]),
  (c! "statA", [(c! "g", 1/2), (c! "cm", 3/2), (c! "s", -2)]),
  (c! "statV", [(c! "g", 1/2), (c! "cm", 1/2), (c! "s", -1)]),
  (c! "Mx", [(c! "g", 1/2), (c! "cm", 3/2), (c! "s", -1)]),
  (c! "G", [(c! "g", 1/2), (c! "cm", -1/2), (c! "s", -1)]),
  (c! "Oe", [(c! "g", 1/2), (c! "cm", -1/2), (c! "s", -1)]),
  (c! "P", [(c! "g", 1), (c! "cm", -1), (c! "s", -1)])]

/-- `ρ` assigns positive sizes to units so that every derived unit has the size that its definition gives it. -/
structure CoherentSizes (ρ : Name → ℝ) : Prop where
  pos : ∀ u, 0 < ρ u
  derived : ∀ p ∈ derivedUnits, ρ p.1 = (p.2.map (fun q => ρ q.1 ^ (q.2 : ℝ))).prod

/-- `u` is a unit: a product of powers, with exponents that are multiples of `1/d`, of the symbols of named units, which
the parser reads as one word; or the unit `1`.  No unit is a lux, with or without a prefix. -/
structure IsUnit (d : ℕ) (u : List Symbolic.Term) : Prop where
  nonempty : u ≠ []
  coeff : ∀ t ∈ u, t.coeff = 1
  exp : ∀ t ∈ u, (∃ z : ℤ, t.exp = z / d) ∧ t.exp ≠ 0
  number : ∀ t ∈ u, t.base = Symbolic.one → t.exp = 1
  word : ∀ t ∈ u, t.base = Symbolic.one ∨ (t.base ≠ [] ∧ ∀ x ∈ t.base, Symbolic.isLetter x = true)
  symbol : ∀ t ∈ u, ∃ e, namedUnits.getItem t.base = .ok e ∧ e.symbol = t.base ∧ e.base.symbol ≠ c! "lx"

/-- Exponents that a double can hold, with room for doubling. -/
def SmallExponents (u : List Symbolic.Term) : Prop := ∀ t ∈ u, |t.exp| < 2 ^ 50

end Eprem.Metric
