import Verif.Model.Metric
import Verif.Spec.Symbolic

/-!
# Specification of physical dimensions (C25)

The dimension of each base unit, written down from the definitions of the SI and of the Gaussian system and not from
the tables of the package: exponents of mass `M`, length `L`, time `T`, current `I`, temperature `H`, amount `N` and
luminous intensity `J`.  Angles, counts and mass numbers are dimensionless.
-/

namespace Eprem.Metric

open Eprem

/-- Exponents of the base dimensions. -/
abbrev DimExp := List (Name × ℚ)

/-- Units that belong to no system in particular. -/
def commonDim : List (Name × DimExp) := [
  (c! "m", [(c! "L", 1)]), (c! "au", [(c! "L", 1)]), (c! "Rs", [(c! "L", 1)]),
  (c! "g", [(c! "M", 1)]), (c! "nuc", []), (c! "amu", []),
  (c! "s", [(c! "T", 1)]), (c! "min", [(c! "T", 1)]), (c! "h", [(c! "T", 1)]), (c! "d", [(c! "T", 1)]),
  (c! "K", [(c! "H", 1)]), (c! "mol", [(c! "N", 1)]), (c! "cd", [(c! "J", 1)]), (c! "lm", [(c! "J", 1)]),
  (c! "#", []), (c! "rad", []), (c! "deg", []), (c! "sr", []), (c! "1", []),
  (c! "Hz", [(c! "T", -1)]), (c! "eV", [(c! "M", 1), (c! "L", 2), (c! "T", -2)])]

/-- Units of the SI. -/
def siDim : List (Name × DimExp) := [
  (c! "A", [(c! "I", 1)]),
  (c! "N", [(c! "M", 1), (c! "L", 1), (c! "T", -2)]),
  (c! "J", [(c! "M", 1), (c! "L", 2), (c! "T", -2)]),
  (c! "W", [(c! "M", 1), (c! "L", 2), (c! "T", -3)]),
  (c! "Pa", [(c! "M", 1), (c! "L", -1), (c! "T", -2)]),
  (c! "C", [(c! "T", 1), (c! "I", 1)]),
  (c! "e", [(c! "T", 1), (c! "I", 1)]),
  (c! "V", [(c! "M", 1), (c! "L", 2), (c! "T", -3), (c! "I", -1)]),
  (c! "Ω", [(c! "M", 1), (c! "L", 2), (c! "T", -3), (c! "I", -2)]),
  (c! "S", [(c! "M", -1), (c! "L", -2), (c! "T", 3), (c! "I", 2)]),
  (c! "F", [(c! "M", -1), (c! "L", -2), (c! "T", 4), (c! "I", 2)]),
  (c! "H", [(c! "M", 1), (c! "L", 2), (c! "T", -2), (c! "I", -2)]),
  (c! "Wb", [(c! "M", 1), (c! "L", 2), (c! "T", -2), (c! "I", -1)]),
  (c! "T", [(c! "M", 1), (c! "T", -2), (c! "I", -1)]),
  (c! "lx", [(c! "J", 1), (c! "L", -2)]),
  (c! "Bq", [(c! "T", -1)]),
  (c! "Gy", [(c! "L", 2), (c! "T", -2)])]

/-- Gaussian units. -/
def gaussDim : List (Name × DimExp) := [
  (c! "dyn", [(c! "M", 1), (c! "L", 1), (c! "T", -2)]),
  (c! "erg", [(c! "M", 1), (c! "L", 2), (c! "T", -2)]),
  (c! "statC", [(c! "M", 1/2), (c! "L", 3/2), (c! "T", -1)]),
  (c! "e", [(c! "M", 1/2), (c! "L", 3/2), (c! "T", -1)]),
  (c! "statA", [(c! "M", 1/2), (c! "L", 3/2), (c! "T", -2)]),
  (c! "statV", [(c! "M", 1/2), (c! "L", 1/2), (c! "T", -1)]),
  (c! "Mx", [(c! "M", 1/2), (c! "L", 3/2), (c! "T", -1)]),
  (c! "G", [(c! "M", 1/2), (c! "L", -1/2), (c! "T", -1)]),
  (c! "Oe", [(c! "M", 1/2), (c! "L", -1/2), (c! "T", -1)]),
  (c! "Ci", [(c! "T", -1)]),
  (c! "P", [(c! "M", 1), (c! "L", -1), (c! "T", -1)])]

/-- The dimension of a base unit, given by its symbol, in a system to which it belongs. -/
def dimIn : System → Name → Option DimExp
  | .mks, n => Dict.get? (commonDim ++ siDim) n
  | .cgs, n => Dict.get? (commonDim ++ gaussDim) n

/-- The dimension of a base unit in this system or, if it does not belong to it, in the other. -/
def dimOf (s : System) (n : Name) : DimExp :=
  match dimIn s n with
  | some d => d
  | none => match dimIn (match s with | .mks => .cgs | .cgs => .mks) n with
    | some d => d
    | none => []

/-- The size of a dimension when the base dimensions have the sizes `ρ`. -/
noncomputable def dimValue (ρ : Name → ℝ) (d : DimExp) : ℝ := (d.map (fun p => ρ p.1 ^ (p.2 : ℝ))).prod

/-- The exponent of a base dimension. -/
def DimExp.exponent (x : Name) (d : DimExp) : ℚ := ((d.filter (fun p => decide (p.1 = x))).map Prod.snd).sum

/-- The exponent of a symbol in an expression. -/
def exponent (x : Name) (ts : List Symbolic.Term) : ℚ := ((ts.filter (fun t => decide (t.base = x))).map (·.exp)).sum

/-- The base dimensions. -/
def baseDims : List Name := [c! "M", c! "L", c! "T", c! "I", c! "H", c! "N", c! "J"]

end Eprem.Metric
