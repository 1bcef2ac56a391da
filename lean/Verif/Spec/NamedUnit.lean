import Verif.Model.MetricTables

/-!
# Specification: the metric systems of the named units (C118)

Written down from the definitions of the systems (the International System of Units and the Gaussian system), for the
units that the package has names for.
-/

namespace Eprem.Metric

open Eprem

/-- A metric system, for this specification: true for the International System. -/
abbrev IsMks := Bool

/-- The units, without prefixes, that belong to a system, by their symbols. -/
def unitsIn : IsMks → List Name
  | true => [c! "m", c! "g", c! "s", c! "A", c! "K", c! "mol", c! "cd", c! "rad", c! "sr", c! "Hz", c! "J", c! "N", c! "Pa",
      c! "W", c! "C", c! "V", c! "Ω", c! "S", c! "F", c! "Wb", c! "H", c! "T", c! "Bq", c! "Gy", c! "lm",
      c! "lx", c! "1"]
  | false => [c! "m", c! "g", c! "s", c! "K", c! "mol", c! "cd", c! "rad", c! "sr", c! "Hz", c! "erg", c! "dyn", c! "statC",
      c! "statA", c! "statV", c! "Mx", c! "Oe", c! "G", c! "Ci", c! "P", c! "lm", c! "1"]

/-- The size of the unit that a system builds on, in terms of the unit without a prefix: the kilogram and the centimeter
have a prefix, all other fundamental units have none. -/
def standardPrefix : IsMks → Name → ℚ
  | true, symbol => if symbol = c! "g" then 1000 else 1
  | false, symbol => if symbol = c! "m" then 1 / 100 else 1

end Eprem.Metric
