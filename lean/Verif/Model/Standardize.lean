import Verif.Model.MetricTables
import Verif.Model.PyDict
import Verif.Model.Symbolic

/-! # Model of `metric.standardize` (`metric/_reference.py` 820-846) -/

namespace Eprem.Metric

open Eprem Eprem.Symbolic

/-- `_NONSTANDARD` (`_reference.py` 823-829). -/
def nonstandard : Dict Name Name := [
  (c! "julian date", c! "day"),
  (c! "shell", c! "1"),
  (c! "cos(mu)", c! "1"),
  (c! "e-", c! "e"),
  (c! "# / cm^2 s sr MeV", c! "# / cm^2 s sr MeV/nuc")]

/-- The second half of `standardize(unit)` (`_reference.py` 843-846): the text after the first slash is put in parentheses. -/
def groupDenominator (unit : Name) : Name :=
  if '/' ∈ unit then
    strip (unit.takeWhile (fun c => decide (c ≠ '/'))) ++ c! " / (" ++ strip ((unit.dropWhile (fun c => decide (c ≠ '/'))).drop 1) ++ c! ")"
  else unit

/-- `standardize(unit)` (`_reference.py` 835-846) for a string. -/
def standardize (unit : Name) : Name := groupDenominator ((nonstandard.get? unit).getD unit)

/-- `standardize(unit)` for the unit of a variable, which is `None` if it has none: `'/' in None` raises `TypeError`, given
as the value `none` here. -/
def standardizeOpt : Option Name → Option Name
  | none => none
  | some unit => some (standardize unit)

end Eprem.Metric
