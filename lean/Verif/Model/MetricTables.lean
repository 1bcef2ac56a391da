import Mathlib.Data.Rat.Init
import Verif.Model.Container
import Verif.Model.Aliased

/-!
# Tables of `src/eprempy/metric/_reference.py`

The literal tables, transcribed row by row.  Numbers are exact rationals: `1e+24` is `10 ^ 24`, `numpy.pi` is the
exact value of the double; products and quotients of weights are not rounded.
-/

namespace Eprem.Metric

open Eprem

/-- Strings, as lists of characters. -/
abbrev Name := List Char

/-- `c! "km"` is the list of characters `['k', 'm']`. -/
scoped syntax:max "c!" str : term

open Lean in
macro_rules
  | `(c! $s:str) => do
    let cs := s.getString.toList.toArray.map Syntax.mkCharLit
    `([$[$cs],*])

/-- `Prefix` (`_defined.py` 189-194). -/
structure Prefix where
  symbol : Name
  name : Name
  factor : ℚ
  deriving DecidableEq

/-- `BaseUnit` (`_defined.py` 197-202). -/
structure BaseUnit where
  symbol : Name
  name : Name
  quantity : Name
  deriving DecidableEq

/-- `_PREFIXES` (`_reference.py` 16-39).  The name of the null prefix is `None` there; it is never used. -/
def prefixes : List Prefix := [
  ⟨c! "Y", c! "yotta", 10 ^ 24⟩,
  ⟨c! "Z", c! "zetta", 10 ^ 21⟩,
  ⟨c! "E", c! "exa", 10 ^ 18⟩,
  ⟨c! "P", c! "peta", 10 ^ 15⟩,
  ⟨c! "T", c! "tera", 10 ^ 12⟩,
  ⟨c! "G", c! "giga", 10 ^ 9⟩,
  ⟨c! "M", c! "mega", 10 ^ 6⟩,
  ⟨c! "k", c! "kilo", 10 ^ 3⟩,
  ⟨c! "h", c! "hecto", 10 ^ 2⟩,
  ⟨c! "da", c! "deca", 10 ^ 1⟩,
  ⟨c! "", c! "", 1⟩,
  ⟨c! " ", c! "", 0⟩,
  ⟨c! "d", c! "deci", 1 / 10 ^ 1⟩,
  ⟨c! "c", c! "centi", 1 / 10 ^ 2⟩,
  ⟨c! "m", c! "milli", 1 / 10 ^ 3⟩,
  ⟨c! "μ", c! "micro", 1 / 10 ^ 6⟩,
  ⟨c! "n", c! "nano", 1 / 10 ^ 9⟩,
  ⟨c! "p", c! "pico", 1 / 10 ^ 12⟩,
  ⟨c! "f", c! "femto", 1 / 10 ^ 15⟩,
  ⟨c! "a", c! "atto", 1 / 10 ^ 18⟩,
  ⟨c! "z", c! "zepto", 1 / 10 ^ 21⟩,
  ⟨c! "y", c! "yocto", 1 / 10 ^ 24⟩]

/-- `_UNITS` (`_reference.py` 50-291). -/
def baseUnits : List BaseUnit := [
  ⟨c! "m", c! "meter", c! "length"⟩,
  ⟨c! "au", c! "astronomical unit", c! "length"⟩,
  ⟨c! "Rs", c! "solar radius", c! "length"⟩,
  ⟨c! "g", c! "gram", c! "mass"⟩,
  ⟨c! "nuc", c! "nucleon", c! "mass number"⟩,
  ⟨c! "amu", c! "atomic mass unit", c! "mass number"⟩,
  ⟨c! "s", c! "second", c! "time"⟩,
  ⟨c! "min", c! "minute", c! "time"⟩,
  ⟨c! "h", c! "hour", c! "time"⟩,
  ⟨c! "d", c! "day", c! "time"⟩,
  ⟨c! "A", c! "ampere", c! "current"⟩,
  ⟨c! "K", c! "kelvin", c! "temperature"⟩,
  ⟨c! "mol", c! "mole", c! "amount"⟩,
  ⟨c! "#", c! "count", c! "number"⟩,
  ⟨c! "cd", c! "candela", c! "luminous intensity"⟩,
  ⟨c! "rad", c! "radian", c! "plane angle"⟩,
  ⟨c! "deg", c! "degree", c! "plane angle"⟩,
  ⟨c! "sr", c! "steradian", c! "solid angle"⟩,
  ⟨c! "Hz", c! "hertz", c! "frequency"⟩,
  ⟨c! "J", c! "joule", c! "energy"⟩,
  ⟨c! "erg", c! "erg", c! "energy"⟩,
  ⟨c! "eV", c! "electronvolt", c! "energy"⟩,
  ⟨c! "N", c! "newton", c! "force"⟩,
  ⟨c! "dyn", c! "dyne", c! "force"⟩,
  ⟨c! "Pa", c! "pascal", c! "pressure"⟩,
  ⟨c! "W", c! "watt", c! "power"⟩,
  ⟨c! "C", c! "coulomb", c! "charge"⟩,
  ⟨c! "statC", c! "statcoulomb", c! "charge"⟩,
  ⟨c! "statA", c! "statampere", c! "current"⟩,
  ⟨c! "statV", c! "statvolt", c! "potential"⟩,
  ⟨c! "e", c! "fundamental charge", c! "charge"⟩,
  ⟨c! "V", c! "volt", c! "potential"⟩,
  ⟨c! "Ω", c! "ohm", c! "resistance"⟩,
  ⟨c! "S", c! "seimens", c! "conductance"⟩,
  ⟨c! "F", c! "farad", c! "capacitance"⟩,
  ⟨c! "Wb", c! "weber", c! "magnetic flux"⟩,
  ⟨c! "Mx", c! "maxwell", c! "magnetic flux"⟩,
  ⟨c! "Oe", c! "Oersted", c! "magnetic intensity"⟩,
  ⟨c! "H", c! "henry", c! "inductance"⟩,
  ⟨c! "T", c! "tesla", c! "magnetic induction"⟩,
  ⟨c! "G", c! "gauss", c! "magnetic induction"⟩,
  ⟨c! "lm", c! "lumen", c! "luminous flux"⟩,
  ⟨c! "lx", c! "lux", c! "illuminance"⟩,
  ⟨c! "Bq", c! "becquerel", c! "radioactivity"⟩,
  ⟨c! "Ci", c! "Curie", c! "radioactivity"⟩,
  ⟨c! "Gy", c! "gray", c! "dosage"⟩,
  ⟨c! "P", c! "poise", c! "viscosity"⟩,
  ⟨c! "1", c! "unitless", c! "identity"⟩]

/-- The metric systems (`SYSTEMS`, `_reference.py` 46). -/
inductive System
  | mks | cgs
  deriving DecidableEq

/-- An entry of `_QUANTITIES`: a string in terms of other quantities, or the dimensions and units in each system. -/
inductive QEntry
  | compound (s : Name)
  | defined (dimMks dimCgs unitMks unitCgs : Name)
  deriving DecidableEq

/-- `_QUANTITIES` (`_reference.py` 372-770). -/
def quantities : List (Name × QEntry) := [
  (c! "acceleration", .compound c! "velocity / time"),
  (c! "amount", .defined c! "N" c! "N" c! "mol" c! "mol"),
  (c! "area", .compound c! "length^2"),
  (c! "capacitance", .defined c! "(T^2 * I)^2 / (M * L^2)" c! "L" c! "F" c! "cm"),
  (c! "charge", .defined c! "I * T" c! "(M^1/2 * L^3/2) / T" c! "C" c! "statC"),
  (c! "charge density", .compound c! "charge / volume"),
  (c! "conductance", .defined c! "(T^3 * I^2) / (M * L^2)" c! "L / T" c! "S" c! "cm / s"),
  (c! "conductivity", .compound c! "conductance / length"),
  (c! "current", .defined c! "I" c! "(M^1/2 * L^3/2) / T^2" c! "A" c! "statA"),
  (c! "current density", .compound c! "current / area"),
  (c! "displacement", .defined c! "I * T / L^2" c! "M^1/2 / (L^1/2 * T)" c! "C / m^2" c! "statC / m^2"),
  (c! "dosage", .defined c! "L^2 / T^2" c! "L^2 / T^2" c! "Gy" c! "erg / g"),
  (c! "electric charge", .compound c! "charge"),
  (c! "electric field", .compound c! "potential / length"),
  (c! "electromotance", .compound c! "potential"),
  (c! "energy", .defined c! "(M * L^2) / T^2" c! "(M * L^2) / T^2" c! "J" c! "erg"),
  (c! "energy density", .compound c! "energy / volume"),
  (c! "fluence", .compound c! "particle fluence"),
  (c! "flux", .compound c! "particle flux"),
  (c! "force", .defined c! "(M * L) / T^2" c! "(M * L) / T^2" c! "N" c! "dyn"),
  (c! "frequency", .defined c! "1 / T" c! "1 / T" c! "Hz" c! "Hz"),
  (c! "identity", .defined c! "1" c! "1" c! "1" c! "1"),
  (c! "illumunance", .defined c! "J / L^2" c! "J / L^2" c! "cd * sr / m^2" c! "cd * sr / cm^2"),
  (c! "impedance", .defined c! "(M * L^2) / (T^3 * I)" c! "T / L" c! "ohm" c! "s / cm"),
  (c! "inductance", .defined c! "(M * L^2) / (I * T)^2" c! "T^2 / L" c! "H" c! "s^2 / cm"),
  (c! "induction", .compound c! "magnetic induction"),
  (c! "integral flux", .compound c! "flux * energy"),
  (c! "length", .defined c! "L" c! "L" c! "m" c! "cm"),
  (c! "luminous flux", .defined c! "J" c! "J" c! "cd * sr" c! "cd * sr"),
  (c! "luminous intensity", .defined c! "J" c! "J" c! "cd" c! "cd"),
  (c! "magnetic field", .compound c! "magnetic induction"),
  (c! "magnetic flux", .defined c! "(M * L^2) / (T^2 * I)" c! "(M^1/2 * L^3/2) / T" c! "Wb" c! "Mx"),
  (c! "magnetic induction", .defined c! "M / (T^2 * I)" c! "M^1/2 / (L^1/2 * T)" c! "T" c! "G"),
  (c! "magnetic intensity", .defined c! "I / L" c! "M^1/2 / (L^1/2 * T)" c! "A / m" c! "Oe"),
  (c! "magnetic moment", .defined c! "I * L^2" c! "(M^1/2 * L^5/2) / T" c! "A * m^2" c! "Oe * cm^3"),
  (c! "magnetization", .compound c! "magnetic intensity"),
  (c! "magnetomotance", .compound c! "current"),
  (c! "mass", .defined c! "M" c! "M" c! "kg" c! "g"),
  (c! "mass density", .compound c! "mass / volume"),
  (c! "mass number", .compound c! "number"),
  (c! "momentum", .defined c! "(M * L) / T" c! "(M * L) / T" c! "kg * m / s" c! "g * cm / s"),
  (c! "momentum density", .compound c! "momentum / volume"),
  (c! "number", .compound c! "identity"),
  (c! "number density", .compound c! "1 / volume"),
  (c! "particle distribution", .compound c! "1 / (length * velocity)^3"),
  (c! "particle fluence", .compound c! "number / (area * solid_angle * energy / mass_number)"),
  (c! "particle flux", .compound c! "fluence / time"),
  (c! "permeability", .defined c! "(M * L) / (I * T)^2" c! "1" c! "H / m" c! "1"),
  (c! "permittivity", .defined c! "T^4 * I / (M * L^3)" c! "1" c! "F / m" c! "1"),
  (c! "plane angle", .defined c! "1" c! "1" c! "rad" c! "rad"),
  (c! "polarization", .compound c! "charge / area"),
  (c! "potential", .defined c! "(M * L^2) / (T^3 * I)" c! "(M^1/2 * L^1/2) / T" c! "V" c! "statV"),
  (c! "power", .defined c! "M * L^2 / T^3" c! "M * L^2 / T^3" c! "W" c! "erg / s"),
  (c! "power density", .compound c! "power / volume"),
  (c! "pressure", .defined c! "M / (L * T^2)" c! "M / (L * T^2)" c! "Pa" c! "dyn / cm^2"),
  (c! "radioactivity", .defined c! "1 / T" c! "1 / T" c! "Bq" c! "Ci"),
  (c! "rate", .compound c! "frequency"),
  (c! "ratio", .compound c! "identity"),
  (c! "reluctance", .defined c! "(I * T)^2 / (M * L^2)" c! "1 / L" c! "A / Wb" c! "1 / cm"),
  (c! "resistance", .compound c! "impedance"),
  (c! "resistivity", .compound c! "resistance * length"),
  (c! "temperature", .defined c! "H" c! "H" c! "K" c! "K"),
  (c! "thermal conductivity", .compound c! "power / (length * temperature)"),
  (c! "time", .defined c! "T" c! "T" c! "s" c! "s"),
  (c! "solid angle", .defined c! "1" c! "1" c! "sr" c! "sr"),
  (c! "speed", .compound c! "velocity"),
  (c! "vector potential", .defined c! "(M * L) / (T^2 * I)" c! "(M^1/2 * L^1/2) / T" c! "Wb / m" c! "G * cm"),
  (c! "velocity", .compound c! "length / time"),
  (c! "viscosity", .defined c! "M / (L * T)" c! "M / (L * T)" c! "kg / (m * s)" c! "P"),
  (c! "volume", .compound c! "length^3"),
  (c! "vorticity", .compound c! "frequency"),
  (c! "wavenumber", .compound c! "1 / length"),
  (c! "work", .compound c! "energy")]

/-- `C` (`_reference.py` 773): the speed of light in cm/s. -/
def lightSpeed : ℚ := 29979245800

/-- `PI` (`_reference.py` 775): the double nearest to π. -/
def piFloat : ℚ := 884279719003555 / 281474976710656

/-- `_CONVERSIONS` (`_reference.py` 779-816). -/
def conversionTable : List ((Name × Name) × ℚ) := [
  ((c! "Rs", c! "m"), 696000000),
  ((c! "F", c! "cm"), lightSpeed ^ 2 / 10 ^ 9),
  ((c! "C", c! "statC"), 10 * lightSpeed),
  ((c! "e", c! "C"), 16022 / 10 ^ 23),
  ((c! "S", c! "cm / s"), lightSpeed ^ 2 / 10 ^ 5),
  ((c! "A", c! "statA"), 10 * lightSpeed),
  ((c! "Gy", c! "erg / g"), 10 ^ 4),
  ((c! "J", c! "erg"), 10 ^ 7),
  ((c! "eV", c! "J"), 16022 / 10 ^ 23),
  ((c! "N", c! "dyn"), 10 ^ 5),
  ((c! "ohm", c! "s / cm"), 10 ^ 5 / lightSpeed ^ 2),
  ((c! "H", c! "s^2 / cm"), 10 ^ 5 / lightSpeed ^ 2),
  ((c! "au", c! "m"), 149597870700),
  ((c! "Wb", c! "Mx"), 10 ^ 8),
  ((c! "T", c! "G"), 10 ^ 4),
  ((c! "A / m", c! "Oe"), 4 * piFloat / 10 ^ 3),
  ((c! "nuc", c! "kg"), 16605 / 10 ^ 31),
  ((c! "amu", c! "kg"), 16605 / 10 ^ 31),
  ((c! "H / m", c! "1"), 10 ^ 7 / 4 * piFloat),
  ((c! "F / m", c! "1"), 36 * piFloat * 10 ^ 9),
  ((c! "rad", c! "deg"), 180 / piFloat),
  ((c! "V", c! "statV"), 10 ^ 6 / lightSpeed),
  ((c! "W", c! "erg / s"), 10 ^ 7),
  ((c! "Pa", c! "dyn / cm^2"), 10),
  ((c! "Bq", c! "Ci"), 1 / 37000000000),
  ((c! "A / Wb", c! "1 / cm"), 4 * piFloat / 10 ^ 9),
  ((c! "s", c! "min"), 1 / 60),
  ((c! "s", c! "h"), 1 / 3600),
  ((c! "s", c! "d"), 1 / 86400),
  ((c! "Wb / m", c! "G * cm"), 10 ^ 6),
  ((c! "kg / (m * s)", c! "P"), 10)]

/-- `CONVERSIONS` (`_reference.py` 819). -/
def conversions : Container.Graph Name ℚ := Container.Graph.build conversionTable

/-- `UNITY` (`_reference.py` 42). -/
def unity : List Name := [c! "#", c! "1"]

/-- An entry of `NAMED_UNITS`. -/
structure Entry where
  prefix_ : Prefix
  base : BaseUnit
  deriving DecidableEq

/-- `{'symbol': '', 'name': '', 'factor': 1e0}`: the first prefix with factor one (`_reference.py` 304-306). -/
def basePrefix : Prefix := ⟨[], [], 1⟩

/-- The keys of a prefixed unit (`_reference.py` 330-335). -/
def spellings (p : Prefix) (u : BaseUnit) : List Name :=
  [p.symbol ++ u.symbol, p.name ++ u.name] ++ (if p.symbol = c! "μ" then ['u' :: u.symbol] else [])

/-- The items added to the mapping for one unit (`_reference.py` 313-335). -/
def unitItems (u : BaseUnit) : List (List Name × Entry) :=
  if u.quantity = c! "identity" then [([u.symbol, u.name], ⟨basePrefix, u⟩)]
  else (prefixes.filter (fun p => decide (p.factor ≠ 0))).map (fun p =>
    if p.factor = 1 then ([u.symbol, u.name], ⟨basePrefix, u⟩) else (spellings p u, ⟨p, u⟩))

/-- The mapping `mapped` of `_build_named_units` (`_reference.py` 294-336). -/
def namedTable : List (List Name × Entry) := baseUnits.flatMap unitItems

/-- `NAMED_UNITS` (`_reference.py` 336-339). -/
def namedUnits : Aliased.AMap Name Entry :=
  .ofMapping (namedTable.map (fun p => (.tuple p.1, p.2)))

end Eprem.Metric
