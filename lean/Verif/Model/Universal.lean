import Verif.Model.MetricCache

/-!
# Model of `universal.py`

The table is generated from the source.  Simplifications: a value is an exact decimal number times a power of `π` (the
program uses floating-point numbers), and the aliased mapping of the constants is a dictionary, as no constant has an
alias.
-/

namespace Eprem.Universal

open Eprem Eprem.Symbolic Eprem.Metric

/-- A number `q * π^n`. -/
structure Value where
  q : ℚ
  piPower : ℕ
  deriving DecidableEq

/-- A definition: one value for all systems, or units and values in each (`universal.py` 16-142). -/
inductive Raw
  | all (x : Value)
  | each (mksUnit : Name) (mks : Value) (cgsUnit : Name) (cgs : Value)
  deriving DecidableEq

/-- `_constants` (`universal.py` 16-142): name, description, quantity and definition. -/
def table : List (Name × Name × Name × Raw) := [
  (c! "pi", c! "The ratio of a circle's circumference to its diameter.", c! "number", .all ⟨1, 1⟩),
  (c! "k", c! "Boltzmann's constant.", c! "energy / temperature", .each (c! "J / K") ⟨13807 / 10 ^ 27, 0⟩ (c! "erg / K") ⟨13807 / 10 ^ 20, 0⟩),
  (c! "e", c! "Elementary charge.", c! "charge", .each (c! "C") ⟨16022 / 10 ^ 23, 0⟩ (c! "statC") ⟨48032 / 10 ^ 14, 0⟩),
  (c! "me", c! "Electron mass.", c! "mass", .each (c! "kg") ⟨91094 / 10 ^ 35, 0⟩ (c! "g") ⟨91094 / 10 ^ 32, 0⟩),
  (c! "mp", c! "Proton mass.", c! "mass", .each (c! "kg") ⟨16726 / 10 ^ 31, 0⟩ (c! "g") ⟨16726 / 10 ^ 28, 0⟩),
  (c! "G", c! "Gravitational constant.", c! "force * area / mass^2", .each (c! "m^3 / (s^2 * kg)") ⟨66726 / 10 ^ 15, 0⟩ (c! "dyn * cm^2 / g^2") ⟨66726 / 10 ^ 12, 0⟩),
  (c! "g", c! "Gravitational acceleration.", c! "acceleration", .each (c! "m / s^2") ⟨98067 / 10 ^ 4, 0⟩ (c! "cm / s^2") ⟨98067 / 10 ^ 2, 0⟩),
  (c! "h", c! "Planck's constant.", c! "energy * time", .each (c! "J * s") ⟨66261 / 10 ^ 38, 0⟩ (c! "erg * s") ⟨66261 / 10 ^ 31, 0⟩),
  (c! "c", c! "Speed of light in a vacuum.", c! "speed", .each (c! "m / s") ⟨299792458, 0⟩ (c! "cm / s") ⟨299792458 * 10 ^ 2, 0⟩),
  (c! "epsilon0", c! "Permittivity of free space.", c! "permittivity", .each (c! "F / m") ⟨88542 / 10 ^ 16, 0⟩ (c! "1") ⟨10 / 10 ^ 1, 0⟩),
  (c! "mu0", c! "Permeability of free space.", c! "permeability", .each (c! "H / m") ⟨4 / 10 ^ 7, 1⟩ (c! "1") ⟨10 / 10 ^ 1, 0⟩),
  (c! "Rinfinity", c! "Rydberg constant.", c! "1 / length", .each (c! "1 / m") ⟨10974 * 10 ^ 3, 0⟩ (c! "1 / cm") ⟨10974 * 10 ^ 1, 0⟩),
  (c! "a0", c! "Bohr radius.", c! "length", .each (c! "m") ⟨52918 / 10 ^ 15, 0⟩ (c! "cm") ⟨52918 / 10 ^ 13, 0⟩),
  (c! "re", c! "Classical electron radius.", c! "length", .each (c! "m") ⟨28179 / 10 ^ 19, 0⟩ (c! "cm") ⟨28179 / 10 ^ 17, 0⟩),
  (c! "alpha", c! "Fine structure constant.", c! "number", .each (c! "1") ⟨72974 / 10 ^ 7, 0⟩ (c! "1") ⟨72974 / 10 ^ 7, 0⟩),
  (c! "c1", c! "First radiation constant.", c! "power * area", .each (c! "W * m^2") ⟨37418 / 10 ^ 20, 0⟩ (c! "erg * cm^2 / s") ⟨37418 / 10 ^ 20, 0⟩),
  (c! "c2", c! "Second radiation constant.", c! "length * temperature", .each (c! "m * K") ⟨14388 / 10 ^ 6, 0⟩ (c! "cm * K") ⟨14388 / 10 ^ 4, 0⟩),
  (c! "sigma", c! "Stefan-Boltzmann constant.", c! "power / (area * temperature^4)", .each (c! "W / (m^2 * K^4)") ⟨56705 / 10 ^ 12, 0⟩ (c! "(erg / s) / (cm^2 * K^4)") ⟨56705 / 10 ^ 9, 0⟩),
  (c! "eV", c! "Energy associated with 1 eV.", c! "energy", .each (c! "J") ⟨16022 / 10 ^ 23, 0⟩ (c! "erg") ⟨16022 / 10 ^ 16, 0⟩),
  (c! "amu", c! "Atomic mass unit.", c! "mass", .each (c! "kg") ⟨16605 / 10 ^ 31, 0⟩ (c! "g") ⟨16605 / 10 ^ 28, 0⟩),
  (c! "au", c! "Astronomical unit.", c! "length", .each (c! "m") ⟨1495978707 * 10 ^ 2, 0⟩ (c! "cm") ⟨1495978707 * 10 ^ 4, 0⟩)]

/-- The same unit, and a multiple of the value (`universal.py` 145-151, 156-162). -/
def Raw.scaled (c : ℚ) : Raw → Raw
  | .all x => .all ⟨c * x.q, x.piPower⟩
  | .each u x v y => .each u ⟨c * x.q, x.piPower⟩ v ⟨c * y.q, y.piPower⟩

/-- `str.replace('eV', 'MeV')`, for the description of the electron volt (`universal.py` 155). -/
def megaInfo (s : Name) : Name := replace (c! "eV") (c! "MeV") s

/-- The constants that are computed from the electron volt (`universal.py` 143-164). -/
def derived : List (Name × Name × Name × Raw) :=
  match table.find? (fun r => r.1 = c! "eV") with
  | none => []
  | some (_, info, _, d) => [
    (c! "H+", c! "First ionization energy of hydrogen.", c! "energy", d.scaled (136 / 10)),
    (c! "MeV", megaInfo info, c! "energy", d.scaled (10 ^ 6))]

/-- What is known about a constant. -/
structure Definition where
  info : Name
  quantity : Name
  unit : System → Name
  value : System → Value

/-- `_normalize` (`universal.py` 167-179), for one definition. -/
def normalize (info quantity : Name) : Raw → Definition
  | .all x => ⟨info, quantity, fun _ => c! "1", fun _ => x⟩
  | .each u x v y => ⟨info, quantity, fun s => match s with | .mks => u | .cgs => v,
      fun s => match s with | .mks => x | .cgs => y⟩

/-- `CONSTANTS` (`universal.py` 183). -/
def constants : Dict Name Definition :=
  Dict.ofItems ((table ++ derived).map (fun r => (r.1, normalize r.2.1 r.2.2.1 r.2.2.2)))

/-- A constant: its value, unit, quantity and description. -/
structure Constant where
  value : Value
  unit : List Term
  quantity : Name
  info : Name

/-- Exceptions: `KeyError`, and those from the unit. -/
inductive Err
  | key
  | unit (e : MErr)

/-- The metric system with this name (`universal.py` 238, 259). -/
def systemOf (name : Name) : Except Err System :=
  let low := name.map Char.toLower
  if low = c! "mks" then .ok .mks else if low = c! "cgs" then .ok .cgs else .error .key

/-- `Constants(system)[name]` (`universal.py` 237-264). -/
def getConstant (system : Name) (name : Name) : Except Err Constant :=
  match constants.get? name with
  | none => .error .key
  | some d => match systemOf system with
    | .error e => .error e
    | .ok s => match freshUnit (d.unit s) with
      | .error e => .error (.unit e)
      | .ok u => .ok ⟨d.value s, u, d.quantity, d.info⟩

end Eprem.Universal
