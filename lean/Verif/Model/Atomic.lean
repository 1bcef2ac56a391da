import Verif.Model.Container
import Verif.Model.Float
import Verif.Model.MetricTables

/-!
# Model of `atomic.py`

The table of elements is generated from `/repo/src/eprempy/atomic.py`.  Masses are exact decimal numbers.  Masses and charges
given by the user are one-dimensional lists of (rational) numbers.
-/

namespace Eprem.Atomic

open Eprem Eprem.Symbolic Eprem.Metric

/-- The elements (`atomic.py` 21-131): symbol, name and mass. -/
def elementRows : List (Str × Str × Rat) := [
  (c! "H", c! "Hydrogen", 100797 / 100000),
  (c! "He", c! "Helium", 20013 / 5000),
  (c! "Li", c! "Lithium", 6941 / 1000),
  (c! "Be", c! "Beryllium", 450609 / 50000),
  (c! "B", c! "Boron", 1081 / 100),
  (c! "C", c! "Carbon", 12011 / 1000),
  (c! "N", c! "Nitrogen", 140067 / 10000),
  (c! "O", c! "Oxygen", 79997 / 5000),
  (c! "F", c! "Fluorine", 18998403 / 1000000),
  (c! "Ne", c! "Neon", 20179 / 1000),
  (c! "Na", c! "Sodium", 2298977 / 100000),
  (c! "Mg", c! "Magnesium", 4861 / 200),
  (c! "Al", c! "Aluminum", 1349077 / 50000),
  (c! "Si", c! "Silicon", 56171 / 2000),
  (c! "P", c! "Phosphorus", 96793 / 3125),
  (c! "S", c! "Sulfur", 1603 / 50),
  (c! "Cl", c! "Chlorine", 35453 / 1000),
  (c! "K", c! "Potassium", 390983 / 10000),
  (c! "Ar", c! "Argon", 9987 / 250),
  (c! "Ca", c! "Calcium", 1002 / 25),
  (c! "Sc", c! "Scandium", 449559 / 10000),
  (c! "Ti", c! "Titanium", 479 / 10),
  (c! "V", c! "Vanadium", 101883 / 2000),
  (c! "Cr", c! "Chromium", 12999 / 250),
  (c! "Mn", c! "Manganese", 27469 / 500),
  (c! "Fe", c! "Iron", 55847 / 1000),
  (c! "Ni", c! "Nickel", 587 / 10),
  (c! "Co", c! "Cobalt", 147333 / 2500),
  (c! "Cu", c! "Copper", 31773 / 500),
  (c! "Zn", c! "Zinc", 3269 / 50),
  (c! "Ga", c! "Gallium", 1743 / 25),
  (c! "Ge", c! "Germanium", 7259 / 100),
  (c! "As", c! "Arsenic", 46826 / 625),
  (c! "Se", c! "Selenium", 1974 / 25),
  (c! "Br", c! "Bromine", 9988 / 125),
  (c! "Kr", c! "Krypton", 419 / 5),
  (c! "Rb", c! "Rubidium", 427339 / 5000),
  (c! "Sr", c! "Strontium", 4381 / 50),
  (c! "Y", c! "Yttrium", 889059 / 10000),
  (c! "Zr", c! "Zirconium", 4561 / 50),
  (c! "Nb", c! "Niobium", 116133 / 1250),
  (c! "Mo", c! "Molybdenum", 4797 / 50),
  (c! "Tc", c! "Technetium", 98),
  (c! "Ru", c! "Ruthenium", 10107 / 100),
  (c! "Rh", c! "Rhodium", 205811 / 2000),
  (c! "Pd", c! "Palladium", 532 / 5),
  (c! "Ag", c! "Silver", 26967 / 250),
  (c! "Cd", c! "Cadmium", 11241 / 100),
  (c! "In", c! "Indium", 5741 / 50),
  (c! "Sn", c! "Tin", 11869 / 100),
  (c! "Sb", c! "Antimony", 487 / 4),
  (c! "I", c! "Iodine", 253809 / 2000),
  (c! "Te", c! "Tellurium", 638 / 5),
  (c! "Xe", c! "Xenon", 1313 / 10),
  (c! "Cs", c! "Cesium", 664527 / 5000),
  (c! "Ba", c! "Barium", 13733 / 100),
  (c! "La", c! "Lanthanum", 277811 / 2000),
  (c! "Ce", c! "Cerium", 3503 / 25),
  (c! "Pr", c! "Praseodymium", 1409077 / 10000),
  (c! "Nd", c! "Neodymium", 3606 / 25),
  (c! "Pm", c! "Promethium", 145),
  (c! "Sm", c! "Samarium", 752 / 5),
  (c! "Eu", c! "Europium", 3799 / 25),
  (c! "Gd", c! "Gadolinium", 629 / 4),
  (c! "Tb", c! "Terbium", 794627 / 5000),
  (c! "Dy", c! "Dysprosium", 325 / 2),
  (c! "Ho", c! "Holmium", 206163 / 1250),
  (c! "Er", c! "Erbium", 8363 / 50),
  (c! "Tm", c! "Thulium", 844671 / 5000),
  (c! "Yb", c! "Ytterbium", 4326 / 25),
  (c! "Lu", c! "Lutetium", 174967 / 1000),
  (c! "Hf", c! "Hafnium", 17849 / 100),
  (c! "Ta", c! "Tantalum", 1809479 / 10000),
  (c! "W", c! "Tungsten", 3677 / 20),
  (c! "Re", c! "Rhenium", 186207 / 1000),
  (c! "Os", c! "Osmium", 951 / 5),
  (c! "Ir", c! "Iridium", 9611 / 50),
  (c! "Pt", c! "Platinum", 19509 / 100),
  (c! "Au", c! "Gold", 393933 / 2000),
  (c! "Hg", c! "Mercury", 20059 / 100),
  (c! "Tl", c! "Thallium", 20437 / 100),
  (c! "Pb", c! "Lead", 1036 / 5),
  (c! "Bi", c! "Bismuth", 522451 / 2500),
  (c! "Po", c! "Polonium", 209),
  (c! "At", c! "Astatine", 210),
  (c! "Rn", c! "Radon", 222),
  (c! "Fr", c! "Francium", 223),
  (c! "Ra", c! "Radium", 1130127 / 5000),
  (c! "Ac", c! "Actinium", 1135139 / 5000),
  (c! "Pa", c! "Protactinium", 2310359 / 10000),
  (c! "Th", c! "Thorium", 2320381 / 10000),
  (c! "Np", c! "Neptunium", 1185241 / 5000),
  (c! "U", c! "Uranium", 238029 / 1000),
  (c! "Pu", c! "Plutonium", 242),
  (c! "Am", c! "Americium", 243),
  (c! "Bk", c! "Berkelium", 247),
  (c! "Cm", c! "Curium", 247),
  (c! "No", c! "Nobelium", 250),
  (c! "Cf", c! "Californium", 251),
  (c! "Es", c! "Einsteinium", 252),
  (c! "Hs", c! "Hassium", 255),
  (c! "Mt", c! "Meitnerium", 256),
  (c! "Fm", c! "Fermium", 257),
  (c! "Md", c! "Mendelevium", 258),
  (c! "Lr", c! "Lawrencium", 260),
  (c! "Rf", c! "Rutherfordium", 261),
  (c! "Bh", c! "Bohrium", 262),
  (c! "Db", c! "Dubnium", 262),
  (c! "Sg", c! "Seaborgium", 263)]

/-- Exceptions: `TypeError`, `MassValueError`, and those of tables. -/
inductive Err
  | type
  | mass (value : Int)
  | table (e : Container.Err)

/-- A cell of the table. -/
inductive Cell
  | text (s : Str)
  | num (x : Rat)
  deriving DecidableEq

/-- `ELEMENTS` (`atomic.py` 133). -/
def ELEMENTS : Container.Table Str Cell :=
  elementRows.map (fun r => [(c! "symbol", .text r.1), (c! "name", .text r.2.1), (c! "mass", .num r.2.2)])

/-- `_nucleons` (`atomic.py` 135-138). -/
def nucleons : Dict Str Int := Dict.ofItems (elementRows.map (fun r => (r.1, roundEven r.2.2)))

/-- The position of the first occurrence, as in `list.index`. -/
def indexOf? (x : Int) : List Int → Option Nat
  | [] => none
  | y :: l => if y = x then some 0 else (indexOf? x l).map (· + 1)

/-- `get_mass_indices(nucleons, targets)` (`atomic.py` 169-181). -/
def getMassIndices (values : List Int) : List Rat → Except Err (List Nat)
  | [] => .ok []
  | t :: ts => match indexOf? (roundEven t) values with
    | none => .error (.mass (roundEven t))
    | some i => match getMassIndices values ts with
      | .error e => .error e
      | .ok l => .ok (i :: l)

/-- `int(x)`: towards zero. -/
def truncate (x : Rat) : Int := if 0 ≤ x then x.floor else -((-x).floor)

/-- `('+' if i > 0 else '-') * abs(int(i))` (`atomic.py` 156). -/
def signs (c : Rat) : Str := List.replicate (truncate c).natAbs (if 0 < c then '+' else '-')

/-- `elements(mass=..., charge=...)` (`atomic.py` 140-157). -/
def elements (mass charge : List Rat) : Except Err (List Str) :=
  if mass.length ≠ charge.length then .error .type
  else match getMassIndices nucleons.values mass with
    | .error e => .error e
    | .ok idx => .ok (List.zipWith (· ++ ·) (idx.map (fun m => (nucleons.keys[m]?).getD [])) (charge.map signs))

/-- Is the character a sign? -/
def isSign (c : Char) : Bool := c = '+' || c = '-'

/-- `symbol.rstrip('+-')` (`atomic.py` 208, 223). -/
def base (symbol : Str) : Str := (symbol.reverse.dropWhile isSign).reverse

/-- `Species.mass` (`atomic.py` 204-212), the number of nucleons. -/
def mass (symbol : Str) : Except Err Rat :=
  match Container.findUnique ELEMENTS (.text (base symbol)) with
  | .error e => .error (.table e)
  | .ok row => match row.get? (c! "mass") with
    | some (.num x) => .ok x
    | _ => .error .type

/-- `sum(float(f"{s}1.0") for s in sign)` (`atomic.py` 225); only signs remain in the text. -/
def sumSigns : Str → Int
  | [] => 0
  | c :: s => (if c = '-' then -1 else 1) + sumSigns s

/-- `Species.charge` (`atomic.py` 219-228), in units of the elementary charge. -/
def charge (symbol : Str) : Int := sumSigns (symbol.dropWhile (fun c => (base symbol).contains c))

/-- `species(mass=..., charge=...)` (`atomic.py` 243-266), the symbol. -/
def species (mass charge : Rat) : Except Err Str :=
  match elements [mass] [charge] with
  | .error e => .error e
  | .ok l => .ok (l.headD [])

end Eprem.Atomic
