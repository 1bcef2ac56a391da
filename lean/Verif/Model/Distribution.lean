import Verif.Model.Gradient
import Verif.Model.ObservableAlgebra

/-!
# Model of the moments of the distribution of particles: `observable/_interfaces.py` 626-755

The methods first obtain the arrays that they need; here these are the arguments, as in `Model/Observable.lean`.
`c` and `st` are the conversions of the package and their cache (`Model/MetricConvert.lean`), and `unit` is the unit of the
metric system for the quantity in question.

Simplified: the methods observe the array (`_observe`) at the requested indices before (energy density, average energy) or
after (flux) they convert it to `unit`; here the whole array is converted, and observing it is the subject of C87, which says
that the order does not matter.
-/

namespace Eprem.Observable

open Eprem Eprem.Symbolic Eprem.Metric Eprem.Numeric Eprem.Measured Eprem.Physical

variable {κ ν : Type} [DecidableEq κ]

noncomputable section

/-- The mean of some numbers. -/
def mean (l : List ℝ) : ℝ := l.sum / l.length

/-- `numpy.mean(a, axis=-1)` of a physical object (`physical/_operations.py` 573-583); only arrays are modelled. -/
def meanLast : Operand κ ν ℝ → Except PErr (Operand κ ν ℝ)
  | .array a => reduceAxis (fun y => meanAxis mean y (-1) none) a
  | _ => .error .type

/-- `numpy.sum(a, axis=-1)` of a physical object (`physical/_operations.py` 586-596); only arrays are modelled. -/
def sumLast : Operand κ ν ℝ → Except PErr (Operand κ ν ℝ)
  | .array a => reduceAxis (fun y => sumAxis List.sum y (-1) none) a
  | _ => .error .type

/-- `numpy.gradient(a, axis=-1)` of a physical object (`physical/_operations.py` 640-647); only arrays are modelled. -/
def gradientLast (order : List System) : Operand κ ν ℝ → Except PErr (Operand κ ν ℝ)
  | .array a => gradient order a none (-1)
  | _ => .error .type

/-- `result.withunit(unit)` (`_interfaces.py` 660, 693, 726). -/
def toUnit (c : Conv ℝ) (st : Cache ℝ) (a : Operand κ ν ℝ) (unit : List Term) : Except PErr (Operand κ ν ℝ) :=
  match a with
  | .array x => match x.arr.withunit c st (showExpr unit) with
    | (_, .ok d) => .ok (.array ⟨d, x.axes⟩)
    | (_, .error e) => .error (.metric e)
  | _ => .error .type

/-- `Implementations._fiso` (`_interfaces.py` 752-755) for a dataset with distributions `f`. -/
def isotropic (f : Operand κ ν ℝ) : Except PErr (Operand κ ν ℝ) := meanLast f

/-- `Implementations._fiso` (`_interfaces.py` 737-751) for a dataset with fluxes; `unit` is that of distributions. -/
def isotropicOfFlux (order : List System) (unit : List Term) (flux m e : Operand κ ν ℝ) : Except PErr (Operand κ ν ℝ) := do
  let a ← times order (.number (1 / 2)) flux
  let m2 ← raised m 2
  let b ← times order a m2
  let d ← over order b e
  match d, flux with
  | .array d, .array x => newArray d.arr.data.data unit x.axes
  | _, _ => .error .type

/-- `Implementations.flux` (`_interfaces.py` 720-726) for a dataset with distributions; `sr` is `physical.scalar(1.0, 'sr')`. -/
def fluxOf (order : List System) (c : Conv ℝ) (st : Cache ℝ) (unit : List Term) (fiso e m : Operand κ ν ℝ) :
    Except PErr (Operand κ ν ℝ) := do
  let a ← times order (.number 2) fiso
  let b ← times order a e
  let m2 ← raised m 2
  let g ← times order (.object .scalar ⟨⟨[], fun _ => 1⟩, [⟨1, c! "sr", 1⟩]⟩) m2
  let d ← over order b g
  toUnit c st d unit

/-- The sum over energies of `v**n * fiso * dv` (`_interfaces.py` 646-655, 681-690). -/
def moment (order : List System) (n : ℕ) (v fiso : Operand κ ν ℝ) : Except PErr (Operand κ ν ℝ) := do
  let dv ← gradientLast order v
  let vn ← raised v n
  let a ← times order vn fiso
  let b ← times order a dv
  sumLast b

/-- `Implementations.energy_density` (`_interfaces.py` 681-693). -/
def energyDensity (order : List System) (c : Conv ℝ) (st : Cache ℝ) (unit : List Term) (m v fiso : Operand κ ν ℝ) :
    Except PErr (Operand κ ν ℝ) := do
  let s ← moment order 4 v fiso
  let a ← times order m s
  toUnit c st a unit

/-- `Implementations.average_energy` (`_interfaces.py` 646-660); `st'` is the cache of conversions after those of the energy
density. -/
def averageEnergy (order : List System) (c : Conv ℝ) (st st' : Cache ℝ) (densityUnit unit : List Term)
    (m v fiso : Operand κ ν ℝ) : Except PErr (Operand κ ν ℝ) := do
  let n ← moment order 2 v fiso
  let epsilon ← energyDensity order c st densityUnit m v fiso
  let a ← times order (.number (1 / 2)) epsilon
  let r ← over order a n
  toUnit c st' r unit

end

end Eprem.Observable
