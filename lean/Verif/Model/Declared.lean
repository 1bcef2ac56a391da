import Verif.Model.ObservableAlgebra
import Verif.Model.MetricQuantity

/-!
# Model of what observables declare: `observable/_interfaces.py` 1146-1759, and of the check of what they compute,
`observable/_objects.py` 459-467
-/

namespace Eprem.Observable

open Eprem Eprem.Metric Eprem.Numeric Eprem.Measured Eprem.Physical
open Eprem.Symbolic (Term)

/-- The units and the dimensions of the arrays of a dataset (`datafile/_interfaces.py` 208-330), by the names of the
properties, and whether it has distributions. -/
structure ArraysInfo where
  unit : Name → List Term
  dims : Name → List Name
  hasdist : Bool

/-- `self.system[quantity].unit`. -/
def systemUnit (s : System) (quantity : Name) : Except QErr (List Term) :=
  match unitsOf s quantity with
  | .error e => .error (.metric e)
  | .ok n => ofMetric (freshUnit n)

/-- `a | b` of dimensions. -/
def unionOf (a b : List Name) : Except QErr (List Name) :=
  match dimsOr a b with
  | .error _ => .error .value
  | .ok d => .ok d

/-- The unit and dimensions of `Quantities.f` (`_interfaces.py` 1418-1441). -/
def declaredF (s : System) (D : ArraysInfo) : Except QErr (List Term × List Name) :=
  if D.hasdist then .ok (D.unit c! "f", D.dims c! "f")
  else match systemUnit s c! "particle distribution" with
    | .error e => .error e
    | .ok u => match unionOf (D.dims c! "flux") [c! "mu"] with
      | .error e => .error e
      | .ok d => .ok (u, d)

/-- Those of `Quantities.rigidity` (1601-1610). -/
def declaredRigidity (s : System) (D : ArraysInfo) : Except QErr (List Term × List Name) := do
  let u ← systemUnit s c! "momentum / charge"
  let d ← unionOf (D.dims c! "mass") (D.dims c! "energy")
  .ok (u, d)

/-- Those of `Quantities.mfp` (1619-1628). -/
def declaredMfp (s : System) (D : ArraysInfo) : Except QErr (List Term × List Name) := do
  let u ← systemUnit s c! "length"
  let r ← declaredRigidity s D
  let d ← unionOf (D.dims c! "r") r.2
  .ok (u, d)

/-- Those of `Quantities.average_energy` (1661-1671). -/
def declaredAverage (s : System) (D : ArraysInfo) : Except QErr (List Term × List Name) := do
  let removed ← unionOf (D.dims c! "energy") (D.dims c! "mu")
  let f ← declaredF s D
  .ok (D.unit c! "energy", dimsSub f.2 removed)

/-- Those of `Quantities.flux` (1703-1712). -/
def declaredFlux (s : System) (D : ArraysInfo) : Except QErr (List Term × List Name) := do
  let u ← systemUnit s c! "flux"
  let f ← declaredF s D
  .ok (u, dimsSub f.2 (D.dims c! "mu"))

/-- The properties that are arrays of the dataset (`_interfaces.py` 1146-1416). -/
def storedNames : List Name := [c! "time", c! "energy", c! "v", c! "mu", c! "mass", c! "charge", c! "r", c! "theta", c! "phi",
  c! "br", c! "btheta", c! "bphi", c! "ur", c! "utheta", c! "uphi", c! "rho"]

/-- The unit and the dimensions of each property of `Quantities` (`_interfaces.py` 1146-1759); other attributes are
`None` here. -/
def declared (order : List System) (s : System) (D : ArraysInfo) (name : Name) : Option (Except QErr (List Term × List Name)) :=
  if name ∈ storedNames then some (.ok (D.unit name, D.dims name))
  else if name = c! "f" then some (declaredF s D)
  else if name = c! "x" ∨ name = c! "y" ∨ name = c! "z" then some (.ok (D.unit c! "r", D.dims c! "r"))
  else if name = c! "bmag" then some (.ok (D.unit c! "br", D.dims c! "br"))
  else if name = c! "umag" ∨ name = c! "upara" ∨ name = c! "uperp" then some (.ok (D.unit c! "ur", D.dims c! "ur"))
  else if name = c! "angle" then some (do let u ← systemUnit s c! "plane angle"; .ok (u, D.dims c! "ur"))
  else if name = c! "divu" then some (do
    let t ← systemUnit s c! "time"
    let u ← ofMetric (unitInv order t)
    .ok (u, D.dims c! "rho"))
  else if name = c! "rigidity" then some (declaredRigidity s D)
  else if name = c! "mfp" then some (declaredMfp s D)
  else if name = c! "ar" then some (do
    let t ← systemUnit s c! "time"
    let u ← ofMetric (unitInv order t)
    let m ← declaredMfp s D
    .ok (u, m.2))
  else if name = c! "average_energy" then some (declaredAverage s D)
  else if name = c! "energy_density" then some (do
    let u ← systemUnit s c! "energy density"
    let a ← declaredAverage s D
    .ok (u, a.2))
  else if name = c! "flux" then some (declaredFlux s D)
  else if name = c! "fluence" then some (do
    let u ← systemUnit s c! "fluence"
    let f ← declaredFlux s D
    .ok (u, f.2))
  else if name = c! "intflux" then some (do
    let u ← systemUnit s c! "integral flux"
    let f ← declaredFlux s D
    .ok (u, dimsReplace f.2 c! "energy" c! "minimum energy"))
  else none

noncomputable section

variable {κ ν : Type} [DecidableEq κ]

/-- The end of `Quantity.__getitem__` (`_objects.py` 459-467), for the array `r` that the operator gives. -/
def finishQuantity (c : Conv ℝ) (st : Cache ℝ) (r : Operand κ ν ℝ) (unit : List Term) : Cache ℝ × Except QErr (Operand κ ν ℝ) :=
  match consistent c st r.unit unit with
  | (st', .error e) => (st', .error (.metric e))
  | (st', .ok true) => convertResult c st' r unit
  | (st', .ok false) => (st', .error .observation)

/-- `Quantities._f` (`_interfaces.py` 1443-1453): the distributions of a dataset that has them, and `None` otherwise. -/
def operatorF (D : ArraysInfo) (stored : Operand κ ν ℝ) : Option (Operand κ ν ℝ) :=
  if D.hasdist then some stored else none

/-- The same for an operator that may give `None` (`_interfaces.py` 1443-1453): `None` has no unit. -/
def finishOptional (c : Conv ℝ) (st : Cache ℝ) (r : Option (Operand κ ν ℝ)) (unit : List Term) : Cache ℝ × Except QErr (Operand κ ν ℝ) :=
  match r with
  | none => (st, .error .attribute)
  | some r => finishQuantity c st r unit

end

end Eprem.Observable
