import Verif.Model.Aliased
import Verif.Model.ObservableAlgebra
import Verif.Model.Stars

/-!
# Model of the names of observables: `reference.py` 12-216, `observable/_interfaces.py` 53-98, 1096-1144, 1784-1793, `eprem.py` 66-84

The quantities themselves are those that the properties of `Quantities` return (`_interfaces.py` 1146-1772).  A group of aliases
is a set, and `order` lists the members of each set in the order in which python iterates over it.  An object is the quantity
together with a number that tells it from all other objects.
-/

namespace Eprem.Observable

open Eprem Eprem.Metric Eprem.Aliased

/-! ## Tables -/

/-- `reference._metadata` (`reference.py` 12-161): each name with its aliases. -/
def metadata : List (Name × List Name) := [
  (c! "phiOffset", []),
  (c! "time", [c! "t", c! "times"]),
  (c! "shell", [c! "shells"]),
  (c! "mu", [c! "mu", c! "pitch angle", c! "pitch-angle", c! "pitch-angle cosine", c! "pitch angles", c! "pitch-angles", c! "pitch-angle cosines"]),
  (c! "mass", [c! "m"]),
  (c! "charge", [c! "q"]),
  (c! "energy", [c! "energies", c! "E", c! "egrid"]),
  (c! "v", [c! "speed", c! "vgrid"]),
  (c! "r", [c! "radius", c! "R"]),
  (c! "theta", [c! "T"]),
  (c! "phi", [c! "P"]),
  (c! "br", [c! "Br"]),
  (c! "btheta", [c! "bt", c! "Btheta", c! "Bt"]),
  (c! "bphi", [c! "bp", c! "Bphi", c! "Bp"]),
  (c! "ur", [c! "Ur", c! "Vr", c! "vr"]),
  (c! "utheta", [c! "ut", c! "Utheta", c! "Ut", c! "Vtheta", c! "Vt"]),
  (c! "uphi", [c! "up", c! "Uphi", c! "Up", c! "Vphi", c! "Vp"]),
  (c! "rho", [c! "Rho"]),
  (c! "f", [c! "dist", c! "Dist"]),
  (c! "flux", [c! "Flux", c! "J", c! "J(E)", c! "j", c! "j(E)"]),
  (c! "x", [c! "X"]),
  (c! "y", [c! "Y"]),
  (c! "z", [c! "Z"]),
  (c! "bmag", [c! "B", c! "b", c! "|B|", c! "|b|", c! "b_mag", c! "b mag"]),
  (c! "umag", [c! "U", c! "u", c! "|U|", c! "|u|", c! "u_mag", c! "u mag"]),
  (c! "upara", [c! "Upara", c! "u_para"]),
  (c! "uperp", [c! "Uperp", c! "u_perp"]),
  (c! "angle", [c! "flow_angle", c! "flow angle"]),
  (c! "divu", [c! "div_u", c! "divU", c! "div U", c! "div u", c! "div(U)", c! "div(u)"]),
  (c! "rigidity", [c! "Rg", c! "R_g"]),
  (c! "mfp", [c! "mean_free_path", c! "mean free path"]),
  (c! "ar", [c! "acceleration_rate", c! "acceleration rate"]),
  (c! "energy_density", [c! "energy density"]),
  (c! "average_energy", [c! "average energy"]),
  (c! "fluence", []),
  (c! "intflux", [c! "integral_flux", c! "integral flux"])]

/-- The names in `Implementations.definitions` (`_interfaces.py` 53-98). -/
def definitions : List Name :=
  [c! "time", c! "energy", c! "v", c! "mu", c! "mass", c! "charge", c! "r", c! "theta", c! "phi", c! "br", c! "btheta",
   c! "bphi", c! "ur", c! "utheta", c! "uphi", c! "rho", c! "f", c! "x", c! "y", c! "z", c! "bmag", c! "umag", c! "ubmag",
   c! "angle", c! "upara", c! "udotb", c! "uperp", c! "divu", c! "rigidity", c! "mfp", c! "ar", c! "average energy",
   c! "energy density", c! "flux", c! "fluence", c! "intflux"]

/-- The properties of `Quantities` (`_interfaces.py` 1146-1872). -/
def properties : List Name :=
  [c! "time", c! "energy", c! "v", c! "mu", c! "mass", c! "charge", c! "r", c! "theta", c! "phi", c! "br", c! "btheta",
   c! "bphi", c! "ur", c! "utheta", c! "uphi", c! "rho", c! "f", c! "x", c! "y", c! "z", c! "bmag", c! "umag", c! "angle",
   c! "upara", c! "uperp", c! "divu", c! "rigidity", c! "mfp", c! "ar", c! "average_energy", c! "energy_density", c! "flux",
   c! "fluence", c! "intflux", c! "defined", c! "functions", c! "grid", c! "axes", c! "constants", c! "coordinates",
   c! "dataset", c! "system", c! "source", c! "parameters", c! "config"]

/-- `reference.ALIASES` (`reference.py` 164-176): the groups of keys of the aliased mapping of quantities. -/
def aliasGroups : List (Finset Name) :=
  (AMap.ofMapping (metadata.map (fun p => (Key.tuple (p.1 :: p.2), p.1)))).dict.map Prod.fst

/-- `OBSERVABLES.aliases.get(key, [key])` (`reference.py` 196-198, `aliased.py` 201-214). -/
def aliasesOf (key : Name) : Finset Name :=
  (groupsGet (metadata.map (fun p => (groupsGet aliasGroups p.1).getD {p.1})) key).getD {key}

/-- `reference.OBSERVABLES.names` (`reference.py` 193-199, 214). -/
def observableNames (order : Finset Name → List Name) : Except Aliased.Err (AMap Name Name) :=
  nameMap (.mapping (metadata.map (fun p => (p.1, order ((groupsGet aliasGroups p.1).getD {p.1}))))) none

/-- `reference.OBSERVABLES.names.get(key, key)`. -/
def resolveName (order : Finset Name → List Name) (key : Name) : Name :=
  match observableNames order with
  | .error _ => key
  | .ok m => match m.getItem key with
    | .error _ => key
    | .ok name => name

/-- `Quantities.defined` (`_interfaces.py` 1784-1793). -/
def defined (order : Finset Name → List Name) : List Name := definitions.flatMap (fun k => order (aliasesOf k))

/-! ## Lookup -/

variable {A κ ν : Type} [DecidableEq κ]

noncomputable section

/-- `_get_observable(key)` (`_interfaces.py` 1136-1144); `property` are the quantities that the properties return. -/
def getObservable (order : Finset Name → List Name) (property : Name → Quantity A κ ν) (key : Name) :
    Except QErr (Quantity A κ ν) :=
  if resolveName order key ∈ defined order then
    if resolveName order key ∈ properties then .ok (property (resolveName order key)) else .error .attribute
  else .error .key

/-- `_build_observable(key)` (`_interfaces.py` 1116-1134); the exponents are fractions. -/
def buildObservable (order : Finset Name → List Name) (systems : List System) (property : Name → Quantity A κ ν) (key : Name) :
    Except QErr (Quantity A κ ν) :=
  match Symbolic.Stars.expression (resolveName order key) with
  | .error e => .error (.parsing e)
  | .ok ts => buildTerms systems (getObservable order property) (fun _ => false) ts

/-- The state of `Quantities`: the objects that were built for names (`_interfaces.py` 1095), and the number of objects. -/
structure Names (A κ ν : Type) where
  cache : Dict Name (Nat × Quantity A κ ν)
  next : Nat

/-- `Quantities.__getitem__(key)` (`_interfaces.py` 1108-1114). -/
def Names.getItem (build : Name → Except QErr (Quantity A κ ν)) (st : Names A κ ν) (key : Name) :
    Names A κ ν × Except QErr (Nat × Quantity A κ ν) :=
  match st.cache.get? key with
  | some q => (st, .ok q)
  | none => match build key with
    | .error e => (st, .error e)
    | .ok q => (⟨st.cache.set key (st.next, q), st.next + 1⟩, .ok (st.next, q))

/-- `key in quantities`: `collections.abc.Mapping` looks the key up, and `KeyError` means that it is not there. -/
def Names.contains (build : Name → Except QErr (Quantity A κ ν)) (st : Names A κ ν) (key : Name) :
    Names A κ ν × Except QErr Bool :=
  match st.getItem build key with
  | (st', .ok _) => (st', .ok true)
  | (st', .error .key) => (st', .ok false)
  | (st', .error e) => (st', .error e)

/-- `Observer.__getitem__(key)` (`eprem.py` 77-84). -/
def Names.observe (build : Name → Except QErr (Quantity A κ ν)) (st : Names A κ ν) (key : Name) :
    Names A κ ν × Except QErr (Nat × Quantity A κ ν) :=
  match st.contains build key with
  | (st', .error e) => (st', .error e)
  | (st', .ok true) => st'.getItem build key
  | (st', .ok false) => (st', .error .key)

/-- `key in observer`: the same, for the mapping `Observer` (`eprem.py` 38). -/
def Names.observeContains (build : Name → Except QErr (Quantity A κ ν)) (st : Names A κ ν) (key : Name) :
    Names A κ ν × Except QErr Bool :=
  match st.observe build key with
  | (st', .ok _) => (st', .ok true)
  | (st', .error .key) => (st', .ok false)
  | (st', .error e) => (st', .error e)

/-- `iter(observer)` (`eprem.py` 73-75, `_interfaces.py` 1104-1106). -/
def listNames (order : Finset Name → List Name) : List Name := defined order

/-- `len(observer)` (`eprem.py` 69-71, `_interfaces.py` 1100-1102). -/
def lenNames (order : Finset Name → List Name) : Nat := (defined order).length

end

end Eprem.Observable
