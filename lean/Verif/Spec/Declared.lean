import Verif.Model.Declared
import Verif.Spec.Observable

/-!
# Specification of what observables declare
-/

namespace Eprem.Observable

open Eprem Eprem.Metric Eprem.Numeric Eprem.Physical
open Eprem.Symbolic (Term)

/-- A dataset of one species: the dimensions and the units of its arrays. -/
structure UsualArrays (s : System) (D : ArraysInfo) : Prop where
  energy : D.dims c! "energy" = [c! "energy"]
  mu : D.dims c! "mu" = [c! "mu"]
  mass : D.dims c! "mass" = [c! "species"]
  r : D.dims c! "r" = [c! "time", c! "shell"]
  br : D.dims c! "br" = [c! "time", c! "shell"]
  ur : D.dims c! "ur" = [c! "time", c! "shell"]
  rho : D.dims c! "rho" = [c! "time", c! "shell"]
  f : D.dims c! "f" = [c! "time", c! "shell", c! "species", c! "energy", c! "mu"]
  flux : D.dims c! "flux" = [c! "time", c! "shell", c! "species", c! "energy"]
  lengths : D.unit c! "r" = unitOf s c! "length"
  fields : D.unit c! "br" = unitOf s c! "magnetic field"
  speeds : D.unit c! "ur" = unitOf s c! "velocity"
  energies : D.unit c! "energy" = unitOf s c! "energy"
  distributions : D.unit c! "f" = match s with
    | .mks => [⟨1, c! "s", 3⟩, ⟨1, c! "m", -6⟩]
    | .cgs => [⟨1, c! "s", 3⟩, ⟨1, c! "cm", -6⟩]

/-- The observables that are computed from others. -/
def derivedNames : List Name := [c! "x", c! "y", c! "z", c! "bmag", c! "umag", c! "upara", c! "uperp", c! "angle", c! "divu",
  c! "rigidity", c! "mfp", c! "ar", c! "average_energy", c! "energy_density", c! "flux", c! "fluence", c! "intflux"]

/-- The dimensions of each of them. -/
def dimensionsOfDerived (n : Name) : List Name :=
  if n = c! "rigidity" then [c! "species", c! "energy"]
  else if n ∈ [c! "mfp", c! "ar", c! "flux", c! "fluence"] then [c! "time", c! "shell", c! "species", c! "energy"]
  else if n ∈ [c! "average_energy", c! "energy_density"] then [c! "time", c! "shell", c! "species"]
  else if n = c! "intflux" then [c! "time", c! "shell", c! "species", c! "minimum energy"]
  else [c! "time", c! "shell"]

end Eprem.Observable
