import Verif.Model.Observable
import Verif.Spec.Physical

/-!
# Specification vocabulary for observable quantities (C52-C58)
-/

namespace Eprem.Observable

open Eprem Eprem.Symbolic Eprem.Metric Eprem.Numeric Eprem.Measured Eprem.Physical

variable {κ ν : Type} [DecidableEq κ]

/-- The grid of a dataset: for each name of a dimension, the number of values and the axis. -/
structure Grid (κ ν : Type) where
  size : κ → Nat
  axis : κ → ν
  pos : ∀ d, 0 < size d

/-- A named position inside the grid. -/
def Grid.Inside (G : Grid κ ν) (dims : List κ) (pos : κ → Nat) : Prop := ∀ d ∈ dims, pos d < G.size d

/-- The axes of the grid for some dimensions. -/
def Grid.axes (G : Grid κ ν) (dims : List κ) : Dict κ ν := dims.map (fun d => (d, G.axis d))

/-- `a` is an array over the dimensions `dims` of the grid, with the axes of the grid, with the unit `u`, and with the number
`g pos` at each named position. -/
structure OnGrid (G : Grid κ ν) (dims : List κ) (u : List Term) (g : (κ → Nat) → ℝ) (a : Operand κ ν ℝ) : Prop where
  nodup : dims.Nodup
  array : ∃ c : Arr κ ν ℝ, a = .array c ∧ c.arr.raw.plain = false ∧ c.arr.raw.dims = dims ∧
    c.arr.raw.data.shape = dims.map G.size ∧ c.axes = G.axes dims ∧ c.arr.unit = u ∧
    ∀ pos, G.Inside dims pos → c.arr.data.at pos = g pos

/-- `a` is a scalar with this number and this unit. -/
def IsScalar (u : List Term) (x : ℝ) (a : Operand κ ν ℝ) : Prop :=
  ∃ o : Obj ℝ, a = .object .scalar o ∧ o.data.shape = [] ∧ o.data.get [] = x ∧ o.unit = u

/-- The units that the two metric systems have for some quantities; `observable_units` in `Props/Observable.lean` says that
these are the units of the package. -/
def unitOf : System → Name → List Term
  | .mks, q =>
    if q = c! "length" then [⟨1, c! "m", 1⟩]
    else if q = c! "magnetic field" then [⟨1, c! "T", 1⟩]
    else if q = c! "velocity" then [⟨1, c! "m", 1⟩, ⟨1, c! "s", -1⟩]
    else if q = c! "energy" then [⟨1, c! "J", 1⟩]
    else if q = c! "mass" then [⟨1, c! "kg", 1⟩]
    else if q = c! "charge" then [⟨1, c! "C", 1⟩]
    else if q = c! "time" then [⟨1, c! "s", 1⟩]
    else [⟨1, c! "rad", 1⟩]
  | .cgs, q =>
    if q = c! "length" then [⟨1, c! "cm", 1⟩]
    else if q = c! "magnetic field" then [⟨1, c! "G", 1⟩]
    else if q = c! "velocity" then [⟨1, c! "cm", 1⟩, ⟨1, c! "s", -1⟩]
    else if q = c! "energy" then [⟨1, c! "erg", 1⟩]
    else if q = c! "mass" then [⟨1, c! "g", 1⟩]
    else if q = c! "charge" then [⟨1, c! "statC", 1⟩]
    else if q = c! "time" then [⟨1, c! "s", 1⟩]
    else [⟨1, c! "rad", 1⟩]

end Eprem.Observable
