import Verif.Model.MetricDimension

/-!
# Model of the relations of named units: `metric/_defined.py` 379-393, 437-459, 605-727

The cached properties are computed anew; a set of metric systems is a list with its order.  The attributes of an
instance are those of the entry of `NAMED_UNITS` it was created from.
-/

namespace Eprem.Metric

open Eprem Eprem.Symbolic

/-- `is_allowed_in(system)` (`_defined.py` 605-626). -/
def isAllowedIn (e : Entry) (s : System) : Except MErr Bool := do
  let m ← isDefinedIn e .mks
  let c ← isDefinedIn e .cgs
  if m || c then return (match s with | .mks => m | .cgs => c) else return true

/-- The value of `NamedUnit.systems` (`_defined.py` 437-459). -/
structure Modes where
  allowed : List System
  defined : List System
  fundamental : List System
  deriving DecidableEq

/-- The loop over the metric systems in `NamedUnit.systems` (`_defined.py` 451-457): the argument is the order of the
set of systems. -/
def systemsLoop (e : Entry) : List System → Modes → Except MErr Modes
  | [], modes => .ok modes
  | s :: rest, modes =>
    match isFundamentalIn e s, isDefinedIn e s, isAllowedIn e s with
    | .ok f, .ok d, .ok a =>
      systemsLoop e rest ⟨if a then modes.allowed ++ [s] else modes.allowed,
        if d then modes.defined ++ [s] else modes.defined, if f then modes.fundamental ++ [s] else modes.fundamental⟩
    | .error err, _, _ => .error err
    | _, .error err, _ => .error err
    | _, _, .error err => .error err

/-- `NamedUnit.systems` (`_defined.py` 437-459). -/
def unitSystems (order : List System) (e : Entry) : Except MErr Modes := systemsLoop e order ⟨[], [], []⟩

/-- `NamedUnit.norm` (`_defined.py` 379-393): the unit for each of the systems, in their order. -/
def norm (order : List System) (e : Entry) : Except MErr (List (System × Entry)) :=
  mapE (fun s => (unitsOf s e.base.quantity).bind (fun n => (namedUnit n).map (fun c => (s, c)))) order

/-- What a named unit is compared with: another instance or a string. -/
inductive UArg
  | inst (e : Entry)
  | text (n : Name)

/-- `NamedUnit(other)` (`_defined.py` 219-243); an instance gives itself. -/
def UArg.resolve : UArg → Except MErr Entry
  | .inst e => .ok e
  | .text n => namedUnit n

/-- `self == other` (`_defined.py` 649-654). -/
def unitEq (e : Entry) (other : UArg) : Except MErr Bool := do
  let that ← other.resolve
  let sameMagnitude := decide (e.prefix_ = that.prefix_)
  let sameReference := decide (e.base = that.base)
  return sameMagnitude && sameReference

/-- The key whose hash is `hash(self)` (`_defined.py` 656-658). -/
def hashKey (e : Entry) : BaseUnit × Prefix := (e.base, e.prefix_)

/-- `metric.ratio(this, that)` for instances and strings (`_defined.py` 721-773), with its exceptions; the last two steps
are `Model/Metric.ratio`. -/
def ratioOf (this that : UArg) : Except MErr ℚ := do
  let u₀ ← this.resolve
  let u₁ ← that.resolve
  match ratio u₀ u₁ with
  | some r => return r
  | none => .error .value

/-- `self >> other` and `other << self` (`_defined.py` 660-679, 707-711). -/
def shiftRight (e : Entry) (other : UArg) : Except MErr ℚ := ratioOf (.inst e) other

/-- `self << other` and `other >> self` (`_defined.py` 680-706). -/
def shiftLeft (e : Entry) (other : UArg) : Except MErr ℚ := ratioOf other (.inst e)

end Eprem.Metric
