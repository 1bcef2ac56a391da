import Verif.Model.NamedUnit
import Verif.Model.MetricSystem

/-!
# Metric quantities and systems as objects

A model of `Properties`, `Quantity`, `System` and their factories (`metric/_systems.py`).
-/

namespace Eprem.Metric

open Eprem Eprem.Symbolic

/-- What `_quantities` or `_systems` holds: the objects created so far by their names, and how many there are. -/
structure Singletons where
  table : Dict Name Nat
  count : Nat

/-- An object made by `quantity_factory` or `system_factory`: its identity and its name. -/
structure Single where
  id : Nat
  name : Name
  deriving DecidableEq

/-- `quantity_factory(arg)` (`_systems.py` 176-197) and `system_factory(arg)` (396-418) for text: the existing object with the
lower-case name, or a new one. -/
def single (r : Singletons) (arg : Name) : Singletons × Single :=
  match r.table.get? (lower arg) with
  | some i => (r, ⟨i, lower arg⟩)
  | none => (⟨r.table.set (lower arg) r.count, r.count + 1⟩, ⟨r.count, lower arg⟩)

/-- `p == q` for quantities (`_systems.py` 115-130): they are the same object. -/
def Single.same (p q : Single) : Bool := decide (p.id = q.id)

/-- `q == text` for a quantity (`_systems.py` 128-129) and a system (352-353). -/
def Single.eqText (q : Single) (text : Name) : Bool := decide (lower text = q.name)

/-- `s == t` for systems (`_systems.py` 348-351). -/
def Single.sameName (s t : Single) : Bool := decide (s.name = lower t.name)

/-- `Quantity(name)[system].unit` (`_systems.py` 24-35, 76-83, 155-160). -/
def propertiesUnit (s : System) (q : Name) : Except MErr (List Term) := do
  let n ← unitsOf s q
  freshUnit n

/-- `guard.compute(system)`, which catches `ValueError` (`_units.py` 310-314). -/
def guarded (r : Except MErr (List Term)) : Except MErr (Option (List Term)) :=
  match r with
  | .error .value => .ok none
  | .error e => .error e
  | .ok d => .ok (some d)

/-- `unit.dimensions`, in mks and in cgs (`_units.py` 305-317). -/
def unitDimensions (u : List Term) : Except MErr (Option (List Term) × Option (List Term)) := do
  let m ← guarded (getDimension .mks u)
  let c ← guarded (getDimension .cgs u)
  return (m, c)

/-- `Quantity(name)[system].dimension` (`_systems.py` 37-42). -/
def propertiesDimension (s : System) (q : Name) : Except MErr (Option (List Term)) := do
  let u ← propertiesUnit s q
  let d ← unitDimensions u
  return s.pick d

/-- `d == e` for dimensions, or `None`; simplified: a dimension is different from `None`. -/
def propertiesSame : Option (List Term) → Option (List Term) → Bool
  | none, none => true
  | some a, some b => exprEq a b
  | _, _ => false

/-- `p | q` for quantities, which goes through the systems in some order (`_systems.py` 131-149). -/
def equivalentLoop (p q : Name) : List System → Except MErr Bool
  | [] => .ok true
  | s :: rest => do
    let a ← propertiesDimension s p
    let b ← propertiesDimension s q
    if propertiesSame a b then equivalentLoop p q rest else .ok false

/-- `Properties.__eq__` (`_systems.py` 43-52), for two quantities in two systems: equal units and equal dimensions. -/
def propertiesEq (s : System) (p : Name) (t : System) (q : Name) : Except MErr Bool := do
  let u ← propertiesUnit s p
  let v ← propertiesUnit t q
  let d ← propertiesDimension s p
  let e ← propertiesDimension t q
  return exprEq u v && propertiesSame d e

/-- `key in system` (`Mapping.__contains__` on `System.__getitem__`, `_systems.py` 76-83, 222-230): no exception that the lookup
of a name raises is a `KeyError`. -/
def inSystem (s : System) (key : Name) : Except MErr Bool := do
  let _ ← propertiesUnit s (lower key)
  return true

/-- `list(system)` (`_systems.py` 214-220). -/
def systemKeys : List Name := quantities.map Prod.fst

end Eprem.Metric
