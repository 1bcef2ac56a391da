import Verif.Model.Axis
import Verif.Model.NumericArray
import Verif.Model.PyDict

/-!
# Model of collections of axes: `physical/_axes.py`

`Axes` is a mapping from names to axes, in the order of the mapping.  The axes themselves are values of an arbitrary type,
with an arbitrary equality where the code compares them; `Axis.indexPoints` and so on of `Model/Axis.lean` are about them.
-/

namespace Eprem.Axes

open Eprem Eprem.Numeric

variable {κ ν : Type} [DecidableEq κ]

/-- `{d: self[d] for d in names}`: a `KeyError` for a name that does not exist (`_axes.py` 43-57, 366, 393). -/
def lookupAll (a : Dict κ ν) (names : List κ) : Except Err (Dict κ ν) :=
  match Axis.collect (fun d => match a.get? d with
    | some v => .ok (d, v)
    | none => .error Err.key) names with
  | .error e => .error e
  | .ok items => .ok (Dict.ofItems items)

/-- `axes[i]` for an integer (`_axes.py` 48-57). -/
def getAt (a : Dict κ ν) (i : ℤ) : Except Err ν :=
  match axisIndex a.keys.length i with
  | .error _ => .error .key
  | .ok j => match a.keys[j]? with
    | none => .error .key
    | some k => match a.get? k with
      | some v => .ok v
      | none => .error .key

/-- `Axes.__eq__` (`_axes.py` 68-78), given the comparison of two axes. -/
def eq (same : ν → ν → Bool) (a b : Dict κ ν) : Bool :=
  decide (a.keys = b.keys) && a.all (fun p => match b.get? p.1 with
    | some v => same p.2 v
    | none => false)

/-- `akeys <= bkeys`, for the sets of names (`_axes.py` 93, 108). -/
def subset (a b : List κ) : Bool := a.all (fun k => decide (k ∈ b))

/-- `akeys < bkeys`, for the sets of names (`_axes.py` 93, 123). -/
def strict (a b : List κ) : Bool := subset a b && !subset b a

/-- Two axes with the same name that are not equal (`_axes.py` 84-92). -/
def conflict (same : ν → ν → Bool) (a b : Dict κ ν) : Bool :=
  a.any (fun p => match b.get? p.1 with
    | some v => !same p.2 v
    | none => false)

/-- `<`, `<=`, `>`, `>=` (`_axes.py` 80-138): names that both have must have equal axes. -/
def compare (same : ν → ν → Bool) (f : List κ → List κ → Bool) (a b : Dict κ ν) : Except Err Bool :=
  if conflict same a b then .error .value
  else .ok (f a.keys b.keys)

/-- `Axes.__lt__`: `<` (`_axes.py` 80-93). -/
def lt (same : ν → ν → Bool) (a b : Dict κ ν) : Except Err Bool := compare same strict a b
/-- `Axes.__le__`: `<=` (`_axes.py` 95-108). -/
def le (same : ν → ν → Bool) (a b : Dict κ ν) : Except Err Bool := compare same subset a b
/-- `Axes.__gt__`: `>` (`_axes.py` 110-123). -/
def gt (same : ν → ν → Bool) (a b : Dict κ ν) : Except Err Bool := compare same (fun x y => strict y x) a b
/-- `Axes.__ge__`: `>=` (`_axes.py` 125-138). -/
def ge (same : ν → ν → Bool) (a b : Dict κ ν) : Except Err Bool := compare same (fun x y => subset y x) a b

/-- The axis that `__add__` keeps of two axes with the same name (`_axes.py` 152-165); `inside x y` is
`len(x) == 1 and x in y`. -/
def fill (same inside : ν → ν → Bool) (x y : ν) : Except Err ν :=
  if same x y then .ok x
  else if inside y x then .ok x
  else if inside x y then .ok y
  else .error .value

/-- One step of the loop of `__add__` (`_axes.py` 150-165). -/
def filled (same inside : ν → ν → Bool) (a b : Dict κ ν) (k : κ) : Except Err ν :=
  match a.get? k, b.get? k with
  | some x, some y => fill same inside x y
  | _, _ => .error .key

/-- `Axes.__add__` (`_axes.py` 140-166).  For different names, the message of the `ValueError` mentions variables that
do not exist, so the error is an `UnboundLocalError`, written `attribute` here. -/
def add (same inside : ν → ν → Bool) (a b : Dict κ ν) : Except Err (Dict κ ν) :=
  if !(subset a.keys b.keys && subset b.keys a.keys) then .error .attribute
  else match Axis.collect (fun k => (filled same inside a b k).map (fun v => (k, v))) a.keys with
    | .error e => .error e
    | .ok items => .ok (Dict.ofItems items)

/-- `Axes.__or__` and `_merge` (`_axes.py` 168-184). -/
def merge (a b : Dict κ ν) : Except Err (Dict κ ν) :=
  match Container.merge a.keys b.keys with
  | .error _ => .error .value
  | .ok keys => match Axis.collect (fun k => match b.get? k with
      | some v => .ok (k, v)
      | none => match a.get? k with
        | some v => .ok (k, v)
        | none => .error Err.key) keys with
    | .error e => .error e
    | .ok items => .ok (Dict.ofItems items)

/-- `axes.replace(dimension, axis)` (`_axes.py` 228-244). -/
def replace (a : Dict κ ν) (d : κ) (v : ν) : Except Err (Dict κ ν) :=
  if d ∈ a.keys then .ok (Dict.ofItems (a.map (fun p => (p.1, if p.1 = d then v else p.2)))) else .error .key

/-- `axes.replace(dimension, key=axis)` (`_axes.py` 228-233, 245-258). -/
def replacePair (a : Dict κ ν) (d key : κ) (v : ν) : Except Err (Dict κ ν) :=
  if d ∈ a.keys then .ok (Dict.ofItems (a.map (fun p => if p.1 = d then (key, v) else p))) else .error .key

/-- The location keyword of `insert`. -/
inductive Location (κ : Type)
  | before (d : κ)
  | after (d : κ)
  | index (i : ℤ)

/-- What the loop of `insert` stores for the axis number `i` (`_axes.py` 294-307). -/
def insertItems (dim : κ) (new : ν) (loc : Location κ) (i : Nat) (p : κ × ν) : List (κ × ν) :=
  match loc with
  | .before d => if p.1 = d then [p, (dim, new)] else [p]
  | .after d => if p.1 = d then [(dim, new), p] else [p]
  | .index j => if (i : ℤ) = j then [(dim, new), p] else [p]

/-- The loop of `insert`. -/
def insertLoop (dim : κ) (new : ν) (loc : Location κ) : Nat → List (κ × ν) → List (κ × ν)
  | _, [] => []
  | i, p :: ps => insertItems dim new loc i p ++ insertLoop dim new loc (i + 1) ps

/-- `axes.insert(dimension, new)` and the same with one location keyword (`_axes.py` 283-307). -/
def insert (a : Dict κ ν) (dim : κ) (new : ν) : Option (Location κ) → Except Err (Dict κ ν)
  | none => merge a [(dim, new)]
  | some loc => .ok (Dict.ofItems (insertLoop dim new loc 0 a))

/-- `axes.without(dimension, strict)` (`_axes.py` 309-338). -/
def without (a : Dict κ ν) (d : κ) (strict : Bool) : Except Err (Dict κ ν) :=
  if strict && decide (d ∉ a.keys) then .error .key else .ok (a.filter (fun p => decide (p.1 ≠ d)))

/-- `axes.extract(*dimensions)` (`_axes.py` 340-366). -/
def extract (a : Dict κ ν) (ds : List κ) : Except Err (Dict κ ν) :=
  if ds = [] then .error .type else lookupAll a ds

/-- `axes.permute(*names)` (`_axes.py` 379-403) for names. -/
def permuteNames (a : Dict κ ν) (names : List κ) : Except Err (Dict κ ν) :=
  if dimsMismatch a.keys names then .error .value else lookupAll a (dimensions names)

/-- `axes.permute(*order)` for integers (`_axes.py` 391-399). -/
def permuteAxes (a : Dict κ ν) (order : List ℤ) : Except Err (Dict κ ν) :=
  match dimsPermute a.keys order with
  | .error e => .error e
  | .ok names => lookupAll a names

end Eprem.Axes
