import Verif.Model.Datafile

/-!
# Model of the caches of `datafile/_interfaces.py`

One file with the arrays `arrays` (the value of `view.arrays`, see C80 for its independence of the history).  `make` is the
conversion of an array of the file to a physical array (`_interfaces.py` 341-361), which is not modelled here.
-/

namespace Eprem.Datafile

open Eprem
open Eprem.Symbolic (Str)

variable {α β : Type}

/-- The properties of `Arrays` that are read from one variable (`_interfaces.py` 202-320), with the name of the variable. -/
def simple : Dict Str Str := [("time".toList, "time".toList), ("mu".toList, "mu".toList), ("mass".toList, "mass".toList),
  ("charge".toList, "charge".toList), ("energy".toList, "egrid".toList), ("v".toList, "vgrid".toList), ("r".toList, "R".toList),
  ("theta".toList, "T".toList), ("phi".toList, "P".toList), ("br".toList, "Br".toList), ("btheta".toList, "Bt".toList),
  ("bphi".toList, "Bp".toList), ("ur".toList, "Vr".toList), ("utheta".toList, "Vt".toList), ("uphi".toList, "Vp".toList),
  ("rho".toList, "Rho".toList)]

/-- The caches of `Arrays` (`_interfaces.py` 169-199). -/
structure Arrays (β : Type) where
  quantities : Dict Str β := []
  f : Option β := none
  flux : Option β := none
  hasdist : Option Bool := none
  hasflux : Option Bool := none

/-- `Arrays._create(name)` (`_interfaces.py` 341-361). -/
def create (arrays : Dict Str (Arr α)) (make : Str → Arr α → Except Exc β) (name : Str) : Except Exc β :=
  match arrays.get? name with
  | none => .error .key
  | some a => make name a

/-- `Arrays.hasdist` (`_interfaces.py` 363-379). -/
def Arrays.getHasdist (s : Arrays β) (arrays : Dict Str (Arr α)) : Bool × Arrays β :=
  match s.hasdist with
  | some b => (b, s)
  | none => let b := (arrays.get? "Dist".toList).isSome; (b, { s with hasdist := some b })

/-- `Arrays.hasflux` (`_interfaces.py` 381-397). -/
def Arrays.getHasflux (s : Arrays β) (arrays : Dict Str (Arr α)) : Bool × Arrays β :=
  match s.hasflux with
  | some b => (b, s)
  | none => let b := (arrays.get? "flux".toList).isSome; (b, { s with hasflux := some b })

/-- `Arrays.f` (`_interfaces.py` 322-328). -/
def Arrays.getF (s : Arrays β) (arrays : Dict Str (Arr α)) (make : Str → Arr α → Except Exc β) :
    Except Exc (Option β) × Arrays β :=
  match s.f with
  | some x => (.ok (some x), s)
  | none => match s.getHasflux arrays with
    | (true, s) => (.ok none, s)
    | (false, s) => match create arrays make "Dist".toList with
      | .error e => (.error e, s)
      | .ok x => (.ok (some x), { s with f := some x })

/-- `Arrays.flux` (`_interfaces.py` 330-336). -/
def Arrays.getFlux (s : Arrays β) (arrays : Dict Str (Arr α)) (make : Str → Arr α → Except Exc β) :
    Except Exc (Option β) × Arrays β :=
  match s.flux with
  | some x => (.ok (some x), s)
  | none => match s.getHasflux arrays with
    | (false, s) => (.ok none, s)
    | (true, s) => match create arrays make "flux".toList with
      | .error e => (.error e, s)
      | .ok x => (.ok (some x), { s with flux := some x })

/-- The other properties (`_interfaces.py` 202-320). -/
def Arrays.getSimple (s : Arrays β) (arrays : Dict Str (Arr α)) (make : Str → Arr α → Except Exc β) (property : Str) :
    Except Exc (Option β) × Arrays β :=
  match s.quantities.get? property with
  | some x => (.ok (some x), s)
  | none => match simple.get? property with
    | none => (.error .key, s)
    | some name => match create arrays make name with
      | .error e => (.error e, s)
      | .ok x => (.ok (some x), { s with quantities := s.quantities.set property x })

/-- Accesses to an instance of `Arrays`. -/
inductive Access
  | f | flux | hasdist | hasflux
  | simple (property : Str)
  deriving DecidableEq

/-- Their results. -/
inductive Answer (β : Type)
  | flag (b : Bool)
  | value (r : Except Exc (Option β))

/-- One access. -/
def Arrays.access (s : Arrays β) (arrays : Dict Str (Arr α)) (make : Str → Arr α → Except Exc β) :
    Access → Answer β × Arrays β
  | .f => let r := s.getF arrays make; (.value r.1, r.2)
  | .flux => let r := s.getFlux arrays make; (.value r.1, r.2)
  | .hasdist => let r := s.getHasdist arrays; (.flag r.1, r.2)
  | .hasflux => let r := s.getHasflux arrays; (.flag r.1, r.2)
  | .simple p => let r := s.getSimple arrays make p; (.value r.1, r.2)

/-- The instance after a history of accesses. -/
def Arrays.after (arrays : Dict Str (Arr α)) (make : Str → Arr α → Except Exc β) (history : List Access) : Arrays β :=
  history.foldl (fun s a => (s.access arrays make a).2) {}

/-! ## The mapping of axes -/

/-- The value of `axes[name]` (`_interfaces.py` 64-72): an axis, or another attribute of the object. -/
inductive Item
  | axis (sources : List Str)
  | other
  deriving DecidableEq

/-- The variables that the property of each axis reads (`_interfaces.py` 82-122). -/
def axisVariables : Dict Str (List Str) := [("time".toList, ["time".toList]), ("shell".toList, ["shell".toList]),
  ("species".toList, ["mass".toList, "charge".toList]), ("energy".toList, ["egrid".toList]), ("mu".toList, ["mu".toList])]

/-- Attributes of the object that are not axes: its other properties, and the methods of every mapping (names with
underscores are left out). -/
def otherAttributes : List Str := ["view".toList, "source".toList, "system".toList, "get".toList, "keys".toList, "values".toList,
  "items".toList]

/-- `axes[name]` (`_interfaces.py` 64-72), where the data of every variable that is present can be converted. -/
def axesGet (arrays : Dict Str (Arr α)) (name : Str) : Except Exc Item :=
  match axisVariables.get? name with
  | some vs => if vs.all (fun v => (arrays.get? v).isSome) then .ok (.axis vs) else .error .key
  | none => if name ∈ otherAttributes then .ok .other else .error .key

/-- `iter(axes)` (`_interfaces.py` 78-80). -/
def axesIter : List Str := axisNames

/-- `len(axes)` (`_interfaces.py` 74-76). -/
def axesLen : Nat := axisNames.length

/-- `name in axes` (`collections.abc.Mapping.__contains__`). -/
def axesContains (arrays : Dict Str (Arr α)) (name : Str) : Bool :=
  match axesGet arrays name with
  | .ok _ => true
  | .error _ => false

end Eprem.Datafile
