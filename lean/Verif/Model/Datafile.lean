import Verif.Model.Exceptions
import Verif.Model.Observer

/-!
# Model of `datafile/_viewers.py`, `datafile/_reference.py`, the registry of `etc.py` and `paths.py`, and the parts of
`datafile/_interfaces.py` that choose between distribution and flux

The library `netCDF4` is not modelled: a file is a dictionary of variables and a dictionary of dimensions, and `α` is the type
of the data of a variable.
-/

namespace Eprem.Datafile

open Eprem Eprem.Exceptions
open Eprem.Symbolic (Str)

/-- The exceptions: `KeyError`, `TypeError`, `OSError` (a file that the library cannot read), `NonExistentPathError`. -/
inductive Exc
  | key | type | os | nonexistent
  deriving DecidableEq

/-- A variable of a NetCDF file: data, shape, names of the dimensions, and the attributes `unit` and `units`. -/
structure Var (α : Type) where
  data : α
  shape : List Nat
  dims : List Str
  unit : Option Str
  units : Option Str
  deriving DecidableEq

/-- A NetCDF file. -/
structure File (α : Type) where
  vars : Dict Str (Var α)
  dimensions : Dict Str Nat
  deriving DecidableEq

variable {α : Type}

/-- `datafile.Array` (`_core.py` 27-62). -/
structure Arr (α : Type) where
  data : α
  unit : Option Str
  dims : List Str
  deriving DecidableEq

/-- `datafile.Scalar` (`_core.py` 65-85); the conversion to a number is left to `data`. -/
structure Scal (α : Type) where
  value : α
  unit : Option Str
  deriving DecidableEq

/-- `NetCDFViewer._get_variable(name)` (`_viewers.py` 105-114). -/
def getVariable (f : File α) (name : Str) : Except Exc (Var α) :=
  match f.vars.get? name with
  | some v => .ok v
  | none => .error .key

/-- `NetCDFViewer._get_unit_from_data(data)` (`_viewers.py` 120-126). -/
def unitOf (v : Var α) : Option Str := (v.unit.toList ++ v.units.toList).head?

/-- `NetCDFViewer.get_unit(name)` (`_viewers.py` 101-103). -/
def getUnit (f : File α) (name : Str) : Except Exc (Option Str) :=
  match getVariable f name with
  | .ok v => .ok (unitOf v)
  | .error e => .error e

/-- `NetCDFViewer.get_array(name)` (`_viewers.py` 70-74). -/
def getArray (f : File α) (name : Str) : Except Exc (Arr α) :=
  match getVariable f name with
  | .error e => .error e
  | .ok v => match getUnit f name with
    | .error e => .error e
    | .ok u => .ok ⟨v.data, u, v.dims⟩

/-- `NetCDFViewer.get_scalar(name)` (`_viewers.py` 76-88). -/
def getScalar (f : File α) (name : Str) : Except Exc (Scal α) :=
  match getVariable f name with
  | .error e => .error e
  | .ok v =>
    if v.shape ≠ [] then .error .type
    else match getUnit f name with
      | .error e => .error e
      | .ok u => .ok ⟨v.data, u⟩

/-- `NetCDFViewer.get_axis(name)` (`_viewers.py` 90-99): the size. -/
def getAxis (f : File α) (name : Str) : Except Exc Nat :=
  match f.dimensions.get? name with
  | some n => .ok n
  | none => .error .key

/-- `exceptions.Wrapper(get)`, `catch(KeyError)`, `compute(name)` (`_viewers.py` 251-253), with `Exceptions.compute`.  `none`
is `None`. -/
def guarded {β : Type} (get : Str → Except Exc β) (name : Str) : Except Exc (Option β) :=
  match compute (α := Str) (β := β) (γ := Unit) (fun e c => decide (e = c))
      (fun args _ => match args with | [x] => get x | _ => .error .type) (catchAll [(Exc.key, some ())]) [name] [] with
  | .ok (.result x) => .ok (some x)
  | .ok _ => .ok none
  | .error (.own e) => .error e
  | .error .key => .error .key

/-- `{k: guarded.compute(k) for k in reference}` (`_viewers.py` 253), for different names. -/
def mapped {β : Type} (get : Str → Except Exc β) : List Str → Except Exc (List (Str × Option β))
  | [] => .ok []
  | k :: ks => match guarded get k with
    | .error e => .error e
    | .ok v => match mapped get ks with
      | .error e => .error e
      | .ok d => .ok ((k, v) :: d)

/-- `{k: v for k, v in mapped.items() if v is not None}` (`_viewers.py` 254). -/
def present {β : Type} : List (Str × Option β) → Dict Str β
  | [] => []
  | (k, some v) :: d => (k, v) :: present d
  | (_, none) :: d => present d

/-- `View._map(get, reference)` (`_viewers.py` 245-254). -/
def map {β : Type} (get : Str → Except Exc β) (reference : List Str) : Except Exc (Dict Str β) :=
  match mapped get reference with
  | .error e => .error e
  | .ok d => .ok (present d)

/-- `ARRAYS` (`_reference.py` 6-27). -/
def arrayNames : List Str := ["phiOffset".toList, "time".toList, "shell".toList, "mu".toList, "mass".toList, "charge".toList,
  "egrid".toList, "vgrid".toList, "R".toList, "T".toList, "P".toList, "Br".toList, "Bt".toList, "Bp".toList, "Vr".toList,
  "Vt".toList, "Vp".toList, "Rho".toList, "Dist".toList, "flux".toList]

/-- `SCALARS` (`_reference.py` 37-39). -/
def scalarNames : List Str := ["preEruption".toList]

/-- `AXES` (`_reference.py` 43-49). -/
def axisNames : List Str := ["time".toList, "shell".toList, "species".toList, "energy".toList, "mu".toList]

/-- A result `None` of `get_unit` is dropped like a missing variable. -/
def someUnit (f : File α) (name : Str) : Except Exc Str :=
  match getUnit f name with
  | .ok (some u) => .ok u
  | .ok none => .error .key
  | .error e => .error e

/-- The properties of a view. -/
inductive Kind
  | units | arrays | scalars | sizes | axes
  deriving DecidableEq

/-- Their values. -/
inductive Out (α : Type)
  | units (d : Dict Str Str)
  | arrays (d : Dict Str (Arr α))
  | scalars (d : Dict Str (Scal α))
  | sizes (d : Dict Str Nat)
  | axes (d : Dict Str Nat)
  deriving DecidableEq

/-! ## Views and their registry -/

/-- The caches of a view (`_viewers.py` 156-170). -/
structure View (α : Type) where
  hint : Option Str
  viewer : Option (File α) := none
  units : Option (Dict Str Str) := none
  arrays : Option (Dict Str (Arr α)) := none
  scalars : Option (Dict Str (Scal α)) := none
  sizes : Option (Dict Str Nat) := none
  axes : Option (Dict Str Nat) := none

/-- Paths are lists of names; the last one decides about the suffix. -/
abbrev Path := List Str

/-- Does the library `netCDF4` get a chance: `VIEWERS[source.suffix]` or `VIEWERS.get(hint)` (`_viewers.py` 260-263). -/
def hasViewer (p : Path) (hint : Option Str) : Bool :=
  decide (Observer.suffix (p.getLastD []) ∈ Observer.viewers) ||
    (match hint with | some h => decide (h ∈ Observer.viewers) | none => false)

/-- `View.viewer` (`_viewers.py` 256-265); `open'` is the outcome of opening the file now.  `None(source)` is a `TypeError`. -/
def View.getViewer (v : View α) (p : Path) (open' : Except Exc (File α)) : Except Exc (File α) × View α :=
  match v.viewer with
  | some f => (.ok f, v)
  | none =>
    if hasViewer p v.hint then match open' with
      | .ok f => (.ok f, { v with viewer := some f })
      | .error e => (.error e, v)
    else (.error .type, v)

/-- `View.units` (`_viewers.py` 208-214). -/
def View.getUnits (v : View α) (p : Path) (open' : Except Exc (File α)) : Except Exc (Dict Str Str) × View α :=
  match v.units with
  | some d => (.ok d, v)
  | none => match v.getViewer p open' with
    | (.error e, v) => (.error e, v)
    | (.ok f, v) => match map (someUnit f) (arrayNames ++ scalarNames) with
      | .error e => (.error e, v)
      | .ok d => (.ok d, { v with units := some d })

/-- `View.arrays` (`_viewers.py` 216-221). -/
def View.getArrays (v : View α) (p : Path) (open' : Except Exc (File α)) : Except Exc (Dict Str (Arr α)) × View α :=
  match v.arrays with
  | some d => (.ok d, v)
  | none => match v.getViewer p open' with
    | (.error e, v) => (.error e, v)
    | (.ok f, v) => match map (getArray f) arrayNames with
      | .error e => (.error e, v)
      | .ok d => (.ok d, { v with arrays := some d })

/-- `View.scalars` (`_viewers.py` 223-228). -/
def View.getScalars (v : View α) (p : Path) (open' : Except Exc (File α)) : Except Exc (Dict Str (Scal α)) × View α :=
  match v.scalars with
  | some d => (.ok d, v)
  | none => match v.getViewer p open' with
    | (.error e, v) => (.error e, v)
    | (.ok f, v) => match map (getScalar f) scalarNames with
      | .error e => (.error e, v)
      | .ok d => (.ok d, { v with scalars := some d })

/-- `View.axes` (`_viewers.py` 237-242). -/
def View.getAxes (v : View α) (p : Path) (open' : Except Exc (File α)) : Except Exc (Dict Str Nat) × View α :=
  match v.axes with
  | some d => (.ok d, v)
  | none => match v.getViewer p open' with
    | (.error e, v) => (.error e, v)
    | (.ok f, v) => match map (getAxis f) axisNames with
      | .error e => (.error e, v)
      | .ok d => (.ok d, { v with axes := some d })

/-- `View.sizes` (`_viewers.py` 230-235). -/
def View.getSizes (v : View α) (p : Path) (open' : Except Exc (File α)) : Except Exc (Dict Str Nat) × View α :=
  match v.sizes with
  | some d => (.ok d, v)
  | none => match v.getAxes p open' with
    | (.error e, v) => (.error e, v)
    | (.ok d, v) => (.ok d, { v with sizes := some d })

/-- The property of the given kind. -/
def View.get (v : View α) (p : Path) (open' : Except Exc (File α)) : Kind → Except Exc (Out α) × View α
  | .units => match v.getUnits p open' with
    | (.ok d, v) => (.ok (.units d), v)
    | (.error e, v) => (.error e, v)
  | .arrays => match v.getArrays p open' with
    | (.ok d, v) => (.ok (.arrays d), v)
    | (.error e, v) => (.error e, v)
  | .scalars => match v.getScalars p open' with
    | (.ok d, v) => (.ok (.scalars d), v)
    | (.error e, v) => (.error e, v)
  | .sizes => match v.getSizes p open' with
    | (.ok d, v) => (.ok (.sizes d), v)
    | (.error e, v) => (.error e, v)
  | .axes => match v.getAxes p open' with
    | (.ok d, v) => (.ok (.axes d), v)
    | (.error e, v) => (.error e, v)

/-- The file system: what opening an existing path gives. -/
abbrev Disk (α : Type) := Path → Option (Except Exc (File α))

/-- The state of the program: the disk and the dictionary `PathSet._instances` (`etc.py` 97-104, `paths.py` 77-85). -/
structure State (α : Type) where
  disk : Disk α
  views : Dict Path (View α)

/-- What happens: some program replaces a file, or this one evaluates `datafile.view(path, hint=hint).kind`.  Paths are given
with the full path that `paths.fullpath` computes. -/
inductive Op (α : Type)
  | replace (p : Path) (content : Option (Except Exc (File α)))
  | request (p : Path) (hint : Option Str) (kind : Kind)

/-- `view_factory(source, hint)` (`_viewers.py` 273-294) through `InstanceSet.__call__` (`etc.py` 99-104): the view of the path,
after which the property is evaluated. -/
def request (s : State α) (p : Path) (hint : Option Str) (kind : Kind) : Except Exc (Out α) × State α :=
  match s.disk p with
  | none => (.error .nonexistent, s)
  | some open' =>
    let v := match s.views.get? p with
      | some v => v
      | none => { hint := hint }
    let (r, v) := v.get p open' kind
    (r, { s with views := s.views.set p v })

/-- One step. -/
def step (s : State α) : Op α → State α
  | .replace p c => { s with disk := fun q => if q = p then c else s.disk q }
  | .request p hint kind => (request s p hint kind).2

/-- A history, from the start of the program. -/
def run (disk : Disk α) (ops : List (Op α)) : State α := ops.foldl step ⟨disk, []⟩

end Eprem.Datafile
