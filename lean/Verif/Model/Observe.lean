import Verif.Model.Subscript
import Verif.Model.Interpolate
import Verif.Model.MetricSystem

/-!
# Model of the subscription of observable quantities: `observable/_objects.py` 309-371, 430-477, `observable/_interfaces.py`
879-1010, 1046-1062

A user's argument is classified by what the code can do with it (`quantity.isindexlike`, `quantity.measure`): integers, lists
of integers, slices, text, and measurable objects, which are given by the values and the unit of their measurement (C41).
Not modelled: numpy arrays, and objects that already are measurements without a unit (which count as indices); text for axes
other than that of the species; axes without values.  The conversion of the result to the unit of the quantity
(`_objects.py` 454-461) is that of C86 and C87.
-/

namespace Eprem.Observable

open Eprem Eprem.Symbolic Eprem.Metric Eprem.Numeric Eprem.Measured Eprem.Physical Eprem.Interpolate

noncomputable section

/-- The argument for one dimension. -/
inductive UserArg
  | index (i : ℤ)
  | indices (l : List ℤ)
  | slice (start stop step : Option ℤ)
  | name (s : Name)
  | measured (l : List ℝ) (unit : List Term)

/-- A measurement that is kept as an assumption: values and unit. -/
abbrev Assumption : Type := List ℝ × List Term

/-- `axis.indices` (`physical/_axis.py` 147-152, 195-199). -/
def anyIndices : AnyAxis ℝ → List ℤ
  | .points x => x.pointIndices
  | .symbols x => x.indices
  | .coordinates x _ => x.indices

/-- The index made by an axis, as an index of arrays. -/
def indexArg : Axis.Index → Arg
  | .value i => .int i
  | .sequence l => .seq .other l

/-- `axis.indices[v]` for a slice (`_objects.py` 356-357, `numeric/_index.py` 95-105). -/
def sliceIndices (axis : AnyAxis ℝ) (start stop step : Option ℤ) : Except Axis.AErr Arg :=
  match Axis.pick (anyIndices axis) (.slice start stop step) with
  | .error e => .error (.look e)
  | .ok l => .ok (.seq .other l)

/-- `Context._parse_user_arg(k, v)` (`_objects.py` 349-360) for the name of an axis.  `toInt` is `int(text)`, which decides
whether a text is an index.  `value([])` in `isindexlike` takes the first member of an empty list (`numeric/_index.py` 481). -/
def parseUserArg (toInt : Name → Option ℤ) (c : Conv ℝ) (st : Cache ℝ) (axis : AnyAxis ℝ) :
    UserArg → Cache ℝ × Except Axis.AErr Arg
  | .index i => (st, .ok (.seq .other [i]))
  | .indices l => (st, if l = [] then .error (.look .index) else .ok (.seq .other l))
  | .slice b e s => (st, sliceIndices axis b e s)
  | .name s => match toInt s with
    | some i => (st, .ok (.seq .other [i]))
    | none => match axis with
      | .symbols x => match x.indexSymbols [.str s] with
        | .error e => (st, .error (.look e))
        | .ok i => (st, .ok (indexArg i))
      | _ => (st, .error (.look .type))
  | .measured l u => match axis with
    | .coordinates x ux => match x.indexCoordinates c st ux (some (l, u)) .none with
      | (st', .error e) => (st', .error e)
      | (st', .ok i) => (st', .ok (indexArg i))
    | _ => (st, .error (.look .type))

/-- The cases in which `implement` catches `AxisValueError` (`_objects.py` 322-331) and keeps the measurement: the value is
not on the axis. -/
def offAxis : AnyAxis ℝ → UserArg → Axis.AErr → Option Assumption
  | .coordinates _ _, .measured l u, .look .value => some (l, u)
  | _, _, _ => none

variable {κ : Type} [DecidableEq κ]

/-- What an observation depends on: `int(text)`, the conversions, the metric system, the axes of the dataset, the names of three
dimensions, the dimensions with coordinates (in the order of the set in `_interfaces.py` 967), the arrays of their coordinates
(`_interfaces.py` 1826-1839), and the array of radii. -/
structure Setting (κ : Type) where
  toInt : Name → Option ℤ
  conv : Conv ℝ
  system : System
  axes : κ → AnyAxis ℝ
  time : κ
  shell : κ
  radius : κ
  keys : List κ
  refs : κ → Arr κ (AnyAxis ℝ) ℝ
  grid : Arr κ (AnyAxis ℝ) ℝ

/-- The indices and the assumptions made from the arguments (`_objects.py` 316-317). -/
structure Request (κ : Type) where
  indexed : κ → Option Arg
  parsed : List (κ × Assumption)

/-- Store an index. -/
def Request.setIndex (r : Request κ) (k : κ) (a : Arg) : Request κ := ⟨Function.update r.indexed k (some a), r.parsed⟩

/-- Store an index and an assumption. -/
def Request.assume (r : Request κ) (k : κ) (a : Arg) (m : Assumption) : Request κ :=
  ⟨Function.update r.indexed k (some a), r.parsed ++ [(k, m)]⟩

/-- The loop of `Context.implement` over the arguments (`_objects.py` 318-335). -/
def implementLoop (S : Setting κ) :
    Cache ℝ → Request κ → List (κ × UserArg) → Cache ℝ × Except Axis.AErr (Request κ)
  | st, r, [] => (st, .ok r)
  | st, r, (k, v) :: rest => match parseUserArg S.toInt S.conv st (S.axes k) v with
    | (st', .ok a) => implementLoop S st' (r.setIndex k a) rest
    | (st', .error e) => match offAxis (S.axes k) v e with
      | some m => implementLoop S st' (r.assume k (.seq .other (anyIndices (S.axes k))) m) rest
      | none => (st', .error e)

/-- `int(x)` for a float: towards zero. -/
def truncate (x : ℝ) : ℤ := if 0 ≤ x then ⌊x⌋ else ⌈x⌉

/-- The result of `Quantity._shell_or_radius` (`_objects.py` 469-477). -/
inductive ShellArg
  | slice (start stop step : Option ℤ)
  | points (l : List ℤ)
  | radius (m : Assumption)

/-- `points(numpy.array(s))` (`_objects.py` 477, `physical/_axis_factories.py` 21-38). -/
def shellPoints (l : List ℤ) : Except Axis.AErr ShellArg :=
  match Axis.pointsFactory l with
  | .error e => .error (.look e)
  | .ok x => .ok (.points x.data)

/-- `Quantity._shell_or_radius` (`_objects.py` 469-477).  A measurement without a unit is index-like. -/
def shellOrRadius : UserArg → Except Axis.AErr ShellArg
  | .slice b e s => .ok (.slice b e s)
  | .index i => shellPoints [i]
  | .indices l => if l = [] then .error (.look .type) else shellPoints l
  | .name _ => .error (.look .type)
  | .measured l u =>
    if Axis.isUnitless u then shellPoints (l.map truncate)
    else match getQuantity u with
      | .error e => .error (.metric e)
      | .ok q => if exprEq q [⟨1, c! "length", 1⟩] then .ok (.radius (l, u)) else shellPoints (l.map truncate)

/-- The step of `Context.implement` for the key `shell` or `radius` (`_objects.py` 318-335).  Points that are not on the axis
are measured like numbers without a unit, and stored as an assumption. -/
def implementShell (axis : AnyAxis ℝ) (shell radius : κ) (r : Request κ) : ShellArg → Except Axis.AErr (Request κ)
  | .slice b e s => match sliceIndices axis b e s with
    | .error e => .error e
    | .ok a => .ok (r.setIndex shell a)
  | .points l => match axis with
    | .points x => match x.indexPoints true (.iterable l) with
      | .ok i => .ok (r.setIndex shell (indexArg i))
      | .error .value => .ok (r.assume shell (.seq .other (anyIndices axis)) (l.map (fun i : ℤ => (i : ℝ)), [⟨1, Symbolic.one, 1⟩]))
      | .error e => .error (.look e)
    | _ => .error (.look .type)
  | .radius m => .ok ⟨r.indexed, r.parsed ++ [(radius, m)]⟩

/-- The values of a measurement in another unit (`_objects.py` 339, 344, `_interfaces.py` 976). -/
def inUnit (c : Conv ℝ) (st : Cache ℝ) (m : Assumption) (unit : List Term) : Cache ℝ × Except Axis.AErr (List ℝ) :=
  match withunit c st ⟨Axis.seqData m.1, m.2⟩ (showExpr unit) with
  | (st', .error e) => (st', .error (.metric e))
  | (st', .ok y) => (st', .ok (Axis.seqList y.data))

/-- The rows of a two-dimensional array. -/
def rowsOf (a : ND ℝ) : List (List ℝ) :=
  (List.range (a.shape.getD 0 0)).map (fun i => (List.range (a.shape.getD 1 0)).map (fun j => a.get [i, j]))

/-- The restriction of the indices around the assumed values (`_objects.py` 336-346), in the order of the assumptions: the
order of the set of keys only decides which of several errors is raised. -/
def restrictLoop' (S : Setting κ) :
    Cache ℝ → (κ → Option Arg) → List (κ × Assumption) → Cache ℝ × Except Axis.AErr (κ → Option Arg)
  | st, idx, [] => (st, .ok idx)
  | st, idx, (k, m) :: rest =>
    if k = S.shell then restrictLoop' S st idx rest
    else if k = S.radius then match inUnit S.conv st m S.grid.arr.unit with
      | (st', .error e) => (st', .error e)
      | (st', .ok ts) => match restrict2 (boundsRows (rowsOf S.grid.arr.data.data)) ts with
        | .error e => (st', .error (.look e))
        | .ok l => restrictLoop' S st'
            (Function.update idx S.shell (some (.seq .other (l.map (fun i : Nat => (i : ℤ)))))) rest
    else match S.axes k with
      | .coordinates x ux => match inUnit S.conv st m ux with
        | (st', .error e) => (st', .error e)
        | (st', .ok ts) => match restrict x.data ts with
          | .error e => (st', .error (.look e))
          | .ok l => restrictLoop' S st'
              (Function.update idx k (some (.seq .other (l.map (fun i : Nat => (i : ℤ)))))) rest
      | _ => restrictLoop' S st idx rest

/-- `Quantity.__getitem__` up to the call of the operator (`_objects.py` 440-453, 309-347), for as many arguments as
dimensions. -/
def makeRequest (S : Setting κ) (st : Cache ℝ) (args : List (κ × UserArg)) : Cache ℝ × Except Axis.AErr (Request κ) :=
  match (match Dict.get? args S.shell with
    | none => Except.ok none
    | some v => (shellOrRadius v).map some) with
  | .error e => (st, .error e)
  | .ok s => match implementLoop S st ⟨fun _ => none, []⟩ (args.filter (fun p => p.1 ≠ S.shell)) with
    | (st', .error e) => (st', .error e)
    | (st', .ok r) => match (match s with
        | none => Except.ok r
        | some s => implementShell (S.axes S.shell) S.shell S.radius r s) with
      | .error e => (st', .error e)
      | .ok r => match restrictLoop' S st' r.indexed r.parsed with
        | (st'', .error e) => (st'', .error e)
        | (st'', .ok idx) => (st'', .ok ⟨idx, r.parsed⟩)

/-- `_check_interpolation_bounds` (`_interfaces.py` 1046-1062): strictly between the smallest and the largest value. -/
def strictlyInside (data : List ℝ) (v : ℝ) : Bool := data.any (fun a => decide (a < v)) && data.any (fun b => decide (v < b))

/-- The errors of conversion and look-up as errors of operations. -/
def asPErr : Axis.AErr → PErr
  | .metric e => .metric e
  | .look e => .look e

/-- The interpolant of one axis (`_interfaces.py` 970-984), if a value is assumed for it.  `ref` is the array of its
coordinates (`self.grid[key]`), and `idx` are the indices of the axis of the array. -/
def axisInterpolant (c : Conv ℝ) (st : Cache ℝ) (axis : AnyAxis ℝ) (ref : Arr κ (AnyAxis ℝ) ℝ) (idx : List ℤ) (key : κ)
    (m : Assumption) : Cache ℝ × Except PErr (Option (Interpolant κ (AnyAxis ℝ))) :=
  match axis with
  | .coordinates x ux => match inUnit c st m ux with
    | (st', .error e) => (st', .error (asPErr e))
    | (st', .ok ts) => match x.getItem (.seq .other idx) with
      | .error e => (st', .error (.look e))
      | .ok a =>
        if ts.all (strictlyInside a.data) then match ref.getItem AnyAxis.getItem (.one (.seq .other idx)) with
          | .error e => (st', .error e)
          | .ok (.array r) => (st', .ok (some ⟨key, r, ts⟩))
          | .ok _ => (st', .error .type)
        else (st', .error (.look .value))
  | _ => (st, .ok none)

/-- `_get_axis_interpolant` (`_interfaces.py` 964-985).  `keys` are the dimensions of the array that are in the grid, in the
order of the set. -/
def axisInterpolants (S : Setting κ) (x : Arr κ (AnyAxis ℝ) ℝ) (parsed : List (κ × Assumption)) : Cache ℝ → List κ → Cache ℝ × Except PErr (List (Interpolant κ (AnyAxis ℝ)))
  | st, [] => (st, .ok [])
  | st, key :: rest => match Dict.get? parsed key, Dict.get? x.axes key with
    | some m, some own => match axisInterpolant S.conv st (S.axes key) (S.refs key) (anyIndices own) key m with
      | (st', .error e) => (st', .error e)
      | (st', .ok i) => match axisInterpolants S x parsed st' rest with
        | (st'', .error e) => (st'', .error e)
        | (st'', .ok is) => (st'', .ok (i.toList ++ is))
    | _, _ => axisInterpolants S x parsed st rest

/-- The values of a measurement in the units of the metric system (`_interfaces.py` 1004). -/
def inSystem (c : Conv ℝ) (st : Cache ℝ) (s : System) (m : Assumption) : Cache ℝ × Except PErr (List ℝ) :=
  match convertSystem c st s (showExpr m.2) none with
  | (st', .error e) => (st', .error (.metric e))
  | (st', .ok (_, f)) => (st', .ok (m.1.map (fun v => f * v)))

/-- `_get_grid_interpolant(x, assumptions, 'radius')` (`_interfaces.py` 987-1010). -/
def gridInterpolant (S : Setting κ) (st : Cache ℝ) (x : Arr κ (AnyAxis ℝ) ℝ) (parsed : List (κ × Assumption)) : Cache ℝ × Except PErr (List (Interpolant κ (AnyAxis ℝ))) :=
  match Dict.get? x.axes S.time, Dict.get? x.axes S.shell with
  | some t, some sh => match S.grid.getItem AnyAxis.getItem (.tuple [.seq .other (anyIndices t), .seq .other (anyIndices sh)]) with
    | .error e => (st, .error e)
    | .ok (.array ref) => match Dict.get? parsed S.radius with
      | none => (st, .ok [])
      | some m => match inSystem S.conv st S.system m with
        | (st', .error e) => (st', .error e)
        | (st', .ok ts) =>
          if ts.all (strictlyInside (Axis.seqList ref.arr.data.data)) then (st', .ok [⟨S.radius, ref, ts⟩])
          else (st', .error (.look .value))
    | .ok _ => (st, .error .type)
  | _, _ => (st, .error (.look .key))

/-- `indices.get(d) or i` (`_interfaces.py` 935). -/
def indexOr (i : Arg) : Option Arg → Arg
  | none => i
  | some (.seq k l) => if l = [] then i else .seq k l
  | some a => a

/-- The length of an axis. -/
def anyLength : AnyAxis ℝ → Nat
  | .points x => x.data.length
  | .symbols x => x.data.length
  | .coordinates x _ => x.data.length

/-- `numeric.index.value(0) if len(a) == 1 else slice(None)` (`_interfaces.py` 923). -/
def defaultIndex (a : AnyAxis ℝ) : Arg := if anyLength a = 1 then .int 0 else .full

/-- The subscription after interpolation (`_interfaces.py` 919-938). -/
def finishInterpolated (finished : List κ) (indexed : κ → Option Arg) (base : Arr κ (AnyAxis ℝ) ℝ) :
    Except PErr (Operand κ (AnyAxis ℝ) ℝ) :=
  base.getItem AnyAxis.getItem (.tuple (normalizeIndices (base.axes.map (fun p =>
    if p.1 ∈ finished then defaultIndex p.2 else indexOr (defaultIndex p.2) (indexed p.1)))))

/-- The axis of interpolated values. -/
def newCoordinates (targets : List ℝ) (u : List Term) : AnyAxis ℝ := .coordinates ⟨targets, none⟩ u

/-- `_interpolate(x, indices, assumptions)` (`_interfaces.py` 911-962). -/
def interpolateObserved (S : Setting κ) (st : Cache ℝ) (x : Arr κ (AnyAxis ℝ) ℝ) (r : Request κ) :
    Cache ℝ × Except PErr (Operand κ (AnyAxis ℝ) ℝ) :=
  match axisInterpolants S x r.parsed st S.keys with
  | (st', .error e) => (st', .error e)
  | (st', .ok from_axis) =>
    match (if S.shell ∈ x.axes.keys then gridInterpolant S st' x r.parsed else (st', .ok [])) with
    | (st'', .error e) => (st'', .error e)
    | (st'', .ok from_grid) =>
      match interpolate [S.radius] S.shell S.radius newCoordinates x (from_axis ++ from_grid) with
      | .error e => (st'', .error e)
      | .ok (.array base) => (st'', finishInterpolated ((from_axis ++ from_grid).map (fun i =>
          if i.dimension = S.radius then S.shell else i.dimension)) r.indexed base)
      | .ok _ => (st'', .error .type)

/-- `Implementations._observe(x, assumptions, **indices)` (`_interfaces.py` 879-896). -/
def observe (S : Setting κ) (st : Cache ℝ) (x : Arr κ (AnyAxis ℝ) ℝ) (r : Request κ) :
    Cache ℝ × Except PErr (Operand κ (AnyAxis ℝ) ℝ) :=
  if r.parsed = [] then (st, subscriptObserved AnyAxis.getItem x r.indexed)
  else interpolateObserved S st x r

/-- `quantity[args]` (`_objects.py` 430-453) for a quantity that is stored in the dataset (`_interfaces.py` 112-277,
1251-1452): the request is made, and the stored array `x` is observed. -/
def observeStored (S : Setting κ) (st : Cache ℝ) (x : Arr κ (AnyAxis ℝ) ℝ) (args : List (κ × UserArg)) :
    Cache ℝ × Except PErr (Operand κ (AnyAxis ℝ) ℝ) :=
  match makeRequest S st args with
  | (st', .error e) => (st', .error (asPErr e))
  | (st', .ok r) => observe S st' x r

end

end Eprem.Observable
