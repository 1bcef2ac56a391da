import Verif.Model.Subscript
import Verif.Model.Physical

/-!
# Model of the creation of axes and of physical objects: `physical/_axes.py` 420-527 and `physical/_object_factories.py`

Not modelled: views of files, complex numbers and other objects that numpy reads, iterators in place of sequences, and
whether the data of the new object are the same numpy array as those of the old one.
-/

namespace Eprem.Physical

open Eprem Eprem.Symbolic Eprem.Metric Eprem.Numeric Eprem.Measured

variable {K : Type}

/-! ## Axes -/

/-- The arguments of `convert_to_axis`: axes, lists of strings, non-empty lists of integers, what `quantity.measure` reads
(C41) with its values and its unit, which is `None` here for plain numbers, and anything else. -/
inductive AxisArg (K : Type)
  | axis (a : AnyAxis K)
  | strings (l : List Name)
  | integers (l : List ℤ)
  | measurable (l : List K) (unit : Option (List Term))
  | other

/-- `convert_to_axis(arg)` (`_axes.py` 503-527).  The values of a measurement are never instances of `Integral`
(`measured/_sequence.py` 41-58), so that unitless ones become coordinates. -/
def convertToAxis : AxisArg K → Except Numeric.Err (AnyAxis K)
  | .axis a => .ok a
  | .strings l => .ok (.symbols ⟨l, none⟩)
  | .integers l => .ok (.points ⟨l, none⟩)
  | .measurable l u => .ok (.coordinates ⟨l, none⟩ (u.getD unitless))
  | .other => .error .value

/-- `Points(range(n))` (`_axes.py` 465, 478, 498). -/
def rangeAxis (n : ℤ) : AnyAxis K := .points ⟨(List.range n.toNat).map (fun i : Nat => (i : ℤ)), none⟩

/-- `f'x{i}'` (`_axes.py` 447, 465, 498, `numeric/_array.py` 290). -/
def defaultName (i : Nat) : Name := 'x' :: showNat i

/-- `f'x{i}' for i, … in enumerate(l)`. -/
def defaultNames (n : Nat) : List Name := (List.range n).map defaultName

/-- `{k: convert_to_axis(arg) for k, arg in items}` (`_axes.py` 440, 446-449, 459-461, 489). -/
def convertItems : List (Name × AxisArg K) → Except Numeric.Err (List (Name × AnyAxis K))
  | [] => .ok []
  | (k, a) :: items => match convertToAxis a with
    | .error e => .error e
    | .ok x => match convertItems items with
      | .error e => .error e
      | .ok l => .ok ((k, x) :: l)

/-- The same as a dictionary. -/
def convertAxes (items : List (Name × AxisArg K)) : Except Numeric.Err (Dict Name (AnyAxis K)) :=
  match convertItems items with
  | .error e => .error e
  | .ok l => .ok (Dict.ofItems l)

/-- The keyword arguments of `physical.axes`; those that are `None` count as not given. -/
structure AxesKeywords (K : Type) where
  shape : Option (List ℤ) := none
  dimensions : Option (List Name) := none
  axes : Option (List (AxisArg K)) := none
  mapping : Option (Dict Name (AxisArg K)) := none
  pairs : Dict Name (AxisArg K) := []

/-- Is any keyword argument given? -/
def AxesKeywords.given (kw : AxesKeywords K) : Bool :=
  kw.shape.isSome || kw.dimensions.isSome || kw.axes.isSome || kw.mapping.isSome || !kw.pairs.isEmpty

/-- The positional arguments of `physical.axes`. -/
inductive Positional (K : Type)
  | mapping (m : Dict Name (AxisArg K))
  | length (n : ℤ)
  | other

/-- `etc.allisinstance(numbers.Integral, *args)` (`_axes.py` 493). -/
def lengths : List (Positional K) → Option (List ℤ)
  | [] => some []
  | .length n :: l => match lengths l with
    | some ns => some (n :: ns)
    | none => none
  | _ :: _ => none

/-- Axes from a shape, with the given names (`_axes.py` 461-479, 493-495). -/
def axesFromShape (names : List Name) (shape : List ℤ) : Dict Name (AnyAxis K) :=
  Dict.ofItems (names.zip (shape.map rangeAxis))

/-- `pairs.update(mapping or {})` (`_axes.py` 435-437). -/
def AxesKeywords.merged (kw : AxesKeywords K) : Dict Name (AxisArg K) :=
  (kw.mapping.getD []).foldl (fun d p => d.set p.1 p.2) kw.pairs

/-- `_map_axes` with keyword arguments only and without pairs (`_axes.py` 441-485). -/
def axesWithoutPairs (kw : AxesKeywords K) : Except Numeric.Err (Dict Name (AnyAxis K)) :=
  match kw.axes, kw.dimensions, kw.shape with
  | some axes, none, _ => convertAxes ((defaultNames axes.length).zip axes)
  | some axes, some ds, _ => if axes.length ≠ ds.length then .error .value else convertAxes (ds.zip axes)
  | none, none, some shape => .ok (axesFromShape (defaultNames shape.length) shape)
  | none, some ds, some shape => if shape.length ≠ ds.length then .error .value else .ok (axesFromShape ds shape)
  | none, some _, none => .error .type
  | none, none, none => .error .value

/-- `_map_axes` with keyword arguments only (`_axes.py` 427-485). -/
def axesFromKeywords (kw : AxesKeywords K) : Except Numeric.Err (Dict Name (AnyAxis K)) :=
  if kw.merged.isEmpty then axesWithoutPairs kw else convertAxes kw.merged

/-- `physical.axes(*args, **kwargs)` (`_axes.py` 420-500, `physical/__init__.py` 644-646). -/
def makeAxes (args : List (Positional K)) (kw : AxesKeywords K) : Except Numeric.Err (Dict Name (AnyAxis K)) :=
  match args with
  | [] => axesFromKeywords kw
  | [.mapping m] => convertAxes m
  | [_] => .error .type
  | args => match lengths args with
    | none => .error .type
    | some ns => if kw.given then .error .type else .ok (axesFromShape (defaultNames ns.length) ns)

/-! ## Objects -/

/-- What physical objects are made from: numbers, numpy arrays and nested lists, scalars, vectors, tensors and measurements,
other measured sequences, and arrays with axes. -/
inductive Source (K : Type)
  | number (x : K)
  | values (d : ND K)
  | object (k : Kind) (o : Obj K)
  | sequence (o : Obj K)
  | array (a : Arr Name (AnyAxis K) K)

/-- `metric.unit(unit or '1')` (`measured/_context.py` 101-113). -/
def givenUnit (unit : Option (List Term)) : List Term := unit.getD unitless

/-- `numpy.array(x)`, its size and its first element (`_object_factories.py` 43-53), and the check that the data of a scalar
can be rounded, which arrays cannot (`_scalar.py` 44-50). -/
def scalarFrom (d : ND K) (unit : List Term) : Except PErr (Obj K) :=
  if d.size ≠ 1 then .error .type
  else match d.ndim with
    | 0 => .error (.look .index)
    | 1 => .ok ⟨⟨[], d.data⟩, unit⟩
    | _ => .error .type

/-- The end of `vector_args` (`_object_factories.py` 72-77). -/
def vectorFrom (d : ND K) (unit : List Term) : Except PErr (Obj K) :=
  if d.ndim ≠ 1 then .error .type else .ok ⟨d, unit⟩

/-- The end of `tensor_args` (`_object_factories.py` 96-101). -/
def tensorFrom (d : ND K) (unit : List Term) : Except PErr (Obj K) :=
  if d.ndim = 0 then .error .type else .ok ⟨d, unit⟩

/-- The data of a scalar in a list of one element. -/
def listed (d : ND K) : ND K := ⟨[1], d.data⟩

/-- `isinstance(x, numeric.Object)` (`numeric/_objects.py` 181, 238): all objects with a unit. -/
def Source.isObject : Source K → Bool
  | .number _ => false
  | .values _ => false
  | _ => true

/-- What `_wrap_factory` does before it calls the factory (`numeric/_objects.py` 222-244): nothing may be given along with an
object.  None of the factories here has mutable keys (`_object_factories.py` 30, 56, 81, 106). -/
def refused (x : Source K) (given : List Bool) : Bool := x.isObject && given.any id

variable [Field K]

/-- `Scalar(*scalar_args(x, unit))` (`_object_factories.py` 29-53). -/
def scalarArgs (x : Source K) (unit : Option (List Term)) : Except PErr (Obj K) :=
  match x with
  | .object .scalar o => .ok o
  | .number r => .ok ⟨⟨[], fun _ => r⟩, givenUnit unit⟩
  | .object .tensor o => scalarFrom o.data o.unit
  | .array a => scalarFrom a.arr.data.data a.arr.unit
  | .object _ o => scalarFrom o.data (givenUnit unit)
  | .sequence o => scalarFrom o.data (givenUnit unit)
  | .values d => scalarFrom d (givenUnit unit)

/-- `physical.scalar(x, unit)` (`physical/__init__.py` 164-165, `_object_factories.py` 29-35). -/
def scalar (x : Source K) (unit : Option (List Term)) : Except PErr (Obj K) :=
  if refused x [unit.isSome] then .error (.look .value) else scalarArgs x unit

/-- `Vector(*vector_args(x, unit))` (`_object_factories.py` 56-77). -/
def vectorArgs (x : Source K) (unit : Option (List Term)) : Except PErr (Obj K) :=
  match x with
  | .object .vector o => .ok o
  | .object .scalar o => vectorFrom (listed o.data) o.unit
  | .object .measurement o => vectorFrom o.data o.unit
  | .object .tensor o => vectorFrom o.data o.unit
  | .array a => vectorFrom a.arr.data.data a.arr.unit
  | .number r => vectorFrom ⟨[], fun _ => r⟩ (givenUnit unit)
  | .sequence o => vectorFrom o.data (givenUnit unit)
  | .values d => vectorFrom d (givenUnit unit)

/-- `physical.vector(x, unit)` (`physical/__init__.py` 313-314, `_object_factories.py` 56-61). -/
def vector (x : Source K) (unit : Option (List Term)) : Except PErr (Obj K) :=
  if refused x [unit.isSome] then .error (.look .value) else vectorArgs x unit

/-- `Tensor(*tensor_args(x, unit))` (`_object_factories.py` 80-101). -/
def tensorArgs (x : Source K) (unit : Option (List Term)) : Except PErr (Obj K) :=
  match x with
  | .array a => .ok ⟨a.arr.data.data, a.arr.unit⟩
  | .object .tensor o => .ok o
  | .object .scalar o => tensorFrom (listed o.data) o.unit
  | .object .measurement o => tensorFrom o.data o.unit
  | .object .vector o => tensorFrom o.data (givenUnit unit)
  | .number r => tensorFrom ⟨[], fun _ => r⟩ (givenUnit unit)
  | .sequence o => tensorFrom o.data (givenUnit unit)
  | .values d => tensorFrom d (givenUnit unit)

/-- `physical.tensor(x, unit)` (`physical/__init__.py` 440-441, `_object_factories.py` 81-86). -/
def tensor (x : Source K) (unit : Option (List Term)) : Except PErr (Obj K) :=
  if refused x [unit.isSome] then .error (.look .value) else tensorArgs x unit

/-- The argument `axes` of `physical.array`: `None`, names, or a mapping. -/
inductive AxesArg (K : Type)
  | none
  | names (l : List Name)
  | mapping (m : Dict Name (AxisArg K))

/-- `axes is not None` (`numeric/_objects.py` 240). -/
def AxesArg.given : AxesArg K → Bool
  | .none => false
  | _ => true

/-- `tuple(axes or ())` (`_object_factories.py` 116). -/
def AxesArg.names' : AxesArg K → List Name
  | .none => []
  | .names l => l
  | .mapping m => m.keys

/-- `real.array(data, *dimensions)` (`_object_factories.py` 117, `numeric/_array.py` 689-718): without names, the default
ones. -/
def namedData (d : ND K) (names : List Name) : Except Numeric.Err (Named Name K) :=
  if names = [] then .ok ⟨d, defaultNames d.ndim, true⟩ else arrayFactory d names

/-- `array_axes(shape, axes)` (`_object_factories.py` 179-190). -/
def arrayAxes (shape : List Nat) : AxesArg K → Except Numeric.Err (Dict Name (AnyAxis K))
  | .mapping m => convertAxes m
  | .names l => match axesFromKeywords (K := K) {shape := some (shape.map (fun n : Nat => (n : ℤ))), dimensions := some l} with
    | .error _ => .error .type
    | .ok a => .ok a
  | .none => match axesFromKeywords (K := K) {shape := some (shape.map (fun n : Nat => (n : ℤ)))} with
    | .error _ => .error .type
    | .ok a => .ok a

/-- The data and the unit of `array_args` (`_object_factories.py` 112-123, 141-176). -/
def sourceData (x : Source K) (unit : Option (List Term)) : ND K × List Term :=
  match x with
  | .number r => (⟨[1], fun _ => r⟩, givenUnit unit)
  | .values d => (d, givenUnit unit)
  | .object .scalar o => (listed o.data, o.unit)
  | .object _ o => (o.data, o.unit)
  | .sequence o => (o.data, o.unit)
  | .array a => (a.arr.data.data, a.arr.unit)

/-- `Array(*array_args(x, unit, axes))` (`_object_factories.py` 104-123). -/
def arrayArgs (x : Source K) (unit : Option (List Term)) (axes : AxesArg K) : Except Numeric.Err (Arr Name (AnyAxis K) K) :=
  match x with
  | .array a => .ok ⟨PArr.new a.arr.data a.arr.unit, a.axes⟩
  | x => match namedData (sourceData x unit).1 axes.names' with
    | .error e => .error e
    | .ok d => match arrayAxes d.data.shape axes with
      | .error e => .error e
      | .ok a => .ok ⟨PArr.new d (sourceData x unit).2, a⟩

/-- `physical.array(x, unit=unit, axes=axes)` (`physical/__init__.py`, `_object_factories.py` 106-111). -/
def array (x : Source K) (unit : Option (List Term)) (axes : AxesArg K) : Except Numeric.Err (Arr Name (AnyAxis K) K) :=
  if refused x [unit.isSome, axes.given] then .error .value else arrayArgs x unit axes

end Eprem.Physical
