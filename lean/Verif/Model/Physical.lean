import Verif.Model.Axes
import Verif.Model.Measured

/-!
# Model of the operations on physical objects: `physical/_operations.py`

Operands are numbers, measured objects without named axes (scalars, vectors, tensors, and the measurements that
`quantity.measure` makes) and arrays with axes.  The data are elements of an arbitrary field, so that the results of the
elementwise functions are exact.  `systems` is the order in which the metric systems are tried when units are multiplied
(see `Model/MetricUnit.lean`).

Not modelled: numpy numbers and arrays as operands, strings and other things that `quantity.measure` reads (C41),
`numpy.transpose` and `numpy.squeeze` of physical objects, conversions to built-in types, keyword
arguments of `pow` and `round`.
-/

namespace Eprem.Physical

open Eprem Eprem.Symbolic Eprem.Metric Eprem.Numeric Eprem.Measured

variable {κ ν K : Type} [DecidableEq κ] [Field K] [DecidableEq K]

/-- Exceptions: `units` is the `ValueError` about units, `type` a `TypeError` or `PhysicalTypeError`. -/
inductive PErr
  | units | type | look (e : Numeric.Err) | metric (e : MErr)
  deriving DecidableEq

/-- The classes of objects without named axes: `Scalar`, `Vector`, `Tensor` (`physical/_scalar.py` 34, `_vector.py` 13,
`_tensor.py` 10) and `Measurement` (`quantity/_measurement.py` 15). -/
inductive Kind
  | scalar | vector | tensor | measurement
  deriving DecidableEq, Repr

/-- `physical.Array` (`physical/_array.py` 28-45) with its axes. -/
structure Arr (κ ν K : Type) where
  arr : PArr κ K
  axes : Dict κ ν

/-- The operands of the operations, and their results. -/
inductive Operand (κ ν K : Type)
  | number (x : K)
  | object (k : Kind) (o : Obj K)
  | array (a : Arr κ ν K)

/-- The unit `'1'`. -/
def unitless : List Term := [⟨1, Symbolic.one, 1⟩]

/-- `array_factory(data, unit=unit, axes=axes)` (`physical/_object_factories.py` 95-116): the data are named by the axes,
whose lengths are not compared with the shape of the data. -/
def newArray (data : ND K) (unit : List Term) (axes : Dict κ ν) : Except PErr (Operand κ ν K) :=
  match arrayFactory data axes.keys with
  | .error e => .error (.look e)
  | .ok d => .ok (.array ⟨PArr.new d unit, axes⟩)

/-- `scalar_factory`, `vector_factory` and `tensor_factory` for numpy data (`physical/_object_factories.py` 29-94). -/
def create (k : Kind) (data : ND K) (unit : List Term) : Except PErr (Operand κ ν K) :=
  match k with
  | .scalar => if data.size = 1 then .ok (.object .scalar ⟨⟨[], data.data⟩, unit⟩) else .error .type
  | .vector => if data.ndim = 1 then .ok (.object .vector ⟨data, unit⟩) else .error .type
  | .tensor => if data.ndim = 0 then .error .type else .ok (.object .tensor ⟨data, unit⟩)
  | .measurement => .error .type

/-- `_get_factory` (`_operations.py` 237-249) for two operands without named axes. -/
def kindOf (k l : Kind) : Kind :=
  if k = .tensor ∨ l = .tensor then .tensor
  else if k = .vector ∨ l = .vector then .vector
  else if k = .scalar ∨ l = .scalar then .scalar
  else .measurement

/-- `f(x, y)` for numpy arrays. -/
def zipData (f : K → K → K) (x y : ND K) : Except PErr (ND K) :=
  match ND.zip f x y with
  | .error e => .error (.look e)
  | .ok d => .ok d

/-- `quantity.measure(x)` for a number (`quantity/__init__.py` 121-154, `quantity/_measurement.py` 50-74). -/
def measureNumber (x : K) : Obj K := ⟨⟨[1], fun _ => x⟩, unitless⟩

/-! ## Sums -/

/-- The sum of two arrays (`_operations.py` 282-295).  `same` compares axes, and `inside` says that an axis of length one
lies on the other (`Model/Axes.lean`). -/
def addArrays (same inside : ν → ν → Bool) (f : K → K → K) (x y : Arr κ ν K) : Except PErr (Operand κ ν K) :=
  match Numeric.additive f x.arr.data y.arr.data with
  | .error e => .error (.look e)
  | .ok d =>
    if exprEq x.arr.unit y.arr.unit then
      if Axes.eq same x.axes y.axes then newArray d.data x.arr.unit x.axes
      else match Axes.add same inside x.axes y.axes with
        | .error .value => .error .units
        | .error e => .error (.look e)
        | .ok axes => match newArray d.data x.arr.unit axes with
          | .error (.look .value) => .error .units
          | r => r
    else .error .units

/-- `additive(f, x, y)` for measured operands (`_operations.py` 276-317). -/
def additiveMeasured (same inside : ν → ν → Bool) (f : K → K → K) : Operand κ ν K → Operand κ ν K →
    Except PErr (Operand κ ν K)
  | .array x, .array y => addArrays same inside f x y
  | .array x, .object k y =>
    if k = .vector then .error .type
    else match zipData f x.arr.data.data y.data with
      | .error e => .error e
      | .ok d => if exprEq x.arr.unit y.unit then newArray d x.arr.unit x.axes else .error .units
  | .object k x, .array y =>
    if k = .vector then .error .type
    else match zipData f x.data y.arr.data.data with
      | .error e => .error e
      | .ok d => if exprEq x.unit y.arr.unit then newArray d x.unit y.axes else .error .units
  | .object k x, .object l y => match zipData f x.data y.data with
      | .error e => .error e
      | .ok d => if exprEq x.unit y.unit then create (kindOf k l) d x.unit else .error .units
  | _, _ => .error .type

/-- The unit of an operand; numbers have none. -/
def Operand.unit : Operand κ ν K → List Term
  | .number _ => unitless
  | .object _ o => o.unit
  | .array a => a.arr.unit

/-- `additive(f, a, b)` (`_operations.py` 267-317), for `+` and `-`. -/
def additive (same inside : ν → ν → Bool) (f : K → K → K) (a b : Operand κ ν K) : Except PErr (Operand κ ν K) :=
  match a, b with
  | .number _, .number _ => .error .type
  | .number x, b => if exprEq b.unit unitless then
      additiveMeasured same inside f (.object .measurement (measureNumber x)) b else .error .type
  | a, .number y => if exprEq a.unit unitless then
      additiveMeasured same inside f a (.object .measurement (measureNumber y)) else .error .type
  | a, b => additiveMeasured same inside f a b

/-! ## Products -/

/-- `g(a.unit, b.unit)` (`_operations.py` 323, 325): the product for `*`, else the quotient. -/
def combineUnits (systems : List System) (times : Bool) (u v : List Term) : Except PErr (List Term) :=
  match if times then unitMul systems u v else unitDiv systems u v with
  | .error e => .error (.metric e)
  | .ok w => .ok w

/-- `g(1, b.unit)` (`_operations.py` 352): `1 * unit` is `unit` (`metric/_units.py` 51-57). -/
def numberUnits (systems : List System) (times : Bool) (v : List Term) : Except PErr (List Term) :=
  if times then .ok v
  else match unitInv systems v with
    | .error e => .error (.metric e)
    | .ok w => .ok w

/-- The data and axes of a product of measured operands (`_operations.py` 326-338), given its unit. -/
def multiplyMeasured (f : K → K → K) (unit : List Term) : Operand κ ν K → Operand κ ν K → Except PErr (Operand κ ν K)
  | .array x, .array y => match Numeric.multiplicative f x.arr.data y.arr.data with
    | .error e => .error (.look e)
    | .ok d => match Axes.merge x.axes y.axes with
      | .error e => .error (.look e)
      | .ok axes => newArray d.data unit axes
  | .array x, .object _ y => match zipData f x.arr.data.data y.data with
    | .error e => .error e
    | .ok d => newArray d unit x.axes
  | .object _ x, .array y => match zipData f x.data y.arr.data.data with
    | .error e => .error e
    | .ok d => newArray d unit y.axes
  | .object k x, .object l y => match zipData f x.data y.data with
    | .error e => .error e
    | .ok d => create (kindOf k l) d unit
  | _, _ => .error .type

/-- The data of an operand combined with a number (`_operations.py` 344-348, 353-357): `f(a.data, b)` or `f(a, b.data)`. -/
def withNumber (f : K → K) (unit : List Term) : Operand κ ν K → Except PErr (Operand κ ν K)
  | .array a => newArray (a.arr.data.data.map f) unit a.axes
  | .object k o => create k (o.data.map f) unit
  | .number _ => .error .type

/-- `multiplicative(f, a, b)` (`_operations.py` 320-362), for `*` (`times`), `/`, `//` and `%`. -/
def multiplicative (systems : List System) (times : Bool) (f : K → K → K) (a b : Operand κ ν K) :
    Except PErr (Operand κ ν K) :=
  match a, b with
  | .number _, .number _ => .error .type
  | .number x, b => match numberUnits systems times b.unit with
    | .error e => .error e
    | .ok unit => withNumber (fun y => f x y) unit b
  | a, .number y => withNumber (fun x => f x y) a.unit a
  | a, b => match combineUnits systems times a.unit b.unit with
    | .error e => .error e
    | .ok unit => multiplyMeasured f unit a b

/-! ## Powers and functions -/

/-- `f(a.unit, p)` (`_operations.py` 375, 399). -/
def powUnits (float : Bool) (u : List Term) (p : ℚ) : Except PErr (List Term) :=
  match unitPow float u p with
  | .error e => .error (.metric e)
  | .ok w => .ok w

/-- The exponents of `exponential`. -/
inductive Exponent (κ ν K : Type)
  | number (float : Bool) (p : ℚ)
  | scalar (float : Bool) (p : ℚ) (unit : List Term)
  | object (k : Kind) (o : Obj K)
  | array (a : Arr κ ν K)

/-- The unit of an exponent. -/
def Exponent.unit : Exponent κ ν K → List Term
  | .number _ _ => unitless
  | .scalar _ _ u => u
  | .object _ o => o.unit
  | .array a => a.arr.unit

/-- `exponential(f, a, b)` (`_operations.py` 365-408), with `f x y` the number `x ** y` and `g x p` the number `x ** p`.
A number to the power of a measured object is a plain number or numpy array (404-407), which is not modelled. -/
def exponential (f : K → K → K) (g : K → ℚ → K) (a : Operand κ ν K) (b : Exponent κ ν K) : Except PErr (Operand κ ν K) :=
  if exprEq b.unit unitless then
    match a, b with
    | .number _, _ => .error .type
    | a, .number float p => match powUnits float a.unit p with
      | .error e => .error e
      | .ok unit => withNumber (fun x => g x p) unit a
    | a, .scalar float p _ => match powUnits float a.unit p with
      | .error e => .error e
      | .ok unit => withNumber (fun x => g x p) unit a
    | a, b =>
      if exprEq a.unit unitless then
        match a, b with
        | .array x, .array y => match zipData f x.arr.data.data y.arr.data.data with
          | .error e => .error e
          | .ok d => newArray d unitless x.axes
        | .array x, .object _ y => match zipData f x.arr.data.data y.data with
          | .error e => .error e
          | .ok d => newArray d unitless x.axes
        | .object _ x, .array y => match zipData f x.data y.arr.data.data with
          | .error e => .error e
          | .ok d => newArray d unitless y.axes
        | .object k x, .object l y => match zipData f x.data y.data with
          | .error e => .error e
          | .ok d => create (kindOf k l) d unitless
        | _, _ => .error .type
      else .error .units
  else .error .units

/-- `unary(f, a)` (`_operations.py` 252-264) for `abs`, `+`, `-`, and for scalars `round`, `floor`, `ceil`, `trunc`: units
do not support these operations, so the unit is kept. -/
def unary (f : K → K) (a : Operand κ ν K) : Except PErr (Operand κ ν K) := withNumber f a.unit a

/-- `numpy.sqrt(x)` (`_operations.py` 469-477), with `f` the square root of numbers. -/
def sqrt (f : K → K) (a : Operand κ ν K) : Except PErr (Operand κ ν K) :=
  match powUnits true a.unit (1/2) with
  | .error e => .error e
  | .ok unit => withNumber f unit a

/-- `numpy.sin(x)`, `numpy.cos(x)`, `numpy.tan(x)` (`_operations.py` 434-467). -/
def trig (f : K → K) (a : Operand κ ν K) : Except PErr (Operand κ ν K) :=
  if showExpr a.unit = c! "rad" ∨ showExpr a.unit = c! "deg" then withNumber f unitless a else .error .units

/-- `numpy.log(x)`, `log10`, `log2`, `log1p` (`_operations.py` 480-518). -/
def log (f : K → K) (a : Operand κ ν K) : Except PErr (Operand κ ν K) :=
  if showExpr a.unit = Symbolic.one then withNumber f unitless a else .error .units

/-- All elements of an array, in order. -/
def elements (a : ND K) : List K := (List.range a.size).map a.data

/-- `numpy.min(x)`, `max`, `mean`, `sum` without `axis` (`_operations.py` 547-596), given the function of all elements. -/
def reduceAll (f : List K → K) : Operand κ ν K → Except PErr (Operand κ ν K)
  | .number _ => .error .type
  | .object _ o => .ok (.object .scalar ⟨⟨[], fun _ => f (elements o.data)⟩, o.unit⟩)
  | .array a => .ok (.object .scalar ⟨⟨[], fun _ => f (elements a.arr.data.data)⟩, a.arr.unit⟩)

/-- `numpy.min`, `max`, `mean`, `sum` and `cumsum` with `axis`, for arrays (`_operations.py` 547-624), given the operation on
arrays with named dimensions, such as `Numeric.sumAxis`: the axes that remain are those of the remaining dimensions. -/
def reduceAxis (g : Named κ K → Except Numeric.Err (Named κ K)) (a : Arr κ ν K) : Except PErr (Operand κ ν K) :=
  match g a.arr.data with
  | .error e => .error (.look e)
  | .ok d => match Axes.lookupAll a.axes d.dims with
    | .error e => .error (.look e)
    | .ok axes => newArray d.data a.arr.unit axes

/-! ## Comparisons -/

/-- `numpy.array_equal(x, y)` (`numeric/_data.py` 58-69). -/
def arrayEqual (x y : ND K) : Bool :=
  decide (x.shape = y.shape) && (List.range x.size).all (fun k => decide (x.data k = y.data k))

/-- `eq(a, b)` (`_operations.py` 39-47). -/
def eq (same : ν → ν → Bool) : Operand κ ν K → Operand κ ν K → Bool
  | .array x, .array y => arrayEqual x.arr.data.data y.arr.data.data && exprEq x.arr.unit y.arr.unit &&
      Axes.eq same x.axes y.axes
  | .array x, .object _ y => arrayEqual x.arr.data.data y.data && exprEq x.arr.unit y.unit
  | .object _ x, .array y => arrayEqual x.data y.arr.data.data && exprEq x.unit y.arr.unit
  | .object _ x, .object _ y => arrayEqual x.data y.data && exprEq x.unit y.unit
  | _, _ => false

/-- `ne(a, b)` (`_operations.py` 50-53). -/
def ne (same : ν → ν → Bool) (a b : Operand κ ν K) : Bool := !eq same a b

/-- `comparative(f, a, b)` (`_operations.py` 192-205) for objects without named axes, and numbers. -/
def comparative (f : K → K → Bool) : Operand κ ν K → Operand κ ν K → Except PErr (ND Bool)
  | .object _ x, .object _ y =>
    if exprEq x.unit y.unit then
      match ND.zip f x.data y.data with
      | .error e => .error (.look e)
      | .ok d => .ok d
    else .error .units
  | .object _ x, .number b => .ok (x.data.map (fun d => f d b))
  | .number a, .object _ y => .ok (y.data.map (fun d => f a d))
  | _, _ => .error .type

end Eprem.Physical
