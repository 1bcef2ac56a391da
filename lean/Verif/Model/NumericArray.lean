import Verif.Model.Numpy
import Verif.Model.Container

/-!
# Model of `Dimensions` and of arrays with named dimensions (`numeric/_array.py`, `real/_array.py`)

Names are values of a type `κ` with decidable equality.  Elementwise functions (`f`) are arbitrary: multiplication,
division and so on of the elements.  Not modelled: data types, `out=` and other keyword arguments of numpy functions
except those named, and operands that are neither arrays nor numbers.
-/

namespace Eprem.Numeric

open Eprem

variable {κ α β γ : Type} [DecidableEq κ]

/-! ## `Dimensions` -/

/-- `dimensions_factory(*names)` and `dimensions_factory(names)` (`_array.py` 285-305). -/
def dimensions (names : List κ) : List κ := Container.unique names

/-- `Dimensions.__and__` (`_array.py` 90-98). -/
def dimsAnd (a b : List κ) : List κ := dimensions ((a ++ b).filter (fun n => decide (n ∈ a ∧ n ∈ b)))

/-- `Dimensions.__sub__` (`_array.py` 110-116). -/
def dimsSub (a b : List κ) : List κ := dimensions (a.filter (fun n => decide (n ∉ b)))

/-- `Dimensions.__or__` (`_array.py` 124-136); `Dimensions.__ror__` (138-150) is the same with the operands exchanged. -/
def dimsOr (a b : List κ) : Except Err (List κ) :=
  match Container.merge a b with
  | .error _ => .error .value
  | .ok m => .ok (dimensions m)

/-- `Dimensions.__xor__` (`_array.py` 152-158): `self - those` is computed first; `those` is then a `list`, and
`those - self` calls `Dimensions.__rsub__` (118-122), which raises `TypeError` for a `list`. -/
def dimsXor (_ _ : List κ) : Except Err (List κ) := .error .type

/-- `Dimensions.replace` (`_array.py` 74-78). -/
def dimsReplace (a : List κ) (old new : κ) : List κ := dimensions (a.map (fun n => if n = old then new else n))

/-- `list.insert(index, name)` (Python). -/
def listInsert (l : List κ) (index : ℤ) (name : κ) : List κ :=
  let i := if index < 0 then max (index + l.length) 0 else min index l.length
  l.take i.toNat ++ name :: l.drop i.toNat

/-- `Dimensions.insert` (`_array.py` 80-88). -/
def dimsInsert (a : List κ) (name : κ) (index : Option ℤ) : List κ :=
  match index with
  | some i => dimensions (listInsert a i name)
  | none => dimensions (a ++ [name])

/-- `Dimensions.mismatch` (`_array.py` 218-253): an error if one set of names is strictly inside the other. -/
def dimsMismatch (a b : List κ) : Bool :=
  (a.all (fun n => decide (n ∈ b)) && !b.all (fun n => decide (n ∈ a))) ||
  (b.all (fun n => decide (n ∈ a)) && !a.all (fun n => decide (n ∈ b)))

/-- `self[axis]` for each axis, `none` if one is out of range. -/
def namesAt (a : List κ) : List ℤ → Option (List κ)
  | [] => some []
  | i :: is => match axisIndex a.length i with
    | .error _ => none
    | .ok j => match a[j]?, namesAt a is with
      | some n, some ns => some (n :: ns)
      | _, _ => none

/-- `Dimensions._permute` (`_array.py` 207-216). -/
def dimsPermute (a : List κ) (axes : List ℤ) : Except Err (List κ) :=
  match namesAt a axes with
  | none => .error .value
  | some names => if dimsMismatch a names then .error .value else .ok (dimensions names)

/-! ## Arrays -/

/-- `Array` (`_array.py` 319-333, `real/_array.py` 19-61): the data and the names of its axes.  `plain` says that the
names are a plain tuple, which `dimensions_factory` returns for default names (`_array.py` 287-290, 707-718). -/
structure Named (κ α : Type) where
  data : ND α
  dims : List κ
  plain : Bool := false

/-- `array_factory(data, dimensions=dims)` (`real/_array.py` 399-400, `numeric/_array.py` 689-718). -/
def arrayFactory (data : ND α) (dims : List κ) : Except Err (Named κ α) :=
  if (dimensions dims).length = data.ndim then .ok ⟨data, dimensions dims, false⟩ else .error .value

/-- `shapemap.get(d, 1)` (`_array.py` 609-612). -/
def Named.shapeGet (a : Named κ α) (d : κ) : Nat := (Dict.get? (a.dims.zip a.data.shape) d).getD 1

/-- `a.dimensions | b.dimensions`: the operator is not defined for two tuples. -/
def unionDims (a : Named κ α) (b : Named κ β) : Except Err (List κ) :=
  if a.plain ∧ b.plain then .error .type else dimsOr a.dims b.dims

/-- One operand of `remesh` (`_array.py` 799-806): an array of one element is only given more axes; otherwise it is
subscripted by the parts of an open mesh over all axes that belong to its axes, so that the result has one axis for
each of the merged dimensions, of length one where the operand has no such dimension. -/
def meshOperand (ds : List κ) (shape : κ → Nat) (a : Named κ α) : Except Err (ND α) :=
  if a.data.size = 1 then .ok (a.data.atLeast ds.length)
  else if a.dims.all (fun d => decide (shape d ≤ a.shapeGet d)) then
    .ok (.ofFn (ds.map (fun d => if d ∈ a.dims then shape d else 1))
      (fun p => a.data.get (a.dims.map (fun d => p.getD (ds.idxOf d) 0))))
  else .error .index

/-- `remesh` (`_array.py` 748-807), with the merged dimensions. -/
def remesh (a : Named κ α) (b : Named κ β) : Except Err (List κ × ND α × ND β) :=
  match unionDims a b with
  | .error e => .error e
  | .ok ds =>
    if ds.any (fun d => decide (a.shapeGet d > 1 ∧ b.shapeGet d > 1 ∧ a.shapeGet d ≠ b.shapeGet d)) then .error .value
    else
      let shape := fun d => max (a.shapeGet d) (b.shapeGet d)
      match meshOperand ds shape a with
      | .error e => .error e
      | .ok x => match meshOperand ds shape b with
        | .error e => .error e
        | .ok y => .ok (ds, x, y)

/-- `multiplicative(f, a, b)` for two arrays (`real/_array.py` 230-250), which implements `*`, `/`, `//`, `%` (155-180)
and, for equal dimensions, `**` (183-196). -/
def multiplicative (f : α → β → γ) (a : Named κ α) (b : Named κ β) : Except Err (Named κ γ) :=
  match remesh a b with
  | .error .type => .error .operand
  | .error e => .error e
  | .ok (ds, x, y) => match ND.zip f x y with
    | .error e => .error e
    | .ok r => arrayFactory r ds

/-- `multiplicative(f, a, x)` for a number `x`. -/
def scaleBy (f : α → β → γ) (a : Named κ α) (x : β) : Except Err (Named κ γ) :=
  arrayFactory (a.data.map (fun y => f y x)) a.dims

/-- `additive(f, a, b)` for two arrays (`real/_array.py` 217-227), which implements `+` and `-` (135-152). -/
def additive (f : α → β → γ) (a : Named κ α) (b : Named κ β) : Except Err (Named κ γ) :=
  if a.dims ≠ b.dims then .error .value
  else match ND.zip f a.data b.data with
    | .error e => .error e
    | .ok r => arrayFactory r a.dims

/-- `a ** b` for two arrays (`real/_array.py` 183-196). -/
def powArrays (f : α → β → γ) (a : Named κ α) (b : Named κ β) : Except Err (Named κ γ) :=
  if a.dims ≠ b.dims then .error .value else multiplicative f a b

/-- `-a`, `abs(a)`, `+a` (`real/_array.py` 87-102, 199-203). -/
def unary (f : α → β) (a : Named κ α) : Except Err (Named κ β) := arrayFactory (a.data.map f) a.dims

/-! ## Transposition -/

/-- `numpy.ndarray.transpose` with integers that may be negative. -/
def ND.transposeInts (a : ND α) (axes : List ℤ) : Except Err (ND α) :=
  match axes.mapM (axisIndex a.ndim) with
  | .error _ => .error .value
  | .ok l => a.transpose l

/-- `array.transpose(*names)` and `array.transpose(names)` (`_array.py` 499-519); the new array has the given names as
they are (`spawn` calls the class, `_objects.py` 45-47, 112-123), which is a `Dimensions` object only if one was given. -/
def transposeNames (a : Named κ α) (names : List κ) (given : Bool) : Except Err (Named κ α) :=
  if a.plain then .error .attribute
  else if dimsMismatch a.dims names then .error .value
  else if names.all (fun n => decide (n ∈ a.dims)) then
    match a.data.transpose (names.map (fun n => a.dims.idxOf n)) with
    | .error e => .error e
    | .ok d => .ok ⟨d, names, !given⟩
  else .error .value

/-- `array.transpose(*axes)` for two or more integers, and `array.transpose(axes)` for a list of them
(`_array.py` 499-511). -/
def transposeAxes (a : Named κ α) (axes : List ℤ) : Except Err (Named κ α) :=
  match a.data.transposeInts axes with
  | .error e => .error e
  | .ok d =>
    if a.plain then .error .attribute
    else match dimsPermute a.dims axes with
      | .error e => .error e
      | .ok names => .ok ⟨d, names, false⟩

/-- `array.transpose(axis)` for one integer (`_array.py` 505-508): `*arg` fails for an integer. -/
def transposeAxis (_ : Named κ α) (_ : ℤ) : Except Err (Named κ α) := .error .type

/-- `numpy.transpose(array)` (`real/_array.py` 323-332 without `axes`). -/
def npTranspose (a : Named κ α) : Except Err (Named κ α) :=
  match a.data.transpose (List.range a.data.ndim).reverse with
  | .error e => .error e
  | .ok d => arrayFactory d a.dims.reverse

/-- `numpy.transpose(array, axes=axes)` (`real/_array.py` 323-332): the data are transposed without `axes`. -/
def npTransposeAxes (a : Named κ α) (axes : List ℤ) : Except Err (Named κ α) :=
  match a.data.transpose (List.range a.data.ndim).reverse with
  | .error e => .error e
  | .ok d => match namesAt a.dims axes with
    | none => .error .index
    | some names => arrayFactory d names

/-! ## Reductions -/

/-- A reduction of a numpy array along one axis. -/
def ND.reduce (f : List α → β) (a : ND α) (axis : Nat) : ND β :=
  .ofFn (a.shape.eraseIdx axis)
    (fun p => f ((List.range (a.shape.getD axis 0)).map (fun i => a.get (p.insertIdx axis i))))

/-- The same, keeping the axis with length one (`keepdims=True`). -/
def ND.reduceKeep (f : List α → β) (a : ND α) (axis : Nat) : ND β :=
  .ofFn (a.shape.set axis 1)
    (fun p => f ((List.range (a.shape.getD axis 0)).map (fun i => a.get (p.set axis i))))

/-- A reduction of a numpy array. -/
def ND.reduceAt (f : List α → β) (a : ND α) (axis : ℤ) (keepdims : Bool) : Except Err (ND β) :=
  match axisIndex a.ndim axis with
  | .error _ => .error .value
  | .ok k => .ok (if keepdims then a.reduceKeep f k else a.reduce f k)

/-- The dimensions other than the one at an index, as computed in `mean`, `sum` and `trapz`
(`real/_array.py` 296, 310, 375). -/
def otherDims (dims : List κ) (ax : ℤ) : List κ := dims.filter (fun d => decide ((dims.idxOf d : ℤ) ≠ ax))

/-- `numpy.sum(array, axis=axis[, keepdims=keepdims])` (`real/_array.py` 300-311), for arrays of two or more dimensions. -/
def sumAxis (f : List α → β) (a : Named κ α) (axis : ℤ) (keepdims : Option Bool) : Except Err (Named κ β) :=
  match a.data.reduceAt f axis (keepdims.getD false) with
  | .error e => .error e
  | .ok d => match keepdims with
    | some _ => arrayFactory d a.dims
    | none => arrayFactory d (otherDims a.dims (if axis < 0 then a.data.ndim + axis else axis))

/-- `numpy.mean(array, axis=axis[, keepdims=keepdims])` (`real/_array.py` 288-297); `numpy.trapz(array, axis=axis)`
(366-376) without `keepdims`. -/
def meanAxis (f : List α → β) (a : Named κ α) (axis : ℤ) (keepdims : Option Bool) : Except Err (Named κ β) :=
  match a.data.reduceAt f axis (keepdims.getD false) with
  | .error e => .error e
  | .ok d => arrayFactory d (otherDims a.dims (axis % a.data.ndim))

/-- A running reduction of a numpy array along one axis, as `cumsum` is. -/
def ND.accumulate (f : List α → β) (a : ND α) (axis : Nat) : ND β :=
  .ofFn a.shape (fun p => f ((List.range (p.getD axis 0 + 1)).map (fun i => a.get (p.set axis i))))

/-- `numpy.cumsum(array, axis=axis)` (`real/_array.py` 314-320). -/
def cumsumAxis (f : List α → β) (a : Named κ α) (axis : ℤ) : Except Err (Named κ β) :=
  match axisIndex a.data.ndim axis with
  | .error _ => .error .value
  | .ok k => arrayFactory (a.data.accumulate f k) a.dims

/-- `numpy.squeeze(array)` (`real/_array.py` 278-285), for a result with at least one dimension. -/
def squeeze (a : Named κ α) : Except Err (Named κ α) :=
  arrayFactory ⟨a.data.shape.filter (fun n => decide (n ≠ 1)), a.data.data⟩
    (a.dims.filter (fun d => decide (a.shapeGet d ≠ 1)))

/-- `numpy.squeeze(array, axis=axis)` (`real/_array.py` 278-285): only the given axis is removed from the data (it must
have length one), but all dimensions of length one from the names. -/
def squeezeAxis (a : Named κ α) (axis : ℤ) : Except Err (Named κ α) :=
  match axisIndex a.data.ndim axis with
  | .error _ => .error .value
  | .ok k =>
    if a.data.shape.getD k 0 ≠ 1 then .error .value
    else arrayFactory ⟨a.data.shape.eraseIdx k, a.data.data⟩ (a.dims.filter (fun d => decide (a.shapeGet d ≠ 1)))

/-- `_apply_ufunc` for a binary ufunc without an own implementation, such as `numpy.maximum` (`numeric/_mixins.py`
99-133, 236-245; `real/_array.py` 53-56): `_get_arg_data` returns the data of the array whose method is called, which is
the first one, for every array. -/
def applyUfunc (f : α → α → γ) (a _b : Named κ α) : Except Err (ND γ) := ND.zip f a.data a.data

end Eprem.Numeric
