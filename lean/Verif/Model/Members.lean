import Verif.Model.Physical

/-!
# Members of vectors, tensors and measured sequences, and casts to built-in types

A model of `physical/_vector.py`, `physical/_tensor.py`, `measured/_sequence.py`, of the casts of `physical/_scalar.py`,
`physical/_array.py`, `quantity/_measurement.py`.
-/

namespace Eprem.Physical

open Eprem Eprem.Symbolic Eprem.Metric Eprem.Numeric Eprem.Measured

variable {κ ν K T : Type}

/-- The classes that are sequences: `Vector` (`physical/_vector.py` 13), `Tensor` (`physical/_tensor.py` 10), and
`measured.Sequence` with its subclass `Measurement` (`measured/_sequence.py` 15, `quantity/_measurement.py` 15). -/
inductive Series
  | vector | tensor | measured
  deriving DecidableEq, Repr

/-- A member: a single value (`Scalar` or `measured.Value`), or an object of the class of the sequence. -/
inductive Member (K : Type)
  | value (x : K) (unit : List Term)
  | several (o : Obj K)

/-- The subscripts of a numpy array: an integer, slice, list or ellipsis, or a tuple of integers and slices (tuples with
lists or ellipses are not modelled). -/
inductive Sub
  | one (a : Arg)
  | tuple (l : List Arg)

/-- `self.data[__i]`, for a `numpy.ndarray`. -/
def subData (d : ND K) : Sub → Except Numeric.Err (ND K)
  | .one a => npIndex d (.itself a)
  | .tuple l => npIndex d (.tuple l)

/-- `Scalar.spawn(data, unit=unit)` (`physical/_object_factories.py` 29-52, `physical/_scalar.py` 41-46) and
`Value.spawn(data, unit=unit)` (`measured/_factories.py` 17-41) for numpy data; the former takes `data[0]`, which is not a
number if the data have more than one dimension. -/
def spawnValue (k : Series) (d : ND K) : Except PErr K :=
  match k with
  | .measured => if d.size = 1 then .ok (d.data 0) else .error .type
  | _ => if d.size = 1 ∧ d.ndim ≤ 1 then .ok (d.data 0) else .error .type

/-- `self.spawn(data, unit=unit)`: `vector_factory` and `tensor_factory` (`physical/_object_factories.py` 55-100),
`sequence_factory` (`measured/_factories.py` 44-64). -/
def spawnSeries (k : Series) (d : ND K) (unit : List Term) : Except PErr (Obj K) :=
  match k with
  | .vector => if d.ndim = 1 then .ok ⟨d, unit⟩ else .error .type
  | .tensor => if d.ndim = 0 then .error .type else .ok ⟨d, unit⟩
  | .measured => if d.ndim = 0 then .error .type else .ok ⟨⟨[d.size], d.data⟩, unit⟩

/-- `__getitem__` after the subscription of the data. -/
def memberOf (k : Series) (unit : List Term) (d : ND K) : Except PErr (Member K) :=
  match spawnValue k d with
  | .ok x => .ok (.value x unit)
  | .error _ => (spawnSeries k d unit).map .several

/-- `self[i]` (`physical/_vector.py` 44-51, `physical/_tensor.py` 42-49, `measured/_sequence.py` 44-59). -/
def item (k : Series) (x : Obj K) (i : Sub) : Except PErr (Member K) :=
  match subData x.data i with
  | .error e => .error (.look e)
  | .ok d => memberOf k x.unit d

/-- `len(self)` (`physical/_vector.py` 30-32, `physical/_tensor.py` 33-35, `measured/_sequence.py` 38-39): `len` of the
data. -/
def length (x : Obj K) : Except PErr Nat :=
  match x.data.shape with
  | [] => .error .type
  | n :: _ => .ok n

/-- The loop of `__iter__` (`base/mixins.py` 117-126): `self[0]`, `self[1]`, … up to the first `IndexError`.  `none` means
that the loop has not ended within the given number of steps. -/
def iterateFrom (k : Series) (x : Obj K) : Nat → Nat → Option (Except PErr (List (Member K)))
  | 0, _ => none
  | fuel + 1, i => match item k x (.one (.int i)) with
    | .error (.look .index) => some (.ok [])
    | .error e => some (.error e)
    | .ok m => match iterateFrom k x fuel (i + 1) with
      | some (.ok l) => some (.ok (m :: l))
      | r => r

/-- `iter(self)`: vectors iterate over their data (`physical/_vector.py` 34-36), tensors over their flattened data
(`physical/_tensor.py` 37-40), measured sequences over their subscripts (`measured/_sequence.py` 41-42). -/
def iterate (k : Series) (x : Obj K) (fuel : Nat) : Option (Except PErr (List (Member K))) :=
  match k with
  | .measured => iterateFrom k x fuel 0
  | _ => some (.ok ((List.range x.data.size).map (fun i => .value (x.data.data i) x.unit)))

/-! ## Casts -/

/-- The built-in types. -/
inductive Builtin
  | int | float | complex
  deriving DecidableEq, Repr

variable [Field K]

/-- `int(x)`, `float(x)` and `complex(x)`, where `t` is what the built-in type does with a number.  Scalars look the
operation up among their operators, which `Scalar.implements` registered under the types themselves, not under the name
`'complex'` that is looked up (`physical/_scalar.py` 51-81, `physical/_operations.py` 164-190, `numeric/_mixins.py` 396-412);
vectors and tensors have no such methods; measurements (`quantity/_measurement.py` 29-46) and arrays
(`physical/_array.py` 48-67) take their only value. -/
def castTo (t : K → T) (b : Builtin) : Operand κ ν K → Except PErr T
  | .number x => .ok (t x)
  | .object .scalar o => if b = .complex then .error .type else .ok (t (o.data.data 0))
  | .object .measurement o => if o.data.size = 1 then .ok (t (o.data.data 0)) else .error .type
  | .object _ _ => .error .type
  | .array a => if a.arr.data.data.size = 1 then .ok (t (a.arr.data.data.data 0)) else .error .type

end Eprem.Physical
