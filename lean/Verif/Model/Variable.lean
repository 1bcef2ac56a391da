import Verif.Model.Members
import Verif.Model.Create

/-!
# Model of the variables of `parameter/_runtime.py` 25-134

Not modelled: variables of `measured.Value` objects, and index objects of `numeric.index` as subscripts.
-/

namespace Eprem.Physical

open Eprem Eprem.Symbolic Eprem.Metric Eprem.Numeric Eprem.Measured

variable {K T : Type}

section
variable [Field K]

/-- `variable_args(x, unit)` (`_runtime.py` 111-134); `numpy.array(x, ndmin=1)` makes a list of a number. -/
def variableArgs (x : Source K) (unit : Option (List Term)) : Except PErr (Obj K) :=
  match x with
  | .number r => vector (.values ⟨[1], fun _ => r⟩) unit
  | .values d => vector (.values (d.atLeast 1)) unit
  | x => vector x none

/-- `parameter.variable(x, unit)` (`parameter/__init__.py` 214-215, `_runtime.py` 103-108), with the check of `_wrap_factory`
(`numeric/_objects.py` 222-244). -/
def newVariable (x : Source K) (unit : Option (List Term)) : Except PErr (Obj K) :=
  if refused x [unit.isSome] then .error (.look .value) else variableArgs x unit

end

/-- `container.unwrap(args)` (`_runtime.py` 40, `container.py` 153-159). -/
def unwrappedSub (args : Args) : Sub :=
  match args with
  | .one (.seq .list [i]) => .one (.int i)
  | .tuple [.seq .list [i]] => .one (.int i)
  | .tuple [a] => .one a
  | .one a => .one a
  | .tuple l => .tuple l

/-- `if isinstance(idx, SupportsIndex) and idx < 0: idx += len(self)` (`_runtime.py` 41-42).  Numpy arrays have the method
`__index__`, so that they pass the test; the comparison has no truth value if there are several numbers. -/
def shiftSub (n : Nat) : Sub → Except PErr Sub
  | .one (.int i) => .ok (.one (.int (if i < 0 then i + n else i)))
  | .one (.seq .array [i]) => .ok (.one (.seq .array [if i < 0 then i + n else i]))
  | .one (.seq .array (i :: j :: l)) => .error (.look .value)
  | s => .ok s

/-- The end of `__getitem__` (`_runtime.py` 43-46): data without dimensions, and data of length zero, are made scalars. -/
def variableMember (unit : List Term) (d : ND K) : Except PErr (Member K) :=
  match d.shape with
  | [] => .ok (.value (d.data 0) unit)
  | 0 :: _ => .error .type
  | [_] => .ok (.several ⟨d, unit⟩)
  | _ => .error .type

/-- `self[args]` for a variable (`_runtime.py` 32-46). -/
def variableItem (x : Obj K) (args : Args) : Except PErr (Member K) :=
  match length x with
  | .error e => .error e
  | .ok n => match shiftSub n (unwrappedSub args) with
    | .error e => .error e
    | .ok s => match subData x.data s with
      | .error e => .error (.look e)
      | .ok d => variableMember x.unit d

/-- `int(self)`, `float(self)` and `complex(self)`, where `t` is what the built-in type does with a number (`_runtime.py` 48-55,
83-91): `t(self.data[0])`. -/
def castVariable (t : K → T) (x : Obj K) : Except PErr T :=
  if x.data.size = 0 then .error (.look .index) else .ok (t (x.data.data 0))

/-- `round(self)`, `math.floor(self)`, `math.ceil(self)` and `math.trunc(self)`, where `f` is what the function does with a
number (`_runtime.py` 57-81): a scalar. -/
def roundVariable (f : K → K) (x : Obj K) : Except PErr (Member K) :=
  if x.data.size = 0 then .error (.look .index) else .ok (.value (f (x.data.data 0)) x.unit)

end Eprem.Physical
