import Verif.Model.Physical
import Verif.Model.Axis

/-!
# Model of the subscription of physical arrays: `physical/_array.py` 69-73, `observable/_interfaces.py` 898-909, 1035-1043

Not modelled: numpy arrays as subscripts (the comparison of an array with `slice(None)` in `numeric/_index.py` 646 and
`physical/_axis.py` 98 has no truth value).
-/

namespace Eprem.Physical

open Eprem Eprem.Symbolic Eprem.Metric Eprem.Numeric Eprem.Measured

variable {κ ν K : Type} [DecidableEq κ] [Field K]

/-- An axis of any class: `Points`, `Symbols`, `Coordinates` (`physical/_axis.py` 162-316). -/
inductive AnyAxis (K : Type)
  | points (x : Axis.Axis ℤ)
  | symbols (x : Axis.Axis Name)
  | coordinates (x : Axis.Axis K) (unit : List Term)

/-- `axis[i]` (`physical/_axis.py` 86-102, 206-209). -/
def AnyAxis.getItem {K : Type} : AnyAxis K → Arg → Except Numeric.Err (AnyAxis K)
  | .points x, i => match x.getItem i with
    | .error e => .error e
    | .ok y => .ok (.points y)
  | .symbols x, i => match x.getItemSymbols i with
    | .error e => .error e
    | .ok y => .ok (.symbols y)
  | .coordinates x u, i => match x.getItem i with
    | .error e => .error e
    | .ok y => .ok (.coordinates y u)

/-- What `numeric.index.expand` sees (`numeric/_index.py` 642-652): a tuple or a list, or another object. -/
def subscriptArgs : Args → Unwrapped
  | .one (.seq .list l) => .items false (l.map .int)
  | .one a => .bare a
  | .tuple l => .items true l

/-- `k: v[i]` for `i, (k, v)` (`physical/_array.py` 72), given `v[i]`. -/
def subscriptAxis (item : ν → Arg → Except Numeric.Err ν) (p : Arg × (κ × ν)) : Except Numeric.Err (κ × ν) :=
  match item p.2.2 p.1 with
  | .error e => .error e
  | .ok v => .ok (p.2.1, v)

/-- `{k: v[i] for i, (k, v) in zip(idx, self.axes.items())}` (`physical/_array.py` 72), given `v[i]`. -/
def subscriptAxes (item : ν → Arg → Except Numeric.Err ν) (idx : List Arg) (axes : Dict κ ν) :
    Except Numeric.Err (Dict κ ν) :=
  match Axis.collect (subscriptAxis item) (idx.zip axes) with
  | .error e => .error e
  | .ok items => .ok (Dict.ofItems items)

/-- `array[args]` (`physical/_array.py` 69-73), given the subscription of axes.  The data are in the unit of the array. -/
def Arr.getItem (item : ν → Arg → Except Numeric.Err ν) (a : Arr κ ν K) (args : Args) : Except PErr (Operand κ ν K) :=
  match expand a.arr.raw.data.ndim (subscriptArgs args) with
  | .error e => .error (.look e)
  | .ok idx => match Numeric.getItem a.arr.data.data (.tuple idx) with
    | .error e => .error (.look e)
    | .ok d => match arrayFactory d a.arr.raw.dims with
      | .error e => .error (.look e)
      | .ok named => match subscriptAxes item idx a.axes with
        | .error e => .error (.look e)
        | .ok axes => newArray named.data a.arr.unit axes

end Eprem.Physical

namespace Eprem.Observable

open Eprem Eprem.Numeric Eprem.Physical

variable {κ ν K : Type} [DecidableEq κ] [Field K]

/-- An instance of `numeric.index.Value`, which is written as an integer here. -/
def isValue : Arg → Bool
  | .int _ => true
  | _ => false

/-- `numeric.index.sequence([int(arg)]) if isinstance(arg, numeric.index.Value) else arg` (`_interfaces.py` 1040-1041). -/
def asSequence : Arg → Arg
  | .int i => .seq .other [i]
  | a => a

/-- `_normalize_indices(*args)` (`_interfaces.py` 1035-1043), for index values, index sequences and slices. -/
def normalizeIndices (args : List Arg) : List Arg :=
  if args.all isValue then args
  else args.map asSequence

/-- `indices.get(d) or slice(None)` (`_interfaces.py` 908): an index sequence without members counts as absent. -/
def indexOrFull : Option Arg → Arg
  | none => .full
  | some (.seq k l) => if l = [] then .full else .seq k l
  | some a => a

/-- `Implementations._subscript(x, indices)` (`_interfaces.py` 898-909). -/
def subscriptObserved (item : ν → Arg → Except Numeric.Err ν) (x : Arr κ ν K) (indices : κ → Option Arg) :
    Except PErr (Operand κ ν K) :=
  x.getItem item (.tuple (normalizeIndices (x.axes.keys.map (fun d => indexOrFull (indices d)))))

end Eprem.Observable
