import Verif.Model.Measured
import Verif.Model.NumericIndex
import Verif.Model.Container

/-!
# Model of single axes: `physical/_axis.py`, `physical/_axis_factories.py`

An axis has data, and remembers the positions that its data had in the axis it was taken from.  Points are integers,
symbols are strings, coordinates are numbers with a unit.  Not modelled: strings, objects and nested sequences as targets
(`quantity.measure` reads them, see C41: the targets of `Coordinates.index` are given here as numbers with a unit), numpy
arrays as subscripts, and the base class `Axis`, which is never instantiated by the package.
-/

namespace Eprem.Axis

open Eprem Eprem.Numeric

/-- The result of `index`: `numeric.index.value` or `numeric.index.sequence`. -/
inductive Index
  | value (i : ℤ)
  | sequence (l : List ℤ)
  deriving DecidableEq, Repr

/-- `if len(indices) == 1: return value(indices[0])`, else `return sequence(indices)` (`_axis.py` 191-193, 222-224,
296-298). -/
def Index.ofList : List ℤ → Index
  | [i] => .value i
  | l => .sequence l

/-- Apply a function that may fail to all members. -/
def collect {α β ε : Type} (f : α → Except ε β) : List α → Except ε (List β)
  | [] => .ok []
  | x :: xs => match f x with
    | .error e => .error e
    | .ok y => match collect f xs with
      | .error e => .error e
      | .ok ys => .ok (y :: ys)

/-- The data of an axis and the positions stored in `_indices` (`_axis.py` 35-38). -/
structure Axis (α : Type) where
  data : List α
  stored : Option (List ℤ) := none

variable {α : Type}

/-- `self.data[i]` followed by the factory, which makes a list of one value from a single value (`_axis.py` 97,
`_axis_factories.py`).  An ellipsis selects everything. -/
def pick (l : List α) : Arg → Except Err (List α)
  | .int i => match axisIndex l.length i with
    | .error e => .error e
    | .ok j => .ok (l[j]?.toList)
  | .slice a b c => match slicePositions l.length a b c with
    | .error e => .error e
    | .ok ps => .ok (ps.filterMap (fun j => l[j]?))
  | .ellipsis => .ok l
  | .seq _ is => match collect (axisIndex l.length) is with
    | .error e => .error e
    | .ok js => .ok (js.filterMap (fun j => l[j]?))

/-- `self.normalize(container.unwrap(i))` (`_axis.py` 59-74, 100): the positions recorded for a subscript. -/
def recorded (n : Nat) : Arg → Except Err (Option (List ℤ))
  | .int i => .ok (some [i])
  | .slice none none none => .ok none
  | .ellipsis => .ok none
  | .slice a b c => (slice2range a b c (some (n : ℤ))).map some
  | .seq _ is => .ok (some is)

/-- `Axis.__getitem__` (`_axis.py` 86-102). -/
def Axis.getItem (x : Axis α) (i : Arg) : Except Err (Axis α) :=
  match pick x.data i with
  | .error e => .error e
  | .ok d => match recorded x.data.length i with
    | .error e => .error e
    | .ok r => .ok ⟨d, r⟩

/-- `Symbols.__getitem__` (`_axis.py` 206-209): nothing is recorded for a list of positions. -/
def Axis.getItemSymbols (x : Axis α) : Arg → Except Err (Axis α)
  | .seq k is => match pick x.data (.seq k is) with
    | .error e => .error e
    | .ok d => .ok ⟨d, none⟩
  | i => x.getItem i

/-- `Axis.indices` (`_axis.py` 151-156), for symbols and coordinates. -/
def Axis.indices (x : Axis α) : List ℤ := x.stored.getD ((List.range x.data.length).map (fun i : Nat => (i : ℤ)))

/-- `Points.indices` (`_axis.py` 195-199): without stored positions, the points themselves. -/
def Axis.pointIndices (x : Axis ℤ) : List ℤ := x.stored.getD x.data

/-! ## Points -/

/-- The arguments of `Points.index`. -/
inductive Targets
  | points (l : List ℤ)
  | slice (start stop step : Option ℤ)
  | iterable (l : List ℤ)
  deriving DecidableEq, Repr

/-- `points_args` (`_axis_factories.py` 21-38): the points as an array, unless one is negative. -/
def pointsFactory (l : List ℤ) : Except Err (Axis ℤ) :=
  if l.any (fun i => decide (i < 0)) then .error .type else .ok ⟨l, none⟩

/-- `Axis.normalize` (`_axis.py` 59-74). -/
def normalizeTargets (n : Nat) : Targets → Except Err (List ℤ)
  | .points [] => .ok ((List.range n).map (fun i : Nat => (i : ℤ)))
  | .points l => .ok l
  | .slice a b c => slice2range a b c (some (n : ℤ))
  | .iterable l => .ok l

/-- The position of one point (`_axis.py` 184-190).  `array` says that the data are a numpy array: `axes_factory`
(`_axes.py` 463-478, 494, 522-523) creates `Points` directly from a `range` or a `list`, for which `self.data == point`
is `False`, `numpy.where(False)` is empty, and its first member does not exist. -/
def pointIndex (array : Bool) (data : List ℤ) (p : ℤ) : Except Err ℤ :=
  if p ∈ data then
    if array then .ok (data.idxOf p : ℤ) else .error .index
  else .error .value

/-- `Points.index` (`_axis.py` 179-193). -/
def Axis.indexPoints (x : Axis ℤ) (array : Bool) : Targets → Except Err Index
  | .points [] => .ok (.sequence x.pointIndices)
  | t => match normalizeTargets x.data.length t with
    | .error e => .error e
    | .ok ps => match collect (pointIndex array x.data) ps with
      | .error e => .error e
      | .ok is => .ok (.ofList is)

/-! ## Symbols -/

/-- A target of `Symbols.index`: a string, or something else. -/
inductive SymbolTarget (κ : Type)
  | str (s : κ)
  | other
  deriving DecidableEq, Repr

variable {κ : Type} [DecidableEq κ]

/-- `self.data.index(target)` (`_axis.py` 218-221): the first position, or `ValueError`. -/
def symbolIndex (data : List κ) : SymbolTarget κ → Except Err ℤ
  | .str s => if s ∈ data then .ok (data.idxOf s : ℤ) else .error .value
  | .other => .error .type

/-- `Symbols.index` (`_axis.py` 211-224). -/
def Axis.indexSymbols (x : Axis κ) (targets : List (SymbolTarget κ)) : Except Err Index :=
  if targets = [] then .ok (.sequence x.indices)
  else if targets.any (fun t => decide (t = .other)) then .error .type
  else match collect (symbolIndex x.data) targets with
    | .error e => .error e
    | .ok is => .ok (.ofList is)

/-! ## Coordinates -/

section Coordinates
open Eprem.Metric Eprem.Symbolic Eprem.Measured

variable {K : Type} [Field K] [LinearOrder K]

/-- `numeric.data.isclose(a, b)` for a sequence (`numeric/_data.py` 25-56).  `numpy.isclose(b, d, atol=0.0)` is
`|b - d| <= 1e-5 * |d|`; `b < min(data)` says that `b` is smaller than all data.  An empty sequence has no minimum. -/
def isclose (data : List K) (b : K) : Except Numeric.Err Bool :=
  if b ∈ data then .ok true
  else if data = [] then .error .value
  else if data.all (fun d => decide (b < d)) || data.all (fun d => decide (d < b)) then .ok false
  else .ok (data.any (fun d => decide (|b - d| ≤ 1 / 100000 * |d|)))

/-- The keyword `closest`. -/
inductive Closest
  | none | lower | upper | other
  deriving DecidableEq, Repr

/-- `container.nearest(...).index` -/
def nearestIndex (data : List K) (t : K) (b : Container.Bound) : Except Numeric.Err ℤ :=
  match Container.nearest data t b with
  | .error _ => .error .type
  | .ok (i, _) => .ok i

/-- `Coordinates._compute_index` (`_axis.py` 300-312). -/
def computeIndex (data : List K) (closest : Closest) (t : K) : Except Numeric.Err ℤ :=
  match isclose data t with
  | .error e => .error e
  | .ok true => nearestIndex data t .none
  | .ok false => match closest with
    | .none => .error .value
    | .lower => nearestIndex data t .upper
    | .upper => nearestIndex data t .lower
    | .other => .error .value

/-- The data of a measured sequence as an array of one axis. -/
def seqData (l : List K) : ND K := ⟨[l.length], fun k => l.getD k 0⟩

/-- And back. -/
def seqList (a : ND K) : List K := (List.range a.size).map a.data

/-- Errors of the conversion and of the look-up. -/
inductive AErr
  | metric (e : MErr)
  | look (e : Numeric.Err)
  deriving DecidableEq

/-- `unit == '1'` -/
def isUnitless (u : List Term) : Bool := exprEq u [⟨1, Symbolic.one, 1⟩]

/-- `Coordinates.index` (`_axis.py` 238-298).  `targets` are the values and the unit of the measured targets; `none` is a
call without targets.  The axis has the unit `u`. -/
def Axis.indexCoordinates (c : Conv K) (st : Cache K) (x : Axis K) (u : List Term) (targets : Option (List K × List Term))
    (closest : Closest) : Cache K × Except AErr Index :=
  match targets with
  | none => (st, .ok (.sequence x.indices))
  | some ([], _) => (st, .error (.look .type))
  | some (l, v) =>
    let tmp : Obj K := ⟨seqData l, if isUnitless v then u else v⟩
    match withunit c st tmp (showExpr u) with
    | (st', .error e) => (st', .error (.metric e))
    | (st', .ok y) => match collect (computeIndex x.data closest) (seqList y.data) with
      | .error e => (st', .error (.look e))
      | .ok is => (st', .ok (.ofList is))

end Coordinates

end Eprem.Axis
