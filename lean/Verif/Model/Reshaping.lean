import Verif.Model.Physical

/-!
# Squeezing, transposing and integrating physical objects with numpy

A model of `squeeze`, `transpose` and `trapz` of `physical/_operations.py` and of `trapz` of `real/_array.py`; `squeeze` and
`transpose` of `real/_array.py` are in `Model/NumericArray.lean`.
-/

namespace Eprem.Numeric

open Eprem

variable {κ K : Type} [DecidableEq κ] [Field K]

/-- The spacing of `numpy.trapz`: `dx`, which is 1 unless it is given, or the sequence `x`. -/
inductive Abscissae (K : Type)
  | step (h : K)
  | along (x : List K)

/-- What `numpy.trapz` multiplies: the spacings and the sums of neighbours; a single one goes with every one of the other,
and two different lengths are a `ValueError`. -/
def fits (n : Nat) : Abscissae K → Bool
  | .step _ => true
  | .along x => decide (x.length - 1 = n - 1) || decide (x.length - 1 = 1) || decide (n - 1 = 1)

/-- The sums of neighbours. -/
def neighbours (y : List K) : List K := List.zipWith (fun a b => b + a) y y.tail

/-- The products, halved. -/
def spread (d y : List K) : List K :=
  if d.length = y.length then List.zipWith (fun a b => a * b / 2) d y
  else if d.length = 1 then y.map (fun b => d.getD 0 0 * b / 2)
  else d.map (fun a => a * y.getD 0 0 / 2)

/-- `numpy.trapz(y, x=x, dx=dx)` for one row. -/
def trapezoid (s : Abscissae K) (y : List K) : K :=
  match s with
  | .step h => ((neighbours y).map (fun b => h * b / 2)).sum
  | .along x => (spread (List.zipWith (fun a b => b - a) x x.tail) (neighbours y)).sum

/-- How the axis is given: not at all, as the fourth positional argument, or by keyword. -/
inductive AxisGiven
  | default | positional (k : ℤ) | keyword (k : ℤ)

/-- The axis that numpy integrates along. -/
def AxisGiven.used : AxisGiven → ℤ
  | .default => -1
  | .positional k => k
  | .keyword k => k

/-- `trapz` of an array with named dimensions (`real/_array.py` 366-376): the dimension whose name is dropped is the last
one, unless the axis is given by keyword; for arrays of two or more dimensions. -/
def trapz (s : Abscissae K) (a : Named κ K) (axis : AxisGiven) : Except Err (Named κ K) :=
  match axisIndex a.data.ndim axis.used with
  | .error _ => .error .value
  | .ok k =>
    if fits (a.data.shape.getD k 0) s then
      match axis with
      | .keyword i => arrayFactory (a.data.reduce (trapezoid s) k) (otherDims a.dims (i % a.data.ndim))
      | _ => arrayFactory (a.data.reduce (trapezoid s) k) a.dims.dropLast
    else .error .value

end Eprem.Numeric

namespace Eprem.Physical

open Eprem Eprem.Symbolic Eprem.Metric Eprem.Numeric Eprem.Measured

variable {κ ν K : Type} [DecidableEq κ] [Field K] [DecidableEq K]

/-- `numpy.squeeze(x)` without `axis` (`physical/_operations.py` 521-544); for an array all of whose axes have length one,
`real/_array.py` 282-283 gives a float.  A `Measurement` has no such function. -/
def squeezed : Operand κ ν K → Except PErr (Operand κ ν K)
  | .object .scalar o => .ok (.object .scalar o)
  | .object .measurement _ => .error .type
  | .object k o =>
    if (o.data.shape.filter (fun n => decide (n ≠ 1))).isEmpty then .ok (.object .scalar ⟨⟨[], fun _ => o.data.data 0⟩, o.unit⟩)
    else create k ⟨o.data.shape.filter (fun n => decide (n ≠ 1)), o.data.data⟩ o.unit
  | .array a =>
    if (a.arr.data.data.shape.filter (fun n => decide (n ≠ 1))).isEmpty then
      .ok (.object .scalar ⟨⟨[], fun _ => a.arr.data.data.data 0⟩, a.arr.unit⟩)
    else reduceAxis squeeze a
  | .number _ => .error .type

/-- `numpy.transpose(x)` and `numpy.transpose(x, axes=axes)` (`physical/_operations.py` 627-637), of scalars (without
`axes`) and arrays. -/
def npTransposed (axes : Option (List ℤ)) : Operand κ ν K → Except PErr (Operand κ ν K)
  | .object .scalar o => .ok (.object .scalar ⟨⟨[], fun _ => o.data.data 0⟩, o.unit⟩)
  | .array a => match axes with
    | none => reduceAxis npTranspose a
    | some l => reduceAxis (fun y => npTransposeAxes y l) a
  | _ => .error .type

/-- `numpy.trapz(x, spacing, axis)` of an array (`physical/_operations.py` 679-693), with the spacing given as numbers: the
unit of the result is that of the array. -/
def trapz (s : Abscissae K) (axis : AxisGiven) : Operand κ ν K → Except PErr (Operand κ ν K)
  | .array a => reduceAxis (fun y => Numeric.trapz s y axis) a
  | _ => .error .type

end Eprem.Physical
