import Verif.Model.Observable

/-!
# Model of gradients: `physical/_operations.py` 640-683, and of the divergence of the flow: `observable/_interfaces.py` 442-467

`numpy.gradient` itself is modelled after its documentation, with `edge_order=1`: second-order differences inside, one-sided
differences at the two ends.  For a uniform spacing `h` numpy divides `f[i+1] - f[i-1]` by `2*h`; in exact arithmetic this is
the general formula for coordinates `i*h`, which is what the model has.

Not modelled: gradients of objects other than arrays, gradients along several axes at once (without an integer `axis`),
spacings that are numpy arrays, keyword arguments other than `axis`.
-/

namespace Eprem.Physical

open Eprem Eprem.Symbolic Eprem.Metric Eprem.Numeric Eprem.Measured

variable {κ ν K : Type} [DecidableEq κ] [Field K]

/-- One element of `numpy.gradient(f, t)` for `n` values `f` at coordinates `t`. -/
def gradientAt (n : Nat) (t f : Nat → K) (i : Nat) : K :=
  if i = 0 then (f 1 - f 0) / (t 1 - t 0)
  else if i + 1 = n then (f i - f (i - 1)) / (t i - t (i - 1))
  else
    let d1 := t i - t (i - 1)
    let d2 := t (i + 1) - t i
    (-d2) / (d1 * (d1 + d2)) * f (i - 1) + (d2 - d1) / (d1 * d2) * f i + d1 / (d2 * (d1 + d2)) * f (i + 1)

/-- The argument after the first of `numpy.gradient`. -/
inductive Spacing (K : Type)
  | uniform (h : K)
  | along (d : ND K)

/-- The coordinates along an axis of length `n`, which a one-dimensional array must have; otherwise a `ValueError`. -/
def coordinatesOf (n : Nat) : Spacing K → Except Numeric.Err (Nat → K)
  | .uniform h => .ok (fun i => i * h)
  | .along d =>
    if d.shape = [] then .ok (fun i => i * d.get [])
    else if d.shape = [n] then .ok (fun i => d.get [i])
    else .error .value

/-- `numpy.gradient(a, spacing, axis=axis)`; there must be at least two values along the axis, otherwise a `ValueError`. -/
def npGradient (a : ND K) (spacing : Spacing K) (axis : ℤ) : Except Numeric.Err (ND K) :=
  match axisIndex a.ndim axis with
  | .error _ => .error .value
  | .ok k => match coordinatesOf (a.shape.getD k 0) spacing with
    | .error e => .error e
    | .ok t =>
      if a.shape.getD k 0 < 2 then .error .value
      else .ok (.ofFn a.shape (fun p => gradientAt (a.shape.getD k 0) t (fun i => a.get (p.set k i)) (p.getD k 0)))

/-- `diffs` and `units` for one argument (`_operations.py` 649-663).  A `Measurement` is none of the classes named there. -/
def spacingOf : Operand κ ν K → Spacing K × List Term
  | .number x => (.uniform x, unitless)
  | .object .scalar o => (.uniform (o.data.get []), o.unit)
  | .object .measurement o => (.along o.data, unitless)
  | .object _ o => (.along o.data, o.unit)
  | .array a => (.along a.arr.data.data, a.arr.unit)

/-- `_apply_gradient(unit, x, spacing, axis=axis)` (`_operations.py` 670-678) for an array `x`. -/
def applyGradient (unit : List Term) (x : Arr κ ν K) (spacing : Spacing K) (axis : ℤ) : Except PErr (Operand κ ν K) :=
  match npGradient x.arr.data.data spacing axis with
  | .error e => .error (.look e)
  | .ok d => newArray d unit x.axes

/-- `numpy.gradient(x[, arg], axis=axis)` (`_operations.py` 640-667) for an array `x`; numpy's own default is a spacing of
one. -/
def gradient (systems : List System) (x : Arr κ ν K) (arg : Option (Operand κ ν K)) (axis : ℤ) :
    Except PErr (Operand κ ν K) :=
  match arg with
  | none => applyGradient x.arr.unit x (.uniform 1) axis
  | some a => match combineUnits systems false x.arr.unit (spacingOf a).2 with
    | .error e => .error e
    | .ok unit => applyGradient unit x (spacingOf a).1 axis

end Eprem.Physical

namespace Eprem.Observable

open Eprem Eprem.Symbolic Eprem.Metric Eprem.Numeric Eprem.Measured Eprem.Physical

variable {κ ν : Type} [DecidableEq κ]

noncomputable section

/-- The whole array that `Implementations.divu` computes before it is observed (`_interfaces.py` 460-461); `rho` are the
densities and `t` the times of the dataset. -/
def divu (order : List System) (rho t : Operand κ ν ℝ) : Except PErr (Operand κ ν ℝ) :=
  match rho with
  | .array x => do
    let g ← gradient order x (some t) 0
    let m ← times order (.number (-1)) g
    over order m rho
  | _ => .error .type

end

end Eprem.Observable
