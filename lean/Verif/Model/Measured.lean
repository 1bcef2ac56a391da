import Verif.Model.MetricUnit
import Verif.Model.Numpy
import Verif.Model.NumericArray

/-!
# Model of measured objects and of unit conversion: `measured/`, and `physical/_array.py` 23-157

A measured object has data and a unit.  Scalars have data without axes, vectors with one axis, tensors with any number
of axes; the conversion does the same to all of them.  The unit is the list of the terms of its expression, as in
`Model/MetricUnit.lean`; `unit_factory` is `freshUnit` there (C23 is about its registry).

Not modelled: the metric systems `mks` and `cgs` as targets, and targets that are not units; the conversion of exceptions
(`measured/_context.py` 48-58: `UnitConversionError` becomes `ValueError` for inconsistent units).
-/

namespace Eprem.Measured

open Eprem Eprem.Symbolic Eprem.Metric Eprem.Numeric

variable {K : Type} [Field K] [DecidableEq K]

/-- `measured.Object` (`measured/_object.py` 13-34): data and the unit of its context. -/
structure Obj (K : Type) where
  data : ND K
  unit : List Term

/-- A conversion from one unit to another: `metric.conversion(self.unit, new)` (`metric/__init__.py` 91-165,
`metric/_conversions.py` 518-543) for a target that is not a metric system; `Conversion.old` and `Conversion.new`
(`metric/__init__.py` 77-88) are computed from the strings. -/
structure Conversion (K : Type) where
  factor : K
  old : List Term
  new : List Term

/-- `metric.conversion(unit, new)`. -/
def conversion (c : Conv K) (st : Cache K) (unit : List Term) (new : Name) : Cache K × Except MErr (Conversion K) :=
  match conversionFactory c st (showExpr unit) new with
  | (st', .error e) => (st', .error e)
  | (st', .ok f) => match freshUnit (showExpr unit) with
    | .error e => (st', .error e)
    | .ok old => match freshUnit new with
      | .error e => (st', .error e)
      | .ok w => (st', .ok ⟨f, old, w⟩)

/-- `apply` (`measured/_convert.py` 28-32) with `_scale_data` or `_scale_array` (18-25). -/
def apply (c : Conversion K) (x : Obj K) : Obj K :=
  if exprEq c.old c.new then x else ⟨x.data.map (fun d => c.factor * d), c.new⟩

/-- `x.withunit(new)` (`measured/_object.py` 26-28, `measured/_context.py` 28-62) for scalars, vectors, tensors,
measured values and measured sequences. -/
def withunit (c : Conv K) (st : Cache K) (x : Obj K) (new : Name) : Cache K × Except MErr (Obj K) :=
  match conversion c st x.unit new with
  | (st', .error e) => (st', .error e)
  | (st', .ok v) => (st', .ok (apply v x))

/-- A chain of conversions `x.withunit(n₁).withunit(n₂)...`. -/
def withunits (c : Conv K) : Cache K → Obj K → List Name → Cache K × Except MErr (Obj K)
  | st, x, [] => (st, .ok x)
  | st, x, n :: ns => match withunit c st x n with
    | (st', .error e) => (st', .error e)
    | (st', .ok y) => withunits c st' y ns

/-! ## Physical arrays -/

/-- `physical.Array` (`physical/_array.py` 28-45): the stored data, the scale by which they are multiplied on access, and
the unit.  The axes are those of the stored data. -/
structure PArr (κ K : Type) where
  raw : Named κ K
  scale : K
  unit : List Term

variable {κ : Type} [DecidableEq κ]

/-- `Array.data` (`physical/_array.py` 111-115).  The product is computed once and kept, which does not change it. -/
def PArr.data (a : PArr κ K) : Named κ K := {a.raw with data := a.raw.data.map (fun d => a.scale * d)}

/-- `array_factory(data, unit=unit, axes=axes)` (`physical/_object_factories.py` 97-116): a new array has the scale 1
(`physical/_array.py` 42). -/
def PArr.new (data : Named κ K) (unit : List Term) : PArr κ K := ⟨data, 1, unit⟩

/-- `converter` (`physical/_array.py` 137-157). -/
def converter (c : Conversion K) (x : PArr κ K) : PArr κ K :=
  if exprEq c.old c.new then x else {PArr.new x.raw c.new with scale := c.factor}

/-- `x.withunit(new)` for a physical array. -/
def PArr.withunit (c : Conv K) (st : Cache K) (x : PArr κ K) (new : Name) : Cache K × Except MErr (PArr κ K) :=
  match conversion c st x.unit new with
  | (st', .error e) => (st', .error e)
  | (st', .ok v) => (st', .ok (converter v x))

/-- A chain of conversions of a physical array. -/
def PArr.withunits (c : Conv K) : Cache K → PArr κ K → List Name → Cache K × Except MErr (PArr κ K)
  | st, x, [] => (st, .ok x)
  | st, x, n :: ns => match x.withunit c st n with
    | (st', .error e) => (st', .error e)
    | (st', .ok y) => PArr.withunits c st' y ns

/-- `x.transpose(*names)` (`physical/_array.py` 87-94): the stored data are transposed, and given the unit of the array. -/
def PArr.transposeNames (x : PArr κ K) (names : List κ) : Except Numeric.Err (PArr κ K) :=
  match Numeric.transposeNames x.raw names false with
  | .error e => .error e
  | .ok d => .ok (PArr.new {d with plain := false} x.unit)

end Eprem.Measured
