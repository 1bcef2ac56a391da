import Verif.Model.Observe
import Verif.Model.Observable

/-!
# Model of the integral flux: `observable/_interfaces.py` 782-832
-/

namespace Eprem.Observable

open Eprem Eprem.Symbolic Eprem.Metric Eprem.Numeric Eprem.Measured Eprem.Physical Eprem.Interpolate

variable {κ : Type} [DecidableEq κ]

noncomputable section

/-- The rows of an array along its last axis, for all positions on the other axes. -/
def spectra (a : ND ℝ) : List (List ℝ) :=
  (List.range (Numeric.sizeOf a.shape.dropLast)).map (fun k =>
    (List.range (a.shape.getLastD 0)).map (fun i => a.get (unravel a.shape.dropLast k ++ [i])))

/-- `integrate.simpson(*self._check_interp(flux, energy, m))` (`_interfaces.py` 815-816).  `simpson y x` is the rule of `scipy`
applied to one row. -/
def boundColumn (simpson : List ℝ → List ℝ → ℝ) (rows : List (List ℝ)) (xs : List ℝ) (p : ℝ) : Except Numeric.Err (List ℝ) :=
  match checkInterp rows xs p with
  | .error e => .error e
  | .ok (y, x) => .ok (y.map (fun r => simpson r x))

/-- The array that `_integrate_flux` makes of its columns (`_interfaces.py` 812, 816). -/
def boundData (front : List Nat) (cols : List (List ℝ)) : ND ℝ :=
  .ofFn (front ++ [cols.length]) (fun p => (cols.getD (p.getLastD 0) []).getD (ravel front p.dropLast) 0)

/-- `_integrate_flux(flux, energy, minimum_energy)` (`_interfaces.py` 802-820) for bounds that are numbers in the unit of the
energies.  `energy` and `minimum` are the names of axes, `axis` is the axis of the given bounds, and `tiny` is
`sys.float_info.min`. -/
def integrateFlux (order : List System) (simpson : List ℝ → List ℝ → ℝ) (tiny : ℝ) (energy minimum : κ) (bounds : List ℝ)
    (axis : AnyAxis ℝ) : Operand κ (AnyAxis ℝ) ℝ → Operand κ (AnyAxis ℝ) ℝ → Except PErr (Operand κ (AnyAxis ℝ) ℝ)
  | .array flux, .array e =>
    match Axis.collect (fun p => boundColumn simpson (spectra flux.arr.data.data) (Axis.seqList e.arr.data.data) (max p tiny))
      bounds with
    | .error x => .error (.look x)
    | .ok cols => match unitMul order flux.arr.unit e.arr.unit with
      | .error x => .error (.metric x)
      | .ok u => match Axes.without flux.axes energy true with
        | .error x => .error (.look x)
        | .ok rest => match Axes.merge rest [(minimum, axis)] with
          | .error x => .error (.look x)
          | .ok axes => newArray (boundData flux.arr.data.data.shape.dropLast cols) u axes
  | _, _ => .error .type

/-- `_integrate_flux_slice(flux, bins)` (`_interfaces.py` 822-832); `ie` are the indices `energy.indices[bins]`, `axis` is the
axis of energies. -/
def integrateFluxSlice (order : List System) (energy : κ) (axis : AnyAxis ℝ) (ie : List ℤ) (flux e : Operand κ (AnyAxis ℝ) ℝ) :
    Except PErr (Operand κ (AnyAxis ℝ) ℝ) :=
  match e with
  | .array x => do
    let e0 ← timesAt x.arr.data.data ie
    let em ← timesAt x.arr.data.data (shiftSequence ie (-1) (some 0) none)
    let d ← zipData (fun x y => x - y) e0 em
    let de ← newArray d x.arr.unit [(energy, axis)]
    let p ← times order flux de
    match p with
    | .array a => reduceAxis (fun y => cumsumAxis List.sum y (-1)) a
    | _ => .error .type
  | _ => .error .type

/-- The argument for the minimum energy (`_objects.py` 349-362): a measurement, or a slice, which selects these energies. -/
inductive Minimum
  | bounds (m : Assumption)
  | bins (ie : List ℤ)

/-- `Implementations.intflux` (`_interfaces.py` 782-800) when no other value is assumed.  The other names of the minimum
energy are still among the assumptions, so that `_observe` (879-896) calls `_interpolate` without interpolants (911-940);
the index is that of the time axis. -/
def integralFlux (c : Conv ℝ) (st : Cache ℝ) (order : List System) (simpson : List ℝ → List ℝ → ℝ) (tiny : ℝ)
    (time energy minimum : κ) (eaxis : AnyAxis ℝ) (index : Option Arg) (flux e : Operand κ (AnyAxis ℝ) ℝ) :
    Minimum → Cache ℝ × Except PErr (Operand κ (AnyAxis ℝ) ℝ)
  | .bounds m => match e with
    | .array x => match inUnit c st m x.arr.unit with
      | (st', .error e) => (st', .error (asPErr e))
      | (st', .ok vs) => (st', match integrateFlux order simpson tiny energy minimum vs (newCoordinates m.1 m.2) flux e with
        | .error e => .error e
        | .ok (.array a) => finishInterpolated [] (fun k => if k = time then index else none) a
        | .ok _ => .error .type)
    | _ => (st, .error .type)
  | .bins ie => (st, match integrateFluxSlice order energy eaxis ie flux e with
    | .error e => .error e
    | .ok (.array a) => finishInterpolated [] (fun k => if k = time then index else none) a
    | .ok _ => .error .type)

end

end Eprem.Observable
