import Verif.Model.Observe
import Verif.Model.Observable

/-!
# Model of the coordinates as observables: `observable/_interfaces.py` 100-114, 1146-1222
-/

namespace Eprem.Observable

open Eprem Eprem.Symbolic Eprem.Metric Eprem.Numeric Eprem.Measured Eprem.Physical Eprem.Interpolate

variable {κ : Type} [DecidableEq κ]

noncomputable section

/-- The array of given values (`_interfaces.py` 1157-1163, 1178-1184, 1212-1218). -/
def valuesArray (ts : List ℝ) : ND ℝ := .ofFn [ts.length] (fun p => ts.getD (p.headD 0) 0)

/-- `Quantities._time`, `_energy` and `_mu` (`_interfaces.py` 1154-1165, 1175-1186, 1209-1220) for the arguments in the request;
`d` is the dimension and `x` the array of stored values. -/
def coordinateOf (S : Setting κ) (st : Cache ℝ) (d : κ) (x : Arr κ (AnyAxis ℝ) ℝ) (r : Request κ) :
    Cache ℝ × Except PErr (Operand κ (AnyAxis ℝ) ℝ) :=
  match Dict.get? r.parsed d with
  | some m => match inUnit S.conv st m x.arr.unit with
    | (st', .error e) => (st', .error (asPErr e))
    | (st', .ok ts) => (st', newArray (valuesArray ts) x.arr.unit x.axes)
  | none => (st, subscriptObserved AnyAxis.getItem x r.indexed)

/-- `observer['time'][args]`, and the same for energies and pitch-angle cosines (`_objects.py` 430-453). -/
def observeCoordinate (S : Setting κ) (st : Cache ℝ) (d : κ) (x : Arr κ (AnyAxis ℝ) ℝ) (args : List (κ × UserArg)) :
    Cache ℝ × Except PErr (Operand κ (AnyAxis ℝ) ℝ) :=
  match makeRequest S st args with
  | (st', .error e) => (st', .error (asPErr e))
  | (st', .ok r) => coordinateOf S st' d x r

/-- `numpy.sqrt(2 * energy / mass)` (`_interfaces.py` 1201). -/
def speedFrom (order : List System) (mass energy : Operand κ (AnyAxis ℝ) ℝ) : Except PErr (Operand κ (AnyAxis ℝ) ℝ) := do
  let a ← times order (.number 2) energy
  let b ← over order a mass
  root b

/-- `observer['v'][args]` (`_interfaces.py` 1188-1203, 108-110): `x` is the array of stored energies, `v` the array of stored
speeds, and `mass` the mass of the proton. -/
def observeSpeed (S : Setting κ) (order : List System) (st : Cache ℝ) (d : κ) (mass : Operand κ (AnyAxis ℝ) ℝ)
    (x v : Arr κ (AnyAxis ℝ) ℝ) (args : List (κ × UserArg)) : Cache ℝ × Except PErr (Operand κ (AnyAxis ℝ) ℝ) :=
  match makeRequest S st args with
  | (st', .error e) => (st', .error (asPErr e))
  | (st', .ok r) => match Dict.get? r.parsed d with
    | some _ => match coordinateOf S st' d x r with
      | (st'', .error e) => (st'', .error e)
      | (st'', .ok e) => (st'', speedFrom order mass e)
    | none => (st', subscriptObserved AnyAxis.getItem v r.indexed)

end

end Eprem.Observable
