import Verif.Model.Observable

/-!
# Model of the transport of particles: `observable/_interfaces.py` 519-624

The methods first obtain the arrays that they need; here these are the arguments, as in `Model/Observable.lean`.
-/

namespace Eprem.Observable

open Eprem Eprem.Symbolic Eprem.Metric Eprem.Numeric Eprem.Measured Eprem.Physical

variable {κ ν : Type} [DecidableEq κ]

noncomputable section

/-- `a ** p` for a runtime parameter `p`, which is a vector (`parameter/_runtime.py` 25-31, 107-112,
`physical/_operations.py` 365-394). -/
def toPower (a : Operand κ ν ℝ) (p : Obj ℝ) : Except PErr (Operand κ ν ℝ) :=
  exponential (fun x y => x ^ y) (fun x q => x ^ (q : ℝ)) a (.object .vector p)

/-- The array with the reference energy (`_interfaces.py` 532-538), for the number `mev` of the constant `MeV`. -/
def referenceEnergy (mev : ℝ) : Operand κ ν ℝ → Except PErr (Operand κ ν ℝ)
  | .array e => newArray ⟨[1], fun _ => mev⟩ e.arr.unit e.axes
  | _ => .error .type

/-- `Implementations.mfp` (`_interfaces.py` 519-547): `e`, `m`, `q` and `r` are the arrays of energies, masses, charges and
radii, `c` and `au` are the constants of nature, `lambda0` is the parameter in the unit of the metric system, and `radial` and
`power` are the parameters `mfpRadialPower` and `rigidityPower`. -/
def meanFreePath (order : List System) (same inside : ν → ν → Bool) (species energy : κ) (c au : Operand κ ν ℝ) (mev : ℝ)
    (lambda0 radial power : Obj ℝ) (m q e r : Operand κ ν ℝ) : Except PErr (Operand κ ν ℝ) := do
  let rg ← rigidity order same inside species energy c m q e
  let e0 ← referenceEnergy mev e
  let rg0 ← rigidity order same inside species energy c m q e0
  let x ← over order r au
  let rterm ← toPower x radial
  let y ← over order rg rg0
  let rgterm ← toPower y power
  let l ← times order (.object .vector lambda0) rterm
  times order l rgterm

end

end Eprem.Observable
