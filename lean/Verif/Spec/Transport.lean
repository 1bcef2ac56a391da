import Mathlib.Analysis.SpecialFunctions.Pow.Real
import Verif.Spec.Observable

/-!
# Specification vocabulary for the transport of particles (C98, C99)
-/

namespace Eprem.Observable

open Eprem.Symbolic Eprem.Measured Eprem.Physical

/-- A measured vector with one number, such as the value of a runtime parameter. -/
def IsSingle (u : List Term) (x : ℝ) (o : Obj ℝ) : Prop := o.data.shape = [1] ∧ o.data.get [0] = x ∧ o.unit = u

/-- The relativistic momentum of a particle with the mass `m` and the kinetic energy `k`, for the speed of light `c`:
`(k + m c²)² = (p c)² + (m c²)²`. -/
noncomputable def momentum (c m k : ℝ) : ℝ := Real.sqrt ((k + m * c ^ 2) ^ 2 - (m * c ^ 2) ^ 2) / c

/-- The mean free path: a power of the radius `r` in units of `au`, and a power of the momentum relative to that at the energy
`k0`. -/
noncomputable def freePath (c au k0 l0 α β m k r : ℝ) : ℝ := l0 * (r / au) ^ α * (momentum c m k / momentum c m k0) ^ β

/-- The scalar product. -/
def dot3 (a b : Fin 3 → ℝ) : ℝ := a 0 * b 0 + a 1 * b 1 + a 2 * b 2

/-- The length of a vector. -/
noncomputable def len3 (a : Fin 3 → ℝ) : ℝ := Real.sqrt (dot3 a a)

/-- The diffusion coefficient along the flow `u`, for particles of speed `v` with the mean free path `l` along the field `b`:
`l v (cos² θ + κ sin² θ) / 3` with the angle `θ` between field and flow, and the ratio `κ` of the diffusion coefficients
perpendicular and parallel to the field. -/
noncomputable def diffusion (l κ v : ℝ) (b u : Fin 3 → ℝ) : ℝ :=
  l * ((dot3 b u / (len3 b * len3 u)) ^ 2 + κ * (1 - (dot3 b u / (len3 b * len3 u)) ^ 2)) * v / 3

/-- The acceleration rate between two shells with the flows `u1` and `u2` and the diffusion coefficients `k1` and `k2`: the
change of the flow along itself, divided by the sum of the diffusion lengths. -/
noncomputable def rateBetween (u1 u2 : Fin 3 → ℝ) (k1 k2 : ℝ) : ℝ :=
  len3 u1 * |1 - dot3 u1 u2 / len3 u1 ^ 2| / (k1 / len3 u1 + k2 / len3 u2)

end Eprem.Observable
