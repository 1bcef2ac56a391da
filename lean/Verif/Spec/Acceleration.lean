import Verif.Model.Acceleration
import Verif.Spec.Transport

/-!
# Specification vocabulary for the acceleration rate (C99)
-/

namespace Eprem.Observable

open Eprem Eprem.Symbolic Eprem.Metric Eprem.Numeric Eprem.Measured Eprem.Physical

variable {κ ν : Type}

/-- The constants, the parameters and the arrays of the particles, on a grid and in the units of a metric system. -/
structure ParticlesOn (G : Grid κ ν) (s : System) (species energy : κ) (vdims : List κ) (C AU mev L α β ρ : ℝ) (M Q K : Nat → ℝ)
    (V : Nat → Nat → ℝ) (T : Particles κ ν) : Prop where
  c : IsScalar (unitOf s (c! "velocity")) C T.c
  au : IsScalar (unitOf s (c! "length")) AU T.au
  mev : T.mev = mev
  lambda0 : IsSingle (unitOf s (c! "length")) L T.lambda0
  radial : IsSingle unitless α T.radial
  power : IsSingle unitless β T.power
  kper : IsSingle unitless ρ T.kper
  m : OnGrid G [species] (unitOf s (c! "mass")) (fun p => M (p species)) T.m
  q : OnGrid G [species] (unitOf s (c! "charge")) (fun p => Q (p species)) T.q
  e : OnGrid G [energy] (unitOf s (c! "energy")) (fun p => K (p energy)) T.e
  v : OnGrid G vdims (unitOf s (c! "velocity")) (fun p => V (p species) (p energy)) T.v

/-- The arrays of the plasma on a grid, in the units of a metric system. -/
structure PlasmaOn (G : Grid κ ν) (s : System) (time shell : κ) (R : Nat → Nat → ℝ) (B U : Nat → Nat → Fin 3 → ℝ)
    (P : Plasma (Operand κ ν ℝ)) : Prop where
  r : OnGrid G [time, shell] (unitOf s (c! "length")) (fun p => R (p time) (p shell)) P.r
  br : OnGrid G [time, shell] (unitOf s (c! "magnetic field")) (fun p => B (p time) (p shell) 0) P.br
  bt : OnGrid G [time, shell] (unitOf s (c! "magnetic field")) (fun p => B (p time) (p shell) 1) P.bt
  bp : OnGrid G [time, shell] (unitOf s (c! "magnetic field")) (fun p => B (p time) (p shell) 2) P.bp
  ur : OnGrid G [time, shell] (unitOf s (c! "velocity")) (fun p => U (p time) (p shell) 0) P.ur
  ut : OnGrid G [time, shell] (unitOf s (c! "velocity")) (fun p => U (p time) (p shell) 1) P.ut
  up : OnGrid G [time, shell] (unitOf s (c! "velocity")) (fun p => U (p time) (p shell) 2) P.up

/-- The arrays of the plasma as operands. -/
def Plasma.arrays (P : Plasma (Arr κ ν ℝ)) : Plasma (Operand κ ν ℝ) :=
  ⟨.array P.r, .array P.br, .array P.bt, .array P.bp, .array P.ur, .array P.ut, .array P.up⟩

/-- The shell after this one, unless it is the last. -/
def shellAfter (n i : Nat) : Nat := min (i + 1) (n - 1)

end Eprem.Observable
