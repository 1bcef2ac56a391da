import Verif.Spec.Dimension
import Mathlib.Analysis.Real.Pi.Bounds

/-!
# Specification of the values of conversions (C68)

Written down from the definitions of the units and from CODATA 2018, not from the tables of the package.

A conversion from an SI unit to the Gaussian unit of the same quantity has the factor
`1000^M * 100^L * (c/10)^I * c^a * (4π)^b`, where `M`, `L`, `I` are the exponents of mass, length and current in the
dimension of the SI unit (a kilogram is 1000 grams, a meter 100 centimeters, an ampere `c/10` statamperes with `c` in
centimeters per second) and `a`, `b` say how the Gaussian quantity is defined: `B` is multiplied by `c`, `H` by `4π/c`
and `D` by `4π`.
-/

namespace Eprem.Metric

open Eprem

/-- The speed of light in centimeters per second. -/
def lightCgs : ℚ := 29979245800

/-- SI units to Gaussian units: exponents of mass, length and current, and the powers of `c` and `4π` that define the
Gaussian quantity. -/
structure Gaussian where
  mass : ℤ := 0
  length : ℤ := 0
  current : ℤ := 0
  c : ℤ := 0
  fourPi : ℤ := 0

/-- The factor from the SI unit to the Gaussian unit. -/
noncomputable def Gaussian.factor (g : Gaussian) : ℝ :=
  1000 ^ g.mass * 100 ^ g.length * ((lightCgs : ℝ) / 10) ^ g.current * (lightCgs : ℝ) ^ g.c * (4 * Real.pi) ^ g.fourPi

/-- Conversions between systems. -/
def gaussian : List ((Name × Name) × Gaussian) := [
  ((c! "N", c! "dyn"), {mass := 1, length := 1}),
  ((c! "J", c! "erg"), {mass := 1, length := 2}),
  ((c! "W", c! "erg / s"), {mass := 1, length := 2}),
  ((c! "Pa", c! "dyn / cm^2"), {mass := 1, length := -1}),
  ((c! "Gy", c! "erg / g"), {length := 2}),
  ((c! "kg / (m * s)", c! "P"), {mass := 1, length := -1}),
  ((c! "C", c! "statC"), {current := 1}),
  ((c! "A", c! "statA"), {current := 1}),
  ((c! "V", c! "statV"), {mass := 1, length := 2, current := -1}),
  ((c! "ohm", c! "s / cm"), {mass := 1, length := 2, current := -2}),
  ((c! "S", c! "cm / s"), {mass := -1, length := -2, current := 2}),
  ((c! "F", c! "cm"), {mass := -1, length := -2, current := 2}),
  ((c! "H", c! "s^2 / cm"), {mass := 1, length := 2, current := -2}),
  ((c! "Wb", c! "Mx"), {mass := 1, length := 2, current := -1, c := 1}),
  ((c! "T", c! "G"), {mass := 1, current := -1, c := 1}),
  ((c! "Wb / m", c! "G * cm"), {mass := 1, length := 1, current := -1, c := 1}),
  ((c! "A / m", c! "Oe"), {length := -1, current := 1, c := -1, fourPi := 1}),
  ((c! "H / m", c! "1"), {mass := 1, length := 1, current := -2, c := 2, fourPi := -1}),
  ((c! "F / m", c! "1"), {mass := -1, length := -3, current := 2, fourPi := 1}),
  ((c! "A / Wb", c! "1 / cm"), {mass := -1, length := -2, current := 2, c := -2, fourPi := 1})]

/-- Other units, from their definitions and from CODATA 2018 and IAU 2015. -/
noncomputable def defined : List ((Name × Name) × ℝ) := [
  ((c! "s", c! "min"), 1 / 60), ((c! "s", c! "h"), 1 / 3600), ((c! "s", c! "d"), 1 / 86400),
  ((c! "rad", c! "deg"), 180 / Real.pi),
  ((c! "au", c! "m"), 149597870700), ((c! "Rs", c! "m"), 695700000),
  ((c! "e", c! "C"), 1602176634 / 10 ^ 28), ((c! "eV", c! "J"), 1602176634 / 10 ^ 28),
  ((c! "nuc", c! "kg"), 166053906660 / 10 ^ 38), ((c! "amu", c! "kg"), 166053906660 / 10 ^ 38),
  ((c! "Bq", c! "Ci"), 1 / 37000000000)]

/-- The value of `x`, up to one part in five hundred. -/
def Near (x v : ℝ) : Prop := |x - v| ≤ v / 500

/-- Sizes in SI units of the mechanical units, which are exact. -/
def siSizes : List (Name × ℚ) := [
  (c! "m", 1), (c! "au", 149597870700), (c! "g", 1 / 1000), (c! "s", 1), (c! "min", 60), (c! "h", 3600), (c! "d", 86400),
  (c! "N", 1), (c! "dyn", 1 / 10 ^ 5), (c! "J", 1), (c! "erg", 1 / 10 ^ 7), (c! "W", 1), (c! "Pa", 1), (c! "P", 1 / 10)]

end Eprem.Metric
