import Verif.Spec.Observable

/-!
# Specification vocabulary for gradients (C89, C90)
-/

namespace Eprem.Observable

/-- `r` are the slopes of the `n` values `f` at the coordinates `t`: at the first and at the last coordinate the slope of the
line through the two values there, at any other coordinate the slope there of the parabola (or line) through the value and
its two neighbours. -/
structure Slopes (n : Nat) (t f r : Nat → ℝ) : Prop where
  first : ∀ a b : ℝ, a + b * t 0 = f 0 → a + b * t 1 = f 1 → r 0 = b
  last : ∀ a b : ℝ, a + b * t (n - 2) = f (n - 2) → a + b * t (n - 1) = f (n - 1) → r (n - 1) = b
  inner : ∀ i, 0 < i → i + 1 < n → ∀ a b c : ℝ, (∀ j ∈ [i - 1, i, i + 1], a + b * t j + c * t j ^ 2 = f j) →
    r i = b + 2 * c * t i

/-- The first `n` coordinates increase. -/
def Increasing (n : Nat) (t : Nat → ℝ) : Prop := ∀ i j, i < j → j < n → t i < t j

open Eprem.Symbolic Eprem.Physical

variable {κ ν : Type} [DecidableEq κ]

/-- `a` gives the coordinates `t` along the dimension `d`, in the unit `v`: as an array over this dimension, as a vector of as
many numbers, or, for equidistant coordinates, as the distance, which is a scalar or a number. -/
inductive CoordinatesAlong (G : Grid κ ν) (d : κ) (v : List Term) (t : Nat → ℝ) (a : Operand κ ν ℝ) : Prop
  | array (h : OnGrid G [d] v (fun p => t (p d)) a)
  | vector (o : Measured.Obj ℝ) (h : a = .object .vector o) (hu : o.unit = v) (hs : o.data.shape = [G.size d])
      (ht : ∀ i < G.size d, o.data.get [i] = t i)
  | distance (x : ℝ) (h : IsScalar v x a) (ht : ∀ i, t i = i * x)
  | number (x : ℝ) (h : a = .number x) (hu : v = unitless) (ht : ∀ i, t i = i * x)

end Eprem.Observable
