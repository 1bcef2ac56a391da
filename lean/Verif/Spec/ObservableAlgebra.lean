import Verif.Model.ObservableAlgebra
import Verif.Spec.Observable
import Verif.Spec.UnitAlgebra

/-!
# Specification vocabulary for the algebra of observable quantities (C86)
-/

namespace Eprem.Observable

open Eprem Eprem.Symbolic Eprem.Metric

variable {ι : Type}

/-- The value of an expression, given the values of the quantities from which it is made; the conversion of a quantity to
another unit does not change its value. -/
noncomputable def Compound.amount (f : ι → ℝ) : Compound ι → ℝ
  | .leaf i => f i
  | .add x y => x.amount f + y.amount f
  | .sub x y => x.amount f - y.amount f
  | .mul x y => x.amount f * y.amount f
  | .div x y => x.amount f / y.amount f
  | .convert x _ => x.amount f

/-- The quantities from which an expression is made, as often as they occur. -/
def Compound.leaves : Compound ι → List ι
  | .leaf i => [i]
  | .add x y => x.leaves ++ y.leaves
  | .sub x y => x.leaves ++ y.leaves
  | .mul x y => x.leaves ++ y.leaves
  | .div x y => x.leaves ++ y.leaves
  | .convert x _ => x.leaves

/-- No part of the expression is converted to another unit. -/
def Compound.Direct : Compound ι → Prop
  | .leaf _ => True
  | .add x y => x.Direct ∧ y.Direct
  | .sub x y => x.Direct ∧ y.Direct
  | .mul x y => x.Direct ∧ y.Direct
  | .div x y => x.Direct ∧ y.Direct
  | .convert _ _ => False

/-- How many base units are in the units of the quantities of an expression. -/
def total {A κ ν : Type} (env : ι → Quantity A κ ν) (x : Compound ι) : ℚ := (x.leaves.map (fun i => weight (env i).unit)).sum

/-- The array was not converted to another unit (`physical/_array.py` 137-157); an array made by an operation on arrays, or by
subscription of an array, was not. -/
def Unscaled {κ ν : Type} (r : Physical.Operand κ ν ℝ) : Prop := ∀ a, r = .array a → a.arr.scale = 1

end Eprem.Observable
