import Verif.Model.Physical
import Verif.Spec.Measured
import Verif.Spec.Units
import Verif.Spec.NamedArray

/-!
# Specification vocabulary for operations on physical objects (C36, C37)

What an operand *shows* at a position of the result is an amount: its number there times the size of its unit.  An operand
with fewer axes than the result, or with axes of length one, shows the same amount along the other axes.
-/

namespace Eprem.Numeric

/-- The position in an array of shape `s` that belongs to the position `p` of an array with more axes: the last members of
`p`, with zero along axes of length one. -/
def trail (s p : List Nat) : List Nat := List.zipWith (fun n i => if n = 1 then 0 else i) s (p.drop (p.length - s.length))

/-- The element of an array that belongs to a position of an array with more axes. -/
def ND.spread {α : Type} (a : ND α) (p : List Nat) : α := a.get (trail a.shape p)

/-- The length of the axis number `k` from the end; an axis that does not exist has length one. -/
def fromEnd (s : List Nat) (k : Nat) : Nat := s.reverse.getD k 1

/-- `r` is the common shape of `s` and `t`: axes are aligned at the end, and have equal lengths or length one. -/
structure CommonShape (s t r : List Nat) : Prop where
  length : r.length = max s.length t.length
  axis : ∀ k, (fromEnd s k = fromEnd t k ∧ fromEnd r k = fromEnd s k) ∨ (fromEnd s k = 1 ∧ fromEnd r k = fromEnd t k) ∨
    (fromEnd t k = 1 ∧ fromEnd r k = fromEnd s k)

end Eprem.Numeric

namespace Eprem.Physical

open Eprem Eprem.Symbolic Eprem.Metric Eprem.Numeric Eprem.Measured

variable {κ ν : Type}

/-- The shape of an operand; numbers have no axes. -/
def Operand.shape {K : Type} : Operand κ ν K → List Nat
  | .number _ => []
  | .object _ o => o.data.shape
  | .array a => a.arr.raw.data.shape

/-- The amount that an operand shows at a position of the result, if `ρ` gives the sizes of units. -/
noncomputable def Operand.shown (ρ : Name → ℝ) : Operand κ ν ℝ → List Nat → ℝ
  | .number x, _ => x
  | .object _ o, p => o.data.spread p * value ρ o.unit
  | .array a, p => a.arr.data.data.spread p * value ρ a.arr.unit

/-- All positions in an array of a shape, in the order in which the elements are stored. -/
def allPositions : List Nat → List (List Nat)
  | [] => [[]]
  | n :: s => (List.range n).flatMap (fun i => (allPositions s).map (i :: ·))

/-- All amounts of an operand. -/
noncomputable def Operand.amounts (ρ : Name → ℝ) (a : Operand κ ν ℝ) : List ℝ := (allPositions a.shape).map (a.shown ρ)

/-- The axes of an operand, if it is an array. -/
def Operand.axes? {K : Type} : Operand κ ν K → Option (Dict κ ν)
  | .array a => some a.axes
  | _ => none

/-- The operand is a measurement: a sequence without operators of its own. -/
def Operand.isMeasurement {K : Type} : Operand κ ν K → Bool
  | .object .measurement _ => true
  | _ => false

/-- The operand is an array. -/
def Operand.isArray {K : Type} : Operand κ ν K → Bool
  | .array _ => true
  | _ => false

/-- An array whose axes have the names of the dimensions of its data. -/
structure Arr.WF [DecidableEq κ] {K : Type} (a : Arr κ ν K) : Prop where
  named : WellNamed a.arr.raw
  axes : a.axes.keys = a.arr.raw.dims

/-- What the classes guarantee about their instances: scalars have no axes, vectors one, tensors at least one. -/
def Operand.WF [DecidableEq κ] {K : Type} : Operand κ ν K → Prop
  | .number _ => True
  | .object .scalar o => o.data.shape = []
  | .object .vector o => o.data.shape.length = 1
  | .object .tensor o => o.data.shape ≠ []
  | .object .measurement _ => True
  | .array a => a.WF

/-- The amount at a named position of an array. -/
noncomputable def Arr.amount [DecidableEq κ] (ρ : Name → ℝ) (a : Arr κ ν ℝ) (pos : κ → Nat) : ℝ :=
  a.arr.data.read pos * value ρ a.arr.unit

/-- A unit that the package can multiply (see `IsUnit`), with exponents that doubles can hold. -/
def GoodUnit (d : ℕ) (u : List Term) : Prop := IsUnit d u ∧ SmallExponents u

end Eprem.Physical
