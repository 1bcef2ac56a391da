import Verif.Model.Create

/-!
# Specification of the creation of axes and of physical objects
-/

namespace Eprem.Physical

open Eprem Eprem.Symbolic Eprem.Metric Eprem.Numeric Eprem.Measured

variable {K : Type}

/-- The number of values of an axis. -/
def AnyAxis.count : AnyAxis K → Nat
  | .points x => x.data.length
  | .symbols x => x.data.length
  | .coordinates x _ => x.data.length

/-- The axis of the positions `0, 1, …, n - 1`. -/
def IsRange (n : Nat) (a : AnyAxis K) : Prop := ∃ x : Axis.Axis ℤ, a = .points x ∧ x.data.length = n ∧ ∀ i < n, x.data[i]? = some (i : ℤ)

/-- The axis that an argument stands for: itself, the names, the positions, or the values in their unit. -/
inductive StandsFor : AxisArg K → AnyAxis K → Prop
  | axis (a) : StandsFor (.axis a) a
  | strings (l) : StandsFor (.strings l) (.symbols ⟨l, none⟩)
  | integers (l) : StandsFor (.integers l) (.points ⟨l, none⟩)
  | quantity (l u) : StandsFor (.measurable l (some u)) (.coordinates ⟨l, none⟩ u)
  | numbers (l) : StandsFor (.measurable l none) (.coordinates ⟨l, none⟩ [⟨1, c! "1", 1⟩])

/-- Axes with these names, in this order, each of which is in the relation to its argument. -/
structure AxesFor {α : Type} (names : List Name) (args : List α) (R : α → AnyAxis K → Prop) (r : Dict Name (AnyAxis K)) : Prop where
  keys : r.keys = names
  axis : ∀ (i : Nat) n x, names[i]? = some n → args[i]? = some x → ∃ a, r.get? n = some a ∧ R x a

/-- Objects as they are made by the package: scalars have no dimension, vectors, measurements and sequences have one, and
tensors have at least one. -/
def Source.Proper : Source K → Prop
  | .object .scalar o => o.data.shape = []
  | .object .vector o => o.data.ndim = 1
  | .object .measurement o => o.data.ndim = 1
  | .object .tensor o => o.data.ndim ≠ 0
  | .sequence o => o.data.ndim = 1
  | _ => True

/-- The source has no unit of its own: a number, or numbers in lists and numpy arrays. -/
def Source.Plain : Source K → Prop
  | .number _ => True
  | .values _ => True
  | _ => False

variable [Field K]

/-- The values that a source has; single values are lists of one value. -/
def valuesOf : Source K → ND K
  | .number r => ⟨[1], fun _ => r⟩
  | .values d => d
  | .object .scalar o => ⟨[1], o.data.data⟩
  | .object _ o => o.data
  | .sequence o => o.data
  | .array a => a.arr.data.data

/-- The unit of the new object: that of the source, if it has any, or else the one given, or `1`. -/
def unitFrom (unit : Option (List Term)) : Source K → List Term
  | .object _ o => o.unit
  | .sequence o => o.unit
  | .array a => a.arr.unit
  | _ => unit.getD [⟨1, c! "1", 1⟩]

/-- The same values, in the same order, and the unit. -/
def Holds (o : Obj K) (d : ND K) (u : List Term) : Prop :=
  o.data.size = d.size ∧ (∀ i < d.size, o.data.data i = d.data i) ∧ o.unit = u

end Eprem.Physical
