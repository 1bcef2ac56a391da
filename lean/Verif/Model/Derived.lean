import Mathlib.Order.Basic

/-!
# Model of the derived operators: `real/_objects.py` and `base/mixins.py`

A class that defines `==`, `<`, `+` and unary `-` gets the other comparisons and differences from the base class.  No class
of the package uses the base class without replacing these methods; users' subclasses do.  The results of `==` and `<` are
taken to be booleans.
-/

namespace Eprem.Derived

/-- What a subclass defines. -/
structure Base (α : Type) where
  eq : α → α → Bool
  lt : α → α → Bool
  add : α → α → α
  neg : α → α

variable {α : Type} (b : Base α)

/-- `Quantity.__ne__` (`real/_objects.py` 89-90), `Comparable.__ne__` (`base/mixins.py` 32-33). -/
def Base.ne (x y : α) : Bool := !b.eq x y

/-- `Quantity.__le__` (`real/_objects.py` 97-98), `Comparable.__le__` (`base/mixins.py` 35-36). -/
def Base.le (x y : α) : Bool := b.lt x y || b.eq x y

/-- `Quantity.__gt__` (`real/_objects.py` 101-102); `Comparable.__gt__` (`base/mixins.py` 38-39) is the same by De Morgan's
law. -/
def Base.gt (x y : α) : Bool := !(b.lt x y || b.eq x y)

/-- `Comparable.__gt__` (`base/mixins.py` 38-39). -/
def Base.gt' (x y : α) : Bool := !b.lt x y && !b.eq x y

/-- `Quantity.__ge__` (`real/_objects.py` 105-106), `Comparable.__ge__` (`base/mixins.py` 41-42). -/
def Base.ge (x y : α) : Bool := !b.lt x y

/-- `Quantity.__sub__` (`real/_objects.py` 129-130), `Complex.__sub__` (`base/mixins.py` 63-66). -/
def Base.sub (x y : α) : α := b.add x (b.neg y)

/-- `Quantity.__rsub__` (`real/_objects.py` 133-134), `Complex.__rsub__` (`base/mixins.py` 68-71), called for `y - x`. -/
def Base.rsub (x y : α) : α := b.add y (b.neg x)

end Eprem.Derived
