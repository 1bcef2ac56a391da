import Verif.Model.IndexArith

/-!
# Specification of index objects
-/

namespace Eprem.Numeric

/-- What the operations are on integers, where they are defined: division by zero and negative powers are not. -/
def OpResult : IdxOp → ℤ → ℤ → ℤ → Prop
  | .add, x, y, r => r = x + y
  | .sub, x, y, r => r = x - y
  | .mul, x, y, r => r = x * y
  | .floordiv, x, y, r => y ≠ 0 ∧ ∃ d : ℤ, x = y * r + d ∧ (0 < y → 0 ≤ d ∧ d < y) ∧ (y < 0 → y < d ∧ d ≤ 0)
  | .mod, x, y, r => y ≠ 0 ∧ (∃ q : ℤ, x = y * q + r) ∧ (0 < y → 0 ≤ r ∧ r < y) ∧ (y < 0 → y < r ∧ r ≤ 0)
  | .pow, x, y, r => ∃ n : Nat, y = n ∧ r = x ^ n

/-- An operand as a function of the position: a sequence has its members, and a value or integer is the same everywhere. -/
def IdxOperand.at : IdxOperand → Nat → Option ℤ
  | .idx (.seq l), i => l[i]?
  | .idx (.value x), _ => some x
  | .int x, _ => some x
  | .other, _ => none

/-- The operand is one integer. -/
def IdxOperand.IsOne (a : IdxOperand) (x : ℤ) : Prop := a = .idx (.value x) ∨ a = .int x

/-- The operand is a sequence with this many members. -/
def IdxOperand.IsSeq (a : IdxOperand) (n : Nat) : Prop := ∃ l : List ℤ, a = .idx (.seq l) ∧ l.length = n

/-- At least one of the operands is a sequence, and all sequences among them have `n` members. -/
def Match (n : Nat) (a b : IdxOperand) : Prop :=
  (a.IsSeq n ∧ b.IsSeq n) ∨ (a.IsSeq n ∧ ∃ y, b.IsOne y) ∨ ((∃ x, a.IsOne x) ∧ b.IsSeq n)

/-- The integers that the argument lists; `toInt` is the integer that a string denotes. -/
def Lists (toInt : List Char → Option ℤ) : IdxSource → List ℤ → Prop
  | .int i, l => l = [i]
  | .str s, l => ∃ i, toInt s = some i ∧ l = [i]
  | .ints m, l => l = m
  | .strs m, l => m.map toInt = l.map some
  | .range m, l => l = m
  | .array a, l => l.length = a.size ∧ ∀ (i : Nat) x, l[i]? = some x → a.data i = x
  | .seq m, l => l = m
  | .other, _ => False

end Eprem.Numeric
