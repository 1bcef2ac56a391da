import Verif.Spec.Symbolic

/-!
# Terms whose printed form the tokenizer reads back
-/

namespace Eprem.Symbolic

/-- A symbol name the tokenizer accepts: letters (also `#` and `_`) followed by
digits, not starting with `sqrt` (which is read as an operator). -/
def ValidName (b : Str) : Prop :=
  ∃ ls ds, b = ls ++ ds ∧ ls ≠ [] ∧ (∀ x ∈ ls, isLetter x = true) ∧ (∀ x ∈ ds, isDigit x = true) ∧
    ¬ ['s', 'q', 'r', 't'] <+: ls

/-- `e` or `E` followed by at least one digit. -/
def ExpLike (b : Str) : Prop := ∃ c ds, b = c :: ds ∧ (c = 'e' ∨ c = 'E') ∧ ds ≠ [] ∧ ∀ x ∈ ds, isDigit x = true

/-- The terms whose printed form is read back exactly: a valid name, exponent and
coefficient with a one-digit denominator, a coefficient that a float holds
exactly; and a name such as `e3` must not follow an integer coefficient. -/
structure Printable (t : Term) : Prop where
  coeff : t.coeff ≠ 0
  exp : t.exp ≠ 0
  base : (t.base = one ∧ t.exp = 1) ∨ ValidName t.base
  coeffDen : t.coeff.den ≤ 9
  coeffFloat : fl t.coeff = t.coeff
  expDen : t.exp.den ≤ 9
  notExpLike : ExpLike t.base → t.coeff = 1 ∨ t.coeff.den ≠ 1

end Eprem.Symbolic
