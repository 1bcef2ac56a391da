import Verif.Spec.Grammar
import Verif.Spec.Print

/-!
# What a written term denotes (C115, C116)

A term is written as a name with an optional coefficient and exponent, or as such
a term in parentheses, again with an optional coefficient and exponent, to any
depth.
-/

namespace Eprem.Symbolic

/-- `2x^3`, `4(2x^3)^-1`, `(4(2x^3)^-1)^2`, … -/
inductive Written
  | name (c : Option Lit) (letters digits : Str) (e : Option Lit)
  | group (k : Option Lit) (body : Written) (e : Option Lit)

/-- an optional number as it is written -/
def coefText : Option Lit → Str
  | none => []
  | some l => l.text

/-- The string written. -/
def Written.text : Written → Str
  | .name c ls ds e => coefText c ++ (ls ++ ds) ++ expText e
  | .group k w e => coefText k ++ '(' :: w.text ++ ')' :: expText e

/-- The symbol in the middle. -/
def Written.symbol : Written → Str
  | .name _ ls ds _ => ls ++ ds
  | .group _ w _ => w.symbol

/-- The number written, when the symbol stands for `x`. -/
noncomputable def Written.denote (x : ℝ) : Written → ℝ
  | .name c _ _ e => (litOr1 c : ℝ) * x ^ (litOr1 e : ℝ)
  | .group k w e => (litOr1 k : ℝ) * (w.denote x) ^ (litOr1 e : ℝ)

/-- The exponent of a group is an integer. -/
def Whole (e : Option Lit) : Prop := (litOr1 e).den = 1

/-- No coefficient is written anywhere. -/
def Written.Bare : Written → Prop
  | .name c _ _ _ => c = none
  | .group k w _ => k = none ∧ w.Bare

/-- Well-written: letters followed by digits, non-zero numbers, coefficients in front
of a group that a float holds exactly, whole exponents on groups that contain coefficients; a name such as
`e3` must not follow a coefficient (unless that is a fraction). -/
def Written.Ok : Written → Prop
  | .name c ls ds e =>
      ls ≠ [] ∧ (∀ x ∈ ls, isLetter x = true) ∧ (∀ x ∈ ds, isDigit x = true) ∧
      OptOk c ∧ OptOk e ∧ (∀ l, c = some l → LooksLikeExp ls ds → ∃ n s d, l = .frac n s d)
  | .group k w e => OptOk k ∧ fl (litOr1 k) = litOr1 k ∧ OptOk e ∧ (Whole e ∨ w.Bare) ∧ w.Ok

/-- A symbol: letters followed by digits. -/
def IsSymbol (s : Str) : Prop :=
  ∃ ls ds, s = ls ++ ds ∧ ls ≠ [] ∧ (∀ x ∈ ls, isLetter x = true) ∧ ∀ x ∈ ds, isDigit x = true

end Eprem.Symbolic
