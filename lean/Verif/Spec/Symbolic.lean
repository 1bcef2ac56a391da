import Verif.Model.Symbolic
import Mathlib.Analysis.SpecialFunctions.Pow.Real

/-!
# Specification vocabulary for symbolic expressions
-/

namespace Eprem.Symbolic

/-- An assignment of positive values to symbols. -/
def Positive (ρ : Str → ℝ) : Prop := ∀ b, 0 < ρ b

/-- The number a term stands for: coefficient times base to the exponent; the
base `'1'` is the number one. -/
noncomputable def Term.val (ρ : Str → ℝ) (t : Term) : ℝ :=
  (t.coeff : ℝ) * (if t.base = one then 1 else ρ t.base ^ (t.exp : ℝ))

/-- The number a list of terms multiplies out to. -/
noncomputable def value (ρ : Str → ℝ) (ts : List Term) : ℝ := (ts.map (Term.val ρ)).prod

/-- What `Operand.__init__` (`_operand.py` 65-76) guarantees about every term
object: zero coefficients, empty bases and zero exponents are replaced by 1. -/
def WF (ts : List Term) : Prop := ∀ t ∈ ts, t.coeff ≠ 0 ∧ t.base ≠ [] ∧ t.exp ≠ 0

/-- Python's strict order on strings, as a proposition: lexicographic by code
point. -/
def StrLt (a b : Str) : Prop := List.Lex (fun x y => x.toNat < y.toNat) a b

/-- The canonical form of a reduced expression, clause by clause as in C02. -/
structure Canonical (ts : List Term) : Prop where
  /-- there is at least one term -/
  nonempty : ts ≠ []
  /-- every symbol occurs at most once -/
  nodup : (ts.map Term.base).Nodup
  /-- a symbol has coefficient one and a non-zero exponent -/
  symbol : ∀ t ∈ ts, t.base ≠ one → t.coeff = 1 ∧ t.exp ≠ 0
  /-- a pure number is written with exponent one and is not zero -/
  number : ∀ t ∈ ts, t.base = one → t.exp = 1 ∧ t.coeff ≠ 0
  /-- a pure number comes first -/
  numberFirst : ∀ (i : Nat) (h : i < ts.length), ts[i].base = one → i = 0
  /-- a pure number differs from 1 unless it is the only term -/
  numberNeOne : ∀ t ∈ ts, t.base = one → ts.length ≠ 1 → t.coeff ≠ 1
  /-- symbols are ordered by decreasing exponent, then alphabetically -/
  ordered : ∀ (i j : Nat) (hi : i < ts.length) (hj : j < ts.length), i < j →
    ts[i].base ≠ one → ts[j].base ≠ one →
    ts[j].exp < ts[i].exp ∨ (ts[i].exp = ts[j].exp ∧ StrLt ts[i].base ts[j].base)

end Eprem.Symbolic
