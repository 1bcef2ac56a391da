import Verif.Spec.Print

/-!
# Expressions on which arithmetic is exact
-/

namespace Eprem.Symbolic

/-- Every term of the list survives being printed and read back. -/
def Exact (ts : List Term) : Prop := ∀ t ∈ ts, Printable t

/-- The expressions users write for units: products of integer powers of valid
names, without numerical coefficients (or the bare number 1). -/
structure NamesOnly (ts : List Term) : Prop where
  nonempty : ts ≠ []
  coeff : ∀ t ∈ ts, t.coeff = 1
  exp : ∀ t ∈ ts, t.exp.den = 1 ∧ t.exp ≠ 0
  base : ∀ t ∈ ts, ValidName t.base ∨ (t.base = one ∧ t.exp = 1)

/-- The `n`-th power of a term is exact in double precision. -/
structure PowExact (n : Int) (t : Term) : Prop where
  exp : fl t.exp = t.exp
  coeff : fl t.coeff = t.coeff
  expMul : fl (t.exp * n) = t.exp * n
  coeffPow : fl (t.coeff ^ n) = t.coeff ^ n

end Eprem.Symbolic
