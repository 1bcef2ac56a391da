import Verif.Model.Symbolic

/-!
# Specification of "the first parenthesised group" of a string (C07)
-/

namespace Eprem.Symbolic

/-- number of `(` minus number of `)` -/
def depth (s : Str) : Int := (s.count '(' : Int) - (s.count ')' : Int)

/-- `i` is the position of the first `(` of `s`, and `e` the position just after
the `)` that balances it. -/
def IsFirstGroup (s : Str) (i e : Nat) : Prop :=
  s[i]? = some '(' ∧ '(' ∉ s.take i ∧ i < e ∧ e ≤ s.length ∧
  depth ((s.take e).drop i) = 0 ∧ ∀ k, i < k → k < e → 0 < depth ((s.take k).drop i)

/-- No `)` occurs before the first `(`. -/
def NoEarlyClose (s : Str) : Prop := ')' ∉ s.takeWhile (fun c => decide (c ≠ '('))

end Eprem.Symbolic
