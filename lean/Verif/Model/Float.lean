import Mathlib.Data.Rat.Defs
import Mathlib.Algebra.Order.Field.Rat
import Mathlib.Data.Rat.Floor

/-!
# Binary double precision, as far as the symbolic module needs it

Python converts `fractions.Fraction` to `float` with one correctly rounded
division (`Fraction.__float__`), and `fractions.Fraction(float)` is exact.  The
symbolic module does both (`symbolic/_operand.py` 453-460, `_expression.py`
213-224), so that the rounding is visible to users.  We model the rounding to
53 significant bits, half to even.

Simplification: exponent range (overflow, subnormal numbers) is not modelled.
-/

namespace Eprem

/-- `2 ^ k` for an integer `k`, as a rational. -/
def pow2 : Int → Rat
  | .ofNat n => ((2 ^ n : Nat) : Rat)
  | .negSucc n => 1 / ((2 ^ (n + 1) : Nat) : Rat)

/-- Nearest integer to a non-negative rational, ties to even (IEEE 754
round-half-even applied to the significand). -/
def roundEven (q : Rat) : Int :=
  let f := q.floor
  let r := q - f
  if r < 1/2 then f
  else if 1/2 < r then f + 1
  else if f % 2 = 0 then f else f + 1

/-- The exponent of the unit in the last place of a positive rational: `e` with
`2 ^ 52 ≤ q / 2 ^ e < 2 ^ 53`. -/
def ulpExp (q : Rat) : Int :=
  let e0 : Int := (Nat.log2 q.num.natAbs : Int) - (Nat.log2 q.den : Int) - 52
  if q / pow2 e0 < pow2 52 then e0 - 1 else e0

/-- `float(q)` for a rational `q`, returned as the exact rational value of the
double (CPython `Fraction.__float__`: correctly rounded division). -/
def fl (q : Rat) : Rat :=
  if q = 0 then 0
  else
    let a := |q|
    let e := ulpExp a
    let m : Rat := (roundEven (a / pow2 e) : Int)
    if q < 0 then -(m * pow2 e) else m * pow2 e

end Eprem
