import Verif.Model.Symbolic

/-!
# Reductions of units as objects

A model of `Reduction` (`metric/_defined.py`) and of `reduction` (`metric/_units.py`).  Scales are exact numbers, and the round
trip of an expression through its text, which is that of C05, is left out: expressions are reduced lists of terms.
-/

namespace Eprem.Reductions

open Eprem Eprem.Symbolic

/-- A `Reduction` (`_defined.py` 279-292); `R` tells metric systems apart. -/
structure Red (R : Type) where
  scale : ℚ
  expr : List Term
  system : R

variable {R : Type}

/-- `number * expression` (`symbolic/_expression.py` 179-190), for a number that is not zero. -/
def times (c : ℚ) (ts : List Term) : Except Err (List Term) := reduce (mkTerm c one 1 :: ts)

/-- `expression ** n` (`symbolic/_expression.py` 213-224) for integers. -/
def powExpr (ts : List Term) (n : ℤ) : Except Err (List Term) :=
  if n = 0 then .error .notImplemented
  else reduce (ts.map (fun t => ⟨t.coeff ^ n, t.base, t.exp * n⟩))

/-- `Reduction(terms, scale, system)` (`_defined.py` 282-291). -/
def create (terms : List Term) (scale : ℚ) (system : R) : Except Err (Red R) :=
  match reduce terms with
  | .error e => .error e
  | .ok x => match times scale x with
    | .error e => .error e
    | .ok p => .ok ⟨scale, p, system⟩

/-- `units` (`_defined.py` 293-301). -/
def Red.units (r : Red R) : List Term := r.expr.filter (fun t => decide (t.base ≠ one))

/-- `r * x` for a number that is not zero (`_defined.py` 303-309). -/
def Red.mul (r : Red R) (x : ℚ) : Except Err (Red R) :=
  match times (r.scale * x) r.expr with
  | .error e => .error e
  | .ok ts => create ts (r.scale * x) r.system

/-- `r / x` for a number that is not zero (`_defined.py` 314-320). -/
def Red.div (r : Red R) (x : ℚ) : Except Err (Red R) :=
  match times (r.scale / x) r.expr with
  | .error e => .error e
  | .ok ts => create ts (r.scale / x) r.system

/-- `r ** n` for an integer (`_defined.py` 322-328). -/
def Red.pow (r : Red R) (n : ℤ) : Except Err (Red R) :=
  match powExpr r.expr n with
  | .error e => .error e
  | .ok p => match times (r.scale ^ n) p with
    | .error e => .error e
    | .ok ts => create ts (r.scale ^ n) r.system

/-- The loop of `reduction` over the terms (`_units.py` 569-577), where `named` gives the reduction of a unit, if there is one;
exponents are integers. -/
def decompose (named : Str → Option (Red R)) : List (Str × ℤ) → Except Err (List (Red R))
  | [] => .ok []
  | (u, n) :: rest => match named u with
    | none => decompose named rest
    | some r => match r.pow n with
      | .error e => .error e
      | .ok p => match decompose named rest with
        | .error e => .error e
        | .ok ps => .ok (p :: ps)

/-- `for other in decomposed[1:]: result *= other.scale` (`_units.py` 581-582). -/
def multiply : Red R → List (Red R) → Except Err (Red R)
  | r, [] => .ok r
  | r, p :: ps => match r.mul p.scale with
    | .error e => .error e
    | .ok q => multiply q ps

/-- `reduction(unit, system)` (`_units.py` 561-583). -/
def reduction (named : Str → Option (Red R)) (terms : List (Str × ℤ)) : Except Err (Option (Red R)) :=
  match decompose named terms with
  | .error e => .error e
  | .ok [] => .ok none
  | .ok (p :: ps) => match multiply p ps with
    | .error e => .error e
    | .ok r => .ok (some r)

end Eprem.Reductions
