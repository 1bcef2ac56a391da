import Verif.Model.MetricUnit
import Verif.Model.MetricDimension
import Verif.Model.MetricSystem

/-!
# Model of the comparison of units: `Unit.__and__` and `Unit.__or__` (`metric/_units.py` 169-278)

Both operands are units, given by their terms.  The properties of a unit (`dimensions`, `dimensionless`, `decomposed`) are
computed once and kept, which does not change them.  `st` is the registry of conversions.
-/

namespace Eprem.Metric

open Eprem Eprem.Symbolic

variable {K : Type} [Field K] [DecidableEq K]

/-- `UNITY` (`_reference.py` 42). -/
def unityTexts : List Name := [c! "#", c! "1"]

/-- `self.difference(other, symmetric=True)` (`symbolic/_expression.py` 139-147): the terms of one of the two expressions.
Sets of terms compare their attributes. -/
def symmetricDifference (a b : List Term) : List Term :=
  a.filter (fun t => decide (t ∉ b)) ++ b.filter (fun t => decide (t ∉ a))

/-- `Unit.dimensions[system]` (`_units.py` 307-333): `None` where `_dimensions_in` raises `ValueError`. -/
def unitDimension (s : System) (u : List Term) : Except MErr (Option (List Term)) :=
  match getDimension s u with
  | .ok d => .ok (some d)
  | .error .value => .ok none
  | .error e => .error e

/-- `dimension == '1'` (`_units.py` 300-303). -/
def isDimensionOne : Option (List Term) → Bool
  | some d => exprEq d [mkTerm 1 one 1]
  | none => false

/-- `Unit.dimensionless` (`_units.py` 288-304). -/
def unitDimensionless (u : List Term) : Except MErr Bool :=
  match unitDimension .mks u with
  | .error e => .error e
  | .ok m => match unitDimension .cgs u with
    | .error e => .error e
    | .ok c => .ok (isDimensionOne m && isDimensionOne c)

/-- `set(a) == set(b)` for terms. -/
def sameTerms (a b : List Term) : Bool := a.all (fun t => decide (t ∈ b)) && b.all (fun t => decide (t ∈ a))

/-- `self << that == 1.0` (`_units.py` 214-218, 126-130); an `UnitConversionError` is suppressed. -/
def unitFactorIsOne (c : Conv K) (st : Cache K) (a b : List Term) : Cache K × Except MErr Bool :=
  match conversionFactory c st (showExpr b) (showExpr a) with
  | (st', .ok f) => (st', .ok (decide (f = 1)))
  | (st', .error .conversion) => (st', .ok false)
  | (st', .error e) => (st', .error e)

/-- The comparison of the decomposed units (`_units.py` 207-218). -/
def decomposedEquivalent (c : Conv K) (st : Cache K) (a b : List Term) : Cache K × Except MErr Bool :=
  match decomposeUnit' c.systems a with
  | .error e => (st, .error e)
  | .ok x => match decomposeUnit' c.systems b with
    | .error e => (st, .error e)
    | .ok y =>
      if sameTerms x y = true then (st, .ok true)
      else match ofSym (exprOfTerms x) with
        | .error e => (st, .error e)
        | .ok x' => match ofSym (exprOfTerms y) with
          | .error e => (st, .error e)
          | .ok y' => if exprEq x' y' = true then (st, .ok true) else unitFactorIsOne c st a b

/-- `self & other` (`_units.py` 169-218). -/
def equivalent (c : Conv K) (st : Cache K) (a b : List Term) : Cache K × Except MErr Bool :=
  if exprEq a b = true then (st, .ok true)
  else if (symmetricDifference a b).all (fun t => decide (formatTerm t ∈ unityTexts)) = true then (st, .ok true)
  else match unitDimensionless a with
    | .error e => (st, .error e)
    | .ok p => match unitDimensionless b with
      | .error e => (st, .error e)
      | .ok q => if p ≠ q then (st, .ok false) else decomposedEquivalent c st a b

/-- The loop over the metric systems in `__or__` (`_units.py` 256-260). -/
def sharedDimension (a b : List Term) : List System → Except MErr Bool
  | [] => .ok false
  | s :: ss => match unitDimension s a with
    | .error e => .error e
    | .ok defined => match unitDimension .mks b with
      | .error e => .error e
      | .ok m => match unitDimension .cgs b with
        | .error e => .error e
        | .ok g =>
          let eqTo (d : List Term) (x : Option (List Term)) : Bool := match x with | some y => exprEq y d | none => false
          match defined with
          | none => sharedDimension a b ss
          | some d => if eqTo d m || eqTo d g then .ok true else sharedDimension a b ss

/-- `_equivalent_quantities(u0, u1)` (`_units.py` 487-498). -/
def equivalentQuantities (a b : List Term) : Bool :=
  match getQuantity a, getQuantity b with
  | .ok x, .ok y => exprEq x y
  | _, _ => false

/-- `self | other` (`_units.py` 231-268). -/
def consistent (c : Conv K) (st : Cache K) (a b : List Term) : Cache K × Except MErr Bool :=
  if exprEq a b = true then (st, .ok true)
  else match equivalent c st a b with
    | (st, .error e) => (st, .error e)
    | (st, .ok true) => (st, .ok true)
    | (st, .ok false) => match sharedDimension a b c.systems with
      | .error e => (st, .error e)
      | .ok true => (st, .ok true)
      | .ok false =>
        if equivalentQuantities a b = true then (st, .ok true)
        else match conversionFactory c st (showExpr b) (showExpr a) with
          | (st', .ok _) => (st', .ok true)
          | (st', .error .conversion) => (st', .ok false)
          | (st', .error e) => (st', .error e)

end Eprem.Metric
