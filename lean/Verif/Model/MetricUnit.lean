import Verif.Model.MetricCache

/-!
# Model of the operators of `Unit` (`metric/_units.py`) and of `NamedUnit.decomposed` (`metric/_defined.py`)

A unit is the list of the terms of its expression.  `unit_factory` returns an existing unit when the canonical string
of the new one is known; that unit has the same terms (C23), so that its registry is left out here.
-/

namespace Eprem.Metric

open Eprem Eprem.Symbolic

/-- `NamedUnit._decompose` (`_defined.py` 472-495), after `decomposed` has chosen a system in which the unit is
fundamental, so that it is defined there. -/
def decomposeIn (e : Entry) (s : System) : Except MErr (Option (List Term)) :=
  match dimensions e s with
  | .error x => .error x
  | .ok none => .error .value
  | .ok (some [_]) => .ok (some [mkTerm 1 e.symbol 1])
  | .ok (some x) => match mapE (fun t : Term => (baseUnitOf s t.base).map (fun u => mkTerm 1 u t.exp)) x with
    | .error x => .error x
    | .ok ts => .ok (some ts)

/-- `NamedUnit.decomposed` (`_defined.py` 460-470).  The systems are a `set`; the second argument is its order. -/
def decomposed (e : Entry) : List System → Except MErr (Option (List Term))
  | [] => .ok none
  | s :: ss => match isFundamentalIn e s with
    | .error x => .error x
    | .ok true => decomposeIn e s
    | .ok false => decomposed e ss

/-- `_decompose_term` (`_units.py` 368-390). -/
def decomposeTerm (systems : List System) (t : Term) : Except MErr (List Term) :=
  match named t.base with
  | none => .ok [t]
  | some e => match decomposed e systems with
    | .error .unitParsing => .ok [t]
    | .error .systemAmbiguity => .ok [t]
    | .error x => .error x
    | .ok none => .ok [t]
    | .ok (some ts) => ofSym (mapTerms (fun b => b.pow t.exp) ts)

/-- The loop in `_decompose_unit` (`_units.py` 360-364). -/
def decomposeTerms (systems : List System) : List Term → Except MErr (List Term)
  | [] => .ok []
  | t :: ts => match decomposeTerm systems t with
    | .error x => .error x
    | .ok ps => match decomposeTerms systems ts with
      | .error x => .error x
      | .ok qs => .ok (ps ++ qs)

/-- `_decompose_unit` (`_units.py` 358-365). -/
def decomposeUnit' (systems : List System) (u : List Term) : Except MErr (List Term) :=
  match decomposeTerms systems u with
  | .error x => .error x
  | .ok ts => ofSym (reduce ts)

/-- The unit that `unit_factory(expression)` creates the first time (`_units.py` 414-420). -/
def unitOfExpr (x : List Term) : Except MErr (List Term) := mapE asSymbol x

/-- `_apply_operator(f, a, b)` for units (`_units.py` 343-350); `symbolic.product` and `symbolic.ratio` turn the lists of
terms into expressions (`symbolic/__init__.py` 75-84). -/
def applyOperator (systems : List System) (f : List Term → List Term → Except Symbolic.Err (List Term))
    (a b : List Term) : Except MErr (List Term) :=
  match decomposeUnit' systems a with
  | .error x => .error x
  | .ok x => match decomposeUnit' systems b with
    | .error x => .error x
    | .ok y => match ofSym (exprOfTerms x) with
      | .error x => .error x
      | .ok x => match ofSym (exprOfTerms y) with
        | .error x => .error x
        | .ok y => match ofSym (f x y) with
          | .error x => .error x
          | .ok z => unitOfExpr z

/-- `a * b` (`_units.py` 41-49). -/
def unitMul (systems : List System) (a b : List Term) : Except MErr (List Term) :=
  if exprEq a b then
    match ofSym (exprPow a 2) with
    | .error x => .error x
    | .ok z => unitOfExpr z
  else applyOperator systems exprMul a b

/-- `a / b` (`_units.py` 59-67). -/
def unitDiv (systems : List System) (a b : List Term) : Except MErr (List Term) :=
  if exprEq a b then .ok [mkTerm 1 one 1]
  else applyOperator systems exprDiv a b

/-- `1 / a` (`_units.py` 69-75). -/
def unitInv (systems : List System) (a : List Term) : Except MErr (List Term) :=
  applyOperator systems exprDiv [mkTerm 1 one 1] a

/-- `a ** p` for a number (`_units.py` 77-81), a `float` or an exact one. -/
def unitPow (float : Bool) (a : List Term) (p : ℚ) : Except MErr (List Term) :=
  match ofSym (mapTerms (fun t => if float then t.fpow p else t.pow p) a) with
  | .error x => .error x
  | .ok ts => match ofSym (exprOfTerms ts) with
    | .error x => .error x
    | .ok z => unitOfExpr z

end Eprem.Metric
