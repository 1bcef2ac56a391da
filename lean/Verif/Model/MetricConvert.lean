import Verif.Model.MetricQuantity
import Mathlib.Algebra.Field.Basic

/-!
# Model of the conversion of compound units: `metric/_conversions.py` 62-118, 161-174, 283-401

`K` is the field in which factors are multiplied and `pw f e` is `f ** e` (real power for the theorems).
-/

namespace Eprem.Metric

open Eprem Eprem.Symbolic

variable {K : Type} [Field K] [DecidableEq K]

/-- What the conversion of expressions reads. -/
structure Conv (K : Type) where
  env : Env
  /-- `f ** e` -/
  pw : ℚ → ℚ → K
  /-- the iteration order of the set `SYSTEMS` -/
  systems : List System

/-- `all(d == '1' for d in NamedUnit(u).dimensions.values())` (`_conversions.py` 384-386). -/
def dimensionless (u : Name) : Except MErr Bool := do
  let e ← namedUnit u
  let one' : List Term := [mkTerm 1 one 1]
  let isOne (d : Option (List Term)) : Bool := match d with | some x => exprEq x one' | none => false
  let dm ← dimensions e .mks
  let dc ← dimensions e .cgs
  return (isOne dm && isOne dc)

/-- `t in l` for terms, by `Operand.__eq__`. -/
def memT (t : Term) (l : List Term) : Bool := l.any (fun x => termEq x t)

/-- `l.remove(t)`: without the first term equal to `t`; `ValueError` if there is none. -/
def removeT (t : Term) : List Term → Except MErr (List Term)
  | [] => .error .value
  | x :: l => if termEq x t then .ok l else (removeT t l).map (x :: ·)

/-- `_match_exponents` (`_conversions.py` 365-398), after the test for a dimensionless unit. -/
def matchInverse (c : Conv K) (target : Term) (terms : List Term) : Option (K × Term) :=
  (terms.filter (fun t => !termEq t target && decide (t.exp = -target.exp))).findSome?
    (fun t => (convertAsStrings c.env target.base t.base).map (fun f => (c.pw f target.exp, t)))

/-- `_match_exponents` (`_conversions.py` 365-398). -/
def matchExponents (c : Conv K) (target : Term) (terms : List Term) : Except MErr (Option (K × Term)) :=
  match dimensionless target.base with
  | .error e => .error e
  | .ok true => .ok (some (1, target))
  | .ok false => .ok (matchInverse c target terms)

/-- The loop of `_resolve_terms` (`_conversions.py` 344-358). -/
def resolveLoop (c : Conv K) : List Term → List Term → List Term → K → Except MErr (Option K)
  | [], _, unmatched, factor => .ok (if unmatched = [] then some factor else none)
  | target :: rest, matched, unmatched, factor =>
    if memT target matched then resolveLoop c rest matched unmatched factor
    else match matchExponents c target unmatched with
      | .error e => .error e
      | .ok none => resolveLoop c rest matched unmatched factor
      | .ok (some (value, term)) =>
        if termEq term target then
          match removeT target unmatched with
          | .error e => .error e
          | .ok unmatched => resolveLoop c rest (matched ++ [target]) unmatched (factor * value)
        else
          match removeT target unmatched with
          | .error e => .error e
          | .ok unmatched =>
            match removeT term unmatched with
            | .error e => .error e
            | .ok unmatched => resolveLoop c rest (matched ++ [target, term]) unmatched (factor * value)

/-- `_resolve_terms` (`_conversions.py` 334-358). -/
def resolveTerms (c : Conv K) (terms : List Term) : Except MErr (Option K) :=
  if terms.length ≤ 1 then .ok none else resolveLoop c terms [] terms 1

/-- `_reduce_unit` (`_conversions.py` 302-312); an empty list counts as absent. -/
def reduceTerm (base : Name) (e : ℚ) : Except MErr (Option (List Term)) := do
  let u ← namedUnit base
  match ← reduceUnit u with
  | none => return none
  | some r =>
    let coeff ← if e.den = 1 then pure (fl (r.scale ^ e.num)) else ofSym (fracPow r.scale e)
    let ts := r.units.map (fun t => mkTerm coeff t.base (e * t.exp))
    return (if ts = [] then none else some ts)

/-- The loop over the metric systems in `_decompose_unit` (`_conversions.py` 294-299). -/
def decomposeLoop (c : Conv K) (t : Term) : List System → Except MErr (Option (K × List Term))
  | [] => .ok none
  | s :: rest => do
    let u ← namedUnit t.base
    let norm ← (unitsOf s u.base.quantity).bind namedUnit
    match ← reduceTerm norm.symbol t.exp with
    | none => decomposeLoop c t rest
    | some ts => match convertAsStrings c.env t.base norm.symbol with
      | some f => return some (c.pw f t.exp, ts)
      | none => decomposeLoop c t rest

/-- `_decompose_unit` (`_conversions.py` 288-299).  `norm` is computed for both systems at once. -/
def decomposeUnit (c : Conv K) (t : Term) : Except MErr (Option (K × List Term)) := do
  match ← reduceTerm t.base t.exp with
  | some ts => return some (1, ts)
  | none =>
    let u ← namedUnit t.base
    let _ ← mapE (fun s => (unitsOf s u.base.quantity).bind namedUnit) c.systems
    decomposeLoop c t c.systems

/-- The inner loop of `_cancel_terms` (`_conversions.py` 326-330). -/
def cancelInner (target : Term) : List Term → List Term → List Term → Except MErr (List Term × List Term)
  | [], matched, unmatched => .ok (matched, unmatched)
  | t :: rest, matched, unmatched =>
    if t.base = target.base then
      match removeT target unmatched with
      | .error e => .error e
      | .ok unmatched =>
        match removeT t unmatched with
        | .error e => .error e
        | .ok unmatched => cancelInner target rest (matched ++ [target, t]) unmatched
    else cancelInner target rest matched unmatched

/-- `_cancel_terms` (`_conversions.py` 315-331): the first argument is what is left of the outer loop. -/
def cancelLoop (terms : List Term) : List Term → List Term → List Term → Except MErr (List Term)
  | [], _, unmatched => .ok unmatched
  | target :: rest, matched, unmatched =>
    if memT target matched then cancelLoop terms rest matched unmatched
    else
      match cancelInner target (terms.filter (fun t => !termEq t target && decide (t.exp = -target.exp))) matched unmatched with
      | .error e => .error e
      | .ok (matched, unmatched) => cancelLoop terms rest matched unmatched

def cancelTerms (terms : List Term) : Except MErr (List Term) := cancelLoop terms terms [] terms

/-- `symbolic.expression(terms).terms` (`_conversions.py` 361-363); no terms give an empty expression. -/
def expressTerms (ts : List Term) : Except MErr (List Term) :=
  if ts = [] then .ok [] else ofSym (exprOfTerms ts)

/-- The first loop of `_convert_by_dimensions` (`_conversions.py` 272-278). -/
def decomposeAll (c : Conv K) : List Term → K → List Term → Except MErr (K × List Term)
  | [], factor, acc => .ok (factor, acc)
  | t :: rest, factor, acc =>
    match decomposeUnit c t with
    | .error e => .error e
    | .ok none => decomposeAll c rest factor acc
    | .ok (some (scale, units)) => decomposeAll c rest (factor * scale) (acc ++ units)

/-- `_convert_by_dimensions` (`_conversions.py` 269-285). -/
def convertByDimensions (c : Conv K) (terms : List Term) : Except MErr (Option K) := do
  let (factor, decomposed) ← decomposeAll c terms 1 []
  let x ← expressTerms decomposed
  if exprEq x [mkTerm 1 one 1] then return some factor
  let cancelled ← cancelTerms decomposed
  let reduced ← expressTerms cancelled
  let r ← resolveTerms c reduced
  return (truthy r).map (factor * ·)

/-- `_convert_as_expressions` (`_conversions.py` 161-174). -/
def convertAsExpressions (c : Conv K) (u₀ u₁ : Name) : Except MErr (Option K) := do
  let e₀ ← ofSym (exprOfString false u₀)
  let e₁ ← ofSym (exprOfString false u₁)
  if exprEq e₀ e₁ then return some 1
  let q ← ofSym (exprDiv e₀ e₁)
  let terms := q.filter (fun t => decide (t.base ∉ unity))
  let r ← resolveTerms c terms
  match truthy r with
  | some f => return some f
  | none => let r ← convertByDimensions c terms
            return truthy r

/-- `_convert` (`_conversions.py` 99-112), with the factor in `K`. -/
def convert (c : Conv K) (u₀ u₁ : Name) : Except MErr K :=
  match convertAsStrings c.env u₀ u₁ with
  | some f => .ok (c.pw f 1)
  | none =>
    match convertAsExpressions c u₀ u₁ with
    | .error e => .error e
    | .ok r => match truthy r with
      | some f => .ok f
      | none => .error .conversion

/-- Integer powers of rationals, to evaluate the model. -/
def ratPow (f e : ℚ) : ℚ := if e.den = 1 then f ^ e.num else 0

/-- The nodes of the graph of conversions, in the order of the table. -/
def tableNodes : List Name := (conversions.keys.flatMap (fun e => [e.1, e.2])).eraseDups

/-- The conversions of the package, to evaluate the model. -/
def ratConv : Conv ℚ := ⟨realEnv tableNodes, ratPow, [.mks, .cgs]⟩

end Eprem.Metric
