import Verif.Model.MetricTables
import Verif.Model.Symbolic

/-!
# Model of unit conversion: `metric/_conversions.py` and the parts of `metric/_defined.py` it uses

Numerical factors are exact rationals until a factor is raised to the exponent of a term; the result of that lives
in a field `K` with a power function (`ℝ` for the theorems, `ℚ` for the examples).  Python's `if factor := ...` treats
a factor of zero as absent: `truthy`.
-/

namespace Eprem.Metric

open Eprem Eprem.Container

/-! ## Named units -/

/-- `n` without the leading `p`. -/
def strip? : Name → Name → Option Name
  | [], n => some n
  | _ :: _, [] => none
  | a :: p, b :: n => if a = b then strip? p n else none

/-- The metric prefixes other than the unit and null prefixes. -/
def scaledPrefixes : List Prefix := prefixes.filter (fun p => decide (p.factor ≠ 0 ∧ p.factor ≠ 1))

/-- The base unit, other than the unitless one, with this symbol (or name). -/
def findBase (get : BaseUnit → Name) (rest : Name) : Option BaseUnit :=
  baseUnits.find? (fun u => decide (get u = rest ∧ u.quantity ≠ c! "identity"))

/-- `n` read as the prefix `p` followed by a base unit. -/
def namedScaled (n : Name) (p : Prefix) : Option Entry :=
  match (strip? p.symbol n).bind (findBase (·.symbol)) with
  | some u => some ⟨p, u⟩
  | none => match (strip? p.name n).bind (findBase (·.name)) with
    | some u => some ⟨p, u⟩
    | none =>
      if p.symbol = c! "μ" then
        match (strip? c! "u" n).bind (findBase (·.symbol)) with
        | some u => some ⟨p, u⟩
        | none => none
      else none

/-- `NAMED_UNITS[n]` (`_reference.py` 294-339), computed by splitting the name; `c22_lookup` shows that it is the
look-up in the aliased mapping built from the tables. -/
def named (n : Name) : Option Entry :=
  match baseUnits.find? (fun u => decide (u.symbol = n ∨ u.name = n)) with
  | some u => some ⟨basePrefix, u⟩
  | none => scaledPrefixes.findSome? (namedScaled n)

/-- `NamedUnit.symbol` (`_defined.py` 236-237, 415-420). -/
def Entry.symbol (e : Entry) : Name := e.prefix_.symbol ++ e.base.symbol

/-- `NamedUnit.name` (`_defined.py` 235, 408-413). -/
def Entry.name (e : Entry) : Name := e.prefix_.name ++ e.base.name

/-- `NamedUnit.scale` (`_defined.py` 243, 422-427). -/
def Entry.scale (e : Entry) : ℚ := e.prefix_.factor

/-- `ratio(this, that)` for two named units (`_defined.py` 721-773); `none` is `ValueError`. -/
def ratio (e₀ e₁ : Entry) : Option ℚ :=
  if e₁.prefix_ = e₀.prefix_ ∧ e₁.base = e₀.base then some 1
  else if e₁.base ≠ e₀.base then none
  else some (e₀.scale / e₁.scale)

/-! ## Conversion of strings -/

/-- What the conversion of strings reads: the resolution of names to named units, the graph of conversions and the
iteration order of the set of its nodes (`CONVERSIONS.nodes`), which CPython leaves unspecified. -/
structure Env where
  named : Name → Option Entry
  graph : Graph Name ℚ
  nodes : List Name

/-- `if factor := ...`: a factor of zero counts as absent. -/
def truthy {K : Type} [Zero K] [DecidableEq K] : Option K → Option K
  | some f => if f = 0 then none else some f
  | none => none

/-- `_get_aliases_of` (`_conversions.py` 283-293). -/
def aliasesOf (E : Env) (u : Name) : List Name :=
  u :: match E.named u with
    | some e => [e.symbol, e.name]
    | none => []

/-- `_search` (`_conversions.py` 265-280). -/
def search (E : Env) (u₀ u₁ : Name) : Option ℚ :=
  match E.graph.get? (u₀, u₁) with
  | some w => some w
  | none => (aliasesOf E u₀).findSome? (fun ux => (aliasesOf E u₁).findSome? (fun uy => E.graph.get? (ux, uy)))

/-- `_simple_conversion` (`_conversions.py` 176-198). -/
def simpleConversion (E : Env) (u₀ u₁ : Name) (scale : ℚ) : Option ℚ :=
  if u₀ = u₁ then some scale
  else match truthy (search E u₀ u₁) with
    | some found => some (scale * found)
    | none => match E.named u₀, E.named u₁ with
      | some e₀, some e₁ => (ratio e₀ e₁).map (scale * ·)
      | _, _ => none

/-- The loop of `_rescale` (`_conversions.py` 256-262). -/
def rescaleLoop (E : Env) (e₀ : Entry) (u₁ : Name) : List Name → Option ℚ
  | [] => none
  | ux :: rest =>
    match E.named ux with
    | none => rescaleLoop E e₀ u₁ rest
    | some ex =>
      if ex.base = e₀.base then
        match truthy (search E ux u₁) with
        | some found => (ratio e₀ ex).map (· * found)
        | none => rescaleLoop E e₀ u₁ rest
      else rescaleLoop E e₀ u₁ rest

/-- `_rescale` (`_conversions.py` 236-262). -/
def rescale (E : Env) (u₀ u₁ : Name) : Option ℚ :=
  match E.named u₀ with
  | none => none
  | some e₀ => rescaleLoop E e₀ u₁ E.nodes

/-- `_rescale_conversion` (`_conversions.py` 201-233). -/
def rescaleConversion (E : Env) (u₀ u₁ : Name) (scale : ℚ) : Option ℚ :=
  match (if u₀ ∈ E.nodes then none else truthy (rescale E u₀ u₁)) with
  | some c => some (scale * c)
  | none => match (if u₁ ∈ E.nodes then none else truthy (rescale E u₁ u₀)) with
    | some c => some (scale / c)
    | none => none

/-- `_standard_conversion` (`_conversions.py` 140-158). -/
def standardConversion (E : Env) (u₀ u₁ : Name) (scale : ℚ) : Option ℚ :=
  match truthy (simpleConversion E u₀ u₁ scale) with
  | some f => some f
  | none => truthy (rescaleConversion E u₀ u₁ scale)

/-- The loop over the adjacent units in `_recursive_conversion` (`_conversions.py` 134-137); `go` is the recursive
call, which also updates the list of checked units. -/
def recursiveLoop (go : List Name → Name → List Name × Option ℚ) :
    List (Name × ℚ) → List Name → List Name × Option ℚ
  | [], checked => (checked, none)
  | (unit, weight) :: rest, checked =>
    match truthy (go checked unit).2 with
    | some value => ((go checked unit).1, some (weight * value))
    | none => recursiveLoop go rest (go checked unit).1

/-- `_recursive_conversion` (`_conversions.py` 122-137): the list of checked units afterwards, and the factor.  The
first argument bounds the depth of the recursion. -/
def recursiveConversion (E : Env) (u₁ : Name) (scale : ℚ) : Nat → List Name → Name → List Name × Option ℚ
  | 0, checked, _ => (checked, none)
  | n + 1, checked, u₀ =>
    if u₀ ∈ checked then (checked, none)
    else match truthy (standardConversion E u₀ u₁ scale) with
      | some f => (checked ++ [u₀], some f)
      | none => recursiveLoop (recursiveConversion E u₁ scale n) (getAdjacencies E.graph u₀) (checked ++ [u₀])

/-- `_convert_as_strings` (`_conversions.py` 115-119).  Every unit is checked at most once, so a depth of two more
than twice the number of edges is never exceeded (`c19_connected`). -/
def convertAsStrings (E : Env) (u₀ u₁ : Name) : Option ℚ :=
  truthy (recursiveConversion E u₁ 1 (2 * E.graph.length + 2) [] u₀).2

/-- The tables of the package, with some iteration order of the nodes. -/
def realEnv (nodes : List Name) : Env := ⟨named, conversions, nodes⟩

end Eprem.Metric
