import Verif.Model.MetricConvert
import Verif.Model.Aliased

/-!
# Model of the caches: `conversion_factory` (`metric/_conversions.py` 62-97), the registry of named units
(`metric/_defined.py` 202-242) and `unit_factory` (`metric/_units.py` 395-451)
-/

namespace Eprem.Metric

open Eprem Eprem.Symbolic Eprem.Aliased

/-! ## Conversions -/

section
variable {K : Type} [Field K] [DecidableEq K]

/-- The module-level dictionary `_conversions` (`_conversions.py` 62); the values are the factors of the stored
`Conversion` objects, which are always true (lines 40-42). -/
abbrev Cache (K : Type) := Dict (Name × Name) K

/-- `conversion_factory` (`_conversions.py` 70-97). -/
def conversionFactory (c : Conv K) (st : Cache K) (u₀ u₁ : Name) : Cache K × Except MErr K :=
  match st.get? (u₀, u₁) with
  | some f => (st, .ok f)
  | none => match convert c u₀ u₁ with
    | .error e => (st, .error e)
    | .ok f => ((st.set (u₀, u₁) f).set (u₁, u₀) (1 / f), .ok f)

/-- The cache after a sequence of requests. -/
def afterRequests (c : Conv K) : Cache K → List (Name × Name) → Cache K
  | st, [] => st
  | st, (u, v) :: rs => afterRequests c (conversionFactory c st u v).1 rs

end

/-! ## Named units -/

/-- `NamedUnit(string)` (`_defined.py` 210-242) with its registry of instances. -/
def namedFactory (m : AMap Name Entry) (s : Name) : AMap Name Entry × Except MErr Entry :=
  match m.getItem s with
  | .ok e => (m, .ok e)
  | .error _ => match namedUnit s with
    | .error e => (m, .error e)
    | .ok e => (m.setTuple [e.name, e.symbol] e, .ok e)

/-- The registry after a sequence of requests. -/
def namedAfter : AMap Name Entry → List Name → AMap Name Entry
  | m, [] => m
  | m, s :: ss => namedAfter (namedFactory m s).1 ss

/-! ## Units -/

/-- `Term.base_is_valid` (`symbolic/_operand.py` 646-668) for the symbols of the tables, which are `1` or contain no
digit. -/
def baseIsValid (s : Name) : Bool := s = one || (s ≠ [] && s.all isLetter)

/-- `_as_symbol` (`_units.py` 505-510); a coefficient is dropped. -/
def asSymbol (t : Term) : Except MErr Term :=
  match named t.base with
  | none => .error .key
  | some e => if baseIsValid e.symbol then .ok (mkTerm 1 e.symbol t.exp) else .error .value

/-- The unit that `unit_factory(string)` creates the first time (`_units.py` 414-420). -/
def freshUnit (s : Name) : Except MErr (List Term) := do
  let e ← ofSym (exprOfString false s)
  mapE asSymbol e

/-- `unit_factory(string)` (`_units.py` 398-451).  `nu` is what `NamedUnit` makes of a string, `none` if it raises
`UnitParsingError`. -/
def unitFactory (nu : Name → Option Entry) (m : AMap Name (List Term)) (s : Name) :
    AMap Name (List Term) × Except MErr (List Term) :=
  match m.getItem s with
  | .ok u => (m, .ok u)
  | .error _ => match freshUnit s with
    | .error e => (m, .error e)
    | .ok u =>
      let name := showExpr u
      if m.contains name then
        match m.getItem name with
        | .error _ => (m, .error .key)
        | .ok existing => match m.alias name [s] with
          | (m', none) => (m', .ok existing)
          | (m', some _) => (m', .error .key)
      else match nu name with
        | some e => (m.setTuple [e.name, e.symbol] u, .ok u)
        | none => (m.setTuple [name, s] u, .ok u)

/-- The units after a sequence of requests, each with the registry of named units at that time. -/
def unitsAfter : AMap Name (List Term) → List ((Name → Option Entry) × Name) → AMap Name (List Term)
  | m, [] => m
  | m, (nu, s) :: rs => unitsAfter (unitFactory nu m s).1 rs

/-- An empty `aliased.MutableMapping`. -/
def noUnits {ν : Type} : AMap Name ν := .ofDict []

end Eprem.Metric
