import Verif.Model.MetricTables
import Verif.Spec.Symbolic
import Verif.Spec.Algebra

/-!
# Specification vocabulary for unit conversion (C19-C24)

A *size* assigns to every unit string the size of the unit on some common scale; it agrees with the tables when
every defined conversion and every pair of prefixes of one base unit has the right quotient.
-/

namespace Eprem.Metric

open Eprem

/-- `φ` gives every unit string a size that agrees with the tables: with the weight of every defined conversion, and
with the prefixes of every base unit; a unit has the same size under its symbol and its name. -/
structure Sizes (named : Name → Option Entry) (weight : Name → Name → Option ℚ) (φ : Name → ℚ) : Prop where
  pos : ∀ u, 0 < φ u
  edge : ∀ a b w, weight a b = some w → w = φ a / φ b
  scale : ∀ a b e₀ e₁, named a = some e₀ → named b = some e₁ → e₀.base = e₁.base →
    e₀.prefix_.factor / e₁.prefix_.factor = φ a / φ b
  symbol : ∀ a e, named a = some e → φ (e.prefix_.symbol ++ e.base.symbol) = φ a
  name : ∀ a e, named a = some e → φ (e.prefix_.name ++ e.base.name) = φ a

/-- A route through the defined conversions, and the product of the weights along it. -/
inductive Route (weight : Name → Name → Option ℚ) : Name → Name → ℚ → Prop
  | refl (u) : Route weight u u 1
  | step {u v t : Name} {w p : ℚ} : weight u v = some w → Route weight v t p → Route weight u t (w * p)

/-- A unit, raised to a power, that is replaced by another unit. -/
structure Swap where
  old : Name
  new : Name
  power : ℤ
deriving DecidableEq

/-- `old^power` -/
def Swap.oldTerm (s : Swap) : Symbolic.Term := ⟨1, s.old, s.power⟩

/-- `new^power` -/
def Swap.newTerm (s : Swap) : Symbolic.Term := ⟨1, s.new, s.power⟩

/-- A product of units, each under one symbol only, with integer exponents and no number except a lone `1`. -/
structure Plain (u : List Symbolic.Term) : Prop where
  names : Symbolic.NamesOnly u
  nodup : (u.map Symbolic.Term.base).Nodup
  number : Symbolic.one ∈ u.map Symbolic.Term.base → u = [⟨1, Symbolic.one, 1⟩]

end Eprem.Metric
