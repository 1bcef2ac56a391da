import Verif.Model.IsMeasurable
import Verif.Spec.Measurable

/-!
# Specification vocabulary for `ismeasurable` (C114)
-/

namespace Eprem.Measurable

open Eprem Eprem.Symbolic Eprem.Metric

variable {R : Type}

/-- Well-formed input: nothing in it is empty, every string can be read as a unit, and a list or range of values is followed by
at most one other object, unless all are lists. -/
inductive Formed : Obj R → Prop
  | none : Formed .none
  | num (x : R) : Formed (.num x)
  | str (s : Name) (hs : s ≠ []) (h : UnitText s) : Formed (.str s)
  | unit (s : Name) : Formed (.unit s)
  | range (l : List R) (hl : l ≠ []) : Formed (.range l)
  | seq (l : List (Obj R)) (hl : l ≠ []) (h : ∀ x ∈ l, Formed x)
      (hs : ∀ v rest, l = .seq v :: rest → l.all Obj.isSeq = true ∨ rest.length ≤ 1)
      (hr : ∀ v rest, l = .range v :: rest → rest.length ≤ 1) : Formed (.seq l)

end Eprem.Measurable
