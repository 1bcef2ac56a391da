import Verif.Model.Measurable

/-!
# Model of `quantity.ismeasurable` (`quantity/_functions.py` 32-78)

The objects are those of `parse` (C41): none of them has a method `__measure__`, so that `base.ismeasurable` is false.
-/

namespace Eprem.Measurable

open Eprem Eprem.Symbolic Eprem.Metric

variable {R : Type}

/-- `etc.isnull(x)` (`etc.py` 477-492). -/
def Obj.isNull : Obj R → Bool
  | .none => true
  | .str s => s.isEmpty
  | .range l => l.isEmpty
  | .seq l => l.isEmpty
  | _ => false

/-- `metric.unitlike(args[-1])` (`metric/_units.py` 534-557). -/
def Obj.unitLike (o : Option (Obj R)) : Bool :=
  match o with
  | some (.str _) => true
  | some (.unit _) => true
  | _ => false

/-- `values = args[0] if isiterable(args[0]) else args[:-1]; all(isinstance(value, Real) for value in values)`
(`quantity/_functions.py` 71-74, `container.py` 1107-1113).  Strings are iterables of strings, units of terms. -/
def valuesReal (args : List (Obj R)) : Bool :=
  match args.head? with
  | some (.seq l) => l.all Obj.isNum
  | some (.range _) => true
  | some (.str s) => s.isEmpty
  | some (.unit _) => false
  | _ => args.dropLast.all Obj.isNum

mutual
/-- `ismeasurable(x)` after the test for empty objects (`quantity/_functions.py` 60-78).  Lists of one member are those that
`container.unwrap` opens. -/
def measurableArgs : Obj R → Bool
  | .none => false
  | .num _ => true
  | .str _ => false
  | .unit _ => false
  | .range _ => true
  | .seq [] => true
  | .seq [x] => measurableArgs x
  | .seq (x :: y :: l) =>
    (x :: y :: l).all Obj.isNum || (Obj.unitLike (x :: y :: l).getLast? && valuesReal (x :: y :: l)) ||
      allMeasurable (x :: y :: l)
/-- `all(isinstance(i, (list, tuple)) and ismeasurable(i) for i in args)` (`quantity/_functions.py` 76). -/
def allMeasurable : List (Obj R) → Bool
  | [] => true
  | x :: l => x.isSeq && (!x.isNull && measurableArgs x) && allMeasurable l
end

/-- `ismeasurable(x)` (`quantity/_functions.py` 32-78). -/
def ismeasurable (x : Obj R) : Bool := !x.isNull && measurableArgs x

end Eprem.Measurable
