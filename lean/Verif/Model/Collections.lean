import Verif.Model.Terms

/-!
# Expressions as sequences and sets of terms

A model of `__getitem__`, `__len__`, `__contains__`, `index`, `count`, `difference`, `__hash__` and `apply` of
`symbolic.Expression` (`symbolic/_expression.py`), which is a `collections.abc.Sequence`.
-/

namespace Eprem.Symbolic

/-- Python's `l[i]` for a list and an integer. -/
def listItem {α : Type} (l : List α) (i : Int) : Option α :=
  if 0 ≤ i then l[i.toNat]? else if -(l.length : Int) ≤ i then l[(i + l.length).toNat]? else none

/-- `Expression.__getitem__(index)` for integers (`_expression.py` 44-52); `none` is an `IndexError`. -/
def getTerm (e : List Term) (i : Int) : Option Term :=
  if i > e.length then none else listItem e (if i < 0 then i + e.length else i)

/-- `value in expression`, inherited from `Sequence`: it iterates over the terms (`_expression.py` 32-33), which are compared
with `Operand.__eq__` (`_operand.py` 96-105). -/
def hasTerm (e : List Term) (t : Term) : Bool := e.any (fun u => termEq u t)

/-- `expression.count(value)`, inherited from `Sequence` (`_expression.py` 15, 32-33). -/
def countTerm (e : List Term) (t : Term) : Nat := (e.filter (fun u => termEq u t)).length

/-- The loop of `Sequence.index(value)`, on `__getitem__` (`_expression.py` 15, 44-58), from a position on; `fuel` bounds the
number of steps.  `none` is a `ValueError`. -/
def indexFrom (e : List Term) (t : Term) : Nat → Nat → Option Nat
  | 0, _ => none
  | fuel + 1, i => match getTerm e i with
    | none => none
    | some u => if termEq u t then some i else indexFrom e t fuel (i + 1)

/-- `expression.index(value)` (`_expression.py` 15, 44-58): one step for each term and one beyond the end. -/
def indexTerm (e : List Term) (t : Term) : Option Nat := indexFrom e t (e.length + 1) 0

/-- The terms that `set` holds to be the same: those with equal hashes that compare equal (`_operand.py` 96-105, 777-782).
The hash is any function of coefficient, base and exponent. -/
def sameEntry (hash : Term → Int) (t u : Term) : Bool := decide (hash t = hash u) && termEq t u

/-- `set(terms)`: the first of the terms that are the same (`_expression.py` 141-142). -/
def asSet (hash : Term → Int) (ts : List Term) : List Term :=
  ts.foldl (fun s t => if s.any (fun u => sameEntry hash u t) then s else s ++ [t]) []

/-- `s0 - s1` for sets of terms. -/
def setMinus (hash : Term → Int) (s r : List Term) : List Term := s.filter (fun t => !r.any (fun u => sameEntry hash u t))

/-- `e0.difference(e1, symmetric, split)` (`_expression.py` 82-147); with `split` there are two sets, otherwise one. -/
def difference (hash : Term → Int) (a b : List Term) (symmetric split : Bool) : List (List Term) :=
  if split then [setMinus hash (asSet hash a) (asSet hash b), setMinus hash (asSet hash b) (asSet hash a)]
  else if symmetric then
    [setMinus hash (asSet hash a) (asSet hash b) ++ setMinus hash (asSet hash b) (asSet hash a)]
  else [setMinus hash (asSet hash a) (asSet hash b)]

/-- What `hash(expression)` is computed from: the terms, in their order (`_expression.py` 149-151). -/
def hashedTerms (e : List Term) : List (Rat × Str × Rat) := e.map (fun t => (t.coeff, t.base, t.exp))

/-- The rest of `Expression.apply` (`_expression.py` 243-246). -/
def applyLoop (update : Str → Except Err (List Term)) (acc : List Term) : List Term → Except Err (List Term)
  | [] => .ok acc
  | t :: ts => do
    let x ← update t.base
    let p ← exprPow x t.exp
    let r ← exprMul acc p
    applyLoop update r ts

/-- `expression.apply(update)` (`_expression.py` 226-246), for functions that give expressions; all of them are called
before the powers are computed, which only matters for which exception is raised. -/
def applyTo (update : Str → Except Err (List Term)) : List Term → Except Err (List Term)
  | [] => .error .notImplemented
  | t :: ts => do
    let x ← update t.base
    let p ← exprPow x t.exp
    applyLoop update p ts

end Eprem.Symbolic
