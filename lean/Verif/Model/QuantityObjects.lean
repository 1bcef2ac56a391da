import Verif.Model.ObservableAlgebra

/-!
# Observable quantities as objects

A model of what a program gets from one `Quantities` object: which objects are the same, and which are equal
(`observable/_objects.py`, `observable/_interfaces.py`).  The functions that observe are told apart by their identities: a bound
method by its name, a function made by `_apply` by a number.
-/

namespace Eprem.Observable

open Eprem Eprem.Symbolic Eprem.Metric

/-- The algebraic operators of quantities. -/
inductive BinaryKind
  | add | sub | mul | div
  deriving DecidableEq

/-- The function of a quantity: a bound method (`_interfaces.py` 1772-1781), or the function `__f` that `_apply` defines
(`_objects.py` 569-574), with its identity and what it closes over. -/
inductive Op
  | method (name : Name)
  | binary (id : Nat) (kind : BinaryKind) (p q : Op)
  | power (id : Nat) (p : Op) (e : ℚ)
  deriving DecidableEq

/-- `f == g` for functions: bound methods of one object are equal if their names are, other functions if they are the same. -/
def Op.same : Op → Op → Bool
  | .method a, .method b => decide (a = b)
  | .binary a _ _ _, .binary b _ _ _ => decide (a = b)
  | .power a _ _, .power b _ _ => decide (a = b)
  | .binary a _ _ _, .power b _ _ => decide (a = b)
  | .power a _ _, .binary b _ _ _ => decide (a = b)
  | _, _ => false

/-- A `Quantity` object with its identity (`_objects.py` 390-404); the axes and the grid are the same for all quantities. -/
structure QObj where
  id : Nat
  op : Op
  unit : List Term
  dims : List Name

/-- `p == q` (`_objects.py` 296-304, 487-494). -/
def QObj.eq (p q : QObj) : Bool :=
  (exprEq p.unit q.unit && decide (p.dims = q.dims)) && Op.same p.op q.op

/-- What does not change: the alias of a name, the parser of names, the methods with their units and dimensions, whether units
are consistent, and the order of the metric systems. -/
structure Observables where
  canonical : Name → Name
  parse : Name → Except QErr (List Term)
  defined : Name → Option (List Term × List Name)
  consistent : List Term → List Term → Except QErr Bool
  float : ℚ → Bool
  order : List System

/-- What a program has made so far: the cache, and how many objects and functions there are. -/
structure Session where
  cache : Dict Name QObj
  objects : Nat
  functions : Nat

/-- `Quantity(context, unit, dimensions)`: a new object. -/
def newObject (s : Session) (op : Op) (unit : List Term) (dims : List Name) : Session × Except QErr QObj :=
  (⟨s.cache, s.objects + 1, s.functions⟩, .ok ⟨s.objects, op, unit, dims⟩)

/-- `p ** e` (`_objects.py` 544-555). -/
def objPow (E : Observables) (s : Session) (p : QObj) (e : ℚ) : Session × Except QErr QObj :=
  match unitPow (E.float e) p.unit e with
  | .error err => (s, .error (.metric err))
  | .ok u => newObject ⟨s.cache, s.objects, s.functions + 1⟩ (.power s.functions p.op e) u p.dims

/-- The unit and the dimensions of `p + q`, `p - q`, `p * q` and `p / q` (`_objects.py` 496-542, 557-567). -/
def binaryAttrs (E : Observables) (kind : BinaryKind) (p q : QObj) : Except QErr (List Term × List Name) :=
  match kind with
  | .add | .sub => if exprEq p.unit q.unit && decide (p.dims = q.dims) then .ok (p.unit, p.dims) else .error .value
  | .mul | .div =>
    match (if kind = .mul then unitMul E.order p.unit q.unit else unitDiv E.order p.unit q.unit) with
    | .error e => .error (.metric e)
    | .ok u => match Numeric.dimsOr p.dims q.dims with
      | .error _ => .error .value
      | .ok d => .ok (u, d)

/-- `p + q`, `p - q`, `p * q`, `p / q` (`_objects.py` 496-542, 569-574). -/
def objBinary (E : Observables) (s : Session) (kind : BinaryKind) (p q : QObj) : Session × Except QErr QObj :=
  match binaryAttrs E kind p q with
  | .error e => (s, .error e)
  | .ok (u, d) => newObject ⟨s.cache, s.objects, s.functions + 1⟩ (.binary s.functions kind p.op q.op) u d

/-- `p.withunit(new)` (`_objects.py` 576-586). -/
def objWithunit (E : Observables) (s : Session) (p : QObj) (new : List Term) : Session × Except QErr QObj :=
  if exprEq p.unit new then (s, .ok p)
  else match E.consistent p.unit new with
    | .error e => (s, .error e)
    | .ok true => newObject s p.op new p.dims
    | .ok false => (s, .error .value)

/-- `_get_observable(key)` (`_interfaces.py` 1136-1143): the property makes a new object. -/
def objNamed (E : Observables) (s : Session) (key : Name) : Session × Except QErr QObj :=
  match E.defined (E.canonical key) with
  | none => (s, .error .key)
  | some (u, d) => newObject s (.method (E.canonical key)) u d

/-- The loop of `_build_observable` (`_interfaces.py` 1131-1133). -/
def objTerms (E : Observables) : Session → QObj → List Term → Session × Except QErr QObj
  | s, this, [] => (s, .ok this)
  | s, this, t :: ts =>
    match objNamed E s t.base with
    | (s, .error e) => (s, .error e)
    | (s, .ok q) => match objPow E s q t.exp with
      | (s, .error e) => (s, .error e)
      | (s, .ok p) => match objBinary E s .mul this p with
        | (s, .error e) => (s, .error e)
        | (s, .ok r) => objTerms E s r ts

/-- `_build_observable(key)` (`_interfaces.py` 1116-1134). -/
def objBuild (E : Observables) (s : Session) (key : Name) : Session × Except QErr QObj :=
  match E.parse (E.canonical key) with
  | .error e => (s, .error e)
  | .ok [] => (s, .error .index)
  | .ok (t :: ts) => match objNamed E s t.base with
    | (s, .error e) => (s, .error e)
    | (s, .ok q) =>
      if ts = [] ∧ t.exp = 1 then (s, .ok q)
      else match objPow E s q t.exp with
        | (s, .error e) => (s, .error e)
        | (s, .ok p) => objTerms E s p ts

/-- `quantities[key]` (`_interfaces.py` 1108-1114). -/
def objGet (E : Observables) (s : Session) (key : Name) : Session × Except QErr QObj :=
  match s.cache.get? key with
  | some q => (s, .ok q)
  | none => match objBuild E s key with
    | (s, .error e) => (s, .error e)
    | (s, .ok q) => (⟨s.cache.set key q, s.objects, s.functions⟩, .ok q)

/-- A step of a program; earlier results are given by their positions. -/
inductive Cmd
  | get (key : Name)
  | binary (kind : BinaryKind) (i j : Nat)
  | power (i : Nat) (e : ℚ)
  | withunit (i : Nat) (new : List Term)

/-- One step; a step on a result that does not exist or is an exception is an exception. -/
def stepCmd (E : Observables) (s : Session) (results : List (Except QErr QObj)) : Cmd → Session × Except QErr QObj
  | .get key => objGet E s key
  | .binary kind i j => match results[i]?, results[j]? with
    | some (.ok p), some (.ok q) => objBinary E s kind p q
    | _, _ => (s, .error .argument)
  | .power i e => match results[i]? with
    | some (.ok p) => objPow E s p e
    | _ => (s, .error .argument)
  | .withunit i new => match results[i]? with
    | some (.ok p) => objWithunit E s p new
    | _ => (s, .error .argument)

/-- A program: the session and the results after its steps. -/
def runCmds (E : Observables) : Session → List (Except QErr QObj) → List Cmd → Session × List (Except QErr QObj)
  | s, results, [] => (s, results)
  | s, results, c :: cs =>
    match stepCmd E s results c with
    | (s, r) => runCmds E s (results ++ [r]) cs

end Eprem.Observable
