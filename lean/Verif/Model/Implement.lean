import Mathlib.Logic.Function.Basic
import Mathlib.Data.List.Basic

/-!
# Model of the registration of custom operators and numpy functions (`src/eprempy/numeric/_mixins.py`)

A class is the list of its name and the names of its bases up to the root, which is `numeric.mixins.Operators` (single
inheritance).  Implementations and callables are numbers, equal exactly if the objects are the same.  The groups of
operators (`'unary'`, ...) are not among the names.
-/

namespace Eprem.Implement

/-- A class, by its path to the root. -/
abbrev Cls := List Nat

/-- Exceptions. -/
inductive Err
  | type | notImplemented | key
  deriving DecidableEq, Repr

/-- The argument of `resolve` and `implements`: a text, a callable, or an object that is neither. -/
inductive Req
  | name (s : String)
  | call (c : Nat)
  | other
  deriving DecidableEq, Repr

/-- The table `_OPERATORS` (`_operations.py` 410-411, 296-318): the operator for each name and alias, and whether a
callable is one of its values. -/
structure Table where
  names : String → Option Nat
  canon : Nat → Bool

/-- `resolve(operation)` (`_operations.py` 426-438). -/
def resolve (T : Table) : Req → Except Err (Option Nat)
  | .other => .error .type
  | .name s => .ok (T.names s)
  | .call c => .ok (if T.canon c then some c else none)

/-- A dictionary of implementations, by operation. -/
abbrev Dict := Nat → Option Nat

/-- The value of an attribute of each class whose body sets it, `_OPERATORS` or `_FUNCTIONS` (`_mixins.py` 284, 381; for
instance `physical/_array.py` 137-138, `real/_array.py` 58-59).  `none` where the class inherits it, or has `None`. -/
abbrev Attr := Cls → Option Dict

/-- The nearest class on the path that has its own dictionary. -/
def owner (d : Attr) : Cls → Option Cls
  | [] => if (d []).isSome then some [] else none
  | n :: b => if (d (n :: b)).isSome then some (n :: b) else owner d b

/-- The dictionary that `cls._FUNCTIONS` or `cls._OPERATORS` gives. -/
def attr (d : Attr) (c : Cls) : Option Dict := (owner d c).bind d

/-- `cls._FUNCTIONS[k] = f` (`_mixins.py` 335-342) and `cls._OPERATORS[k] = f` (404-411): the dictionary belongs to the
nearest class that has one. -/
def assign (d : Attr) (c : Cls) (k f : Nat) : Except Err Attr :=
  match owner d c with
  | none => .error .notImplemented
  | some o => .ok (fun c' => if c' = o then (d o).map (fun t => Function.update t k (some f)) else d c')

/-- The dictionaries of all classes. -/
structure State where
  ops : Attr
  fns : Attr

/-- `cls.implements(operation)(user_function)` (`_mixins.py` 384-412 and, for what is not an operator, 287-343). -/
def implements (T : Table) (S : State) (c : Cls) (r : Req) (f : Nat) : Except Err State := do
  match ← resolve T r with
  | some k => return { S with ops := ← assign S.ops c k f }
  | none => match r with
    | .call u => return { S with fns := ← assign S.fns c u f }
    | _ => throw .type

/-- `cls._implements(operation)` (`_mixins.py` 365-379, and 271-282 for what is not an operator). -/
def hasImpl (T : Table) (S : State) (c : Cls) (r : Req) : Except Err Bool := do
  match ← resolve T r with
  | some k => return match attr S.ops c with
    | some t => (t k).isSome
    | none => false
  | none => return match attr S.fns c, r with
    | some t, .call u => (t u).isSome
    | _, _ => false

/-- An argument: an instance of a class below `numeric.Object` with its data, another object that the lists
`_UFUNC_TYPES` accepts, or an object of a foreign type. -/
inductive Arg
  | obj (c : Cls) (data : Nat)
  | plain (v : Nat)
  | foreign (v : Nat)
  deriving DecidableEq, Repr

/-- The types of `_UFUNC_TYPES` (`_mixins.py` 53-58). -/
def Arg.accepted : Arg → Bool
  | .foreign _ => false
  | _ => true

/-- `x._data if isinstance(x, Object) else x` (`_mixins.py` 88-92), and `_get_arg_data` (236-254). -/
def Arg.unwrap : Arg → Arg
  | .obj _ d => .plain d
  | a => a

/-- What a call does: it gives `NotImplemented`, or the result of a custom implementation, or the result of numpy's own
operation, or `None` after numpy's own operation. -/
inductive Result
  | notImplemented
  | custom (f : Nat) (args out : List Arg)
  | numpy (u : Nat) (method : String) (args out : List Arg)
  | none (u : Nat) (method : String) (args out : List Arg)
  deriving DecidableEq, Repr

/-- `self.__object_operator__(operation, *args)` (`_mixins.py` 349-362). -/
def objectOperator (T : Table) (S : State) (c : Cls) (r : Req) (args : List Arg) : Except Err Result := do
  if ← hasImpl T S c r then
    match ← resolve T r with
    | some k => match (attr S.ops c).bind (· k) with
      | some f => return .custom f args []
      | none => throw .key
    | none => throw .key
  else return .notImplemented

/-- `self.__array_ufunc__(ufunc, method, *args, out=out)` (`_mixins.py` 60-97), with `_apply_ufunc` (99-132) for what has
no custom implementation.  Failures of numpy's own operation are not modelled. -/
def arrayUfunc (T : Table) (S : State) (c : Cls) (u : Nat) (method : String) (args out : List Arg) :
    Except Err Result := do
  if !((args ++ out).all Arg.accepted) then return .notImplemented
  let out' := out.map Arg.unwrap
  if ← hasImpl T S c (.call u) then
    match (attr S.fns c).bind (· u) with
    | some f => return .custom f args out'
    | none => throw .key
  else
    let values := args.map Arg.unwrap
    return if method ≠ "at" then .numpy u method values out' else .none u method values out'

/-- `unary(operation)` and `binary(operation)` of `_implementation.py` (37-54) for an instance that has
`__object_operator__`: the operator resolved in the body of the class is passed on.  An unknown name is passed as
`None`, which is not callable. -/
def operatorMethod (T : Table) (S : State) (c : Cls) (r : Req) (args : List Arg) : Except Err Result := do
  match ← resolve T r with
  | some k => objectOperator T S c (.call k) args
  | none => objectOperator T S c .other args

/-- The second method of `doublet(operation)` (`_implementation.py` 57-68): the operands in the order of the expression,
so that `self` is the second. -/
def reverseMethod (T : Table) (S : State) (c : Cls) (r : Req) (self other : Arg) : Except Err Result :=
  operatorMethod T S c r [other, self]

/-- A registration: the class, the operation, and the implementation. -/
structure Reg where
  cls : Cls
  op : Req
  impl : Nat

/-- One registration of a history; a registration that fails changes nothing. -/
def step (T : Table) (S : State) (e : Reg) : State :=
  match implements T S e.cls e.op e.impl with
  | .ok S' => S'
  | .error _ => S

/-- The state after this history. -/
def run (T : Table) (S : State) (es : List Reg) : State := es.foldl (step T) S

end Eprem.Implement
