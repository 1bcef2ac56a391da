import Verif.Model.Cli

/-!
# Helpers on arguments

A model of `wrap`, `unwrap`, `Wrapper`, `isseparable`, `hastype`, `find_first`, `size`, `length` and `isshapelike`
(`container.py`) and of `join`, `allisinstance`, `widest` and `sentinel` (`etc.py`).
-/

namespace Eprem.Helpers

/-- Python text. -/
abbrev Str := List Char

/-- A Python object, as these helpers tell them apart: sets, mappings and arrays are left out; `real n` is some object of
another type that is neither iterable nor integral, such as a `float`. -/
inductive Py
  | none
  | bool (b : Bool)
  | int (n : ℤ)
  | real (n : ℤ)
  | str (s : Str)
  | bytes (b : List ℤ)
  | list (l : List Py)
  | tuple (l : List Py)

/-- The type of an object. -/
inductive Kind
  | none | bool | int | real | str | bytes | list | tuple
  deriving DecidableEq

/-- `type(x)`. -/
def Py.kind : Py → Kind
  | .none => .none
  | .bool _ => .bool
  | .int _ => .int
  | .real _ => .real
  | .str _ => .str
  | .bytes _ => .bytes
  | .list _ => .list
  | .tuple _ => .tuple

/-- `issubclass(a, b)`: `bool` is a kind of `int`. -/
def Kind.sub (a b : Kind) : Bool := decide (a = b) || (decide (a = .bool) && decide (b = .int))

/-- `isinstance(x, types)`. -/
def isInstance (x : Py) (types : List Kind) : Bool := types.any (fun t => x.kind.sub t)

/-- `iter(x)`: the members, or none where Python raises `TypeError` (`isiterable`, `container.py` 1107-1113).  Iterating over
text gives texts of one character, over `bytes` integers. -/
def iter : Py → Option (List Py)
  | .str s => some (s.map (fun c => .str [c]))
  | .bytes b => some (b.map .int)
  | .list l => some l
  | .tuple l => some l
  | _ => .none

/-- `wrap(arg)` (`container.py` 163-185). -/
def wrap : Py → List Py
  | .none => []
  | .str s => [.str s]
  | x => match iter x with
    | .none => [x]
    | some l => l

/-- The loop of `unwrap(obj)` (`container.py` 154-157). -/
def unwrap : Py → Py
  | .list [x] => unwrap x
  | .tuple [x] => unwrap x
  | x => x

/-- `unwrap(obj, newtype=list)` and `unwrap(obj, newtype=tuple)`, as the members of the result (`container.py` 154-160). -/
def unwrapAs (x : Py) : List Py := wrap (unwrap x)

/-- `isseparable(x)` (`container.py` 233-248). -/
def isSeparable (x : Py) : Bool :=
  match iter x with
  | .none => false
  | some _ => !isInstance x [.str, .bytes]

/-- The loop of `hastype` over the wrappers (`container.py` 335-338); none is a `TypeError`, from iterating over an object that
is not iterable. -/
def hasTypeLoop (x : Py) (types : List Kind) (strict : Bool) : List Kind → Option Bool
  | [] => some false
  | w :: ws =>
    if isInstance x [w] then
      match iter x with
      | .none => .none
      | some l => some (if strict then l.all (fun i => isInstance i types) else l.any (fun i => isInstance i types))
    else hasTypeLoop x types strict ws

/-- `hastype(obj, types, *wrappers, strict=…)` (`container.py` 251-338); none is a `TypeError`. -/
def hasType (x : Py) (types : List Kind) (wrappers : List Kind) (strict : Bool) : Option Bool :=
  if isInstance x types then some true else hasTypeLoop x types strict wrappers

/-- `find_first(type, *args)` (`container.py` 341-345). -/
def findFirst (t : Kind) : List Py → Option Py
  | [] => .none
  | x :: xs => if isInstance x [t] then some x else findFirst t xs

/-- `length(this)` (`container.py` 794-808): text has its number of characters. -/
def length (x : Py) : Nat := ((iter x).getD []).length

mutual
/-- `size(x)` (`container.py` 1139-1153); none is a `TypeError`. -/
def size : Py → Option Nat
  | .list l => sizeLoop l
  | .tuple l => sizeLoop l
  | _ => .none
/-- The loop of `size` (`container.py` 1147-1153). -/
def sizeLoop : List Py → Option Nat
  | [] => some 0
  | y :: ys =>
    match (if (iter y).isSome then size y else some 1), sizeLoop ys with
    | some n, some m => some (n + m)
    | _, _ => .none
end

/-- `bool(x)`: whether an object counts as true. -/
def truthy : Py → Bool
  | .none => false
  | .bool b => b
  | .int n => decide (n ≠ 0)
  | .real n => decide (n ≠ 0)
  | .str s => !s.isEmpty
  | .bytes b => !b.isEmpty
  | .list l => !l.isEmpty
  | .tuple l => !l.isEmpty

/-- `isshapelike(x)` (`container.py` 1193-1205). -/
def isShapelike (x : Py) : Bool :=
  if !truthy x then false
  else match iter x with
    | .none => false
    | some l => l.all (fun i => isInstance i [.int])

/-! ## `Wrapper` -/

/-- `tuple(Wrapper(x))` (`container.py` 203-212). -/
def wrapper (x : Py) : List Py := wrap x

/-- The integers that these objects are to `==` and `<`, if all are. -/
def asInts : List Py → Option (List ℤ)
  | [] => some []
  | .int n :: xs => (asInts xs).map (n :: ·)
  | .bool b :: xs => (asInts xs).map ((if b then 1 else 0) :: ·)
  | _ :: _ => .none

/-- The texts that these objects are, if all are. -/
def asTexts : List Py → Option (List Str)
  | [] => some []
  | .str s :: xs => (asTexts xs).map (s :: ·)
  | _ :: _ => .none

/-- What `sorted` makes of members that can be ordered. -/
inductive Ordered
  | ints (l : List ℤ)
  | texts (l : List Str)
  deriving DecidableEq

/-- `sorted(wrapper)`; none is a `TypeError`.  Only integers and texts are modelled as members that can be ordered, and single
members of another type are left out. -/
def sortedMembers (l : List Py) : Option Ordered :=
  match asInts l with
  | some a => some (.ints (a.mergeSort (fun x y => decide (x ≤ y))))
  | .none => match asTexts l with
    | some a => some (.texts (Config.sorted a))
    | .none => .none

/-- `Wrapper(x) == Wrapper(y)` (`container.py` 222-226); none is a `TypeError`. -/
def wrapperEq (x y : Py) : Option Bool := do
  let a ← sortedMembers (wrapper x)
  let b ← sortedMembers (wrapper y)
  some (decide (a = b))

/-! ## `etc` -/

/-- `', '.join(l)`. -/
def commas : List Str → Str
  | [] => []
  | [x] => x
  | x :: xs => x ++ ", ".toList ++ commas xs

/-- `join(x, c, quoted=…)` (`etc.py` 495-524), where `f` is `str` or `repr`; none is an `IndexError`. -/
def join {α : Type} (f : α → Str) (c : Str) (x : List α) : Option Str :=
  match x with
  | [a] => some (f a)
  | [a, b] => some (f a ++ " ".toList ++ c ++ " ".toList ++ f b)
  | y => do
    let last ← y.getLast?
    some (commas (y.dropLast.map f) ++ ", ".toList ++ c ++ " ".toList ++ f last)

/-- `allisinstance(types, *targets)` (`etc.py` 527-563); none is a `TypeError`. -/
def allIsInstance (types : List Kind) (targets : List Py) : Option Bool :=
  if targets.isEmpty then .none else some (targets.all (fun x => isInstance x types))

/-- How `widest` fails. -/
inductive Err
  | valueError | typeError
  deriving DecidableEq

/-- `widest(a, b, base)` on the types of its arguments, in any hierarchy of types (`etc.py` 610-642). -/
def widest {T : Type} [DecidableEq T] (sub : T → T → Bool) (a b : T) (base : Option T) : Except Err T :=
  match base with
  | .none =>
    if a = b then .ok a
    else if sub a b then .ok a
    else if sub b a then .ok b
    else .error .valueError
  | some c =>
    if !(sub a c && sub b c) then .error .typeError
    else if sub a c && sub b c then
      if a = b then .ok a
      else if sub a b then .ok a
      else if sub b a then .ok b
      else .ok c
    else if sub a c then .ok a
    else if sub b c then .ok b
    else .error .valueError

/-! ## Sentinels -/

/-- A value that a sentinel can stand for. -/
inductive Value
  | none | bool (b : Bool) | int (n : ℤ) | str (s : Str)
  deriving DecidableEq

/-- `a == b`: `True` is `1` and `False` is `0`. -/
def Value.norm : Value → Value
  | .bool b => .int (if b then 1 else 0)
  | x => x

/-- A sentinel object; `id` is its identity. -/
structure Sentinel where
  id : Nat
  name : Str
  value : Value
  deriving DecidableEq

/-- What a program has created: the table `_sentinels`, by name, and the number of objects created. -/
structure Created where
  table : Dict Str Sentinel
  count : Nat

/-- `sentinel(name, value)` for a value that is no sentinel (`etc.py` 402-412, 442-464): the table is searched for the value,
and written at the name. -/
def sentinel (s : Created) (name : Str) (value : Value) : Created × Sentinel :=
  match (match value with | .str v => s.table.get? v | _ => .none) with
  | some x => (s, x)
  | .none =>
    let x : Sentinel := ⟨s.count, name, value⟩
    (⟨s.table.set name x, s.count + 1⟩, x)

/-- `x == other` for another object that is no sentinel (`etc.py` 421-424). -/
def Sentinel.eqValue (x : Sentinel) (other : Value) : Bool := decide (x.value.norm = other.norm)

/-- `x == y` for two sentinels (`etc.py` 425). -/
def Sentinel.same (x y : Sentinel) : Bool := decide (x.id = y.id)

/-- `bool(x)` (`etc.py` 427-431): `0 in (None, False)` too. -/
def Sentinel.truthy (x : Sentinel) : Bool :=
  !(decide (x.value.norm = Value.none.norm) || decide (x.value.norm = (Value.bool false).norm))

/-- What `hash(x)` depends on (`etc.py` 433-435). -/
def Sentinel.hashKey (x : Sentinel) : Value := x.value.norm

/-- The sentinels `PASS`, `NULL` and `FAIL` of the package (`etc.py` 467-475). -/
def packageSentinels : Created :=
  let s := (sentinel ⟨[], 0⟩ "PASS".toList (.bool true)).1
  let s := (sentinel s "NULL".toList .none).1
  (sentinel s "FAIL".toList (.bool false)).1

end Eprem.Helpers
