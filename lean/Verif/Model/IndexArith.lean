import Verif.Model.NumericIndex

/-!
# Index values and index sequences

A model of `numeric/_index.py` 28-563.  Integers are unbounded: the 64-bit overflow of numpy is not modelled.
-/

namespace Eprem.Numeric

/-- `Value` (`numeric/_index.py` 56-72) and `Sequence` (77-116). -/
inductive Idx
  | value (i : ℤ)
  | seq (l : List ℤ)
  deriving DecidableEq, Repr

/-- The operands: index objects, integers, and anything else. -/
inductive IdxOperand
  | idx (x : Idx)
  | int (i : ℤ)
  | other
  deriving DecidableEq, Repr

/-- Exceptions of the operations: `TypeError`, `ValueError`, `IndexError`, `ZeroDivisionError`. -/
inductive IdxErr
  | type | value | index | zero
  deriving DecidableEq, Repr

/-- The binary arithmetic operations (`_index.py` 198-241). -/
inductive IdxOp
  | add | sub | mul | floordiv | mod | pow
  deriving DecidableEq, Repr

/-- The operation on built-in integers; exponents are not negative here. -/
def pyOp : IdxOp → ℤ → ℤ → Except IdxErr ℤ
  | .add, x, y => .ok (x + y)
  | .sub, x, y => .ok (x - y)
  | .mul, x, y => .ok (x * y)
  | .floordiv, x, y => if y = 0 then .error .zero else .ok (x.fdiv y)
  | .mod, x, y => if y = 0 then .error .zero else .ok (x.fmod y)
  | .pow, x, y => .ok (x ^ y.toNat)

/-- The operation on numpy integers, of which the members of a sequence are; division by zero is only a warning. -/
def npOp : IdxOp → ℤ → ℤ → ℤ
  | .add, x, y => x + y
  | .sub, x, y => x - y
  | .mul, x, y => x * y
  | .floordiv, x, y => if y = 0 then 0 else x.fdiv y
  | .mod, x, y => if y = 0 then 0 else x.fmod y
  | .pow, x, y => x ^ y.toNat

/-- `binary(f, a, b)` (`_index.py` 320-345) and the wrapping of the result by `arithmetic` (306-318). -/
def arithmetic (op : IdxOp) : IdxOperand → IdxOperand → Except IdxErr Idx
  | .idx (.seq l), .idx (.seq m) => .ok (.seq (List.zipWith (npOp op) l m))
  | .idx (.seq l), .idx (.value y) => .ok (.seq (l.map (fun x => npOp op x y)))
  | .idx (.seq l), .int y => .ok (.seq (l.map (fun x => npOp op x y)))
  | .idx (.value x), .idx (.seq m) => .ok (.seq (m.map (fun y => npOp op x y)))
  | .int x, .idx (.seq m) => .ok (.seq (m.map (fun y => npOp op x y)))
  | .idx (.value x), .idx (.value y) => (pyOp op x y).map .value
  | .idx (.value x), .int y => (pyOp op x y).map .value
  | .int x, .idx (.value y) => (pyOp op x y).map .value
  | _, _ => .error .type

/-- `b < 0` and its truth value, as `pow` computes them (`_index.py` 231-236): the truth value of an array with several
members is a `ValueError`, and is evaluated outside of the `try` block. -/
def negativeExponent : IdxOperand → Except IdxErr Bool
  | .idx (.value y) => .ok (decide (y < 0))
  | .idx (.seq [y]) => .ok (decide (y < 0))
  | .idx (.seq []) => .ok false
  | .idx (.seq _) => .error .value
  | .int y => .ok (decide (y < 0))
  | .other => .ok false

/-- `a + b`, `a - b`, `a * b`, `a // b`, `a % b`, `a ** b` (`_index.py` 198-241). -/
def idxOp (op : IdxOp) (a b : IdxOperand) : Except IdxErr Idx :=
  match op with
  | .pow => match negativeExponent b with
    | .error e => .error e
    | .ok true => .error .value
    | .ok false => arithmetic .pow a b
  | op => arithmetic op a b

/-- `abs(a)`, `+a`, `-a` (`_index.py` 146-162, 245-255). -/
def idxUnary (f : ℤ → ℤ) : Idx → Idx
  | .value x => .value (f x)
  | .seq l => .seq (l.map f)

/-- The result of a comparison: a truth value, or an array of them. -/
inductive Truth
  | one (b : Bool)
  | array (l : List Bool)
  deriving DecidableEq, Repr

/-- `comparative(f, a, b)` (`_index.py` 262-273) with `binary`; a comparison of a value with an integer gives an array
without dimensions, which counts as one truth value.  `none` is the `OperandTypeError`. -/
def compareIdx (f : ℤ → ℤ → Bool) : IdxOperand → IdxOperand → Option Truth
  | .idx (.seq l), .idx (.seq m) => some (.array (List.zipWith f l m))
  | .idx (.seq l), .idx (.value y) => some (.array (l.map (fun x => f x y)))
  | .idx (.seq l), .int y => some (.array (l.map (fun x => f x y)))
  | .idx (.value x), .idx (.seq m) => some (.array (m.map (fun y => f x y)))
  | .int x, .idx (.seq m) => some (.array (m.map (fun y => f x y)))
  | .idx (.value x), .idx (.value y) => some (.one (f x y))
  | .idx (.value x), .int y => some (.one (f x y))
  | .int x, .idx (.value y) => some (.one (f x y))
  | _, _ => none

/-- `a == b` (`_index.py` 131-137): `False` if the operands cannot be compared. -/
def idxEq (a b : IdxOperand) : Truth := (compareIdx (fun x y => decide (x = y)) a b).getD (.one false)

/-- `a != b` (`_index.py` 138-144). -/
def idxNe (a b : IdxOperand) : Truth := (compareIdx (fun x y => decide (x ≠ y)) a b).getD (.one true)

/-! ## Members -/

/-- `s[i]` for an integer (`_index.py` 96-105). -/
def idxItem (l : List ℤ) (i : ℤ) : Except IdxErr Idx :=
  match axisIndex l.length i with
  | .error _ => .error .index
  | .ok j => .ok (.value (l.getD j 0))

/-! ## Creation -/

/-- What an index object can be made from: an integer, a string, a list or tuple of integers or of strings, a range, an
array of integers, a sequence, or anything else (measurable objects are not modelled). -/
inductive IdxSource
  | int (i : ℤ)
  | str (s : List Char)
  | ints (l : List ℤ)
  | strs (l : List (List Char))
  | range (l : List ℤ)
  | array (a : ND ℤ)
  | seq (l : List ℤ)
  | other

variable (toInt : List Char → Option ℤ)

/-- The values of an array in order. -/
def flatInts (a : ND ℤ) : List ℤ := (List.range a.size).map a.data

/-- `_value_args` (`_index.py` 505-528). -/
def valueArgs : IdxSource → Except IdxErr (Option ℤ)
  | .array a => if a.size = 1 then .ok (some (a.data 0)) else .error .type
  | .int i => .ok (some i)
  | .str s => .ok (toInt s)
  | _ => .ok none

/-- The `int` of every string, if all are numerals. -/
def intsOf : List (List Char) → Option (List ℤ)
  | [] => some []
  | s :: l => match toInt s, intsOf l with
    | some i, some r => some (i :: r)
    | _, _ => none

/-- The number of dimensions after `numpy.squeeze`. -/
def squeezedDims (s : List Nat) : Nat := (s.filter (fun n => n ≠ 1)).length

/-- `_sequence_args` (`_index.py` 531-561). -/
def sequenceArgs : IdxSource → Except IdxErr (Option (List ℤ))
  | .range l => .ok (some l)
  | .ints l => .ok (some l)
  | .strs l => .ok (intsOf toInt l)
  | .array a => if a.size = 1 then .ok (some [a.data 0])
    else if squeezedDims a.shape = 1 then .ok (some (flatInts a)) else .error .type
  | .int i => .ok (some [i])
  | .seq l => .ok (some l)
  | _ => .ok none

/-- The first member. -/
def firstOf : List ℤ → Except IdxErr Idx
  | [] => .error .index
  | i :: _ => .ok (.value i)

/-- `value(x)` (`_index.py` 408-419, 479-489). -/
def newValue (x : IdxSource) : Except IdxErr Idx :=
  match valueArgs toInt x with
  | .error e => .error e
  | .ok (some i) => .ok (.value i)
  | .ok none => match sequenceArgs toInt x with
    | .error e => .error e
    | .ok (some l) => firstOf l
    | .ok none => .error .type

/-- `sequence(x)` (`_index.py` 468-478, 492-502). -/
def newSequence (x : IdxSource) : Except IdxErr Idx :=
  match sequenceArgs toInt x with
  | .error e => .error e
  | .ok (some l) => .ok (.seq l)
  | .ok none => match valueArgs toInt x with
    | .error e => .error e
    | .ok (some i) => .ok (.seq [i])
    | .ok none => .error .type

end Eprem.Numeric
