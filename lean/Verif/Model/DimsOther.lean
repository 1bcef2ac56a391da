import Verif.Model.NumericArray

/-!
# Dimensions and other objects

A model of the comparison of `Dimensions` with other objects, and of its operations on them (`numeric/_array.py`), for names
that are texts.
-/

namespace Eprem.Numeric

open Eprem

/-- A dimension name. -/
abbrev Text := List Char

/-- An item of a collection: a name, or another object, which is equal to no name. -/
inductive Item
  | name (s : Text)
  | other (n : ℤ)
  deriving DecidableEq

/-- An object that meets dimensions in an operation: dimensions, text, a collection (such as a list, tuple, or set, in the order
of iteration), an iterator, which can be read once, and an object that is not iterable. -/
inductive Other
  | dims (l : List Text)
  | text (s : Text)
  | items (l : List Item)
  | iterator (l : List Item)
  | single (n : ℤ)

/-- `tuple(other)`; none is a `TypeError`. -/
def Other.members : Other → Option (List Item)
  | .dims l => some (l.map .name)
  | .text s => some (s.map (fun c => .name [c]))
  | .items l => some l
  | .iterator l => some l
  | .single _ => none

/-- `self == other` (`_array.py` 41-51), also for `other == self`, which Python reflects.  Simplified: `tuple == list` does not
matter, since `tuple(other)` is compared. -/
def dimsEq (a : List Text) (x : Other) : Bool :=
  match x with
  | .dims l => decide (a = l)
  | .text s =>
    match a with
    | [n] => decide (n = s)
    | _ => decide (a.map Item.name = s.map (fun c => .name [c]))
  | x => match x.members with
    | none => false
    | some l => decide (a.map Item.name = l)

/-- What `hash` is computed from: the text or the tuple of texts. -/
inductive HashOf
  | text (s : Text)
  | tuple (l : List Text)
  deriving DecidableEq

/-- `hash(self)` (`_array.py` 255-257): the hash of the tuple. -/
def dimsHash (a : List Text) : HashOf := .tuple a

/-- The comparisons. -/
inductive Comparison
  | lt | le | gt | ge
  deriving DecidableEq

/-- `set(a) <= set(b)`. -/
def subset (a b : List Item) : Bool := a.all (fun x => decide (x ∈ b))

/-- `operator(set(a), set(b))`. -/
def Comparison.onSets (c : Comparison) (a b : List Item) : Bool :=
  match c with
  | .lt => subset a b && !subset b a
  | .le => subset a b
  | .gt => subset b a && !subset a b
  | .ge => subset b a

/-- `_compare(other, operator)` (`_array.py` 53-72). -/
def dimsCompare (c : Comparison) (a : List Text) (x : Other) : Except Err Bool :=
  match x.members with
  | none => .error .type
  | some l => .ok (c.onSets (a.map .name) l)

/-- The names, if all items are names. -/
def namesOf : List Item → Option (List Text)
  | [] => some []
  | .name s :: r => (namesOf r).map (s :: ·)
  | .other _ :: _ => none

/-- `_get_operand(arg)` (`_array.py` 168-180); none is a `DimensionTypeError`.  The names of an iterator have been read when
they are listed. -/
def getOperand : Other → Option (List Text)
  | .dims l => some l
  | .text s => some [s]
  | .items l => namesOf l
  | .iterator l => (namesOf l).map (fun _ => [])
  | .single _ => none

/-- `self & other` (`_array.py` 90-98); an operation that both operands do not implement is a `TypeError`. -/
def dimsAndOther (a : List Text) (x : Other) : Except Err (List Text) :=
  match getOperand x with
  | none => .error .type
  | some b => .ok (dimsAnd a b)

/-- `other & self` (`_array.py` 100-108) for objects that are no dimensions. -/
def otherAndDims (x : Other) (a : List Text) : Except Err (List Text) :=
  match getOperand x with
  | none => .error .type
  | some b => .ok (dimsAnd b a)

/-- `self - other` (`_array.py` 110-116). -/
def dimsSubOther (a : List Text) (x : Other) : Except Err (List Text) :=
  match getOperand x with
  | none => .error .type
  | some b => .ok (dimsSub a b)

/-- `other - self` (`_array.py` 118-122): for anything but dimensions `raise NotImplemented` is a `TypeError`. -/
def otherSubDims (x : Other) (a : List Text) : Except Err (List Text) :=
  match x with
  | .dims l => .ok (dimsSub l a)
  | _ => .error .type

/-- `self | other` (`_array.py` 124-136). -/
def dimsOrOther (a : List Text) (x : Other) : Except Err (List Text) :=
  match getOperand x with
  | none => .error .type
  | some b => dimsOr a b

/-- `other | self` (`_array.py` 138-150). -/
def otherOrDims (x : Other) (a : List Text) : Except Err (List Text) :=
  match getOperand x with
  | none => .error .type
  | some b => dimsOr b a

/-- `other ^ self` (`_array.py` 160-166): the operand is a list, and `those - self` is `other - self` for a list. -/
def otherXorDims (x : Other) (a : List Text) : Except Err (List Text) :=
  match getOperand x with
  | none => .error .type
  | some b => do
    let p ← otherSubDims (.items (b.map .name)) a
    let q ← dimsSubOther a (.items (b.map .name))
    dimsOr p q

/-- An argument of `permute`: an index or a list of indices. -/
inductive Order
  | index (i : ℤ)
  | indices (l : List ℤ)

/-- The indices in arguments that are all indices. -/
def allIndices : List Order → Option (List ℤ)
  | [] => some []
  | .index i :: r => (allIndices r).map (i :: ·)
  | .indices _ :: _ => none

/-- `_permute(axes)` (`_array.py` 207-216): an integer is not iterable, a `TypeError` that is caught. -/
def permuteOrder (a : List Text) : Order → Except Err (List Text)
  | .index _ => .error .value
  | .indices l => dimsPermute a l

/-- `permute(*args, order=…)` (`_array.py` 195-205); a list among several arguments is no index. -/
def permuteWith (a : List Text) (args : List Order) (order : Option Order) : Except Err (List Text) :=
  match args, order with
  | _ :: _, some _ => .error .type
  | [x], none => permuteOrder a x
  | x :: y :: r, none => match allIndices (x :: y :: r) with
    | none => .error .value
    | some l => permuteOrder a (.indices l)
  | [], some x => permuteOrder a x
  | [], none => .error .type

end Eprem.Numeric
