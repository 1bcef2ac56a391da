import Verif.Model.Observable
import Verif.Model.UnitEquivalence

/-!
# Model of the algebra of observable quantities: `observable/_objects.py` 390-601

An observable quantity has an operator, which makes an array from arguments, a unit and dimensions.  Sums, differences,
products, quotients and powers of quantities are quantities whose operator applies that of the operands to the same
arguments.  `A` is the type of the arguments (`Arguments`), and `parse` makes them from the indices given by the user
(`_shell_or_radius` and `Context.implement` up to the operator; 320-356, 474-483), or raises an exception.

Simplified: the unit given to `withunit` is a unit, not a string.  The parser of compound names (with `**` for powers) is in
`Model/Stars.lean`, the lookup of names in `Model/Names.lean`.
-/

namespace Eprem.Observable

open Eprem Eprem.Symbolic Eprem.Metric Eprem.Numeric Eprem.Measured Eprem.Physical

variable {A κ ν : Type} [DecidableEq κ]

noncomputable section

/-- Exceptions: `value` is `ValueError`, `type` `TypeError`, `index` `IndexError`, `observation` `ObservationError`,
`argument` one of those of `parse`, `key` is `KeyError`, `attribute` `AttributeError`, `parsing` one of those of the parser of
names; the other ones come from the operations on units and arrays. -/
inductive QErr
  | value | type | index | observation | argument | key | attribute | parsing (e : Symbolic.Err) | metric (e : MErr)
  | physical (e : PErr)
  deriving DecidableEq

/-- `Quantity` (`_objects.py` 390-404). -/
structure Quantity (A κ ν : Type) where
  operator : A → Except QErr (Operand κ ν ℝ)
  unit : List Term
  dims : List κ

/-- Operations on physical objects. -/
def ofPhysical {α : Type} : Except PErr α → Except QErr α
  | .error e => .error (.physical e)
  | .ok x => .ok x

/-- Operations on units. -/
def ofMetric {α : Type} : Except MErr α → Except QErr α
  | .error e => .error (.metric e)
  | .ok x => .ok x

/-- `_unequal_metadata` (`_objects.py` 557-567) is empty. -/
def equalMetadata (p q : Quantity A κ ν) : Bool := exprEq p.unit q.unit && decide (p.dims = q.dims)

/-- `_apply(operator, other, unit, dimensions)` (`_objects.py` 569-574) for a quantity `other`. -/
def qApply (f : Operand κ ν ℝ → Operand κ ν ℝ → Except PErr (Operand κ ν ℝ)) (p q : Quantity A κ ν) (unit : List Term)
    (dims : List κ) : Quantity A κ ν where
  operator user := match p.operator user with
    | .error e => .error e
    | .ok x => match q.operator user with
      | .error e => .error e
      | .ok y => ofPhysical (f x y)
  unit := unit
  dims := dims

/-- `p + q` (`_objects.py` 496-510). -/
def qAdd (same inside : ν → ν → Bool) (p q : Quantity A κ ν) : Except QErr (Quantity A κ ν) :=
  if equalMetadata p q then .ok (qApply (plus same inside) p q p.unit p.dims) else .error .value

/-- `p - q` (`_objects.py` 512-526). -/
def qSub (same inside : ν → ν → Bool) (p q : Quantity A κ ν) : Except QErr (Quantity A κ ν) :=
  if equalMetadata p q then .ok (qApply (minus same inside) p q p.unit p.dims) else .error .value

/-- `p * q` (`_objects.py` 528-534). -/
def qMul (order : List System) (p q : Quantity A κ ν) : Except QErr (Quantity A κ ν) :=
  match unitMul order p.unit q.unit with
  | .error e => .error (.metric e)
  | .ok u => match dimsOr p.dims q.dims with
    | .error _ => .error .value
    | .ok d => .ok (qApply (times order) p q u d)

/-- `p / q` (`_objects.py` 536-542). -/
def qDiv (order : List System) (p q : Quantity A κ ν) : Except QErr (Quantity A κ ν) :=
  match unitDiv order p.unit q.unit with
  | .error e => .error (.metric e)
  | .ok u => match dimsOr p.dims q.dims with
    | .error _ => .error .value
    | .ok d => .ok (qApply (over order) p q u d)

/-- `p ** x` for a number (`_objects.py` 544-555, 569-574): the operator subscripts the number, which raises `TypeError`. -/
def qPow (p : Quantity A κ ν) (float : Bool) (x : ℚ) : Except QErr (Quantity A κ ν) :=
  match unitPow float p.unit x with
  | .error e => .error (.metric e)
  | .ok u => .ok ⟨fun user => match p.operator user with
      | .error e => .error e
      | .ok _ => .error .type, u, p.dims⟩

/-- `p.withunit(new)` (`_objects.py` 576-585). -/
def qWithunit (c : Conv ℝ) (st : Cache ℝ) (p : Quantity A κ ν) (new : List Term) :
    Cache ℝ × Except QErr (Quantity A κ ν) :=
  if exprEq p.unit new then (st, .ok p)
  else match consistent c st p.unit new with
    | (st', .error e) => (st', .error (.metric e))
    | (st', .ok true) => (st', .ok ⟨p.operator, new, p.dims⟩)
    | (st', .ok false) => (st', .error .value)

/-- The conversion of the observed array, `result.withunit(self.unit)` (`_objects.py` 462-463). -/
def convertResult (c : Conv ℝ) (st : Cache ℝ) (r : Operand κ ν ℝ) (unit : List Term) :
    Cache ℝ × Except QErr (Operand κ ν ℝ) :=
  match r with
  | .array a => match a.arr.withunit c st (showExpr unit) with
    | (st', .error e) => (st', .error (.metric e))
    | (st', .ok b) => (st', .ok (.array ⟨b, a.axes⟩))
  | _ => (st, .error .type)

/-- `q[args]` for arguments of the user (`_objects.py` 422-472). -/
def subscript (c : Conv ℝ) (st : Cache ℝ) (parse : List (κ × Arg) → Except QErr A) (q : Quantity A κ ν) (args : Unwrapped) :
    Cache ℝ × Except QErr (Operand κ ν ℝ) :=
  match expand q.dims.length args with
  | .error _ => (st, .error .index)
  | .ok normalized =>
    if normalized.length ≠ q.dims.length then (st, .error .index)
    else match parse (q.dims.zip normalized) with
      | .error e => (st, .error e)
      | .ok user => match q.operator user with
        | .error e => (st, .error e)
        | .ok r => match consistent c st r.unit q.unit with
          | (st', .error e) => (st', .error (.metric e))
          | (st', .ok true) => convertResult c st' r q.unit
          | (st', .ok false) => (st', .error .observation)

/-- An expression made from observable quantities by the operators. -/
inductive Compound (ι : Type)
  | leaf (i : ι)
  | add (x y : Compound ι)
  | sub (x y : Compound ι)
  | mul (x y : Compound ι)
  | div (x y : Compound ι)
  | convert (x : Compound ι) (new : List Term)

/-- The quantity that the expression makes, and the conversions known then. -/
def build {ι : Type} (c : Conv ℝ) (same inside : ν → ν → Bool) (env : ι → Quantity A κ ν) :
    Cache ℝ → Compound ι → Cache ℝ × Except QErr (Quantity A κ ν)
  | st, .leaf i => (st, .ok (env i))
  | st, .add x y => match build c same inside env st x with
    | (st, .error e) => (st, .error e)
    | (st, .ok p) => match build c same inside env st y with
      | (st, .error e) => (st, .error e)
      | (st, .ok q) => (st, qAdd same inside p q)
  | st, .sub x y => match build c same inside env st x with
    | (st, .error e) => (st, .error e)
    | (st, .ok p) => match build c same inside env st y with
      | (st, .error e) => (st, .error e)
      | (st, .ok q) => (st, qSub same inside p q)
  | st, .mul x y => match build c same inside env st x with
    | (st, .error e) => (st, .error e)
    | (st, .ok p) => match build c same inside env st y with
      | (st, .error e) => (st, .error e)
      | (st, .ok q) => (st, qMul c.systems p q)
  | st, .div x y => match build c same inside env st x with
    | (st, .error e) => (st, .error e)
    | (st, .ok p) => match build c same inside env st y with
      | (st, .error e) => (st, .error e)
      | (st, .ok q) => (st, qDiv c.systems p q)
  | st, .convert x new => match build c same inside env st x with
    | (st, .error e) => (st, .error e)
    | (st, .ok p) => qWithunit c st p new

/-! ## Compound names -/

/-- `Quantities._build_observable` (`_interfaces.py` 1116-1134) after the name is parsed: the terms of the expression, with
the quantities that they name; `float` says whether an exponent is a float. -/
def buildTerms (order : List System) (look : Name → Except QErr (Quantity A κ ν)) (float : ℚ → Bool) :
    List Term → Except QErr (Quantity A κ ν)
  | [] => .error .index
  | t :: ts => match look t.base with
    | .error e => .error e
    | .ok q =>
      if ts = [] ∧ t.exp = 1 then .ok q
      else match qPow q (float t.exp) t.exp with
        | .error e => .error e
        | .ok this => multiplyTerms this ts
where
  /-- The loop (`_interfaces.py` 1131-1133). -/
  multiplyTerms : Quantity A κ ν → List Term → Except QErr (Quantity A κ ν)
    | this, [] => .ok this
    | this, t :: ts => match look t.base with
      | .error e => .error e
      | .ok q => match qPow q (float t.exp) t.exp with
        | .error e => .error e
        | .ok p => match qMul order this p with
          | .error e => .error e
          | .ok r => multiplyTerms r ts

end

end Eprem.Observable
