import Mathlib.Data.List.Basic
import Mathlib.Data.Int.Order.Basic
import Mathlib.Tactic.Linarith

/-!
# The parts of numpy and of Python's slices that the package relies on

An array is its shape and its elements in C order; `data` is only meaningful below the product of the shape.  Nothing
in this file models code of the repository: these definitions state the documented behaviour of `numpy` and of Python
that the model of the repository (`Model/NumericIndex.lean`, `Model/NumericArray.lean`) assumes.
-/

namespace Eprem.Numeric

/-- Exceptions. -/
inductive Err
  | index | value | type | operand | notImplemented | key | attribute
  deriving DecidableEq, Repr

variable {α : Type}

/-- The number of elements of an array with this shape. -/
def sizeOf (s : List Nat) : Nat := s.foldr (· * ·) 1

/-- The place in C order of the element at this position. -/
def ravel : List Nat → List Nat → Nat
  | _ :: s, i :: p => i * sizeOf s + ravel s p
  | _, _ => 0

/-- The position of the element at this place in C order. -/
def unravel : List Nat → Nat → List Nat
  | [], _ => []
  | _ :: s, k => k / sizeOf s :: unravel s (k % sizeOf s)

/-- An n-dimensional array. -/
structure ND (α : Type) where
  shape : List Nat
  data : Nat → α

/-- The element at this position. -/
def ND.get (a : ND α) (p : List Nat) : α := a.data (ravel a.shape p)

/-- The array with this shape and these elements. -/
def ND.ofFn (s : List Nat) (f : List Nat → α) : ND α := ⟨s, fun k => f (unravel s k)⟩

def ND.size (a : ND α) : Nat := sizeOf a.shape
def ND.ndim (a : ND α) : Nat := a.shape.length

/-- The position lies inside the shape. -/
def Valid (p s : List Nat) : Prop := List.Forall₂ (· < ·) p s

/-- The members of `range(start, start + n * step, step)`. -/
def arith (start step : ℤ) (n : Nat) : List ℤ := (List.range n).map (fun k : Nat => start + step * (k : ℤ))

/-- `len(range(start, stop, step))` for a non-zero step. -/
def rangeLen (start stop step : ℤ) : Nat :=
  if 0 < step then ((stop - start + step - 1) / step).toNat
  else ((start - stop + (-step) - 1) / (-step)).toNat

/-- `list(range(start, stop, step))` for a non-zero step. -/
def rangeList (start stop step : ℤ) : List ℤ := arith start step (rangeLen start stop step)

/-- One bound of `slice.indices(n)`. -/
def sliceBound (n lower upper : ℤ) (dflt : ℤ) : Option ℤ → ℤ
  | none => dflt
  | some b => if b < 0 then max (b + n) lower else min b upper

/-- `range(*slice(start, stop, step).indices(n))` as positions; a step of zero is a `ValueError`. -/
def slicePositions (n : Nat) (start stop step : Option ℤ) : Except Err (List Nat) :=
  let st := step.getD 1
  if st = 0 then .error .value
  else if 0 < st then
    .ok ((rangeList (sliceBound n 0 n 0 start) (sliceBound n 0 n n stop) st).map Int.toNat)
  else
    .ok ((rangeList (sliceBound n (-1) (n - 1) (n - 1) start) (sliceBound n (-1) (n - 1) (-1) stop) st).map Int.toNat)

/-- An integer used as an index of an axis of length `n`. -/
def axisIndex (n : Nat) (i : ℤ) : Except Err Nat :=
  if -n ≤ i ∧ i < n then .ok (if i < 0 then i + n else i).toNat else .error .index

/-- What an index does to one axis: take one element and drop the axis, or take these positions. -/
inductive Pick
  | drop (i : Nat)
  | keep (l : List Nat)
  deriving DecidableEq, Repr

/-- The shape of the result. -/
def pickShape : List Pick → List Nat
  | [] => []
  | .drop _ :: ps => pickShape ps
  | .keep l :: ps => l.length :: pickShape ps

/-- The position in the original array. -/
def pickFrom : List Pick → List Nat → List Nat
  | [], _ => []
  | .drop i :: ps, p => i :: pickFrom ps p
  | .keep l :: ps, i :: p => l.getD i 0 :: pickFrom ps p
  | .keep l :: ps, [] => l.getD 0 0 :: pickFrom ps []

/-- Independent selection along every axis. -/
def ND.select (a : ND α) (ps : List Pick) : ND α := .ofFn (pickShape ps) (fun p => a.get (pickFrom ps p))

/-- `numpy.array(a, ndmin=n)` -/
def ND.atLeast (a : ND α) (n : Nat) : ND α := ⟨List.replicate (n - a.ndim) 1 ++ a.shape, a.data⟩

/-- The product of the known sizes. -/
def knownSize (s : List ℤ) : ℤ := (s.filter (0 ≤ ·)).foldr (· * ·) 1

/-- `a.reshape(shape)`: one size may be negative, and is then computed from the others. -/
def ND.reshape (a : ND α) (s : List ℤ) : Except Err (ND α) :=
  match s.filter (· < 0) with
  | [] => if knownSize s = a.size then .ok ⟨s.map Int.toNat, a.data⟩ else .error .value
  | [_] =>
    if knownSize s = 0 ∨ (a.size : ℤ) % knownSize s ≠ 0 then .error .value
    else .ok ⟨s.map (fun n => if n < 0 then (a.size / knownSize s : ℤ).toNat else n.toNat), a.data⟩
  | _ => .error .value

/-- `a.transpose(axes)` for axes that are a permutation. -/
def ND.transpose (a : ND α) (axes : List Nat) : Except Err (ND α) :=
  if axes.length = a.ndim ∧ axes.Nodup ∧ (∀ i ∈ axes, i < a.ndim) then
    .ok (.ofFn (axes.map (fun i => a.shape.getD i 0))
      (fun p => a.get ((List.range a.ndim).map (fun i => p.getD (axes.idxOf i) 0))))
  else .error .value

/-- The broadcast size of two axes. -/
def broadcastDim (m n : Nat) : Except Err Nat :=
  if m = n then .ok m else if m = 1 then .ok n else if n = 1 then .ok m else .error .value

/-- The broadcast shape of two shapes of the same length. -/
def broadcastShape : List Nat → List Nat → Except Err (List Nat)
  | [], [] => .ok []
  | m :: s, n :: t => match broadcastDim m n with
    | .error e => .error e
    | .ok k => match broadcastShape s t with
      | .error e => .error e
      | .ok r => .ok (k :: r)
  | _, _ => .error .value

/-- The position in an array of this shape that broadcasting reads. -/
def clipTo : List Nat → List Nat → List Nat
  | n :: s, i :: p => (if n = 1 then 0 else i) :: clipTo s p
  | _, _ => []

/-- `f(a, b)` for an elementwise `f`, with broadcasting; the shorter shape is extended by ones. -/
def ND.zip {β γ : Type} (f : α → β → γ) (a : ND α) (b : ND β) : Except Err (ND γ) :=
  let a := a.atLeast b.ndim
  let b := b.atLeast a.ndim
  match broadcastShape a.shape b.shape with
  | .error e => .error e
  | .ok s => .ok (.ofFn s (fun p => f (a.get (clipTo a.shape p)) (b.get (clipTo b.shape p))))

/-- `f(a)` for an elementwise `f` -/
def ND.map {β : Type} (f : α → β) (a : ND α) : ND β := ⟨a.shape, fun k => f (a.data k)⟩

end Eprem.Numeric
