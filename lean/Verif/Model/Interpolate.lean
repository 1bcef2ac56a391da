import Verif.Model.Container
import Verif.Model.Physical
import Mathlib.Analysis.SpecialFunctions.Log.Basic
import Mathlib.Analysis.SpecialFunctions.Pow.Real

/-!
# Model of the interpolations: `observable/_interfaces.py` 834-877, 1881-1994

Arrays are given by their elements along the axes that the interpolation deals with, as lists, with real numbers instead of
floating-point numbers.
-/

namespace Eprem.Interpolate

open Eprem Eprem.Numeric Eprem.Physical
open Eprem.Symbolic (Term)

noncomputable section

open Classical in
/-- `Implementations._check_interp(y, x, p)` (`_interfaces.py` 834-877).  `rows` are the rows of `y` along its last axis, for
all positions on the other axes.  A spectrum that is not positive would give `nan` or `inf` in numpy. -/
def checkInterp (rows : List (List ℝ)) (xs : List ℝ) (p : ℝ) : Except Err (List (List ℝ) × List ℝ) :=
  match xs.min? with
  | none => .error .value
  | some m =>
    if p < m then .ok (rows, xs)
    else if rows.any (fun y => decide (y.length ≠ xs.length)) then .error .value
    else match Container.nearest xs p .upper with
      | .error _ => .error .value
      | .ok (i, x0) => match Container.pyGet? xs (i + 1) with
        | none => .error .value
        | some x1 =>
          let at0 := fun y : List ℝ => (Container.pyGet? y i).getD 0
          let at1 := fun y : List ℝ => (Container.pyGet? y (i + 1)).getD 0
          let start := (if 0 ≤ i then i else xs.length + i).toNat
          let lnxc := Real.log (x1 / x0)
          .ok (rows.map (fun y =>
            let lnfc := Real.log (at1 y / at0 y)
            let beta := lnfc / lnxc
            (at0 y * (p / x0) ^ beta) :: y.drop (start + 1)), p :: xs.drop (start + 1))

/-! ## Linear interpolation -/

/-- `a[i, j, ...]` for some leading indices, which must be inside the array. -/
def sub (a : ND ℝ) (idx : List Nat) : Except Err (ND ℝ) :=
  if idx.length ≤ a.ndim ∧ ∀ k < idx.length, idx.getD k 0 < a.shape.getD k 0 then
    .ok (.ofFn (a.shape.drop idx.length) (fun p => a.get (idx ++ p)))
  else .error .index

/-- `numpy.array(list)` of arrays, which must have the same shape. -/
def stack : List (ND ℝ) → Except Err (ND ℝ)
  | [] => .ok ⟨[0], fun _ => 0⟩
  | d :: l => if l.all (fun e => decide (e.shape = d.shape)) then
      .ok (.ofFn ((l.length + 1) :: d.shape) (fun p => ((d :: l).getD (p.headD 0) d).get p.tail))
    else .error .value

/-- `numpy.swapaxes(a, 0, 1)`. -/
def swapaxes (a : ND ℝ) : Except Err (ND ℝ) :=
  if a.ndim < 2 then .error .value else a.transpose (1 :: 0 :: (List.range (a.ndim - 2)).map (· + 2))

open Classical in
/-- `scipy.interpolate.interp1d(x, y, axis=0)(t)`: the points are sorted by `x`; a `ValueError` outside; otherwise linear
between the two points around `t`. -/
def linear (x : List ℝ) (y : ND ℝ) (t : ℝ) : Except Err (ND ℝ) :=
  if y.shape.head? ≠ some x.length then .error .value
  else
    let ind := (List.range x.length).mergeSort (fun i j => decide (x.getD i 0 ≤ x.getD j 0))
    let xs := ind.map (fun i => x.getD i 0)
    match xs.head?, xs.getLast? with
    | some a, some b =>
      if t < a ∨ b < t then .error .value
      else
        let hi := min (max (xs.countP (fun v => decide (v < t))) 1) (x.length - 1)
        let lo := hi - 1
        .ok (.ofFn y.shape.tail (fun p =>
          let ylo := y.get (ind.getD lo 0 :: p)
          let yhi := y.get (ind.getD hi 0 :: p)
          (yhi - ylo) / (xs.getD hi 0 - xs.getD lo 0) * (t - xs.getD lo 0) + ylo))
    | _, _ => .error .value

/-- `[f(x) for x in l]`, where `f` may raise an exception. -/
def each {α β : Type} (f : α → Except Err β) : List α → Except Err (List β)
  | [] => .ok []
  | a :: l => match f a with
    | .error e => .error e
    | .ok b => match each f l with
      | .error e => .error e
      | .ok bs => .ok (b :: bs)

/-- The interpolation of the rows of the data with respect to the rows of the reference (`_interfaces.py` 1981-1983). -/
def rowInterp (array reference : ND ℝ) (t : ℝ) (i : Nat) : Except Err (ND ℝ) :=
  match sub reference [i], sub array [i] with
  | .ok x, .ok y => linear (elements x) y t
  | .error e, _ => .error e
  | _, .error e => .error e

open Classical in
/-- `_apply_interp1d(array, reference, target)` (`_interfaces.py` 1971-1994). -/
def applyInterp1d (array reference : ND ℝ) (t : ℝ) : Except Err (ND ℝ) :=
  if t ∈ elements reference then
    match Container.nearest (elements reference) t .none with
    | .error _ => .error .value
    | .ok (i, _) => sub array (unravel reference.shape i.toNat)
  else match reference.shape with
    | [m, _] => match each (rowInterp array reference t) (List.range (min m (array.shape.headD 0))) with
      | .error e => .error e
      | .ok l => stack l
    | [n] => if n = 1 then sub array [0] else linear (elements reference) array t
    | _ => .error .type

/-- `_apply_interpolation(data, reference, targets)` (`_interfaces.py` 1933-1968). -/
def applyInterpolation (data reference : ND ℝ) (targets : List ℝ) : Except Err (ND ℝ) :=
  match each (applyInterp1d data reference) targets with
  | .error e => .error e
  | .ok l => match stack l with
    | .error e => .error e
    | .ok s => if reference.ndim = 2 then swapaxes s else .ok s

/-- The order of the axes in `numpy.moveaxis(a, src, dst)`: `src[k]` is at `dst[k]`, and the other axes are at the other
places, in the same order as before. -/
def moveOrder (src dst : List Nat) : List Nat → List Nat → List Nat
  | [], _ => []
  | i :: is, rest => if i ∈ dst then src.getD (dst.idxOf i) 0 :: moveOrder src dst is rest
    else match rest with
      | [] => []
      | r :: rs => r :: moveOrder src dst is rs

/-- `numpy.moveaxis(a, src, dst)`. -/
def moveaxis (a : ND ℝ) (src dst : List Nat) : Except Err (ND ℝ) :=
  a.transpose (moveOrder src dst (List.range a.ndim) ((List.range a.ndim).filter (fun i => decide (i ∉ src))))

variable {κ ν : Type} [DecidableEq κ]

/-- `_update_interpolation(array, reference, targets, workspace)` (`_interfaces.py` 1916-1930), given the dimensions of the
array, and its data or the workspace. -/
def updateInterpolation (dims : List κ) (x : ND ℝ) (refDims : List κ) (reference : ND ℝ) (targets : List ℝ) :
    Except Err (ND ℝ) :=
  if refDims = [] ∨ ¬ ∀ d ∈ refDims, d ∈ dims then .error .value
  else
    let src := refDims.map (fun d => dims.idxOf d)
    let dst := List.range refDims.length
    match moveaxis x src dst with
    | .error e => .error e
    | .ok reordered => match applyInterpolation reordered reference targets with
      | .error e => .error e
      | .ok interpolated => moveaxis interpolated dst src

/-- One interpolant (`_interfaces.py` 1875-1878): the dimension, the reference, and the targets. -/
structure Interpolant (κ ν : Type) where
  dimension : κ
  reference : Arr κ ν ℝ
  targets : List ℝ

/-- The loop of `interpolate` (`_interfaces.py` 1899-1912): the workspace and the axes.  `radii` are the aliases of
`'radius'`, `shell` and `radius` the names, and `coordinates` makes an axis of the targets and a unit. -/
def interpolateLoop (radii : List κ) (shell radius : κ) (coordinates : List ℝ → List Term → ν) (dims : List κ) :
    List (Interpolant κ ν) → ND ℝ → Dict κ ν → Except PErr (ND ℝ × Dict κ ν)
  | [], x, axes => .ok (x, axes)
  | i :: is, x, axes => match updateInterpolation dims x i.reference.arr.data.dims i.reference.arr.data.data i.targets with
    | .error e => .error (.look e)
    | .ok workspace =>
      let axis := coordinates i.targets i.reference.arr.unit
      match (if i.dimension ∈ radii then Axes.replacePair axes shell radius axis else Axes.replace axes i.dimension axis) with
      | .error e => .error (.look e)
      | .ok axes => interpolateLoop radii shell radius coordinates dims is workspace axes

/-- `interpolate(array, interpolants)` (`_interfaces.py` 1881-1913). -/
def interpolate (radii : List κ) (shell radius : κ) (coordinates : List ℝ → List Term → ν) (array : Arr κ ν ℝ)
    (interpolants : List (Interpolant κ ν)) : Except PErr (Operand κ ν ℝ) :=
  if interpolants = [] then .ok (.array array)
  else match interpolateLoop radii shell radius coordinates array.axes.keys interpolants array.arr.data.data array.axes with
    | .error e => .error e
    | .ok (x, axes) => newArray x array.arr.unit axes

end

end Eprem.Interpolate
