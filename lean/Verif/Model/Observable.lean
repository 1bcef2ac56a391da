import Verif.Model.Physical
import Verif.Model.NumericIndex
import Mathlib.Analysis.SpecialFunctions.Trigonometric.Inverse
import Mathlib.Analysis.SpecialFunctions.Pow.Real

/-!
# Model of the derived observable quantities: `observable/_interfaces.py` 294-509, 757-780

The methods of `Implementations` first obtain the arrays that they need, restricted to the requested times and shells, and
then combine them by the arithmetic of physical arrays (`Model/Physical.lean`).  Here the arrays are the arguments, and the
arithmetic is that of the package, with real numbers instead of floating-point numbers.  An operation of the package
either returns an array or raises an exception, and an exception ends the method.

`order` is the order in which products of units try the metric systems, `same` and `inside` compare axes, as in
`Model/Physical.lean`.
-/

namespace Eprem.Observable

open Eprem Eprem.Symbolic Eprem.Metric Eprem.Numeric Eprem.Measured Eprem.Physical

variable {κ ν : Type} [DecidableEq κ]

noncomputable section

/-- `a * b` of physical objects (`physical/_operations.py` 320-362). -/
def times (order : List System) (a b : Operand κ ν ℝ) : Except PErr (Operand κ ν ℝ) :=
  multiplicative order true (fun x y => x * y) a b

/-- `a / b` of physical objects (`physical/_operations.py` 320-362). -/
def over (order : List System) (a b : Operand κ ν ℝ) : Except PErr (Operand κ ν ℝ) :=
  multiplicative order false (fun x y => x / y) a b

/-- `a + b` of physical objects (`physical/_operations.py` 267-317). -/
def plus (same inside : ν → ν → Bool) (a b : Operand κ ν ℝ) : Except PErr (Operand κ ν ℝ) :=
  Physical.additive same inside (fun x y => x + y) a b

/-- `a - b` of physical objects (`physical/_operations.py` 267-317). -/
def minus (same inside : ν → ν → Bool) (a b : Operand κ ν ℝ) : Except PErr (Operand κ ν ℝ) :=
  Physical.additive same inside (fun x y => x - y) a b

/-- `a ** p` of a physical object, for an integer `p` (`physical/_operations.py` 365-408). -/
def raised (a : Operand κ ν ℝ) (p : ℕ) : Except PErr (Operand κ ν ℝ) :=
  exponential (fun x y => x ^ y) (fun x q => x ^ (q : ℝ)) a (.number false p)

/-- `numpy.sqrt(a)` of a physical object (`physical/_operations.py` 469-477). -/
def root (a : Operand κ ν ℝ) : Except PErr (Operand κ ν ℝ) := Physical.sqrt Real.sqrt a

/-! ## Coordinates -/

/-- `Implementations.x` (`_interfaces.py` 295-307). -/
def xCoord (order : List System) (r theta phi : Operand κ ν ℝ) : Except PErr (Operand κ ν ℝ) := do
  let s ← trig Real.sin theta
  let a ← times order r s
  let c ← trig Real.cos phi
  times order a c

/-- `Implementations.y` (`_interfaces.py` 309-321). -/
def yCoord (order : List System) (r theta phi : Operand κ ν ℝ) : Except PErr (Operand κ ν ℝ) := do
  let s ← trig Real.sin theta
  let a ← times order r s
  let c ← trig Real.sin phi
  times order a c

/-- `Implementations.z` (`_interfaces.py` 323-334). -/
def zCoord (order : List System) (r theta : Operand κ ν ℝ) : Except PErr (Operand κ ν ℝ) := do
  let c ← trig Real.cos theta
  times order r c

/-! ## Magnitudes, components, angle -/

/-- `Implementations.bmag` and `umag` (`_interfaces.py` 336-362): the root of the sum of the squares of the components. -/
def magnitude (same inside : ν → ν → Bool) (a b c : Operand κ ν ℝ) : Except PErr (Operand κ ν ℝ) := do
  let a2 ← raised a 2
  let b2 ← raised b 2
  let ab ← plus same inside a2 b2
  let c2 ← raised c 2
  let s ← plus same inside ab c2
  root s

/-- `Implementations.udotb` (`_interfaces.py` 425-440). -/
def udotb (order : List System) (same inside : ν → ν → Bool) (br bt bp ur ut up : Operand κ ν ℝ) :
    Except PErr (Operand κ ν ℝ) := do
  let x ← times order br ur
  let y ← times order bt ut
  let xy ← plus same inside x y
  let z ← times order bp up
  plus same inside xy z

/-- `Implementations.upara` (`_interfaces.py` 412-423). -/
def upara (order : List System) (same inside : ν → ν → Bool) (br bt bp ur ut up : Operand κ ν ℝ) :
    Except PErr (Operand κ ν ℝ) := do
  let d ← udotb order same inside br bt bp ur ut up
  let m ← magnitude same inside br bt bp
  over order d m

/-- `Implementations.uperp` (`_interfaces.py` 398-410). -/
def uperp (order : List System) (same inside : ν → ν → Bool) (br bt bp ur ut up : Operand κ ν ℝ) :
    Except PErr (Operand κ ν ℝ) := do
  let m ← magnitude same inside ur ut up
  let p ← upara order same inside br bt bp ur ut up
  let m2 ← raised m 2
  let p2 ← raised p 2
  let d ← minus same inside m2 p2
  root d

/-- `arg[arg < -1.0] = -1.0; arg[arg > +1.0] = +1.0` (`_interfaces.py` 388-389), for one element. -/
def clip (x : ℝ) : ℝ := if x < -1 then -1 else if 1 < x then 1 else x

/-- `Implementations.angle` (`_interfaces.py` 364-396), with `ubmag` (364-375); `axes` are those of the array `ur` of the
whole dataset, `self.dataset.ur.axes`. -/
def angle (order : List System) (same inside : ν → ν → Bool) (axes : Dict κ ν) (br bt bp ur ut up : Operand κ ν ℝ) :
    Except PErr (Operand κ ν ℝ) := do
  let d ← udotb order same inside br bt bp ur ut up
  let b ← magnitude same inside br bt bp
  let u ← magnitude same inside ur ut up
  let m ← times order b u
  let r ← over order d m
  match r with
  | .array a => newArray (a.arr.data.data.map (fun x => Real.arccos (clip x))) [⟨1, c! "rad", 1⟩] axes
  | _ => .error .type

/-! ## Rigidity -/

/-- `array.transpose(*names)` of a physical array (`physical/_array.py` 87-94): the stored data and the axes are
reordered. -/
def transposed (a : Operand κ ν ℝ) (names : List κ) : Except PErr (Operand κ ν ℝ) :=
  match a with
  | .array x => match x.arr.transposeNames names with
    | .error e => .error (.look e)
    | .ok d => match Axes.permuteNames x.axes names with
      | .error e => .error (.look e)
      | .ok axes => .ok (.array ⟨d, axes⟩)
  | _ => .error .type

/-- `Implementations._compute_rigidity` (`_interfaces.py` 491-517); `species` and `energy` are the names of the axes. -/
def rigidity (order : List System) (same inside : ν → ν → Bool) (species energy : κ) (c mass charge en : Operand κ ν ℝ) :
    Except PErr (Operand κ ν ℝ) := do
  let j ← over order en mass
  let jt ← transposed j [species, energy]
  let c2 ← raised c 2
  let t ← plus same inside jt c2
  let t2 ← raised t 2
  let c4 ← raised c 4
  let d ← minus same inside t2 c4
  let s ← root d
  let mc ← over order mass c
  let p ← times order s mc
  over order p charge

/-! ## Fluence -/

/-- `numpy.array(self.time(time=indices))` (`_interfaces.py` 898-909, 1035-1043, `physical/_array.py` 69-73), where the array
of times has one dimension. -/
def timesAt (t : ND ℝ) (indices : List ℤ) : Except PErr (ND ℝ) :=
  match getItem t (.one (.seq .other indices)) with
  | .error e => .error (.look e)
  | .ok d => .ok d

/-- `Implementations.fluence` (`_interfaces.py` 757-780) for all times: `flux` is the flux for all times, `t` the array of
times, `time` the name of the axis of times, `axis` that axis, and `n` its length. -/
def fluence (order : List System) (time : κ) (axis : ν) (n : Nat) (flux t : Operand κ ν ℝ) : Except PErr (Operand κ ν ℝ) :=
  match t with
  | .array x => do
    let it := (List.range n).map (fun i : Nat => (i : ℤ))
    let t0 ← timesAt x.arr.data.data it
    let tm ← timesAt x.arr.data.data (shiftSequence it (-1) (some 0) none)
    let d ← zipData (fun x y => x - y) t0 tm
    let dt ← newArray d x.arr.unit [(time, axis)]
    let p ← times order flux dt
    match p with
    | .array a => reduceAxis (fun y => cumsumAxis List.sum y 0) a
    | _ => .error .type
  | _ => .error .type

end

end Eprem.Observable
