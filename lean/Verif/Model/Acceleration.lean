import Verif.Model.Transport
import Verif.Model.Subscript

/-!
# Model of the acceleration rate: `observable/_interfaces.py` 549-624
-/

namespace Eprem.Observable

open Eprem Eprem.Symbolic Eprem.Metric Eprem.Numeric Eprem.Measured Eprem.Physical

variable {κ : Type} [DecidableEq κ]

/-- `Sequence.shift(x, floor, ceil)` (`numeric/_index.py` 107-114). -/
def shiftIndex (x : ℤ) (floor ceil : Option ℤ) (s : List ℤ) : List ℤ :=
  s.map (fun i =>
    let j := match floor with
      | some f => if i + x < f then f else i + x
      | none => i + x
    match ceil with
    | some c => if c < j then c else j
    | none => j)

noncomputable section

/-- What the transport of particles depends on besides the plasma: constants of nature, runtime parameters, and the arrays of
masses, charges, energies and speeds of the particles. -/
structure Particles (κ ν : Type) where
  c : Operand κ ν ℝ
  au : Operand κ ν ℝ
  mev : ℝ
  lambda0 : Obj ℝ
  radial : Obj ℝ
  power : Obj ℝ
  kper : Obj ℝ
  m : Operand κ ν ℝ
  q : Operand κ ν ℝ
  e : Operand κ ν ℝ
  v : Operand κ ν ℝ

/-- The arrays of the plasma: the radius of the shells, and the components of the field and of the flow. -/
structure Plasma (α : Type) where
  r : α
  br : α
  bt : α
  bp : α
  ur : α
  ut : α
  up : α

/-- `Implementations._kxx_ux` (`_interfaces.py` 611-624), from the arrays at the shells in question; `axes` are those of the
array `ur` of the whole dataset (`angle`, 392-396). -/
def kxxOverU {ν : Type} (order : List System) (same inside : ν → ν → Bool) (species energy : κ) (axes : Dict κ ν)
    (T : Particles κ ν) (P : Plasma (Operand κ ν ℝ)) : Except PErr (Operand κ ν ℝ) := do
  let mfp ← meanFreePath order same inside species energy T.c T.au T.mev T.lambda0 T.radial T.power T.m T.q T.e P.r
  let theta ← angle order same inside axes P.br P.bt P.bp P.ur P.ut P.up
  let c ← trig Real.cos theta
  let c2 ← raised c 2
  let s ← trig Real.sin theta
  let s2 ← raised s 2
  let ks2 ← times order (.object .vector T.kper) s2
  let ratio ← plus same inside c2 ks2
  let a ← times order mfp ratio
  let b ← times order a T.v
  let kxx ← over order b (.number 3)
  let ux ← magnitude same inside P.ur P.ut P.up
  over order kxx ux

/-- `self.ur(shell=s)` and so on for the arrays of the plasma (`_interfaces.py` 130-210, 884-909). -/
def Plasma.atShells (shell : κ) (P : Plasma (Arr κ (AnyAxis ℝ) ℝ)) (s : List ℤ) :
    Except PErr (Plasma (Operand κ (AnyAxis ℝ) ℝ)) := do
  let get := fun a => subscriptObserved AnyAxis.getItem a (fun k => if k = shell then some (.seq .other s) else none)
  let r ← get P.r
  let br ← get P.br
  let bt ← get P.bt
  let bp ← get P.bp
  let ur ← get P.ur
  let ut ← get P.ut
  let up ← get P.up
  return ⟨r, br, bt, bp, ur, ut, up⟩

/-- The sum `delta_x` (`_interfaces.py` 591-608): the numbers are added, the units, dimensions and other axes are compared,
and the shell axis is that of the shells `s` (`physical.points(s)`, `physical/_axis_factories.py` 21-38). -/
def sumOverShells (same : AnyAxis ℝ → AnyAxis ℝ → Bool) (shell : κ) (s : List ℤ) :
    Operand κ (AnyAxis ℝ) ℝ → Operand κ (AnyAxis ℝ) ℝ → Except PErr (Operand κ (AnyAxis ℝ) ℝ)
  | .array x, .array y => match zipData (fun a b => a + b) x.arr.data.data y.arr.data.data with
    | .error e => .error e
    | .ok d =>
      if exprEq x.arr.unit y.arr.unit = false then .error (.look .value)
      else if x.axes.keys ≠ y.axes.keys then .error (.look .value)
      else if x.axes.keys.any (fun k => decide (k ≠ shell) && (match x.axes.get? k, y.axes.get? k with
        | some a, some b => !same a b
        | _, _ => true)) then .error (.look .value)
      else match Axis.pointsFactory s with
        | .error e => .error (.look e)
        | .ok p => newArray d x.arr.unit (x.axes.map (fun kv => (kv.1, if kv.1 = shell then .points p else kv.2)))
  | _, _ => .error .type

/-- `Implementations._compute_ar` (`_interfaces.py` 573-609) for the shells `s`, with `n` the number of shells. -/
def rateAtShells (order : List System) (same inside : AnyAxis ℝ → AnyAxis ℝ → Bool) (shell species energy : κ)
    (T : Particles κ (AnyAxis ℝ)) (P : Plasma (Arr κ (AnyAxis ℝ) ℝ)) (n : Nat) (s : List ℤ) :
    Except PErr (Operand κ (AnyAxis ℝ) ℝ) := do
  let s1 := shiftIndex 1 none (some ((n : ℤ) - 1)) s
  let s2 := shiftIndex (-1) (some 0) none s
  let P1 ← P.atShells shell s1
  let P2 ← P.atShells shell s2
  let ux1 ← magnitude same inside P1.ur P1.ut P1.up
  let a ← times order P1.ur P2.ur
  let b ← times order P1.ut P2.ut
  let ab ← plus same inside a b
  let c ← times order P1.up P2.up
  let dot ← plus same inside ab c
  let uu ← times order ux1 ux1
  let ratio ← over order dot uu
  let one := Operand.object .scalar ⟨⟨[], fun _ => 1⟩, unitless⟩
  let d ← minus same inside one ratio
  let d ← unary (fun x => |x|) d
  let du ← times order ux1 d
  let k1 ← kxxOverU order same inside species energy P.ur.axes T P1
  let k2 ← kxxOverU order same inside species energy P.ur.axes T P2
  let dx ← sumOverShells same shell s k1 k2
  over order du dx

/-- The shells that `_compute_ar` uses (`_interfaces.py` 569-572): those of a sequence of indices, else all. -/
def rateShells (n : Nat) : Option Arg → List ℤ
  | some (.seq _ l) => l
  | _ => (List.range n).map (fun i : Nat => (i : ℤ))

/-- `Implementations.ar` without assumptions (`_interfaces.py` 549-565, 884-896): the result is subscripted by time and
energy. -/
def accelerationRate (order : List System) (same inside : AnyAxis ℝ → AnyAxis ℝ → Bool) (time shell species energy : κ)
    (T : Particles κ (AnyAxis ℝ)) (P : Plasma (Arr κ (AnyAxis ℝ) ℝ)) (n : Nat) (indices : κ → Option Arg) :
    Except PErr (Operand κ (AnyAxis ℝ) ℝ) := do
  let a ← rateAtShells order same inside shell species energy T P n (rateShells n (indices shell))
  match a with
  | .array a => subscriptObserved AnyAxis.getItem a (fun k => if k = time ∨ k = energy then indices k else none)
  | _ => .error .type

end

end Eprem.Observable
