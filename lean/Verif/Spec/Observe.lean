import Verif.Model.Observe
import Verif.Spec.Subscript
import Verif.Spec.Axis
import Verif.Spec.Units
import Verif.Spec.Interpolate

/-!
# Specification vocabulary for the subscription of observable quantities (C93–C95)
-/

namespace Eprem.Observable

open Eprem Eprem.Symbolic Eprem.Metric Eprem.Numeric Eprem.Measured Eprem.Physical

/-- No unit. -/
def noUnit : List Term := [⟨1, Symbolic.one, 1⟩]

/-- One of the unit `u` is `f` of the unit `ux`. -/
def UnitFactor (nodes : List Name) (φ : Name → ℚ) (ux u : List Term) (f : ℝ) : Prop :=
  (ux = noUnit ∧ u = noUnit ∧ f = 1) ∨
  ∃ n m, ux = [⟨1, n, 1⟩] ∧ IsSymbolOf n n ∧ u = [⟨1, m, 1⟩] ∧ IsSymbolOf m m ∧ Convertible nodes m n ∧ f = (φ m : ℝ) / φ n

/-- The same for the unit `ux` of an axis: numbers without a unit are taken in the unit of the axis. -/
def AxisFactor (nodes : List Name) (φ : Name → ℚ) (ux u : List Term) (f : ℝ) : Prop :=
  UnitFactor nodes φ ux u f ∨ (u = noUnit ∧ f = 1 ∧ ∃ n, ux = [⟨1, n, 1⟩] ∧ IsSymbolOf n n)

/-- What a user means by an argument for a dimension with this axis: the argument stands for the positions `l`.  An integer
counts positions, from the end if it is negative; a slice is that of a list; a name is that of the first symbol; a measurable
object stands for the first of the coordinates with its amounts. -/
def Chooses (toInt : Name → Option ℤ) (nodes : List Name) (φ : Name → ℚ) (axis : AnyAxis ℝ) (l : List Nat) : UserArg → Prop
  | .index i => Positions axis.length (.int i) l
  | .indices is => is ≠ [] ∧ Positions axis.length (.seq .other is) l
  | .slice b e s => l ≠ [] ∧ Positions axis.length (.slice b e s) l
  | .name s => toInt s = none ∧ ∃ x, axis = .symbols x ∧ ∃ j, l = [j] ∧ Axis.FirstAt x.data s j
  | .measured vs u => vs ≠ [] ∧ ∃ x ux f, axis = .coordinates x ux ∧ AxisFactor nodes φ ux u f ∧
      List.Forall₂ (fun v j => Axis.FirstAt x.data (v * f) j) vs l

/-- What a user means by an argument for the shells: integers are numbers of shells. -/
def ChoosesShells (axis : AnyAxis ℝ) (l : List Nat) : UserArg → Prop
  | .index i => 0 ≤ i ∧ ∃ x, axis = .points x ∧ ∃ j, l = [j] ∧ Axis.FirstAt x.data i j
  | .indices is => is ≠ [] ∧ (∀ i ∈ is, 0 ≤ i) ∧ ∃ x, axis = .points x ∧ List.Forall₂ (Axis.FirstAt x.data) is l
  | .slice b e s => l ≠ [] ∧ Positions axis.length (.slice b e s) l
  | _ => False

/-- The axes of a dataset: nothing has been selected from them, and the shells are numbered from 0. -/
def WholeAxis : AnyAxis ℝ → Prop
  | .points x => x = ⟨(List.range x.data.length).map (fun i : Nat => (i : ℤ)), none⟩
  | .symbols x => x.stored = none
  | .coordinates x _ => x.stored = none

/-- The number is not on the axis: it is not close to any of the values, or it is beyond all of them. -/
def OffValues (data : List ℝ) (t : ℝ) : Prop :=
  (∀ d ∈ data, 1 / 100000 * |d| < |t - d|) ∨ (∀ d ∈ data, t < d) ∨ ∀ d ∈ data, d < t

/-- A measurable argument for an axis of coordinates: the values `ts`, in the unit of the axis; at least one of them is not on
the axis.  `factor` says how units are converted to that of the axis. -/
def NotOn (factor : List Term → List Term → ℝ → Prop) (axis : AnyAxis ℝ) (ts : List ℝ) (v : UserArg) : Prop :=
  ∃ vs u x ux f, v = .measured vs u ∧ axis = .coordinates x ux ∧ factor ux u f ∧
    ts = vs.map (fun v => v * f) ∧ ∃ t ∈ ts, OffValues x.data t

/-- The values on an axis of coordinates. -/
def axisData : AnyAxis ℝ → List ℝ
  | .coordinates x _ => x.data
  | _ => []

/-- The number is strictly between the smallest and the largest of the values. -/
def InsideOf (data : List ℝ) (t : ℝ) : Prop := (∃ lo ∈ data, lo < t) ∧ ∃ hi ∈ data, t < hi

/-- `h` is made from `f` by linear interpolation along the dimensions `es`, one after the other: along the dimension `e` from
the points `value e i`, `i < size e`, to the targets `ts e`.  The dimensions of `f` are `dims`. -/
def Polygons {κ : Type} [DecidableEq κ] (value : κ → Nat → ℝ) (ts : κ → List ℝ) (dims : List κ) :
    List κ → (κ → Nat) → ((κ → Nat) → ℝ) → ((κ → Nat) → ℝ) → Prop
  | [], size, f, h => ∀ pos, (∀ d ∈ dims, pos d < size d) → h pos = f pos
  | e :: es, size, f, h => ∃ m : (κ → Nat) → ℝ,
    (∀ pos, (∀ d ∈ dims, pos d < Function.update size e (ts e).length d) → ∀ t, (ts e)[pos e]? = some t →
      Interpolate.OnPolygon (size e) (value e) (fun i => f (Function.update pos e i)) t (m pos)) ∧
    Polygons value ts dims es (Function.update size e (ts e).length) m h

/-- The values of an axis of coordinates. -/
def axisValue (axis : AnyAxis ℝ) (i : Nat) : ℝ :=
  (axisData axis).getD i 0

/-- The unit of an axis of coordinates. -/
def axisUnit : AnyAxis ℝ → List Term
  | .coordinates _ u => u
  | _ => noUnit

/-- The unit of length of a metric system. -/
def lengthUnit : System → Name
  | .mks => c! "m"
  | .cgs => c! "cm"

/-- `i` is the number `x` without its fraction. -/
def WithoutFraction (x : ℝ) (i : ℤ) : Prop := (0 ≤ x → (i : ℝ) ≤ x ∧ x < i + 1) ∧ (x < 0 → x ≤ i ∧ (i : ℝ) - 1 < x)

/-- At each of the stored times, the radii rise with the number of the shell. -/
def RadiiRise {κ : Type} [DecidableEq κ] (G : Grid κ (AnyAxis ℝ)) (time shell : κ) (R : (κ → Nat) → ℝ) : Prop :=
  ∀ pos i j, pos time < G.size time → i < j → j < G.size shell → R (Function.update pos shell i) < R (Function.update pos shell j)

/-- At each of the stored times, the radius is beyond the first and below the last shell. -/
def BetweenShells {κ : Type} [DecidableEq κ] (G : Grid κ (AnyAxis ℝ)) (time shell : κ) (R : (κ → Nat) → ℝ) (t : ℝ) : Prop :=
  ∀ pos, pos time < G.size time → R (Function.update pos shell 0) < t ∧ t < R (Function.update pos shell (G.size shell - 1))

/-- A shell has this radius at one of the stored times. -/
def RadiusOfShell {κ : Type} [DecidableEq κ] (G : Grid κ (AnyAxis ℝ)) (time shell : κ) (R : (κ → Nat) → ℝ) (t : ℝ) : Prop :=
  ∃ pos, G.Inside [time, shell] pos ∧ R pos = t

/-- At one of the stored times, the radius is above or below all the shells. -/
def BeyondShells {κ : Type} [DecidableEq κ] (G : Grid κ (AnyAxis ℝ)) (time shell : κ) (R : (κ → Nat) → ℝ) (t : ℝ) : Prop :=
  ∃ pos, pos time < G.size time ∧
    ((∀ i < G.size shell, t < R (Function.update pos shell i)) ∨ ∀ i < G.size shell, R (Function.update pos shell i) < t)

end Eprem.Observable
