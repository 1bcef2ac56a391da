import Verif.Model.Subscript
import Verif.Spec.Observable
import Verif.Spec.Numeric

/-!
# Specification vocabulary for the subscription of physical arrays (C87)
-/

namespace Eprem.Numeric

/-- The tuples of indices, one for each axis, for which subscription selects the product of the positions (C27, C67): a
sequence of positions together with integers, other sequences and slices that take their whole axis; or slices only; or
integers and slices with bounds on the axis, written without a sign, and without a step.  The only index of an array with one
axis is not a list, and no index is a numpy array. -/
def Supported (shape : List Nat) (args : List Arg) : Prop :=
  (∀ k l, Arg.seq k l ∈ args → k = .other ∨ (k = .list ∧ 2 ≤ args.length)) ∧
    (((∃ k l, Arg.seq k l ∈ args) ∧ CoversSlices shape args) ∨ (∀ x ∈ args, ∃ b e s, x = .slice b e s) ∨
      PlainArgs shape args)

end Eprem.Numeric

namespace Eprem.Physical

open Eprem Eprem.Numeric

variable {K : Type}

/-- How many values an axis has. -/
def AnyAxis.length : AnyAxis K → Nat
  | .points x => x.data.length
  | .symbols x => x.data.length
  | .coordinates x _ => x.data.length

/-- `y` is an axis of the same class, with the same unit if it has one, whose values are those of `x` at these positions. -/
def AnyAxis.Selects (x : AnyAxis K) (l : List Nat) (y : AnyAxis K) : Prop :=
  match x, y with
  | .points x, .points y => List.Forall₂ (fun j v => x.data[j]? = some v) l y.data
  | .symbols x, .symbols y => List.Forall₂ (fun j v => x.data[j]? = some v) l y.data
  | .coordinates x u, .coordinates y v => v = u ∧ List.Forall₂ (fun j v => x.data[j]? = some v) l y.data
  | _, _ => False

end Eprem.Physical

namespace Eprem.Observable

open Eprem Eprem.Numeric Eprem.Physical

variable {κ : Type}

/-- The axes of the grid have as many values as the grid has positions. -/
def Grid.Fits (G : Grid κ (AnyAxis ℝ)) (dims : List κ) : Prop := ∀ d ∈ dims, (G.axis d).length = G.size d

/-- The grid `H` is the part of `G` at the positions `ls d` of each dimension `d`. -/
structure Grid.Part (G : Grid κ (AnyAxis ℝ)) (dims : List κ) (ls : κ → List Nat) (H : Grid κ (AnyAxis ℝ)) : Prop where
  size : ∀ d ∈ dims, H.size d = (ls d).length
  axis : ∀ d ∈ dims, (G.axis d).Selects (ls d) (H.axis d)

/-- The position in the whole grid of a position in its part. -/
def whole (ls : κ → List Nat) (pos : κ → Nat) : κ → Nat := fun d => (ls d).getD (pos d) 0

/-- The positions that an observer's index of a dimension selects: all of them if there is none, or if it is an empty
sequence. -/
def ObservedPositions (n : Nat) (i : Option Arg) (l : List Nat) : Prop :=
  match i with
  | none => l = List.range n
  | some (.seq _ []) => l = List.range n
  | some (.int i) => Positions n (.int i) l
  | some (.seq .other (i :: is)) => Positions n (.seq .other (i :: is)) l
  | _ => False

end Eprem.Observable
