import Verif.Model.NumericArray
import Verif.Spec.Container
import Mathlib.Logic.Function.Basic

/-!
# Specification vocabulary for arrays with named dimensions (C31, C32, C69)

A *named position* gives a position along every dimension name.  An array is read at a named position without regard to
the order in which it stores its dimensions.
-/

namespace Eprem.Numeric

open Eprem

variable {κ α β γ : Type} [DecidableEq κ]

/-- The names are distinct, and there is one for each axis. -/
structure WellNamed (a : Named κ α) : Prop where
  nodup : a.dims.Nodup
  length : a.dims.length = a.data.shape.length

/-- The length of the axis with this name, if there is one. -/
def Named.sizeAlong (a : Named κ α) (d : κ) : Option Nat := a.data.shape[a.dims.idxOf d]?

/-- The element at a named position. -/
def Named.at (a : Named κ α) (ρ : κ → Nat) : α := a.data.get (a.dims.map ρ)

/-- The named position is inside the array. -/
def Named.Has (a : Named κ α) (ρ : κ → Nat) : Prop := ∀ d n, a.sizeAlong d = some n → ρ d < n

/-- The element at a named position, where an array does not vary along an axis of length one. -/
def Named.read (a : Named κ α) (ρ : κ → Nat) : α := a.at (fun d => if a.sizeAlong d = some 1 then 0 else ρ d)

/-- `r` holds `f` of the elements of `a` and `b` at the same named position, over the dimensions of both; each operand
has either the length of the result or length one along each of its dimensions. -/
structure Combines (f : α → β → γ) (a : Named κ α) (b : Named κ β) (r : Named κ γ) : Prop where
  named : WellNamed r
  dims : Container.IsMerge a.dims b.dims r.dims
  size : ∀ d ∈ r.dims, r.sizeAlong d = some (max ((a.sizeAlong d).getD 1) ((b.sizeAlong d).getD 1))
  left : ∀ d n, a.sizeAlong d = some n → n = 1 ∨ r.sizeAlong d = some n
  right : ∀ d n, b.sizeAlong d = some n → n = 1 ∨ r.sizeAlong d = some n
  element : ∀ ρ, r.Has ρ → r.at ρ = f (a.read ρ) (b.read ρ)

/-- The two arrays have the same elements at the same named positions. -/
structure SameByName (a b : Named κ α) : Prop where
  named : WellNamed b
  dims : ∀ d, d ∈ b.dims ↔ d ∈ a.dims
  size : ∀ d, b.sizeAlong d = a.sizeAlong d
  element : ∀ ρ, a.Has ρ → b.at ρ = a.at ρ

/-- `f` of the elements along one dimension, at a named position (which matters for the other dimensions only). -/
def Named.along (f : List α → β) (a : Named κ α) (d : κ) (ρ : κ → Nat) : β :=
  f ((List.range ((a.sizeAlong d).getD 0)).map (fun i => a.at (Function.update ρ d i)))

/-- `r` has the dimensions of `a` without `d`, and holds `f` of the elements of `a` along `d`. -/
structure ReducesAlong (f : List α → β) (a : Named κ α) (d : κ) (r : Named κ β) : Prop where
  named : WellNamed r
  dims : r.dims = a.dims.filter (fun n => decide (n ≠ d))
  size : ∀ n ∈ r.dims, r.sizeAlong n = a.sizeAlong n
  element : ∀ ρ, r.Has ρ → r.at ρ = a.along f d ρ

/-- `r` has the dimensions of `a`, with length one along `d`, and holds `f` of the elements of `a` along `d`. -/
structure ReducesKeeping (f : List α → β) (a : Named κ α) (d : κ) (r : Named κ β) : Prop where
  named : WellNamed r
  dims : r.dims = a.dims
  size : ∀ n ∈ r.dims, r.sizeAlong n = if n = d then some 1 else a.sizeAlong n
  element : ∀ ρ, r.Has ρ → r.at ρ = a.along f d ρ

/-- `r` has the dimensions and lengths of `a`, and holds `f` of the elements of `a` along `d` up to each position. -/
structure AccumulatesAlong (f : List α → β) (a : Named κ α) (d : κ) (r : Named κ β) : Prop where
  named : WellNamed r
  dims : r.dims = a.dims
  size : ∀ n, r.sizeAlong n = a.sizeAlong n
  element : ∀ ρ, r.Has ρ → r.at ρ = f ((List.range (ρ d + 1)).map (fun i => a.at (Function.update ρ d i)))

/-- `r` has the dimensions of `a` that are longer (or shorter) than one, and the same elements. -/
structure Squeezed (a r : Named κ α) : Prop where
  named : WellNamed r
  dims : ∀ n, n ∈ r.dims ↔ n ∈ a.dims ∧ a.sizeAlong n ≠ some 1
  order : r.dims.Sublist a.dims
  size : ∀ n ∈ r.dims, r.sizeAlong n = a.sizeAlong n
  element : ∀ ρ, r.Has ρ → r.at ρ = a.read ρ

end Eprem.Numeric
