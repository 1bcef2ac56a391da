import Verif.Model.Axis

/-!
# Specification vocabulary for axes (C38, C73)
-/

namespace Eprem.Axis

open Eprem Eprem.Numeric

/-- The positions in an answer of `index`, which is a single value exactly when there is one. -/
def Index.Is (r : Index) (is : List ℤ) : Prop :=
  match r with
  | .value i => is = [i]
  | .sequence l => is = l ∧ l.length ≠ 1

/-- The first position of a value. -/
def FirstAt {α : Type} (l : List α) (x : α) (i : Nat) : Prop := l[i]? = some x ∧ ∀ j < i, l[j]? ≠ some x

/-- Python's `l[i]`, for an index of either sign. -/
def AtIndex {α : Type} (l : List α) (i : ℤ) (x : α) : Prop :=
  (0 ≤ i ∧ l[i.toNat]? = some x) ∨ (i < 0 ∧ 0 ≤ i + l.length ∧ l[(i + l.length).toNat]? = some x)

/-- The positions `is` of `whole` hold the members of `part`. -/
def PositionsOf {α : Type} (whole part : List α) (is : List ℤ) : Prop := List.Forall₂ (AtIndex whole) is part

end Eprem.Axis
