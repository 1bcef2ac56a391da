import Verif.Model.NumericIndex

/-!
# Specification of indexing

Which positions of one axis an index selects, and what it means for an array to hold the elements at the product of the
positions selected on every axis.
-/

namespace Eprem.Numeric

variable {α : Type}

/-- `l` are the positions that this index selects on an axis of length `n`. -/
def Positions (n : Nat) : Arg → List Nat → Prop
  | .int i, l => ∃ j : Nat, l = [j] ∧ j < n ∧ ((j : ℤ) = i ∨ (j : ℤ) = i + n)
  | .slice a b s, l => slicePositions n a b s = .ok l
  | .seq _ is, l => List.Forall₂ (fun i j => (j : Nat) < n ∧ ((j : ℤ) = i ∨ (j : ℤ) = i + n)) is l
  | .ellipsis, _ => False

/-- The positions selected on each axis by one index per leading axis; the other axes are taken whole. -/
def AllPositions : List Nat → List Arg → List (List Nat) → Prop
  | [], [], [] => True
  | n :: s, [], l :: ls => l = List.range n ∧ AllPositions s [] ls
  | n :: s, a :: args, l :: ls => Positions n a l ∧ AllPositions s args ls
  | _, _, _ => False

/-- `r` holds the elements of `a` at the product of these positions, and keeps every axis. -/
def Selects (a : ND α) (ls : List (List Nat)) (r : ND α) : Prop :=
  r.shape = ls.map List.length ∧
    ∀ p, Valid p r.shape → r.get p = a.get (List.zipWith (fun l i => l.getD i 0) ls p)

/-- Every slice among the indices takes its whole axis. -/
def CoversSlices : List Nat → List Arg → Prop
  | n :: s, .slice a b st :: args => slicePositions n a b st = .ok (List.range n) ∧ CoversSlices s args
  | _ :: s, _ :: args => CoversSlices s args
  | _, _ => True

/-- A slice without a step whose bounds, if any, are written as non-negative numbers on the axis. -/
def PlainSlice (n : Nat) (a b s : Option ℤ) : Prop :=
  (s = none ∨ s = some 1) ∧ (∀ y, b = some y → 0 < y ∧ y ≤ n) ∧ ∀ x, a = some x → 0 ≤ x ∧ x ≤ b.getD n

/-- Integers and plain slices, one for each axis. -/
def PlainArgs : List Nat → List Arg → Prop
  | [], [] => True
  | n :: s, .slice a b st :: args => PlainSlice n a b st ∧ PlainArgs s args
  | _ :: s, .int _ :: args => PlainArgs s args
  | _, _ => False

end Eprem.Numeric
