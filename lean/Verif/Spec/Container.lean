import Verif.Model.PyDict
import Mathlib.Algebra.Order.Group.Abs

/-!
# Specifications for the container properties (C08-C14)

Nothing here mentions the model of the code.
-/

namespace Eprem.Container

variable {α κ ν : Type}

/-- `a` occurs before `b` in `l` (at two different positions). -/
def Before (a b : α) (l : List α) : Prop := List.Sublist [a, b] l

/-- The items of `l`, each once, ordered by their first occurrence. -/
structure FirstOccurrences [DecidableEq α] (l r : List α) : Prop where
  nodup : r.Nodup
  mem : ∀ x, x ∈ r ↔ x ∈ l
  order : ∀ a b, Before a b r → l.idxOf a < l.idxOf b

/-- The two lists have two common members in opposite order. -/
def OrderConflict (x y : List α) : Prop := ∃ a b, Before a b x ∧ Before b a y

/-- A duplicate-free list of exactly the members of both, in which each keeps its own order. -/
structure IsMerge (x y r : List α) : Prop where
  nodup : r.Nodup
  mem : ∀ a, a ∈ r ↔ a ∈ x ∨ a ∈ y
  left : x.Sublist r
  right : y.Sublist r

/-- A row satisfies a request if it has each requested key with the requested value. -/
def Matches (row : List (κ × ν)) (request : List (κ × ν)) : Prop := ∀ p ∈ request, p ∈ row

/-- A row has the value under some key. -/
def HasValue (row : List (κ × ν)) (v : ν) : Prop := ∃ k, (k, v) ∈ row

/-- Exactly one position of the list satisfies `P`, and `e` is there. -/
def OnlyOne (P : α → Prop) (l : List α) (e : α) : Prop :=
  ∃ pre post, l = pre ++ e :: post ∧ P e ∧ (∀ x ∈ pre, ¬ P x) ∧ (∀ x ∈ post, ¬ P x)

section
variable {𝕜 : Type} [LinearOrder 𝕜] [AddCommGroup 𝕜]

/-- Position `i` holds the first of the values of `l` closest to `t`. -/
def NearestAt (l : List 𝕜) (t : 𝕜) (i : Nat) : Prop :=
  ∃ v, l[i]? = some v ∧
    ∀ (k : Nat) (x : 𝕜), l[k]? = some x → |v - t| ≤ |x - t| ∧ (|x - t| = |v - t| → i ≤ k)

end

/-- The name ends in an underscore and a decimal number. -/
def Numbered (s : List Char) : Prop :=
  ∃ p ds, s = p ++ '_' :: ds ∧ ds ≠ [] ∧ ∀ c ∈ ds, c ∈ ['0', '1', '2', '3', '4', '5', '6', '7', '8', '9']

end Eprem.Container
