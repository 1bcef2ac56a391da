import Verif.Spec.Subscript

/-!
# Specification vocabulary for observing parts of derived quantities (C88)
-/

namespace Eprem.Observable

open Eprem Eprem.Numeric Eprem.Physical

variable {κ : Type} [DecidableEq κ]

/-- Two arrays over the same part of a grid, with the same unit and the same numbers. -/
def SamePart (G : Grid κ (AnyAxis ℝ)) (dims : List κ) (ls : κ → List Nat) (r s : Operand κ (AnyAxis ℝ) ℝ) : Prop :=
  ∃ H u f, G.Part dims ls H ∧ OnGrid H dims u f r ∧ OnGrid H dims u f s

/-- `F` computes an observable quantity from some arrays.  Computing it from the whole arrays and then taking the part at some
indices, and computing it from the parts of the arrays at these indices, succeed and give the same. -/
def ObservedInParts (G : Grid κ (AnyAxis ℝ)) (dims : List κ) (indices : κ → Option Arg) (ls : κ → List Nat) {n : Nat}
    (F : (Fin n → Operand κ (AnyAxis ℝ) ℝ) → Except PErr (Operand κ (AnyAxis ℝ) ℝ))
    (a : Fin n → Arr κ (AnyAxis ℝ) ℝ) : Prop :=
  ∃ q r x s, F (fun i => .array (a i)) = .ok (.array q) ∧ subscriptObserved AnyAxis.getItem q indices = .ok r ∧
    (∀ i, subscriptObserved AnyAxis.getItem (a i) indices = .ok (x i)) ∧ F x = .ok s ∧ SamePart G dims ls r s

end Eprem.Observable
