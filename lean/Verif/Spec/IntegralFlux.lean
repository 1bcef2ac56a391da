import Verif.Props.Interpolate
import Verif.Spec.Gradient

/-!
# Specification vocabulary for the integral flux (C100)
-/

namespace Eprem.Observable

open Eprem.Interpolate

/-- The part above `p` of a spectrum, with values `y i` at the `n` energies `x i`, is the one with the values `ys` at the
energies `xs`: the whole spectrum if `p` is below it; otherwise, it starts at `p`, with the value there of the power law through
the two values around `p`, and goes on with the spectrum. -/
def Above (n : Nat) (x y : Nat → ℝ) (p : ℝ) (xs ys : List ℝ) : Prop :=
  ((∀ i < n, p < x i) ∧ xs = (List.range n).map x ∧ ys = (List.range n).map y) ∨
  ∃ i v, i + 1 < n ∧ x i ≤ p ∧ p < x (i + 1) ∧ OnPowerLaw (x i) (y i) (x (i + 1)) (y (i + 1)) p v ∧
    xs = p :: ((List.range n).map x).drop (i + 1) ∧ ys = v :: ((List.range n).map y).drop (i + 1)

end Eprem.Observable
