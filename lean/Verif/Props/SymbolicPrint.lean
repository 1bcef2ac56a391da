import Verif.Lemmas.PrintRow
import Verif.Props.Symbolic

/-! # C06 for whole expressions: `str(expression)` reads back -/

namespace Eprem.Symbolic

open Eprem.Metric

/-- **C06 (whole expressions, partial).** The printed form of an expression in canonical form - what every operation on
expressions produces - reads back as exactly that expression, for the terms described by `Printable`.  Missing: as in
`c06_print_parse_partial`. -/
theorem c06_expression_partial (ts : List Term) (hc : Canonical ts) (h : ∀ t ∈ ts, Printable t) :
    exprOfString false (showExpr ts) = .ok ts := by
  rw [showExpr_round_trip ts hc.nonempty (fun t ht => ⟨h t ht, fun hb => (hc.symbol t ht hb).1⟩)]
  exact hc.reduce_self (fun t ht => (h t ht).base_ne)

example : exprOfString false (showExpr [⟨3/4, one, 1⟩, ⟨1, ['k', 'm'], 5/2⟩, ⟨1, ['s'], -1⟩]) =
    .ok [⟨3/4, one, 1⟩, ⟨1, ['k', 'm'], 5/2⟩, ⟨1, ['s'], -1⟩] := by
  have hr : reduce [⟨3/4, one, 1⟩, ⟨1, ['k', 'm'], 5/2⟩, ⟨1, ['s'], -1⟩] =
    .ok [⟨3/4, one, 1⟩, ⟨1, ['k', 'm'], 5/2⟩, ⟨1, ['s'], -1⟩] := by decide +kernel
  have hnl : ∀ b : Str, (∀ c ds, b = c :: ds → c ≠ 'e' ∧ c ≠ 'E') → ¬ ExpLike b := by
    rintro b hb ⟨c, ds, rfl, hc, _⟩
    have := hb c ds rfl
    tauto
  obtain ⟨r, hr', hcan⟩ := c02_reduce_canonical [⟨3/4, one, 1⟩, ⟨1, ['k', 'm'], 5/2⟩, ⟨1, ['s'], -1⟩] (by simp)
    (by unfold WF; decide +kernel)
  rw [hr] at hr'
  cases hr'
  refine c06_expression_partial _ hcan ?_
  intro t ht
  fin_cases ht
  · exact ⟨by decide +kernel, by decide +kernel, Or.inl ⟨rfl, rfl⟩, by decide +kernel, by decide +kernel, by decide +kernel,
      fun h => absurd h (hnl _ (by rintro c ds h; cases h; decide))⟩
  · exact ⟨by decide +kernel, by decide +kernel, Or.inr (validName_of ['k', 'm'] [] (by decide)), by decide +kernel,
      by decide +kernel, by decide +kernel, fun _ => Or.inl rfl⟩
  · exact ⟨by decide +kernel, by decide +kernel, Or.inr (validName_of ['s'] [] (by decide)), by decide +kernel,
      by decide +kernel, by decide +kernel, fun _ => Or.inl rfl⟩

end Eprem.Symbolic
