import Verif.Model.MetricQuantity
import Verif.Lemmas.Print

/-! # Reading back a printed expression: terms separated by blanks -/

namespace Eprem.Metric

open Eprem Eprem.Symbolic

/-- what `Term.format` writes for a number or a symbol without coefficient -/
def rowAtom (t : Term) : Atom := if t.base = one then constAtom t.coeff else nameAtom none t

def rowExpr : Term → List Term → Expr
  | t, [] => .one (rowAtom t)
  | t, u :: us => .cons (rowAtom t) (.juxt 0) (rowExpr u us)

/-- numbers, and symbols without coefficient -/
def Row (t : Term) : Prop := Printable t ∧ (t.base ≠ one → t.coeff = 1)

theorem rowAtom_text {t : Term} (h : Row t) : (rowAtom t).text = formatTerm t := by
  have := termExpr_text h.1
  rw [← this]
  unfold termExpr rowAtom
  split
  · simp [Expr.text]
  next hb => rw [if_pos (h.2 hb)]; simp [Expr.text]

theorem rowAtom_ok {t : Term} (h : Row t) : (rowAtom t).Ok 1 := by
  unfold rowAtom
  split
  · exact constAtom_ok h.1.coeff h.1.coeffDen h.1.coeffFloat
  next hb => exact nameAtom_ok h.1 hb none trivial (by simp)

theorem rowAtom_flat {t : Term} (h : Row t) : (rowAtom t).flat 1 none = [⟨t.coeff, t.base, t.exp⟩] := by
  unfold rowAtom
  split
  next hb =>
    rw [constAtom_flat h.1.coeffDen, hb]
    rcases h.1.base with h1 | h1
    · rw [h1.2]
    · obtain ⟨ls, ds, h2, h3, h4, _, _⟩ := h1
      rw [hb] at h2
      cases ls with
      | nil => exact absurd rfl h3
      | cons x ls =>
        have : x = '1' := by simp [one] at h2; exact h2.1.symm
        have := h4 x (by simp)
        simp_all [isLetter]
  next hb => rw [nameAtom_flat h.1 hb, h.2 hb]; rfl

theorem rowExpr_text (ts : List Term) : ∀ t, (∀ u ∈ t :: ts, Row u) → (rowExpr t ts).text = showExpr (t :: ts) := by
  induction ts with
  | nil => intro t h; simp [rowExpr, Expr.text, showExpr, rowAtom_text (h t (by simp))]
  | cons u us ih =>
    intro t h
    simp [rowExpr, Expr.text, showExpr, rowAtom_text (h t (by simp)), Sep.text, blanks,
      ih u (fun v hv => h v (List.mem_cons_of_mem _ hv))]

theorem rowExpr_ok (ts : List Term) : ∀ t, (∀ u ∈ t :: ts, Row u) → (rowExpr t ts).Ok 1 := by
  induction ts with
  | nil => intro t h; simpa only [rowExpr, Expr.Ok] using rowAtom_ok (h t (by simp))
  | cons u us ih =>
    intro t h
    simp only [rowExpr, Expr.Ok]
    exact ⟨rowAtom_ok (h t (by simp)), ih u (fun v hv => h v (List.mem_cons_of_mem _ hv)), by simp⟩

theorem rowExpr_flat (ts : List Term) : ∀ t, (∀ u ∈ t :: ts, Row u) → (rowExpr t ts).flat 1 none = t :: ts := by
  induction ts with
  | nil => intro t h; simp only [rowExpr, Expr.flat, rowAtom_flat (h t (by simp))]
  | cons u us ih =>
    intro t h
    simp only [rowExpr, Expr.flat, rowAtom_flat (h t (by simp)), Sep.op,
      ih u (fun v hv => h v (List.mem_cons_of_mem _ hv))]
    rfl

/-- the printed form of an expression reads back as that expression, reduced -/
theorem showExpr_round_trip (ts : List Term) (hne : ts ≠ []) (h : ∀ t ∈ ts, Row t) :
    exprOfString false (showExpr ts) = reduce ts := by
  cases ts with
  | nil => exact absurd rfl hne
  | cons t ts =>
    rw [← rowExpr_text ts t h]
    refine exprOfString_text (rowExpr_ok ts t h) _ hne (fun u hu => (h u hu).1.base_ne) ?_ ?_ <;>
      rw [rowExpr_flat ts t h] <;> simp

end Eprem.Metric
