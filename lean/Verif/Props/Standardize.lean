import Verif.Model.Standardize
import Verif.Lemmas.Text
import Verif.Lemmas.MetricSystem
import Verif.Lemmas.PyDict
import Verif.Props.Symbolic

/-!
# C84: standard units

Files of EPREM give units like `km/s` or `# / cm^2 s sr MeV`, in which everything after the slash is the denominator.
-/

namespace Eprem.Metric

open Eprem Eprem.Symbolic Eprem.Config

/-- an expression followed by one more operand -/
def Expr.snoc : Expr → Sep → Atom → Expr
  | .one b, s, a => .cons b s (.one a)
  | .cons b t x, s, a => .cons b t (Expr.snoc x s a)

theorem Expr.snoc_text : (x : Expr) → ∀ s a, (Expr.snoc x s a).text = x.text ++ s.text ++ a.text
  | .one b, s, a => by simp only [Expr.snoc, Expr.text]
  | .cons b t x, s, a => by simp only [Expr.snoc, Expr.text, Expr.snoc_text x s a, List.append_assoc]

theorem head_append {a b : Str} (h : a ≠ []) : (a ++ b).head? = a.head? := by
  cases a with
  | nil => exact absurd rfl h
  | cons c a => rfl

theorem Expr.snoc_ok (E : ℚ) : (x : Expr) → ∀ i j a, x.Ok E → a.Ok E → (Expr.snoc x (.div (i + 1) j) a).Ok E
  | .one b, i, j, a, hx, ha => by
    simp only [Expr.Ok] at hx
    simp only [Expr.snoc, Expr.Ok]
    exact ⟨hx, ha, by simp, by simp⟩
  | .cons b t x, i, j, a, hx, ha => by
    simp only [Expr.Ok] at hx
    simp only [Expr.snoc, Expr.Ok]
    refine ⟨hx.1, Expr.snoc_ok E x i j a hx.2.1 ha, hx.2.2.1, fun hd => ?_⟩
    rcases hx.2.2.2 hd with h | h | h
    · exact .inl h
    · exact .inr (.inl h)
    · refine .inr (.inr ?_)
      rw [Expr.snoc_text, List.append_assoc, head_append (Expr.text_ne_nil E x hx.2.1)]
      exact h

theorem Expr.snoc_pos : (x : Expr) → ∀ s a, x.Pos → a.Pos → (Expr.snoc x s a).Pos
  | .one b, s, a, hx, ha => by
    simp only [Expr.Pos] at hx
    simp only [Expr.snoc, Expr.Pos]; exact ⟨hx, ha⟩
  | .cons b t x, s, a, hx, ha => by
    simp only [Expr.Pos] at hx
    simp only [Expr.snoc, Expr.Pos]
    exact ⟨hx.1, Expr.snoc_pos x s a hx.2 ha⟩

theorem Expr.snoc_denote (ρ : Str → ℝ) : (x : Expr) → ∀ act s a, (Expr.snoc x s a).denote ρ act = x.denote ρ act * s.act (a.denote ρ)
  | .one b, act, s, a => by simp only [Expr.snoc, Expr.denote]
  | .cons b t x, act, s, a => by simp only [Expr.snoc, Expr.denote, Expr.snoc_denote ρ x t.act s a, mul_assoc]

theorem text_trimmed (x : Expr) (h : x.Ok 1) : Trimmed isSpace x.text := by
  constructor
  · intro c hc
    cases x with
    | one a =>
      simp only [Expr.Ok] at h
      obtain ⟨d, r, h1, h2, _⟩ := atom_head 1 a h
      simp only [Expr.text, h1, List.head?_cons, Option.some.injEq] at hc
      exact hc ▸ h2
    | cons a s x =>
      simp only [Expr.Ok] at h
      obtain ⟨d, r, h1, h2, _⟩ := atom_head 1 a h.1
      simp only [Expr.text, h1, List.cons_append, List.head?_cons, Option.some.injEq] at hc
      exact hc ▸ h2
  · intro c hc
    obtain ⟨t, d, h1, h2⟩ := expr_ends 1 x h
    rw [h1] at hc
    simp at hc
    exact hc ▸ h2

/-- **C84**, the text: a numerator and a denominator separated by the first slash. -/
theorem c84_text (N D : Expr) (hN : N.Ok 1) (hD : D.Ok 1) (hs : '/' ∉ N.text) (i j : ℕ)
    (hk : N.text ++ (Sep.div i j).text ++ D.text ∉ Dict.keys nonstandard) :
    standardize (N.text ++ (Sep.div i j).text ++ D.text) = (Expr.snoc N (.div 1 1) (.group D none)).text := by
  have hb : ∀ n, ∀ c ∈ blanks n, decide (c ≠ '/') = true := by
    intro n c hc; rw [blanks_mem hc]; decide
  have hn : ∀ c ∈ N.text, decide (c ≠ '/') = true := by
    intro c hc; rw [decide_eq_true_eq]; rintro rfl; exact hs hc
  unfold standardize
  rw [Dict.get?_eq_none.2 hk, Option.getD_none]
  unfold groupDenominator
  have e : N.text ++ (Sep.div i j).text ++ D.text = (N.text ++ blanks i) ++ '/' :: (blanks j ++ D.text) := by
    simp [Sep.text]
  have hall : ∀ c ∈ N.text ++ blanks i, decide (c ≠ '/') = true := by
    intro c hc
    rcases List.mem_append.1 hc with hc | hc
    · exact hn c hc
    · exact hb i c hc
  rw [e, if_pos (by simp)]
  obtain ⟨h1, h2⟩ := takeWhile_append_stop (p := fun c => decide (c ≠ '/')) (b := '/' :: (blanks j ++ D.text)) hall (by
    intro c hc; rw [List.head?_cons, Option.some.injEq] at hc; subst hc; decide)
  rw [h1, h2, List.drop_succ_cons, List.drop_zero, strip_eq, strip_eq]
  have p1 : stripBy isSpace (N.text ++ blanks i) = N.text := by
    have := stripBy_pad (p := isSpace) (a := []) (s := N.text) (b := blanks i) (by simp) (blanks_space i) (text_trimmed N hN)
    simpa using this
  have p2 : stripBy isSpace (blanks j ++ D.text) = D.text := by
    have := stripBy_pad (p := isSpace) (a := blanks j) (s := D.text) (b := []) (blanks_space j) (by simp) (text_trimmed D hD)
    simpa using this
  rw [p1, p2, Expr.snoc_text]
  simp [Sep.text, blanks, Atom.text, expText]

/-- **C84**: the standard unit of `N / D` is the quotient of what `N` and `D` denote, whatever the denominator looks like and
however many blanks surround the slash. -/
theorem c84_denominator (N D : Expr) (hN : N.Ok 1) (hD : D.Ok 1) (pN : N.Pos) (pD : D.Pos) (hs : '/' ∉ N.text) (i j : ℕ)
    (hk : N.text ++ (Sep.div i j).text ++ D.text ∉ Dict.keys nonstandard) :
    ∃ r, exprOfString false (standardize (N.text ++ (Sep.div i j).text ++ D.text)) = .ok r ∧
      ∀ ρ, Positive ρ → value ρ r = N.denote ρ id / D.denote ρ id := by
  rw [c84_text N D hN hD hs i j hk]
  have hg : (Atom.group D none).Ok 1 := by
    simp only [Atom.Ok, litOr1, one_mul]; exact ⟨trivial, hD⟩
  obtain ⟨r, hr, _, hv⟩ := c05_expression_denotes (Expr.snoc N (.div 1 1) (.group D none))
    (Expr.snoc_ok 1 N 0 1 _ hN hg) (Expr.snoc_pos N _ _ pN (by simp only [Atom.Pos]; exact pD))
  refine ⟨r, hr, fun ρ hρ => ?_⟩
  rw [hv ρ hρ, Expr.snoc_denote]
  simp only [Sep.act, Atom.denote, litOr1, div_eq_mul_inv]
  simp

/-- `km/s sr`: a denominator of two factors -/
example : ∃ N D : Expr, N.Ok 1 ∧ D.Ok 1 ∧ N.Pos ∧ D.Pos ∧ '/' ∉ N.text ∧ N.text ++ (Sep.div 0 0).text ++ D.text = c! "km/s sr" ∧
    N.text ++ (Sep.div 0 0).text ++ D.text ∉ Dict.keys nonstandard ∧ standardize c! "km/s sr" = c! "km / (s sr)" := by
  refine ⟨.one (.var none c! "km" [] none), .cons (.var none c! "s" [] none) (.juxt 0) (.one (.var none c! "sr" [] none)),
    Expr.plain_ok _ (by decide +kernel) 1, Expr.plain_ok _ (by decide +kernel) 1, Expr.plain_pos _ (by decide +kernel), Expr.plain_pos _ (by decide +kernel),
    by decide +kernel, by decide +kernel, by decide +kernel, by decide +kernel⟩

/-- **C84**, a unit without a slash that is no special unit is not changed. -/
theorem c84_unchanged (u : Name) (hs : '/' ∉ u) (hk : u ∉ Dict.keys nonstandard) : standardize u = u := by
  unfold standardize groupDenominator
  rw [Dict.get?_eq_none.2 hk, Option.getD_none, if_neg hs]

example : '/' ∉ c! "cm^-3" ∧ c! "cm^-3" ∉ Dict.keys nonstandard := by decide

/-- **C84**, standardizing twice gives a unit of the same meaning as standardizing once. -/
theorem c84_twice (N D : Expr) (hN : N.Ok 1) (hD : D.Ok 1) (pN : N.Pos) (pD : D.Pos) (hs : '/' ∉ N.text) (i j : ℕ)
    (hk : N.text ++ (Sep.div i j).text ++ D.text ∉ Dict.keys nonstandard)
    (hk' : standardize (N.text ++ (Sep.div i j).text ++ D.text) ∉ Dict.keys nonstandard) :
    ∃ r, exprOfString false (standardize (standardize (N.text ++ (Sep.div i j).text ++ D.text))) = .ok r ∧
      ∀ ρ, Positive ρ → value ρ r = N.denote ρ id / D.denote ρ id := by
  have ht := c84_text N D hN hD hs i j hk
  have e : (Expr.snoc N (.div 1 1) (.group D none)).text = N.text ++ (Sep.div 1 1).text ++ (Expr.one (.group D none)).text := by
    rw [Expr.snoc_text]; simp only [Expr.text]
  have hg : (Expr.one (.group D none)).Ok 1 := by
    simp only [Expr.Ok, Atom.Ok, litOr1, one_mul]; exact ⟨trivial, hD⟩
  rw [ht, e] at hk'
  obtain ⟨r, hr, hv⟩ := c84_denominator N (.one (.group D none)) hN hg pN (by simp only [Expr.Pos, Atom.Pos]; exact pD) hs 1 1 hk'
  rw [ht, e]
  refine ⟨r, hr, fun ρ hρ => ?_⟩
  rw [hv ρ hρ]
  simp [Expr.denote, Atom.denote, litOr1]

/-- **C84**, the units of EPREM that are no units of the package: each becomes one. -/
theorem c84_special : standardize c! "julian date" = c! "day" ∧ standardize c! "shell" = c! "1" ∧ standardize c! "cos(mu)" = c! "1" ∧
    standardize c! "e-" = c! "e" ∧ standardize c! "# / cm^2 s sr MeV" = c! "# / (cm^2 s sr MeV/nuc)" ∧
    exprOfString false (standardize c! "# / cm^2 s sr MeV") =
      .ok [⟨1, c! "#", 1⟩, ⟨1, c! "nuc", 1⟩, ⟨1, c! "MeV", -1⟩, ⟨1, c! "s", -1⟩, ⟨1, c! "sr", -1⟩, ⟨1, c! "cm", -2⟩] := by decide +kernel

/-- **C84** is false of units with two slashes, if they are read from left to right as everywhere else in the package: the
second factor is put into the numerator. -/
theorem c84_not_two_slashes : standardize c! "J/m^2/s" = c! "J / (m^2/s)" ∧
    exprOfString false c! "J/m^2/s" = .ok [⟨1, c! "J", 1⟩, ⟨1, c! "s", -1⟩, ⟨1, c! "m", -2⟩] ∧
    exprOfString false (standardize c! "J/m^2/s") = .ok [⟨1, c! "J", 1⟩, ⟨1, c! "s", 1⟩, ⟨1, c! "m", -2⟩] := by decide +kernel

end Eprem.Metric
