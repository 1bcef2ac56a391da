import Verif.Spec.MetricSystem
import Verif.Lemmas.PrintRow
import Verif.Lemmas.Algebra
import Verif.Lemmas.PyDict
import Verif.Lemmas.UnitProducts
import Verif.Props.Symbolic

/-! # The units of a system, for C83 -/

namespace Eprem.Metric

open Eprem Eprem.Symbolic

/-! ## Expressions made of names, ones and integral exponents -/

/-- an integral exponent that is not zero, or none -/
def plainExp : Option Lit → Bool
  | none => true
  | some (.int _ ds) => !ds.isEmpty && ds.all isDigit && decide (natVal ds ≠ 0)
  | some _ => false

mutual
def Atom.plain : Atom → Bool
  | .const l e => decide (l = .int false ['1']) && e.isNone
  | .var c ls ds e => c.isNone && !ls.isEmpty && ls.all isLetter && ds.all isDigit && !(List.isPrefixOf ['s', 'q', 'r', 't'] ls) && plainExp e
  | .group x e => Expr.plain x && plainExp e
def Expr.plain : Expr → Bool
  | .one a => Atom.plain a
  | .cons a s x => Atom.plain a && Expr.plain x && decide (s ≠ .glue) && decide (s ≠ .div 0 0)
end

theorem plainExp_ok {e : Option Lit} (h : plainExp e = true) : OptOk e ∧ (litOr1 e).den = 1 ∧ litOr1 e ≠ 0 := by
  match e, h with
  | none, _ => exact ⟨trivial, rfl, one_ne_zero⟩
  | some (.int neg ds), h =>
    simp only [plainExp, Bool.and_eq_true, decide_eq_true_eq, List.all_eq_true, Bool.not_eq_true'] at h
    have hv : (Lit.int neg ds).value ≠ 0 ∧ (Lit.int neg ds).value.den = 1 := by
      simp only [Lit.value, signed]
      split
      · exact ⟨by simpa using h.2, by simp⟩
      · exact ⟨by simpa using h.2, by simp⟩
    refine ⟨⟨⟨?_, h.1.2⟩, hv.1⟩, hv.2, hv.1⟩
    intro h0; simp [h0] at h

mutual
theorem Atom.plain_ok : (a : Atom) → Atom.plain a = true → ∀ E, a.Ok E
  | .const l e, h, E => by
    simp only [Atom.plain, Bool.and_eq_true, decide_eq_true_eq, Option.isNone_iff_eq_none] at h
    obtain ⟨rfl, rfl⟩ := h
    have hv : (Lit.int false ['1']).value = 1 := by decide +kernel
    simp only [Atom.Ok, hv, litOr1, powVal, Rat.den_one]
    refine ⟨⟨by simp, by decide⟩, rfl, one_ne_zero, trivial, Or.inr rfl, by simpa using fl_one, Or.inr (by simp)⟩
  | .var c ls ds e, h, E => by
    simp only [Atom.plain, Bool.and_eq_true, Option.isNone_iff_eq_none, Bool.not_eq_true', List.all_eq_true] at h
    obtain ⟨⟨⟨⟨⟨rfl, h1⟩, h2⟩, h3⟩, h4⟩, h5⟩ := h
    simp only [Atom.Ok]
    refine ⟨by intro h0; simp [h0] at h1, h2, h3, trivial, (plainExp_ok h5).1, Or.inr rfl, ?_, by simp⟩
    intro _ hp
    have := List.isPrefixOf_iff_prefix.2 hp
    rw [this] at h4; cases h4
  | .group x e, h, E => by
    simp only [Atom.plain, Bool.and_eq_true] at h
    simp only [Atom.Ok]
    exact ⟨(plainExp_ok h.2).1, Expr.plain_ok x h.1 _⟩
theorem Expr.plain_ok : (x : Expr) → Expr.plain x = true → ∀ E, x.Ok E
  | .one a, h, E => by
    simp only [Expr.plain] at h
    simp only [Expr.Ok]; exact Atom.plain_ok a h E
  | .cons a s x, h, E => by
    simp only [Expr.plain, Bool.and_eq_true, decide_eq_true_eq] at h
    simp only [Expr.Ok]
    exact ⟨Atom.plain_ok a h.1.1.1 E, Expr.plain_ok x h.1.1.2 E, fun hg => absurd hg h.1.2, fun hg => absurd hg h.2⟩
end

mutual
theorem Atom.plain_pos : (a : Atom) → Atom.plain a = true → a.Pos
  | .const l e, h => by
    simp only [Atom.plain, Bool.and_eq_true, decide_eq_true_eq] at h
    obtain ⟨rfl, _⟩ := h
    simp only [Atom.Pos]; decide +kernel
  | .var c ls ds e, h => by
    simp only [Atom.plain, Bool.and_eq_true, Option.isNone_iff_eq_none] at h
    obtain ⟨⟨⟨⟨⟨rfl, _⟩, _⟩, _⟩, _⟩, _⟩ := h
    simp only [Atom.Pos, litOr1]; exact one_pos
  | .group x e, h => by
    simp only [Atom.plain, Bool.and_eq_true] at h
    simp only [Atom.Pos]; exact Expr.plain_pos x h.1
theorem Expr.plain_pos : (x : Expr) → Expr.plain x = true → x.Pos
  | .one a, h => by
    simp only [Expr.plain] at h
    simp only [Expr.Pos]; exact Atom.plain_pos a h
  | .cons a s x, h => by
    simp only [Expr.plain, Bool.and_eq_true] at h
    simp only [Expr.Pos]
    exact ⟨Atom.plain_pos a h.1.1.1, Expr.plain_pos x h.1.1.2⟩
end

/-- a term without coefficient and with an integral exponent -/
def PlainTerm (t : Term) : Prop := t.coeff = 1 ∧ t.exp.den = 1 ∧ t.exp ≠ 0 ∧ (ValidName t.base ∨ t.base = one)

theorem den_mul_one {a b : ℚ} (ha : a.den = 1) (hb : b.den = 1) : (a * b).den = 1 := by
  have h1 : (a.num : ℚ) = a := Rat.coe_int_num_of_den_eq_one ha
  have h2 : (b.num : ℚ) = b := Rat.coe_int_num_of_den_eq_one hb
  rw [← h1, ← h2, ← Int.cast_mul]; rfl

theorem powVal_one (E : ℚ) : powVal 1 E = 1 := by unfold powVal; split <;> simp

mutual
theorem Atom.plain_flat : (a : Atom) → Atom.plain a = true → ∀ E op, E.den = 1 → E ≠ 0 → ∀ t ∈ a.flat E op, PlainTerm t
  | .const l e, h, E, op, hd, h0 => by
    simp only [Atom.plain, Bool.and_eq_true, decide_eq_true_eq, Option.isNone_iff_eq_none] at h
    obtain ⟨rfl, rfl⟩ := h
    have hv : (Lit.int false ['1']).value = 1 := by decide +kernel
    intro t ht
    simp only [Atom.flat, Atom.opd, Atom.operand, hv, litOr1, powVal_one, List.mem_singleton] at ht
    split at ht
    · subst ht; exact ⟨by simp, by simpa using hd, by simpa using h0, Or.inr rfl⟩
    · subst ht; exact ⟨by simp, by simpa using hd, by simpa using h0, Or.inr rfl⟩
  | .var c ls ds e, h, E, op, hd, h0 => by
    simp only [Atom.plain, Bool.and_eq_true, Option.isNone_iff_eq_none, Bool.not_eq_true', List.all_eq_true] at h
    obtain ⟨⟨⟨⟨⟨rfl, h1⟩, h2⟩, h3⟩, h4⟩, h5⟩ := h
    obtain ⟨_, h6, h7⟩ := plainExp_ok h5
    have hb : ValidName (ls ++ ds) := ⟨ls, ds, rfl, by intro h0; simp [h0] at h1, h2, h3, by
      intro hp
      have := List.isPrefixOf_iff_prefix.2 hp
      rw [this] at h4; cases h4⟩
    intro t ht
    have h10 : litOr1 none = 1 := rfl
    simp only [Atom.flat, Atom.opd, Atom.operand, h10, powVal_one, List.mem_singleton] at ht
    have hm := den_mul_one h6 hd
    split at ht
    · subst ht; exact ⟨by simp, by simpa using hm, by simpa using ⟨h7, h0⟩, Or.inl hb⟩
    · subst ht; exact ⟨by simp, hm, by simpa using ⟨h7, h0⟩, Or.inl hb⟩
  | .group x e, h, E, op, hd, h0 => by
    simp only [Atom.plain, Bool.and_eq_true] at h
    obtain ⟨_, h6, h7⟩ := plainExp_ok h.2
    intro t ht
    simp only [Atom.flat, List.mem_append, List.mem_singleton] at ht
    rcases ht with ht | ht
    · refine Expr.plain_flat x h.1 _ _ ?_ ?_ t ht
      · unfold groupExp; split
        · rw [Rat.neg_den]; exact den_mul_one h6 hd
        · exact den_mul_one h6 hd
      · unfold groupExp; split
        · simpa using ⟨h7, h0⟩
        · simpa using ⟨h7, h0⟩
    · subst ht; exact ⟨rfl, rfl, one_ne_zero, Or.inr rfl⟩
theorem Expr.plain_flat : (x : Expr) → Expr.plain x = true → ∀ E op, E.den = 1 → E ≠ 0 → ∀ t ∈ x.flat E op, PlainTerm t
  | .one a, h, E, op, hd, h0 => by
    simp only [Expr.plain] at h
    simp only [Expr.flat]; exact Atom.plain_flat a h E op hd h0
  | .cons a s x, h, E, op, hd, h0 => by
    simp only [Expr.plain, Bool.and_eq_true] at h
    simp only [Expr.flat, List.mem_append]
    rintro t (ht | ht)
    · exact Atom.plain_flat a h.1.1.1 E op hd h0 t ht
    · exact Expr.plain_flat x h.1.1.2 E _ hd h0 t ht
end

/-- what the text of a plain expression denotes, and that its terms are names -/
theorem plain_denotes (x : Expr) (h : Expr.plain x = true) :
    ∃ r, exprOfString false x.text = .ok r ∧ Canonical r ∧ NamesOnly r ∧ ∀ ρ, Positive ρ → value ρ r = x.denote ρ id := by
  obtain ⟨r, hr, hc, hv⟩ := c05_expression_denotes x (Expr.plain_ok x h 1) (Expr.plain_pos x h)
  refine ⟨r, hr, hc, ?_, hv⟩
  rw [exprOfString, if_neg (Expr.text_ne_nil 1 x (Expr.plain_ok x h 1)), parse_text x (Expr.plain_ok x h 1)] at hr
  change reduce (x.flat 1 none ++ [⟨1, one, 1⟩]) = .ok r at hr
  have hall : ∀ t ∈ x.flat 1 none ++ [⟨1, one, 1⟩], PlainTerm t := by
    intro t ht
    rcases List.mem_append.1 ht with ht | ht
    · exact Expr.plain_flat x h 1 none rfl one_ne_zero t ht
    · rw [List.mem_singleton.1 ht]; exact ⟨rfl, rfl, one_ne_zero, Or.inr rfl⟩
  exact reduce_names (by simp) (fun t ht => (hall t ht).1)
    (fun t ht => ⟨(hall t ht).2.1, (hall t ht).2.2.1⟩) (fun t ht => (hall t ht).2.2.2) hr

theorem NamesOnly.row {ts : List Term} (h : NamesOnly ts) : ∀ t ∈ ts, Row t :=
  fun t ht => ⟨h.exact t ht, fun _ => h.coeff t ht⟩

/-! ## The canonical units of the quantities of units -/

private abbrev nm (s : Name) : Atom := .var none s [] none
private abbrev pw (s : Name) (d : Char) : Atom := .var none s [] (some (.int false [d]))
private abbrev un (s : Name) : Expr := .one (nm s)
private abbrev per (a b : Atom) : Expr := .cons a (.div 1 1) (.one b)
private abbrev onee : Expr := .one (.const (.int false ['1']) none)

/-- The quantities of the units, other than illuminance, with the canonical unit in mks and in cgs. -/
def canonExprs : List (Name × Expr × Expr) := [
  (c! "length", un c! "m", un c! "cm"),
  (c! "mass", un c! "kg", un c! "g"),
  (c! "mass number", onee, onee),
  (c! "time", un c! "s", un c! "s"),
  (c! "current", un c! "A", un c! "statA"),
  (c! "temperature", un c! "K", un c! "K"),
  (c! "amount", un c! "mol", un c! "mol"),
  (c! "number", onee, onee),
  (c! "luminous intensity", un c! "cd", un c! "cd"),
  (c! "plane angle", un c! "rad", un c! "rad"),
  (c! "solid angle", un c! "sr", un c! "sr"),
  (c! "frequency", un c! "Hz", un c! "Hz"),
  (c! "energy", un c! "J", un c! "erg"),
  (c! "force", un c! "N", un c! "dyn"),
  (c! "pressure", un c! "Pa", per (nm c! "dyn") (pw c! "cm" '2')),
  (c! "power", un c! "W", per (nm c! "erg") (nm c! "s")),
  (c! "charge", un c! "C", un c! "statC"),
  (c! "potential", un c! "V", un c! "statV"),
  (c! "resistance", un c! "ohm", .cons (nm c! "s") (.juxt 0) (.one (.var none c! "cm" [] (some (.int true ['1']))))),
  (c! "conductance", un c! "S", per (nm c! "cm") (nm c! "s")),
  (c! "capacitance", un c! "F", un c! "cm"),
  (c! "magnetic flux", un c! "Wb", un c! "Mx"),
  (c! "magnetic intensity", per (nm c! "A") (nm c! "m"), un c! "Oe"),
  (c! "inductance", un c! "H", per (pw c! "s" '2') (nm c! "cm")),
  (c! "magnetic induction", un c! "T", un c! "G"),
  (c! "luminous flux", .cons (nm c! "cd") (.mul 1 1) (un c! "sr"), .cons (nm c! "cd") (.mul 1 1) (un c! "sr")),
  (c! "radioactivity", un c! "Bq", un c! "Ci"),
  (c! "dosage", un c! "Gy", per (nm c! "erg") (nm c! "g")),
  (c! "viscosity", per (nm c! "kg") (.group (.cons (nm c! "m") (.mul 1 1) (un c! "s")) none), un c! "P"),
  (c! "identity", onee, onee)]

/-- the quantities of that table -/
def unitQuantities : List Name := canonExprs.map (·.1)

theorem canon_plain : ∀ p ∈ canonExprs, Expr.plain p.2.1 = true ∧ Expr.plain p.2.2 = true := by decide +kernel

set_option maxHeartbeats 100000000 in
theorem canon_text : ∀ s ∈ [System.mks, System.cgs], ∀ p ∈ canonExprs,
    property .units s 7 p.1 = .ok (s.pick p.2).text ∧ unitsOf s p.1 = .ok (s.pick p.2).text := by decide +kernel

theorem unit_quantity : ∀ u ∈ baseUnits, u.quantity ≠ c! "illuminance" → u.quantity ∈ unitQuantities := by decide +kernel

theorem unitQuantities_nodup : unitQuantities.Nodup := by decide +kernel
theorem spaces_underscore : ∀ q ∈ unitQuantities, spaces (underscore q) = q := by decide +kernel
theorem underscore_letters : ∀ q ∈ unitQuantities, underscore q ≠ [] ∧ (∀ x ∈ underscore q, isLetter x = true) ∧
    ¬ ['s', 'q', 'r', 't'] <+: underscore q ∧ underscore q ≠ one ∧ ' ' ∉ underscore q ∧ '^' ∉ underscore q ∧
    lower (underscore q) = underscore q := by decide +kernel

theorem mem_systems (s : System) : s ∈ [System.mks, System.cgs] := by cases s <;> simp

/-! ## Words separated by blanks -/

theorem showExpr_cons (t : Term) (ts : List Term) (h : ts ≠ []) : showExpr (t :: ts) = formatTerm t ++ ' ' :: showExpr ts := by
  cases ts with
  | nil => exact absurd rfl h
  | cons u us => rfl

/-- a word pair inside a printed expression is the end of one printed term and the beginning of another -/
theorem pair_in_showExpr {w₁ w₂ : Name} (h1 : ' ' ∉ w₁) (h2 : ' ' ∉ w₂) : ∀ (ts : List Term), (∀ t ∈ ts, ' ' ∉ formatTerm t) →
    (w₁ ++ ' ' :: w₂) <:+: showExpr ts → ∃ t ∈ ts, ∃ u ∈ ts, w₁ <:+ formatTerm t ∧ w₂ <+: formatTerm u
  | [], _, h => by
    have := h.length_le
    simp [showExpr] at this
  | [t], hs, h => by
    exfalso
    have : ' ' ∈ formatTerm t := h.subset (by simp)
    exact hs t (by simp) this
  | t :: u :: us, hs, h => by
    obtain ⟨l, r, h⟩ := h
    rw [showExpr_cons t (u :: us) (by simp)] at h
    have ht := hs t (by simp)
    have e1 : (l ++ w₁) ++ ' ' :: (w₂ ++ r) = formatTerm t ++ ' ' :: showExpr (u :: us) := by simpa using h
    rcases List.append_eq_append_iff.1 e1 with ⟨m, hm1, hm2⟩ | ⟨m, hm1, hm2⟩
    · cases m with
      | nil =>
        simp only [List.append_nil, List.nil_append, List.cons.injEq, true_and] at hm1 hm2
        refine ⟨t, by simp, u, by simp, ⟨l, hm1.symm⟩, ?_⟩
        cases us with
        | nil => exact ⟨r, hm2⟩
        | cons v vs =>
          rw [showExpr_cons u (v :: vs) (by simp)] at hm2
          rcases List.append_eq_append_iff.1 hm2 with ⟨m, hk1, hk2⟩ | ⟨m, hk1, hk2⟩
          · exact ⟨m, hk1.symm⟩
          · cases m with
            | nil => exact ⟨[], by simpa using hk1⟩
            | cons x m =>
              exfalso
              simp only [List.cons_append, List.cons.injEq] at hk2
              rw [← hk2.1] at hk1
              exact h2 (by rw [hk1]; simp)
      | cons x m =>
        exfalso
        simp only [List.cons_append, List.cons.injEq] at hm2
        rw [← hm2.1] at hm1
        exact ht (by rw [hm1]; simp)
    · cases m with
      | nil =>
        simp only [List.append_nil, List.nil_append, List.cons.injEq, true_and] at hm1 hm2
        refine ⟨t, by simp, u, by simp, ⟨l, hm1⟩, ?_⟩
        cases us with
        | nil => exact ⟨r, hm2.symm⟩
        | cons v vs =>
          rw [showExpr_cons u (v :: vs) (by simp)] at hm2
          rcases List.append_eq_append_iff.1 hm2 with ⟨m, hk1, hk2⟩ | ⟨m, hk1, hk2⟩
          · cases m with
            | nil => exact ⟨[], by simpa using hk1⟩
            | cons x m =>
              exfalso
              simp only [List.cons_append, List.cons.injEq] at hk2
              rw [← hk2.1] at hk1
              exact h2 (by rw [hk1]; simp)
          · exact ⟨m, hk1.symm⟩
      | cons x m =>
        simp only [List.cons_append, List.cons.injEq] at hm2
        obtain ⟨hx, hm2⟩ := hm2
        rw [← hx] at hm1
        have hl : ∃ k, l = formatTerm t ++ ' ' :: k ∧ m = k ++ w₁ := by
          rcases List.append_eq_append_iff.1 hm1 with ⟨k, hk1, hk2⟩ | ⟨k, hk1, hk2⟩
          · exfalso
            exact h1 (by rw [hk2]; simp)
          · cases k with
            | nil =>
              exfalso
              simp only [List.nil_append] at hk2
              exact h1 (by rw [← hk2]; simp)
            | cons y k =>
              simp only [List.cons_append, List.cons.injEq] at hk2
              exact ⟨k, by rw [hk1, ← hk2.1], hk2.2⟩
        obtain ⟨k, _, hk⟩ := hl
        have hin : (w₁ ++ ' ' :: w₂) <:+: showExpr (u :: us) := ⟨k, r, by rw [hm2, hk]; simp⟩
        obtain ⟨a, ha, b, hb, hab⟩ := pair_in_showExpr h1 h2 (u :: us) (fun v hv => hs v (List.mem_cons_of_mem _ hv)) hin
        exact ⟨a, List.mem_cons_of_mem _ ha, b, List.mem_cons_of_mem _ hb, hab⟩

theorem strip_some : ∀ (p n r : Name), strip? p n = some r → n = p ++ r
  | [], n, r, h => by simpa [strip?] using h
  | _ :: _, [], _, h => by simp [strip?] at h
  | a :: p, b :: n, r, h => by
    unfold strip? at h
    split at h
    next hab => rw [hab, strip_some p n r h]; rfl
    next => cases h

theorem replaceAux_none {old new : Name} : ∀ (n : Nat) (s : Name), s.length < n → ¬ old <:+: s → replaceAux old new n s = s
  | 0, s, h, _ => by omega
  | n + 1, [], _, _ => rfl
  | n + 1, c :: s, h, hn => by
    unfold replaceAux
    cases hs : strip? old (c :: s) with
    | some rest => exact absurd ⟨[], rest, by simpa using (strip_some _ _ _ hs).symm⟩ hn
    | none =>
      dsimp only
      rw [replaceAux_none n s (by simpa using h)]
      intro hi
      exact hn (hi.trans (List.suffix_cons c s).isInfix)

theorem replace_none {old new s : Name} (h : ¬ old <:+: s) : replace old new s = s :=
  replaceAux_none _ _ (by omega) h

/-- the names of two words in the table of quantities -/
def pairNames : List (Name × Name) :=
  (quantities.map (·.1)).filterMap (fun k => if ' ' ∈ k then some (k.takeWhile (· ≠ ' '), (k.dropWhile (· ≠ ' ')).drop 1) else none)

theorem pairNames_spec : ∀ p ∈ quantities, ' ' ∈ p.1 → ∃ w ∈ pairNames, p.1 = w.1 ++ ' ' :: w.2 := by decide +kernel

/-- Only `mass` and `number` make up the name of another quantity. -/
theorem pairNames_apart : ∀ w ∈ pairNames, ' ' ∉ w.1 ∧ ' ' ∉ w.2 ∧ '^' ∉ w.2 ∧ w.1 ≠ [] ∧ (∀ c ∈ w.1.getLast?, isDigit c = false) ∧
    ∀ a ∈ unitQuantities, ∀ b ∈ unitQuantities, w.1 <:+ underscore a → w.2 <+: underscore b →
      a = c! "mass" ∧ b = c! "number" := by decide +kernel

/-! ## Printed products of quantities -/

/-- a product of integral powers of quantities of units -/
structure QuantityTerms (q : List Term) : Prop where
  names : NamesOnly q
  canonical : Canonical q
  known : ∀ t ∈ q, ∃ p ∈ unitQuantities, t.base = underscore p

theorem QuantityTerms.format {q : List Term} (h : QuantityTerms q) {t : Term} (ht : t ∈ q) :
    formatTerm t = t.base ++ (if t.exp = 1 then [] else '^' :: showRat t.exp) := by
  obtain ⟨p, hp, hb⟩ := h.known t ht
  have h1 : t.base ≠ one := by rw [hb]; exact (underscore_letters p hp).2.2.2.1
  unfold formatTerm formatCoefficient
  rw [if_neg h1, if_pos ⟨h1, h.names.coeff t ht⟩]; rfl

theorem showRat_int {e : ℚ} (h : e.den = 1) : ∃ c ds, showRat e = c :: ds ∧ (∀ x ∈ showRat e, x = '-' ∨ isDigit x = true) ∧
    (∀ x ∈ (showRat e).getLast?, isDigit x = true) := by
  have hd : e.den ≤ 9 := by omega
  have hn := showNat_digits e.num.natAbs
  have ht := litOf_text hd
  unfold litOf at ht
  rw [if_pos h] at ht
  simp only [Lit.text, signText] at ht
  rw [← ht]
  obtain ⟨c, ds, hcd⟩ := List.exists_cons_of_ne_nil hn.1
  by_cases hneg : e.num < 0
  · simp only [hneg, decide_true, if_true]
    refine ⟨'-', showNat e.num.natAbs, rfl, ?_, ?_⟩
    · intro x hx
      rcases List.mem_append.1 hx with hx | hx
      · left; simpa using hx
      · right; exact hn.2 x hx
    · intro x hx
      rw [List.getLast?_append_of_ne_nil _ hn.1] at hx
      exact hn.2 x (List.mem_of_mem_getLast? hx)
  · simp only [hneg, decide_false, List.nil_append]
    refine ⟨c, ds, by simpa using hcd, ?_, ?_⟩
    · intro x hx; right; exact hn.2 x (by simpa using hx)
    · intro x hx; exact hn.2 x (List.mem_of_mem_getLast? (by simpa using hx))

theorem QuantityTerms.noBlank {q : List Term} (h : QuantityTerms q) {t : Term} (ht : t ∈ q) : ' ' ∉ formatTerm t := by
  rw [h.format ht]
  obtain ⟨p, hp, hb⟩ := h.known t ht
  intro hx
  rcases List.mem_append.1 hx with hx | hx
  · rw [hb] at hx; exact (underscore_letters p hp).2.2.2.2.1 hx
  · split at hx
    · simp at hx
    · rcases List.mem_cons.1 hx with hx | hx
      · exact absurd hx (by decide)
      · obtain ⟨_, _, _, hd, _⟩ := showRat_int (h.names.exp t ht).1
        rcases hd _ hx with hd | hd <;> revert hd <;> decide

/-- the name of a quantity of two words occurs in the printed product only as `mass number` -/
theorem QuantityTerms.pair {q : List Term} (h : QuantityTerms q) {w : Name × Name} (hw : w ∈ pairNames)
    (hin : (w.1 ++ ' ' :: w.2) <:+: showExpr q) :
    (⟨1, c! "mass", 1⟩ : Term) ∈ q ∧ ∃ t ∈ q, t.base = c! "number" := by
  obtain ⟨h1, h2, h3, h4, h5, h6⟩ := pairNames_apart w hw
  obtain ⟨t, ht, u, hu, hs, hp⟩ := pair_in_showExpr h1 h2 q (fun t ht => h.noBlank ht) hin
  obtain ⟨p, hpq, hb⟩ := h.known t ht
  obtain ⟨p', hpq', hb'⟩ := h.known u hu
  rw [h.format ht] at hs
  rw [h.format hu] at hp
  have he : t.exp = 1 := by
    by_contra hne
    rw [if_neg hne] at hs
    obtain ⟨c, ds, hc, _, hl⟩ := showRat_int (h.names.exp t ht).1
    obtain ⟨k, hk⟩ := hs
    obtain ⟨x, xs, hx⟩ := List.exists_cons_of_ne_nil h4
    have hlast : w.1.getLast? = (showRat t.exp).getLast? := by
      have := congrArg List.getLast? hk
      rw [List.getLast?_append_of_ne_nil _ h4, List.getLast?_append_of_ne_nil _ (by simp)] at this
      rw [this, hc]; simp
    cases hg : (showRat t.exp).getLast? with
    | none => rw [hc] at hg; simp at hg
    | some y =>
      have a := hl y (by rw [hg]; rfl)
      have b := h5 y (by rw [hlast, hg]; rfl)
      rw [a] at b; cases b
  rw [if_pos he, List.append_nil] at hs
  have hp2 : w.2 <+: u.base := by
    split at hp
    · simpa using hp
    · obtain ⟨k, hk⟩ := hp
      rcases List.append_eq_append_iff.1 hk with ⟨m, hk1, _⟩ | ⟨m, hk1, hk2⟩
      · exact ⟨m, hk1.symm⟩
      · cases m with
        | nil => exact ⟨[], by simpa using hk1⟩
        | cons x m =>
          exfalso
          simp only [List.cons_append, List.cons.injEq] at hk2
          rw [← hk2.1] at hk1
          exact h3 (by rw [hk1]; simp)
  rw [hb] at hs
  rw [hb'] at hp2
  obtain ⟨rfl, rfl⟩ := h6 p hpq p' hpq' hs hp2
  refine ⟨?_, u, hu, hb'⟩
  have : t = ⟨1, c! "mass", 1⟩ := by
    cases t with
    | mk c b e =>
      simp only at he hb
      rw [he, hb]
      have := h.names.coeff _ ht
      simp only at this
      rw [this]; rfl
  rw [← this]; exact ht

/-- The printed product holds no name of two words. -/
def Separate (q : List Term) : Prop := ¬ ((⟨1, c! "mass", 1⟩ : Term) ∈ q ∧ ∃ t ∈ q, t.base = c! "number")

theorem QuantityTerms.mark {q : List Term} (h : QuantityTerms q) (hs : Separate q) : markNames (showExpr q) = showExpr q := by
  unfold markNames
  have : ∀ l : List (Name × QEntry), (∀ p ∈ l, p ∈ quantities) →
      l.foldl (fun s p => if ' ' ∈ p.1 then replace p.1 (underscore p.1) s else s) (showExpr q) = showExpr q := by
    intro l
    induction l with
    | nil => intro _; rfl
    | cons p l ih =>
      intro hl
      rw [List.foldl_cons]
      have hp : (if ' ' ∈ p.1 then replace p.1 (underscore p.1) (showExpr q) else showExpr q) = showExpr q := by
        split
        next hsp =>
          obtain ⟨w, hw, he⟩ := pairNames_spec p (hl p (by simp)) hsp
          refine replace_none (fun hin => hs ?_)
          rw [he] at hin
          exact h.pair hw hin
        next => rfl
      rw [hp]
      exact ih (fun p' hp' => hl p' (List.mem_cons_of_mem _ hp'))
  exact this _ (fun p hp => hp)

theorem quantity_names : ∀ p ∈ quantities, '^' ∉ p.1 ∧ (' ' ∉ p.1 → p.1 ∉ unitQuantities → p.1 ∉ unitQuantities.map underscore) := by
  decide +kernel

/-- the printed product is not itself the name of a quantity, unless it is one -/
theorem QuantityTerms.notKey {q : List Term} (h : QuantityTerms q) (hs : Separate q)
    (hq : ∀ p ∈ unitQuantities, ' ' ∉ p → q ≠ [⟨1, p, 1⟩]) : Dict.get? quantities (showExpr q) = none := by
  rw [Dict.get?_eq_none]
  intro hk
  obtain ⟨p, hp, he⟩ := List.mem_map.1 hk
  by_cases hsp : ' ' ∈ p.1
  · obtain ⟨w, hw, he'⟩ := pairNames_spec p hp hsp
    refine hs (h.pair hw ?_)
    rw [← he', he]
  · obtain ⟨t, ts, rfl⟩ := List.exists_cons_of_ne_nil h.names.nonempty
    cases ts with
    | cons u us =>
      rw [showExpr_cons t _ (by simp)] at he
      exact hsp (by rw [he]; simp)
    | nil =>
      have hf := h.format (t := t) (by simp)
      have he2 : p.1 = t.base ++ (if t.exp = 1 then [] else '^' :: showRat t.exp) := by rw [← hf]; exact he
      obtain ⟨x, hx, hb⟩ := h.known t (by simp)
      by_cases h1 : t.exp = 1
      · rw [if_pos h1, List.append_nil] at he2
        by_cases hu : p.1 ∈ unitQuantities
        · refine hq p.1 hu hsp ?_
          have hc := h.names.coeff t (by simp)
          cases t with
          | mk c b e => simp only at h1 hc he2; rw [h1, hc, he2]
        · exact (quantity_names p hp).2 hsp hu (List.mem_map.2 ⟨x, hx, by rw [he2, hb]⟩)
      · rw [if_neg h1] at he2
        exact (quantity_names p hp).1 (by rw [he2]; simp)

/-! ## Reading a printed product of quantities as a product of units -/

/-- the canonical unit of the quantity with this (underscored) name -/
def canonOf (s : System) (b : Name) : Expr :=
  match canonExprs.find? (fun p => decide (underscore p.1 = b)) with
  | some p => s.pick p.2
  | none => .one (.const (.int false ['1']) none)

theorem underscore_inj : ∀ p ∈ canonExprs, canonExprs.find? (fun q => decide (underscore q.1 = underscore p.1)) = some p := by
  intro p hp
  have h : ∀ i : Fin canonExprs.length, canonExprs.findIdx? (fun q => decide (underscore q.1 = underscore canonExprs[i].1)) = some i.1 := by
    decide +kernel
  obtain ⟨i, hi, rfl⟩ := List.getElem_of_mem hp
  have := h ⟨i, hi⟩
  simp only [Fin.getElem_fin] at this
  rw [List.findIdx?_eq_some_iff_getElem] at this
  obtain ⟨_, h1, h2⟩ := this
  rw [List.find?_eq_some_iff_getElem]
  exact ⟨h1, i, hi, rfl, fun j hj => by simpa using h2 j hj⟩

theorem canonOf_underscore (s : System) {p : Name × Expr × Expr} (hp : p ∈ canonExprs) : canonOf s (underscore p.1) = s.pick p.2 := by
  unfold canonOf
  rw [underscore_inj p hp]

theorem canonOf_plain (s : System) (b : Name) : Expr.plain (canonOf s b) = true := by
  unfold canonOf
  cases h : canonExprs.find? (fun p => decide (underscore p.1 = b)) with
  | none => rfl
  | some p =>
    have := canon_plain p (List.mem_of_find?_eq_some h)
    cases s
    · exact this.1
    · exact this.2

theorem canonOf_property (s : System) {q : Name} (hq : q ∈ unitQuantities) :
    property .units s 7 q = .ok (canonOf s (underscore q)).text ∧ unitsOf s q = .ok (canonOf s (underscore q)).text := by
  obtain ⟨p, hp, rfl⟩ := List.mem_map.1 hq
  rw [canonOf_underscore s hp]
  exact canon_text s (mem_systems s) p hp

/-- the operand written for a term -/
def operandAtom (s : System) (t : Term) : Atom :=
  if t.exp = 1 then .group (canonOf s t.base) none
  else .group (.one (.group (canonOf s t.base) (some (litOf t.exp)))) none

theorem operandAtom_text (s : System) (t : Term) (h : t.exp.den = 1) :
    (operandAtom s t).text = operandText (canonOf s t.base).text t.exp := by
  unfold operandAtom operandText
  by_cases h1 : t.exp = 1
  · simp only [h1, if_true, Atom.text, expText]; simp
  · simp only [h1, if_false, Atom.text, Expr.text, expText, litOf_text (q := t.exp) (by omega)]; simp

theorem litOf_plain {e : ℚ} (h : e.den = 1) (h0 : e ≠ 0) : plainExp (some (litOf e)) = true := by
  unfold litOf
  rw [if_pos h]
  have hd := showNat_digits e.num.natAbs
  simp only [plainExp, Bool.and_eq_true, decide_eq_true_eq, List.all_eq_true, Bool.not_eq_true', showNat_val]
  refine ⟨⟨?_, hd.2⟩, by simpa using h0⟩
  cases hs : showNat e.num.natAbs with
  | nil => exact absurd hs hd.1
  | cons => rfl

theorem operandAtom_plain (s : System) (t : Term) (h : t.exp.den = 1) (h0 : t.exp ≠ 0) : Atom.plain (operandAtom s t) = true := by
  unfold operandAtom
  have hp := litOf_plain h h0
  have hn : plainExp none = true := rfl
  split
  · simp only [Atom.plain, canonOf_plain, hn, Bool.and_self]
  · simp only [Atom.plain, Expr.plain, canonOf_plain, hp, hn, Bool.and_self]

theorem operandAtom_denote (s : System) (t : Term) (h : t.exp.den = 1) (ρ : Name → ℝ) :
    (operandAtom s t).denote ρ = (canonOf s t.base).denote ρ id ^ (t.exp : ℝ) := by
  unfold operandAtom
  split
  next h1 => simp only [Atom.denote, litOr1, h1]
  next =>
    simp only [Atom.denote, Expr.denote, litOr1, id]
    rw [litOf_value (by omega)]
    simp

/-- the operands joined by stars -/
def starExpr (s : System) : Term → List Term → Expr
  | t, [] => .one (operandAtom s t)
  | t, u :: us => .cons (operandAtom s t) (.mul 0 0) (starExpr s u us)

theorem starExpr_text (s : System) : ∀ (ts : List Term) (t : Term), (∀ u ∈ t :: ts, u.exp.den = 1) →
    (starExpr s t ts).text = joinStar ((t :: ts).map (fun t => operandText (canonOf s t.base).text t.exp))
  | [], t, h => by simp only [starExpr, Expr.text, List.map, joinStar, operandAtom_text s t (h t (by simp))]
  | u :: us, t, h => by
    simp only [starExpr, Expr.text, operandAtom_text s t (h t (by simp)), Sep.text, blanks,
      starExpr_text s us u (fun v hv => h v (List.mem_cons_of_mem _ hv)), List.map, joinStar]
    simp

theorem starExpr_plain (s : System) : ∀ (ts : List Term) (t : Term), (∀ u ∈ t :: ts, u.exp.den = 1 ∧ u.exp ≠ 0) →
    Expr.plain (starExpr s t ts) = true
  | [], t, h => by simp only [starExpr, Expr.plain, operandAtom_plain s t (h t (by simp)).1 (h t (by simp)).2]
  | u :: us, t, h => by
    simp only [starExpr, Expr.plain, operandAtom_plain s t (h t (by simp)).1 (h t (by simp)).2,
      starExpr_plain s us u (fun v hv => h v (List.mem_cons_of_mem _ hv))]
    decide

theorem starExpr_denote (s : System) (ρ : Name → ℝ) : ∀ (ts : List Term) (t : Term), (∀ u ∈ t :: ts, u.exp.den = 1) →
    (starExpr s t ts).denote ρ id = ((t :: ts).map (fun t => (canonOf s t.base).denote ρ id ^ (t.exp : ℝ))).prod
  | [], t, h => by simp [starExpr, Expr.denote, operandAtom_denote s t (h t (by simp))]
  | u :: us, t, h => by
    have ha : Sep.act (.mul 0 0) = id := rfl
    simp only [starExpr, Expr.denote, operandAtom_denote s t (h t (by simp)), ha,
      starExpr_denote s ρ us u (fun v hv => h v (List.mem_cons_of_mem _ hv)), List.map, List.prod_cons, id]

theorem mapE_ok {α β ε : Type} {f : α → Except ε β} {g : α → β} : ∀ (l : List α), (∀ a ∈ l, f a = .ok (g a)) → mapE f l = .ok (l.map g)
  | [], _ => rfl
  | a :: l, h => by
    unfold mapE
    rw [h a (by simp), mapE_ok l (fun b hb => h b (List.mem_cons_of_mem _ hb))]
    rfl

/-- the unit of a printed product is the product of the units -/
theorem QuantityTerms.units {q : List Term} (h : QuantityTerms q) (s : System) (hs : Separate q)
    (hq : ∀ p ∈ unitQuantities, ' ' ∉ p → q ≠ [⟨1, p, 1⟩]) :
    ∃ b, unitsOf s (showExpr q) = .ok (showExpr b) ∧ Canonical b ∧ NamesOnly b ∧ exprOfString false (showExpr b) = .ok b ∧
      ∀ ρ, Positive ρ → value ρ b = (q.map (fun t => (canonOf s t.base).denote ρ id ^ (t.exp : ℝ))).prod := by
  obtain ⟨t, ts, rfl⟩ := List.exists_cons_of_ne_nil h.names.nonempty
  obtain ⟨b, hb, hc, hn, hv⟩ := plain_denotes (starExpr s t ts) (starExpr_plain s ts t (fun u hu => h.names.exp u hu))
  have hself : ∀ {c : List Term}, Canonical c → NamesOnly c → exprOfString false (showExpr c) = .ok c := by
    intro c hc hn
    rw [showExpr_round_trip c hn.nonempty (NamesOnly.row hn)]
    exact hc.reduce_self (fun t ht => (hn.exact t ht).base_ne)
  refine ⟨b, ?_, hc, hn, hself hc hn, ?_⟩
  · unfold unitsOf
    rw [property.eq_def]
    dsimp only
    rw [h.notKey hs hq]
    dsimp only
    rw [h.mark hs, hself h.canonical h.names]
    have hm : mapE (fun t : Term => (property .units s 7 (spaces t.base)).map (fun v => operandText v t.exp)) (t :: ts) =
        .ok ((t :: ts).map (fun t => operandText (canonOf s t.base).text t.exp)) := by
      refine mapE_ok _ (fun u hu => ?_)
      obtain ⟨p, hp, hbp⟩ := h.known u hu
      rw [hbp, spaces_underscore p hp, (canonOf_property s hp).1]; rfl
    simp only [ofSym, bind, Except.bind, pure, Except.pure, hm]
    rw [← starExpr_text s ts t (fun u hu => (h.names.exp u hu).1), hb]
  · intro ρ hρ
    rw [hv ρ hρ, starExpr_denote s ρ ts t (fun u hu => (h.names.exp u hu).1)]

/-! ## The printed product is not the mass number -/

theorem lower_fixed {c : Char} (h : c = ' ' ∨ c = '^' ∨ c = '-' ∨ isDigit c = true) : ¬ ('A' ≤ c ∧ c ≤ 'Z') := by
  rintro ⟨h1, h2⟩
  rcases h with rfl | rfl | rfl | h
  · revert h1; decide
  · revert h2; decide
  · revert h1; decide
  · simp only [isDigit, decide_eq_true_eq] at h
    have : 'A'.toNat ≤ c.toNat := h1
    have e : 'A'.toNat = 65 := rfl
    have e' : '9'.toNat = 57 := rfl
    omega

theorem lower_eq {s : Name} (h : ∀ c ∈ s, ¬ ('A' ≤ c ∧ c ≤ 'Z')) : lower s = s := by
  unfold lower
  conv_rhs => rw [← List.map_id s]
  exact List.map_congr_left (fun c hc => by rw [if_neg (h c hc)]; rfl)

theorem underscore_lower : ∀ q ∈ unitQuantities, ∀ c ∈ underscore q, ¬ ('A' ≤ c ∧ c ≤ 'Z') := by decide +kernel

theorem QuantityTerms.chars {q : List Term} (h : QuantityTerms q) {t : Term} (ht : t ∈ q) :
    ∀ c ∈ formatTerm t, ¬ ('A' ≤ c ∧ c ≤ 'Z') := by
  intro c hc
  rw [h.format ht] at hc
  obtain ⟨p, hp, hb⟩ := h.known t ht
  rcases List.mem_append.1 hc with hc | hc
  · rw [hb] at hc; exact underscore_lower p hp c hc
  · split at hc
    · simp at hc
    · rcases List.mem_cons.1 hc with hc | hc
      · exact lower_fixed (Or.inr (Or.inl hc))
      · obtain ⟨_, _, _, hd, _⟩ := showRat_int (h.names.exp t ht).1
        rcases hd c hc with h | h
        · exact lower_fixed (Or.inr (Or.inr (Or.inl h)))
        · exact lower_fixed (Or.inr (Or.inr (Or.inr h)))

theorem showExpr_chars {P : Char → Prop} (hsp : P ' ') : ∀ (ts : List Term), (∀ t ∈ ts, ∀ c ∈ formatTerm t, P c) → ∀ c ∈ showExpr ts, P c
  | [], _, c, hc => by simp [showExpr] at hc
  | [t], h, c, hc => h t (by simp) c hc
  | t :: u :: us, h, c, hc => by
    rw [showExpr_cons t _ (by simp)] at hc
    rcases List.mem_append.1 hc with hc | hc
    · exact h t (by simp) c hc
    · rcases List.mem_cons.1 hc with rfl | hc
      · exact hsp
      · exact showExpr_chars hsp (u :: us) (fun t ht => h t (List.mem_cons_of_mem _ ht)) c hc

theorem QuantityTerms.substitution {q : List Term} (h : QuantityTerms q) (s : System) (hs : Separate q)
    (hq : q ≠ [⟨1, c! "mass_number", 1⟩]) : substitution s (showExpr q) = unitsOf s (showExpr q) := by
  unfold Metric.substitution
  rw [lower_eq (showExpr_chars (P := fun c => ¬ ('A' ≤ c ∧ c ≤ 'Z')) (by decide) q (fun t ht => h.chars ht))]
  rw [if_neg]
  rintro (he | he)
  · refine hs (h.pair (w := (c! "mass", c! "number")) (by decide +kernel) ?_)
    rw [he]; exact List.infix_rfl
  · obtain ⟨t, ts, rfl⟩ := List.exists_cons_of_ne_nil h.names.nonempty
    cases ts with
    | cons u us =>
      rw [showExpr_cons t _ (by simp)] at he
      have : ' ' ∈ c! "mass_number" := by rw [← he]; simp
      revert this; decide
    | nil =>
      have hf := h.format (t := t) (by simp)
      have he2 : c! "mass_number" = t.base ++ (if t.exp = 1 then [] else '^' :: showRat t.exp) := by rw [← hf]; exact he.symm
      by_cases h1 : t.exp = 1
      · rw [if_pos h1, List.append_nil] at he2
        refine hq ?_
        have hc := h.names.coeff t (by simp)
        cases t with
        | mk c b e => simp only at h1 hc he2; rw [h1, hc, he2]
      · rw [if_neg h1] at he2
        have : '^' ∈ c! "mass_number" := by rw [he2]; simp
        revert this; decide

/-! ## The quantity of a product of units -/

/-- the terms of which the quantity is the product -/
def quantityTerm (t : Term) : Term := ⟨1, underscore ((quantityOf t.base).getD []), t.exp⟩

/-- every unit is a named unit other than lux -/
def KnownUnits (a : List Term) : Prop := ∀ t ∈ a, ∃ q ∈ unitQuantities, quantityOf t.base = some q

theorem quantity_terms {a : List Term} (na : NamesOnly a) (hk : KnownUnits a) :
    ∃ q, getQuantity a = .ok q ∧ NamesOnly q ∧ Canonical q ∧
      (∀ t ∈ q, t.base ≠ one → ∃ p ∈ unitQuantities, t.base = underscore p) ∧
      (∀ p ∈ unitQuantities, expOf (underscore p) q = quantityExponent p a) ∧
      ∀ ρ, Positive ρ → value ρ q = value ρ (a.map quantityTerm) := by
  have hts : ∀ t ∈ a.map quantityTerm, t.coeff = 1 ∧ t.exp.den = 1 ∧ t.exp ≠ 0 ∧ ∃ p ∈ unitQuantities, t.base = underscore p := by
    intro t ht
    obtain ⟨u, hu, rfl⟩ := List.mem_map.1 ht
    obtain ⟨p, hp, hq⟩ := hk u hu
    refine ⟨rfl, (na.exp u hu).1, (na.exp u hu).2, p, hp, ?_⟩
    simp only [quantityTerm, hq, Option.getD_some]
  have hvalid : ∀ t ∈ a.map quantityTerm, ValidName t.base := by
    intro t ht
    obtain ⟨_, _, _, p, hp, hb⟩ := hts t ht
    have hl := underscore_letters p hp
    rw [hb]
    exact ⟨underscore p, [], by simp, hl.1, hl.2.1, by simp, hl.2.2.1⟩
  have hn : NamesOnly (a.map quantityTerm) := by
    refine ⟨by simpa using na.nonempty, fun t ht => (hts t ht).1, fun t ht => ⟨(hts t ht).2.1, (hts t ht).2.2.1⟩, ?_⟩
    intro t ht
    exact Or.inl (hvalid t ht)
  have hw : WF (a.map quantityTerm) := by
    intro t ht
    refine ⟨by rw [(hts t ht).1]; exact one_ne_zero, (hvalid t ht).ne_nil, (hts t ht).2.2.1⟩
  obtain ⟨q, hq, hv⟩ := c01_reduce_value (a.map quantityTerm) hn.nonempty hw
  obtain ⟨h1, h2, h3, h4, h5, h6, h7⟩ := reduce_spec hn.nonempty hw hq
  refine ⟨q, ?_, reduce_names hn.nonempty hn.coeff hn.exp (fun t ht => Or.inl (hvalid t ht)) hq, h1, ?_, ?_, hv⟩
  · unfold getQuantity
    have hm : mapE (fun t : Term => (namedUnit t.base).map (fun u => mkTerm 1 (underscore u.base.quantity) t.exp)) a =
        .ok (a.map quantityTerm) := by
      refine mapE_ok _ (fun t ht => ?_)
      obtain ⟨p, hp, hqt⟩ := hk t ht
      unfold quantityOf at hqt
      cases hnm : named t.base with
      | none => rw [hnm] at hqt; cases hqt
      | some e =>
        rw [hnm] at hqt
        simp only [Option.map_some, Option.some.injEq] at hqt
        simp only [namedUnit, hnm, Except.map, quantityTerm, quantityOf, Option.map_some, Option.getD_some, hqt, mkTerm]
        have hne := (underscore_letters p hp).1
        simp only [orOne, orOneStr, if_neg (na.exp t ht).2, if_neg one_ne_zero]
        rw [if_neg (by simpa using hne)]
    simp only [hm, bind, Except.bind]
    rw [exprOfTerms_printable _ hn.nonempty hn.exact, hq]; rfl
  · intro t ht hb
    have := h6 t ht hb
    obtain ⟨u, hu, hub⟩ := List.mem_map.1 this
    obtain ⟨_, _, _, p, hp, hbp⟩ := hts u hu
    exact ⟨p, hp, by rw [← hub, hbp]⟩
  · intro p hp
    rw [h5 _ (underscore_letters p hp).2.2.2.1]
    clear hq hv h1 h2 h3 h4 h5 h6 h7 hw hn hvalid hts
    unfold quantityExponent
    induction a with
    | nil => rfl
    | cons t a ih =>
      have hk' : KnownUnits a := fun u hu => hk u (List.mem_cons_of_mem _ hu)
      obtain ⟨p', hp', hq'⟩ := hk t (by simp)
      have hih : expOf (underscore p) (a.map quantityTerm) =
          ((a.filter (fun t => decide (quantityOf t.base = some p))).map Term.exp).sum := by
        cases ha : a with
        | nil => rfl
        | cons u us =>
          rw [← ha]
          exact ih ⟨by rw [ha]; simp, fun t ht => na.coeff t (List.mem_cons_of_mem _ ht), fun t ht => na.exp t (List.mem_cons_of_mem _ ht),
            fun t ht => na.base t (List.mem_cons_of_mem _ ht)⟩ hk'
      have hiff : (quantityTerm t).base = underscore p ↔ quantityOf t.base = some p := by
        simp only [quantityTerm, hq', Option.getD_some, Option.some.injEq]
        constructor
        · intro h
          rw [← spaces_underscore p' hp', h, spaces_underscore p hp]
        · rintro rfl; rfl
      rw [List.map_cons, expOf_cons, hih, List.filter_cons]
      by_cases hc : quantityOf t.base = some p
      · rw [if_pos (hiff.2 hc), if_pos (by simpa using hc)]; rfl
      · rw [if_neg (fun h => hc (hiff.1 h)), if_neg (by simpa using hc), zero_add]

end Eprem.Metric
