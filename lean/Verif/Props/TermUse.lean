import Verif.Props.Terms

/-!
# C116: evaluating, casting, comparing and formatting terms
-/

namespace Eprem.Symbolic

/-- The value of a term when its symbol stands for `x`; the base `'1'` is the number
one. -/
noncomputable def Term.valueAt (t : Term) (x : ℝ) : ℝ :=
  if t.base = one then (t.coeff : ℝ) else (t.coeff : ℝ) * x ^ (t.exp : ℝ)

/-- **C116.** Calling a term with a non-zero number substitutes the number for its
symbol: the result is a constant with the value of the term there, which `float`
then returns (rounded to a float).  The exponent is an integer, or the number 1. -/
theorem c116_call_partial (t : Term) (v : Rat) (hb : t.base ≠ one) (hc : t.coeff ≠ 0) (hv : v ≠ 0)
    (he : t.exp.den = 1 ∨ v = 1) :
    ∃ u : Term, t.call (.real v) = .ok u ∧ u.base = one ∧ u.exp = 1 ∧ (u.coeff : ℝ) = t.valueAt v ∧
      u.toFloat = .ok (fl u.coeff) ∧ ∀ x, u.valueAt x = t.valueAt v := by
  have hp : PowOk v t.exp := he
  have h0 : t.coeff * powVal v t.exp ≠ 0 := mul_ne_zero hc (powVal_ne_zero hv)
  have hval : ((t.coeff * powVal v t.exp : Rat) : ℝ) = t.valueAt v := by
    simp only [Term.valueAt, if_neg hb]
    push_cast
    congr 1
    have := real_pow hp one_pos
    simpa using this.symm
  refine ⟨⟨t.coeff * powVal v t.exp, one, 1⟩, ?_, rfl, rfl, hval, rfl, fun x => ?_⟩
  · simp only [Term.call, if_neg hb, lift_pow hv hp, bind, Except.bind, pure, Except.pure, mkTerm]
    simp [orOne, h0, orOneStr, one]
  · rw [← hval]; rfl

example : (⟨2, ['x'], 3⟩ : Term).call (.real 5) = .ok ⟨250, one, 1⟩ := by decide +kernel

example : ∃ u : Term, (⟨2, ['x'], 3⟩ : Term).call (.real 5) = .ok u ∧ u.base = one ∧ u.exp = 1 ∧
    (u.coeff : ℝ) = (⟨2, ['x'], 3⟩ : Term).valueAt (5 : Rat) ∧ u.toFloat = .ok (fl u.coeff) ∧
    ∀ x, u.valueAt x = (⟨2, ['x'], 3⟩ : Term).valueAt (5 : Rat) :=
  c116_call_partial ⟨2, ['x'], 3⟩ 5 (by decide) (by decide) (by decide) (Or.inl (by decide))

/-- Calling a term gives its value at every number where it has one. -/
def CallValue : Prop :=
  ∀ (t u : Term) (v : Rat), t.base ≠ one → t.coeff ≠ 0 → t.call (.real v) = .ok u → (u.coeff : ℝ) = t.valueAt v

/-- **C116 (violated).** At zero every term with a positive whole exponent evaluates to
one: the coefficient 0 is replaced by the default 1. -/
theorem c116_zero (t : Term) (hb : t.base ≠ one) (he : t.exp.den = 1) (hp : 0 < t.exp) :
    t.call (.real 0) = .ok ⟨1, one, 1⟩ ∧ t.valueAt 0 = 0 := by
  constructor
  · have hn : 0 < t.exp.num := Rat.num_pos.2 hp
    have h1 : fracPow 0 t.exp = .ok 0 := by
      unfold fracPow
      rw [if_pos he, if_neg (by omega)]
      congr 1
      exact zero_zpow _ (by omega)
    simp only [Term.call, if_neg hb, h1, lift, bind, Except.bind, pure, Except.pure, mkTerm, mul_zero]
    rfl
  · have : (t.exp : ℝ) ≠ 0 := by exact_mod_cast hp.ne'
    simp [Term.valueAt, hb, Real.zero_rpow this]

theorem c116_not_call : ¬ CallValue := by
  intro h
  obtain ⟨h1, h2⟩ := c116_zero ⟨2, ['x'], 3⟩ (by decide) (by decide) (by decide)
  have := h ⟨2, ['x'], 3⟩ _ 0 (by decide) (by decide) h1
  simp only [Rat.cast_zero] at this
  rw [h2] at this
  simp at this

/-- **C116.** A constant cannot be called, nor any term with something that is not a
number: `TypeError`. -/
theorem c116_call_error (t : Term) (v : Rat) (s : Str) :
    (t.base = one → t.call (.real v) = .error .typeError) ∧
    t.call (.text s) = .error .typeError ∧ t.call (.other s) = .error .typeError :=
  ⟨fun h => by simp [Term.call, h], rfl, rfl⟩

/-- **C116.** A term can be cast to a number exactly when it is a constant: `float`
then gives its coefficient as a float and `int` drops the fractional part; otherwise
both raise `TypeError`. -/
theorem c116_cast (t : Term) :
    (t.base = one → t.toFloat = .ok (fl t.coeff) ∧
      ∃ n : Int, t.toInt = .ok n ∧ |(n : Rat)| ≤ |t.coeff| ∧ |t.coeff - n| < 1 ∧ 0 ≤ (n : Rat) * t.coeff) ∧
    (t.base ≠ one → t.toFloat = .error .typeError ∧ t.toInt = .error .typeError) := by
  refine ⟨fun h => ⟨by simp [Term.toFloat, h], t.coeff.num.tdiv t.coeff.den, by simp only [Term.toInt, h, if_true], ?_⟩,
    fun h => by simp [Term.toFloat, Term.toInt, h]⟩
  generalize t.coeff = q
  have hd : (0 : Rat) < q.den := by exact_mod_cast q.den_pos
  have hq : q = (q.num : Rat) / q.den := (Rat.num_div_den q).symm
  have hdm : (q.num : Rat) = q.den * ((q.num.tdiv q.den : Int) : Rat) + ((q.num.tmod q.den : Int) : Rat) := by
    have := Int.mul_tdiv_add_tmod q.num q.den
    exact_mod_cast this.symm
  have hlt : |((q.num.tmod q.den : Int) : Rat)| < q.den := by
    have h1 : (q.num.tmod q.den).natAbs < q.den := by
      rw [Int.natAbs_tmod]
      exact Nat.mod_lt _ q.den_pos
    rw [← Int.cast_abs, Int.abs_eq_natAbs]
    exact_mod_cast h1
  generalize hn : q.num.tdiv q.den = n at hdm ⊢
  generalize hr : q.num.tmod q.den = r at hdm hlt
  have hqr : q = n + (r : Rat) / q.den := by
    have : (q.num : Rat) / q.den = n + (r : Rat) / q.den := by
      rw [hdm]; field_simp
    rw [← this]; exact hq
  have hsame : (0 ≤ q.num → 0 ≤ n ∧ 0 ≤ r) ∧ (q.num ≤ 0 → n ≤ 0 ∧ r ≤ 0) := by
    constructor
    · intro h
      exact ⟨hn ▸ Int.tdiv_nonneg h (Int.natCast_nonneg _), hr ▸ Int.tmod_nonneg _ h⟩
    · intro h
      have h1 := Int.tdiv_nonneg (a := -q.num) (b := q.den) (by omega) (Int.natCast_nonneg _)
      have h2 := Int.tmod_nonneg (a := -q.num) q.den (by omega)
      rw [Int.neg_tdiv] at h1
      rw [Int.neg_tmod] at h2
      omega
  have hfrac : |(r : Rat) / q.den| < 1 := by
    rw [abs_div, abs_of_pos hd, div_lt_one hd]; exact hlt
  rcases le_total 0 q.num with h | h
  · obtain ⟨h1, h2⟩ := hsame.1 h
    have e1 : (0 : Rat) ≤ n := by exact_mod_cast h1
    have e2 : (0 : Rat) ≤ (r : Rat) / q.den := div_nonneg (by exact_mod_cast h2) hd.le
    have e3 : 0 ≤ q := by rw [hqr]; linarith
    refine ⟨?_, ?_, mul_nonneg e1 e3⟩
    · rw [abs_of_nonneg e1, abs_of_nonneg e3]
      conv_rhs => rw [hqr]
      linarith
    · have : q - n = (r : Rat) / q.den := by conv_lhs => rw [hqr]
                                             ring
      rw [this]; exact hfrac
  · obtain ⟨h1, h2⟩ := hsame.2 h
    have e1 : (n : Rat) ≤ 0 := by exact_mod_cast h1
    have e2 : (r : Rat) / q.den ≤ 0 := div_nonpos_of_nonpos_of_nonneg (by exact_mod_cast h2) hd.le
    have e3 : q ≤ 0 := by rw [hqr]; linarith
    refine ⟨?_, ?_, mul_nonneg_of_nonpos_of_nonpos e1 e3⟩
    · rw [abs_of_nonpos e1, abs_of_nonpos e3]
      conv_rhs => rw [hqr]
      linarith
    · have : q - n = (r : Rat) / q.den := by conv_lhs => rw [hqr]
                                             ring
      rw [this]; exact hfrac

example : (⟨-7 / 2, one, 1⟩ : Term).toInt = .ok (-3) := by decide +kernel

/-- **C116.** Comparing a constant with a number compares the two as floats. -/
theorem c116_number (t : Term) (q : Rat) (h : t.base = one) :
    t.eqTo (.real q) = .ok (decide (fl t.coeff = fl q)) := by
  simp [Term.eqTo, Term.toFloat, h, bind, Except.bind, pure, Except.pure]

example : (⟨1 / 2, one, 1⟩ : Term).eqTo (.real (1 / 2)) = .ok true := by
  rw [c116_number _ _ rfl]; simp

/-- Comparison never raises. -/
def ComparesAll : Prop := ∀ (t : Term) (a : TArg), ∃ b, t.eqTo a = .ok b

/-- **C116 (violated).** Comparing any term that has a symbol with a number raises
`TypeError` instead of being false. -/
theorem c116_number_raises (t : Term) (q : Rat) (h : t.base ≠ one) : t.eqTo (.real q) = .error .typeError := by
  simp [Term.eqTo, Term.toFloat, h, bind, Except.bind]

theorem c116_not_compares : ¬ ComparesAll := by
  intro h
  obtain ⟨b, hb⟩ := h ⟨1, ['x'], 1⟩ (.real 1)
  rw [c116_number_raises _ _ (by decide)] at hb
  simp at hb

/-! ### a term and its text -/

theorem fullSimplex_const {q : Rat} (h0 : q ≠ 0) (hd : q.den ≤ 9) (hf : fl q = q) :
    fullSimplex (showRat q) = some (.ok ⟨true, q, one, 1⟩) := by
  rw [← litOf_text hd, fullSimplex_lit (litOf_ok hd), litOf_value hd, hf,
    mkOperand_eq h0 (by decide) one_ne_zero]

theorem showInt_coef {q : Rat} (hd : q.den = 1) : ∃ ds, litOf q = .int (decide (q.num < 0)) ds := by
  unfold litOf; simp [hd]

theorem createFrom_term {s : Str} {o : Operand} (hs : fullSimplex s = some (.ok o)) (ht : o.isTerm = true)
    (hc : o.coeff ≠ 0) (hb : o.base ≠ []) (he : o.exp ≠ 0) (hcar : caretEnds s = false) (n : Nat) :
    createFrom (n + 1) 1 s 1 = .ok o := by
  have h1 : PowOk o.coeff 1 := Or.inl rfl
  simp only [createFrom, hcar, Bool.false_eq_true, if_false, searchFull, hs, lift, bind, Except.bind]
  simp only [applyGiven, lift_pow hc h1, bind, Except.bind, ht, if_true, pure, Except.pure, termOf]
  rw [powVal_exp_one', one_mul, mul_one, mkOperand_eq hc hb he]
  cases o; simp_all

theorem caretEnds_lit {l : Lit} (h : l.Ok) : caretEnds l.text = false := by
  obtain ⟨c, s, e, hc⟩ := lit_head h
  obtain ⟨s', c', e', hc'⟩ := lit_last h
  have h1 : l.text.head? ≠ some '^' := by
    rw [e]; simp only [List.head?_cons, ne_eq, Option.some.injEq]
    rintro rfl
    rcases hc with hc | hc
    · exact absurd hc (by decide)
    · simp at hc
  have h2 : l.text.getLast? ≠ some '^' := by
    rw [e', List.getLast?_concat]
    simp only [ne_eq, Option.some.injEq]
    exact digit_not_caret hc'
  simp [caretEnds, h1, h2]

/-- **C116.** A term equals the text it prints as, when it is a constant or its
coefficient is an integer (numbers with one-digit denominators that a float holds
exactly; a name such as `e3` must not follow the coefficient). -/
theorem c116_own_text_partial (t : Term) (h : Printable t) (hint : t.base = one ∨ t.coeff.den = 1) :
    t.eqTo (.text (formatTerm t)) = .ok true := by
  have key : ∀ s o, s ≠ [] → createFrom (s.length + 1) 1 s 1 = .ok o → sameOperand t o = true →
      t.eqTo (.text s) = .ok true := by
    intro s o hs hc ho
    simp only [Term.eqTo, create, normalizeArgs, bind, Except.bind, orOneStr, hs, if_false, hc, pure, Except.pure, ho]
  by_cases hb : t.base = one
  · have he : t.exp = 1 := by
      rcases h.base with h1 | h1
      · exact h1.2
      · obtain ⟨ls, ds, e, hne, hl, _, _⟩ := h1
        rw [hb] at e
        obtain ⟨x, xs, rfl⟩ := List.exists_cons_of_ne_nil hne
        have hx := hl x (by simp)
        simp [one] at e
        rw [← e.1] at hx
        exact absurd hx (by decide)
    have hf : formatTerm t = showRat t.coeff := by simp [formatTerm, formatCoefficient, hb]
    rw [hf]
    have hl := litOf_text h.coeffDen
    have hok := litOf_ok h.coeffDen
    refine key _ ⟨true, t.coeff, one, 1⟩ ?_ (createFrom_term (fullSimplex_const h.coeff h.coeffDen h.coeffFloat) rfl
      h.coeff (show one ≠ [] by decide) (show (1 : Rat) ≠ 0 by decide) (hl ▸ caretEnds_lit hok) _) ?_
    · rw [← hl]
      obtain ⟨c, s, e, _⟩ := lit_head hok
      simp [e]
    · simp [sameOperand, hb, he]
  · have hcd : t.coeff.den = 1 := hint.resolve_left hb
    obtain ⟨ls, ds, e, hne, hl, hd, _⟩ := h.valid hb
    let c : Option Lit := if t.coeff = 1 then none else some (litOf t.coeff)
    have hcok : OptOk c := by
      by_cases h1 : t.coeff = 1
      · simp [c, h1, OptOk]
      · simp only [c, h1, if_false]
        exact ⟨litOf_ok h.coeffDen, by rw [litOf_value h.coeffDen]; exact h.coeff⟩
    have hcv : litOr1 c = t.coeff := by
      by_cases h1 : t.coeff = 1
      · simp [c, h1, litOr1]
      · simp only [c, h1, if_false, litOr1]; exact litOf_value h.coeffDen
    have hct : coefText c = formatCoefficient t := by
      by_cases h1 : t.coeff = 1
      · simp [c, h1, coefText, formatCoefficient, hb]
      · simp only [c, h1, if_false, coefText, formatCoefficient, hcd]
        simpa [hb] using litOf_text h.coeffDen
    have hno : ∀ l, c = some l → LooksLikeExp ls ds → ∃ n s d, l = .frac n s d := by
      intro l hcl hE
      exfalso
      have hel : ExpLike t.base := by
        obtain ⟨h1, h2⟩ := hE
        rcases h1 with rfl | rfl
        · exact ⟨'e', ds, e, Or.inl rfl, h2, hd⟩
        · exact ⟨'E', ds, e, Or.inr rfl, h2, hd⟩
      rcases h.notExpLike hel with h1 | h1
      · simp [c, h1] at hcl
      · exact h1 hcd
    have hw : (Written.name c ls ds (expOpt t.exp)).Ok := ⟨hne, hl, hd, hcok, expOpt_ok h.expDen h.exp, hno⟩
    have htext : (Written.name c ls ds (expOpt t.exp)).text = formatTerm t := by
      simp only [Written.text, hct, expOpt_text h.expDen, formatTerm, if_neg hb]
      rw [e]
    have hcr := createFrom_text _ hw ((Written.name c ls ds (expOpt t.exp)).text.length + 1) 1 1 (by omega) one_ne_zero
      one_ne_zero (Or.inl rfl)
    rw [powVal_exp_one', one_mul, mul_one] at hcr
    rw [← htext]
    refine key _ _ (Written.text_ne _ hw) hcr ?_
    simp only [sameOperand, Written.co, Written.ex, Written.symbol, hcv, expOpt_val h.expDen, e]
    simp

example : (⟨2, ['x'], -3 / 2⟩ : Term).eqTo (.text "2x^-3/2".toList) = .ok true := by decide +kernel

/-- A term equals the text it prints as. -/
def EqualsOwnText : Prop := ∀ t : Term, Printable t → t.eqTo (.text (formatTerm t)) = .ok true

/-- **C116 (violated).** No term with a fractional coefficient equals the text it
prints as: `'(1/2)x'` is not read back as a term. -/
theorem c116_fraction (t : Term) (h : Printable t) (hb : t.base ≠ one) (hd : t.coeff.den ≠ 1) :
    t.eqTo (.text (formatTerm t)) = .ok false := by
  have h1 : t.coeff ≠ 1 := by intro e; rw [e] at hd; exact hd rfl
  obtain ⟨ls, ds, e, hne, hl, hds, _⟩ := h.valid hb
  obtain ⟨x, xs, rfl⟩ := List.exists_cons_of_ne_nil hne
  have hx := hl x (by simp)
  have hlit := litOf_text h.coeffDen
  have hok := litOf_ok h.coeffDen
  let tail : Str := xs ++ ds ++ expText (expOpt t.exp)
  have ht : formatTerm t = '(' :: ((litOf t.coeff).text ++ (')' :: (x :: tail))) := by
    simp only [formatTerm, if_neg hb, formatCoefficient]
    rw [if_neg (by simp [h1]), if_pos ⟨hb, hd⟩, hlit, e, ← expOpt_text h.expDen]
    simp [tail]
  have hcar : caretEnds (formatTerm t) = false := by
    have hlast : (formatTerm t).getLast? ≠ some '^' := by
      have e1 : formatTerm t = ('(' :: ((litOf t.coeff).text ++ (')' :: (x :: (xs ++ ds))))) ++ expText (expOpt t.exp) := by
        rw [ht]; simp [tail]
      rw [e1]
      refine last_exp (expOpt_ok h.expDen h.exp) ?_
      intro hq
      have e2 : '(' :: ((litOf t.coeff).text ++ (')' :: (x :: (xs ++ ds)))) =
          ('(' :: ((litOf t.coeff).text ++ [')'])) ++ (x :: (xs ++ ds)) := by simp
      rw [e2, List.getLast?_append] at hq
      cases hy : (x :: (xs ++ ds)).getLast? with
      | none => simp at hy
      | some y =>
        rw [hy] at hq
        simp at hq
        subst hq
        have hm := List.mem_of_getLast? hy
        rw [← List.cons_append] at hm
        rcases List.mem_append.1 hm with h | h
        · exact absurd (hl _ h) (by decide)
        · exact absurd (hds _ h) (by decide)
    have hhead : (formatTerm t).head? ≠ some '^' := by rw [ht]; simp
    simp [caretEnds, hhead, hlast]
  have hsearch : searchFull (formatTerm t) = none := by
    unfold searchFull
    have hs := fullSimplex_group (k := none) trivial ((litOf t.coeff).text ++ (')' :: (x :: tail)))
    simp only [coefText, List.nil_append] at hs
    rw [ht, hs]
    have hbd := findBounds_group (balanced_of_chars (lit_noparen hok)) (x :: tail)
    unfold fullComplex
    rw [hbd]
    have hdrop : ('(' :: ((litOf t.coeff).text ++ (')' :: (x :: tail)))).drop ((litOf t.coeff).text.length + 2) =
        x :: tail := by
      have : '(' :: ((litOf t.coeff).text ++ (')' :: (x :: tail))) =
          ('(' :: ((litOf t.coeff).text ++ [')'])) ++ (x :: tail) := by simp
      rw [this]
      exact List.drop_left' (by simp)
    have hm : matchExponent (x :: tail) = (none, x :: tail) := matchExponent_none (by
      intro c hc; simp at hc; subst hc; exact letter_not_caret hx)
    have hp : prefixCoefficient [] = none := by decide +kernel
    simp only [hdrop, hm, List.take_zero, hp, List.isEmpty_cons, Bool.false_eq_true, and_false, if_false]
  have hne' : formatTerm t ≠ [] := by rw [ht]; simp
  have hcr : createFrom ((formatTerm t).length + 1) 1 (formatTerm t) 1 = .ok ⟨false, 1, formatTerm t, 1⟩ := by
    simp only [createFrom, hcar, Bool.false_eq_true, if_false, hsearch]
    rw [mkOperand_eq one_ne_zero hne' one_ne_zero]
  have hbase : formatTerm t ≠ t.base := by
    rw [ht, e]
    intro hc
    simp only [List.cons_append, List.cons.injEq] at hc
    rw [← hc.1] at hx
    exact absurd hx (by decide)
  simp only [Term.eqTo, create, normalizeArgs, bind, Except.bind, orOneStr, hne', if_false, hcr, pure, Except.pure]
  simp [sameOperand, hbase]

theorem halfX_printable : Printable ⟨1 / 2, ['x'], 1⟩ where
  coeff := by decide +kernel
  exp := by decide
  base := Or.inr ⟨['x'], [], rfl, by decide, by decide, by decide, by decide⟩
  coeffDen := by decide +kernel
  coeffFloat := by decide +kernel
  expDen := by decide
  notExpLike := by
    rintro ⟨c, ds, h, hc, _⟩
    simp at h
    rcases hc with rfl | rfl <;> simp at h

theorem c116_not_own_text : ¬ EqualsOwnText := by
  intro h
  have h1 := h ⟨1 / 2, ['x'], 1⟩ halfX_printable
  rw [c116_fraction _ halfX_printable (by decide) (by decide +kernel)] at h1
  simp at h1

/-! ### formatting -/

/-- The style has the letters `tex` in it, in this order, whatever their case. -/
def HasTex (style : Str) : Prop :=
  ∃ a b, style.map Char.toLower = a ++ ['t', 'e', 'x'] ++ b

theorem asksTex_iff (style : Str) : asksTex style = true ↔ HasTex style := by
  unfold asksTex HasTex
  rw [List.any_eq_true]
  constructor
  · rintro ⟨s, hs, hp⟩
    obtain ⟨a, ha⟩ := List.mem_tails s _ |>.1 hs
    obtain ⟨b, hb⟩ := List.isPrefixOf_iff_prefix.1 hp
    exact ⟨a, b, by rw [← ha, ← hb, List.append_assoc]⟩
  · rintro ⟨a, b, h⟩
    refine ⟨['t', 'e', 'x'] ++ b, (List.mem_tails _ _).2 ⟨a, ?_⟩, List.isPrefixOf_iff_prefix.2 ⟨b, rfl⟩⟩
    rw [h, List.append_assoc]

/-- **C116.** Without a style a term is formatted as it prints; with any style that
contains `tex` in any case, the same coefficient, base and exponent are written
between dollar signs, the base in `\mathrm{…}` (except `#`) and the exponent in
braces; a constant is its number in every style. -/
theorem c116_format (t : Term) (style : Str) :
    t.formatAs [] = .ok (formatTerm t) ∧
    (t.base = one → t.formatAs style = .ok (showRat t.coeff)) ∧
    (t.base ≠ one → HasTex style →
      t.formatAs style = .ok (['$'] ++ formatCoefficient t ++
        (if t.base = ['#'] then ['#'] else "\\mathrm{".toList ++ t.base ++ ['}']) ++
        (if t.exp = 1 then [] else ['^', '{'] ++ showRat t.exp ++ ['}']) ++ ['$'])) := by
  refine ⟨?_, ?_, ?_⟩
  · have hx : asksTex [] = false := by decide
    unfold Term.formatAs formatTerm
    by_cases hb : t.base = one
    · simp [hb]
    · by_cases he : t.exp = 1
      · simp [hb, he, formatExponent, hx, bind, Except.bind, pure, Except.pure]
      · simp [hb, he, formatExponent, hx, bind, Except.bind, pure, Except.pure]
  · intro hb
    simp [Term.formatAs, hb, formatCoefficient]
  · intro hb hx
    replace hx := (asksTex_iff style).2 hx
    have hne : style.isEmpty = false := by
      cases style with
      | nil => exact absurd hx (by decide)
      | cons => rfl
    unfold Term.formatAs
    rw [if_neg hb]
    by_cases he : t.exp = 1
    · by_cases hh : t.base = ['#']
      · simp [he, hh, formatExponent, hx, bind, Except.bind, pure, Except.pure]
      · simp [hb, he, hh, formatExponent, hx, bind, Except.bind, pure, Except.pure]
    · by_cases hh : t.base = ['#']
      · have h1 : (['#'] : Str) ≠ one := by decide
        simp [he, hh, h1, formatExponent, hx, hne, bind, Except.bind, pure, Except.pure]
      · simp [hb, he, hh, formatExponent, hx, hne, bind, Except.bind, pure, Except.pure]

example : (⟨2, "cm".toList, -3⟩ : Term).formatAs "TeX".toList = .ok "$2\\mathrm{cm}^{-3}$".toList := by decide +kernel

/-- **C116.** Any other style is refused with `ValueError`, unless the exponent is one,
when the style has no effect. -/
theorem c116_style (t : Term) (style : Str) (hb : t.base ≠ one) (hs : style ≠ []) (hx : ¬HasTex style) :
    (t.exp ≠ 1 → t.formatAs style = .error .valueError) ∧
    (t.exp = 1 → t.formatAs style = .ok (formatTerm t)) := by
  rw [← asksTex_iff, Bool.not_eq_true] at hx
  have hne : style.isEmpty = false := by cases style <;> simp_all
  constructor <;> intro he <;>
    simp [Term.formatAs, formatTerm, hb, he, formatExponent, hne, hx, bind, Except.bind, pure, Except.pure]

example : (⟨2, "cm".toList, -3⟩ : Term).formatAs "html".toList = .error .valueError :=
  (c116_style _ _ (by decide) (by decide) (by rw [← asksTex_iff]; decide)).1 (by decide)

end Eprem.Symbolic
