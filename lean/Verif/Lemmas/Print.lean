import Verif.Lemmas.ParseLoop
import Verif.Lemmas.Float
import Verif.Spec.Print

namespace Eprem.Symbolic

/-! ### decimal digits -/

theorem digitChar_ok : ∀ k, k < 10 → isDigit (Char.ofNat (48 + k)) = true ∧ digitVal (Char.ofNat (48 + k)) = k := by
  decide

theorem showNatAux_ok (fuel : Nat) : ∀ n, n < fuel →
    Digits (showNatAux fuel n) ∧ natVal (showNatAux fuel n) = n := by
  induction fuel with
  | zero => intro n h; omega
  | succ fuel ih =>
    intro n h
    simp only [showNatAux]
    split
    · rename_i h10
      have := digitChar_ok n h10
      refine ⟨⟨by simp, by simpa using this.1⟩, by simp [natVal, this.2]⟩
    · rename_i h10
      have hd := digitChar_ok (n % 10) (Nat.mod_lt _ (by omega))
      obtain ⟨h1, h2⟩ := ih (n / 10) (by omega)
      refine ⟨⟨by simp, ?_⟩, ?_⟩
      · intro c hc
        rcases List.mem_append.1 hc with hc | hc
        · exact h1.2 c hc
        · rw [List.mem_singleton] at hc; rw [hc]; exact hd.1
      · rw [natVal_append, h2]
        simp [natVal, hd.2]; omega

theorem showNat_digits (n : Nat) : Digits (showNat n) := (showNatAux_ok (n + 1) n (by omega)).1
theorem showNat_val (n : Nat) : natVal (showNat n) = n := (showNatAux_ok (n + 1) n (by omega)).2

theorem showNat_small {n : Nat} (h : n < 10) : showNat n = [Char.ofNat (48 + n)] := by
  simp [showNat, showNatAux, h]

/-! ### rational numbers -/

/-- the written number printed for a rational -/
def litOf (q : Rat) : Lit :=
  if q.den = 1 then .int (decide (q.num < 0)) (showNat q.num.natAbs)
  else .frac (decide (q.num < 0)) (showNat q.num.natAbs) (Char.ofNat (48 + q.den))

theorem litOf_text {q : Rat} (h : q.den ≤ 9) : (litOf q).text = showRat q := by
  unfold litOf showRat showInt
  split
  · simp only [Lit.text, signText]
    split <;> rename_i h' <;> simp at h' <;> simp [h']
  · simp only [Lit.text, signText]
    rw [showNat_small (n := q.den) (by omega)]
    by_cases h' : q.num < 0 <;> simp [h']

theorem litOf_ok {q : Rat} (h : q.den ≤ 9) : (litOf q).Ok := by
  unfold litOf
  split
  · exact showNat_digits _
  · have := digitChar_ok q.den (by omega)
    refine ⟨showNat_digits _, this.1, ?_⟩
    intro h0
    rw [h0] at this
    have h1 : digitVal '0' = 0 := by decide
    rw [h1] at this
    exact q.den_ne_zero this.2.symm

theorem signed_natAbs (z : Int) : signed (decide (z < 0)) (z.natAbs : Rat) = z := by
  unfold signed
  by_cases h : z < 0
  · simp only [h, decide_true, if_true]
    have : ((z.natAbs : Int) : Rat) = ((-z : Int) : Rat) := by rw [Int.ofNat_natAbs_of_nonpos h.le]
    rw [Int.cast_natCast] at this
    rw [this]; simp
  · simp only [h, decide_false, if_false, Bool.false_eq_true]
    have : ((z.natAbs : Int) : Rat) = (z : Rat) := by rw [Int.natAbs_of_nonneg (not_lt.1 h)]
    rw [Int.cast_natCast] at this
    exact this

theorem litOf_value {q : Rat} (h : q.den ≤ 9) : (litOf q).value = q := by
  unfold litOf
  split
  · rename_i hd
    simp only [Lit.value, showNat_val, signed_natAbs]
    conv_rhs => rw [← Rat.num_div_den q, hd]
    simp
  · have hd := digitChar_ok q.den (by omega)
    simp only [Lit.value, showNat_val, hd.2]
    have : ∀ (b : Bool) (x y : Rat), signed b (x / y) = signed b x / y := by
      intro b x y; cases b <;> simp [signed, neg_div]
    rw [this, signed_natAbs]
    exact Rat.num_div_den q

theorem litOf_signedExp (q : Rat) : (litOf q).signedExp = false := by
  unfold litOf; split <;> rfl

/-! ### the syntax tree of a printed term -/

/-- printed exponent -/
def expOpt (e : Rat) : Option Lit := if e = 1 then none else some (litOf e)

theorem expOpt_text {e : Rat} (h : e.den ≤ 9) : expText (expOpt e) = if e = 1 then [] else '^' :: showRat e := by
  unfold expOpt; split
  · rfl
  · simp [expText, litOf_text h]

theorem expOpt_ok {e : Rat} (h : e.den ≤ 9) (h0 : e ≠ 0) : OptOk (expOpt e) := by
  unfold expOpt; split
  · trivial
  · exact ⟨litOf_ok h, by rw [litOf_value h]; exact h0⟩

theorem expOpt_val {e : Rat} (h : e.den ≤ 9) : litOr1 (expOpt e) = e := by
  unfold expOpt; split
  · simp [litOr1, *]
  · simp [litOr1, litOf_value h]

def letters (b : Str) : Str := b.takeWhile isLetter
def digits (b : Str) : Str := b.dropWhile isLetter

theorem ValidName.split {b : Str} (h : ValidName b) :
    letters b ++ digits b = b ∧ letters b ≠ [] ∧ (∀ x ∈ letters b, isLetter x = true) ∧
    (∀ x ∈ digits b, isDigit x = true) ∧ ¬ ['s', 'q', 'r', 't'] <+: letters b := by
  obtain ⟨ls, ds, rfl, h1, h2, h3, h4⟩ := h
  have := takeWhile_append_stop (a := ls) (b := ds) (p := isLetter) h2 (by
    intro c hc
    cases ds with
    | nil => simp at hc
    | cons d ds => simp at hc; subst hc; exact digit_not_letter (h3 _ (by simp)))
  unfold letters digits
  rw [this.1, this.2]
  exact ⟨rfl, h1, h2, h3, h4⟩

def constAtom (c : Rat) : Atom := .const (litOf c) none
def nameAtom (c : Option Lit) (t : Term) : Atom := .var c (letters t.base) (digits t.base) (expOpt t.exp)

/-- what `Term.format` writes, as a syntax tree -/
def termExpr (t : Term) : Expr :=
  if t.base = one then .one (constAtom t.coeff)
  else if t.coeff = 1 then .one (nameAtom none t)
  else if t.coeff.den = 1 then .one (nameAtom (some (litOf t.coeff)) t)
  else .cons (.group (.one (constAtom t.coeff)) none) .glue (.one (nameAtom none t))

theorem Printable.valid {t : Term} (h : Printable t) (hb : t.base ≠ one) : ValidName t.base := by
  rcases h.base with ⟨h1, _⟩ | h1
  · exact absurd h1 hb
  · exact h1

theorem termExpr_text {t : Term} (h : Printable t) : (termExpr t).text = formatTerm t := by
  unfold termExpr formatTerm formatCoefficient
  have hc := litOf_text h.coeffDen
  have he := expOpt_text h.expDen
  split
  · rename_i hb
    simp [Expr.text, constAtom, Atom.text, hc, expText, hb]
  · rename_i hb
    have hs := (h.valid hb).split.1
    have hb' : t.base ≠ one := hb
    simp only [hb', ne_eq, not_false_eq_true, true_and]
    split
    · simp [Expr.text, nameAtom, Atom.text, he, hs]
    · split
      · rename_i h1 h2
        simp [Expr.text, nameAtom, Atom.text, he, hs, hc]
      · rename_i h1 h2
        have hx : expText none = [] := rfl
        simp [Expr.text, nameAtom, Atom.text, he, hs, hc, constAtom, hx, Sep.text]

theorem constAtom_ok {c : Rat} (h0 : c ≠ 0) (hd : c.den ≤ 9) (hf : fl c = c) : (constAtom c).Ok 1 := by
  have hv := litOf_value hd
  have hp : powVal (litOf c).value (litOr1 none) = c := by simp [hv, litOr1, powVal]
  simp only [constAtom, Atom.Ok]
  refine ⟨litOf_ok hd, litOf_signedExp c, by rw [hv]; exact h0, trivial, Or.inl (by simp [litOr1]), ?_, Or.inl (by simp)⟩
  rw [hp, hf]

theorem nameAtom_ok {t : Term} (h : Printable t) (hb : t.base ≠ one) (c : Option Lit) (hc : OptOk c)
    (hno : ∀ l, c = some l → ¬ ExpLike t.base) : (nameAtom c t).Ok 1 := by
  obtain ⟨h1, h2, h3, h4, h5⟩ := (h.valid hb).split
  simp only [nameAtom, Atom.Ok]
  refine ⟨h2, h3, h4, hc, expOpt_ok h.expDen h.exp, Or.inl (by simp), fun _ => h5, ?_⟩
  intro l hl hlook
  exfalso
  apply hno l hl
  obtain ⟨ha, hb⟩ := hlook
  rcases ha with ha | ha
  · exact ⟨'e', digits t.base, by conv_lhs => { rw [← h1, ha] }; rfl, Or.inl rfl, hb, h4⟩
  · exact ⟨'E', digits t.base, by conv_lhs => { rw [← h1, ha] }; rfl, Or.inr rfl, hb, h4⟩

theorem termExpr_ok {t : Term} (h : Printable t) : (termExpr t).Ok 1 := by
  unfold termExpr
  split
  · simpa only [Expr.Ok] using constAtom_ok h.coeff h.coeffDen h.coeffFloat
  · rename_i hb
    split
    · simpa only [Expr.Ok] using nameAtom_ok h hb none trivial (by simp)
    · rename_i h1
      split
      · rename_i h2
        simp only [Expr.Ok]
        refine nameAtom_ok h hb _ ⟨litOf_ok h.coeffDen, by rw [litOf_value h.coeffDen]; exact h.coeff⟩ ?_
        intro l _ hE
        rcases h.notExpLike hE with h3 | h3
        · exact h1 h3
        · exact h3 h2
      · simp only [Expr.Ok, Atom.Ok]
        refine ⟨⟨trivial, ?_⟩, nameAtom_ok h hb none trivial (by simp), fun _ => rfl, fun h => by cases h⟩
        simpa [litOr1] using constAtom_ok h.coeff h.coeffDen h.coeffFloat

theorem powVal_exp_one (c : Rat) : powVal c 1 = c := by simp [powVal]

theorem constAtom_flat {c : Rat} (hd : c.den ≤ 9) : (constAtom c).flat 1 none = [⟨c, one, 1⟩] := by
  simp [constAtom, Atom.flat, Atom.opd, Atom.operand, litOr1, powVal_exp_one, litOf_value hd]

theorem nameAtom_flat {t : Term} (h : Printable t) (hb : t.base ≠ one) (c : Option Lit) :
    (nameAtom c t).flat 1 none = [⟨litOr1 c, t.base, t.exp⟩] := by
  obtain ⟨h1, _⟩ := (h.valid hb).split
  simp [nameAtom, Atom.flat, Atom.opd, Atom.operand, powVal_exp_one, h1, expOpt_val h.expDen]

theorem termExpr_flat {t : Term} (h : Printable t) :
    coefOf ((termExpr t).flat 1 none) = t.coeff ∧
    ∀ b, b ≠ one → expOf b ((termExpr t).flat 1 none) = expOf b [t] := by
  unfold termExpr
  split
  · rename_i hb
    simp only [Expr.flat, constAtom_flat h.coeffDen]
    refine ⟨by simp, fun b hbo => ?_⟩
    have : ¬ one = b := fun e => hbo e.symm
    simp [expOf_cons, hb, this]
  · rename_i hb
    split
    · rename_i h1
      simp only [Expr.flat, nameAtom_flat h hb]
      exact ⟨by simp [litOr1, h1], fun b _ => by simp [expOf_cons]⟩
    · split
      · simp only [Expr.flat, nameAtom_flat h hb]
        exact ⟨by simp [litOr1, litOf_value h.coeffDen], fun b _ => by simp [expOf_cons]⟩
      · have hg : groupExp 1 none (litOr1 none) = 1 := by simp [groupExp, litOr1]
        simp only [Expr.flat, Atom.flat, hg, constAtom_flat h.coeffDen, Sep.op, nameAtom_flat h hb]
        refine ⟨by simp [litOr1], fun b hbo => ?_⟩
        have : ¬ one = b := fun e => hbo e.symm
        simp [expOf_cons, this]

theorem flat_bases {E : Rat} (hE : E ≠ 0) {x : Expr} (h : x.Ok E) (op) : ∀ t ∈ x.flat E op, t.base ≠ [] :=
  fun t ht => (Expr.flat_wf E hE x h op t ht).2.1

/-- parse and reduce, for a well-written string -/
theorem exprOfString_text {x : Expr} (h : x.Ok 1) (ts : List Term) (hts : ts ≠ []) (hb : ∀ t ∈ ts, t.base ≠ [])
    (hc : coefOf (x.flat 1 none) = coefOf ts) (he : ∀ b, b ≠ one → expOf b (x.flat 1 none) = expOf b ts) :
    exprOfString false x.text = reduce ts := by
  rw [exprOfString, if_neg (Expr.text_ne_nil 1 x h), parse_text x h]
  simp only [bind, Except.bind]
  apply reduce_congr (by simp) hts
  · intro t ht
    rcases List.mem_append.1 ht with ht | ht
    · exact flat_bases one_ne_zero h none t ht
    · rw [List.mem_singleton] at ht; rw [ht]; simp [one]
  · exact hb
  · simp [hc]
  · intro b hbo
    have : ¬ one = b := fun e => hbo e.symm
    simp [he b hbo, expOf_cons, this]

theorem Printable.base_ne {t : Term} (h : Printable t) : t.base ≠ [] := by
  rcases h.base with ⟨h, _⟩ | h
  · rw [h]; simp [one]
  · obtain ⟨ls, ds, h1, h2, _⟩ := h
    rw [h1]; simp [h2]

/-- the joined groups of a list of printed terms -/
def listExpr : Term → List Term → Expr
  | t, [] => .one (.group (termExpr t) none)
  | t, u :: us => .cons (.group (termExpr t) none) (.mul 0 0) (listExpr u us)

theorem listExpr_text (ts : List Term) : ∀ t, (∀ u ∈ t :: ts, Printable u) → (listExpr t ts).text = standard (t :: ts) := by
  induction ts with
  | nil =>
    intro t h
    simp [listExpr, standard, Expr.text, Atom.text, termExpr_text (h t (by simp)), expText]
  | cons u us ih =>
    intro t h
    simp [listExpr, standard, Expr.text, Atom.text, termExpr_text (h t (by simp)), expText, Sep.text, blanks,
      ih u (fun v hv => h v (List.mem_cons_of_mem _ hv))]

theorem listExpr_ok (ts : List Term) : ∀ t, (∀ u ∈ t :: ts, Printable u) → (listExpr t ts).Ok 1 := by
  induction ts with
  | nil =>
    intro t h
    simp only [listExpr, Expr.Ok, Atom.Ok]
    exact ⟨trivial, by simpa [litOr1] using termExpr_ok (h t (by simp))⟩
  | cons u us ih =>
    intro t h
    simp only [listExpr, Expr.Ok, Atom.Ok]
    exact ⟨⟨trivial, by simpa [litOr1] using termExpr_ok (h t (by simp))⟩,
      ih u (fun v hv => h v (List.mem_cons_of_mem _ hv)), by simp⟩

theorem listExpr_flat (ts : List Term) : ∀ t, (∀ u ∈ t :: ts, Printable u) →
    ∀ op, (op = none ∨ op = some .multiply) →
    coefOf ((listExpr t ts).flat 1 op) = coefOf (t :: ts) ∧
    ∀ b, b ≠ one → expOf b ((listExpr t ts).flat 1 op) = expOf b (t :: ts) := by
  have hg : ∀ op : Option Operator, (op = none ∨ op = some .multiply) → groupExp 1 op (litOr1 none) = 1 := by
    rintro op (rfl | rfl) <;> simp [groupExp, litOr1]
  induction ts with
  | nil =>
    intro t h op hop
    simp only [listExpr, Expr.flat, Atom.flat, hg op hop]
    obtain ⟨h1, h2⟩ := termExpr_flat (h t (by simp))
    refine ⟨by simp [h1], fun b hbo => ?_⟩
    have : ¬ one = b := fun e => hbo e.symm
    simp [h2 b hbo, expOf_cons, this]
  | cons u us ih =>
    intro t h op hop
    simp only [listExpr, Expr.flat, Atom.flat, hg op hop]
    obtain ⟨h1, h2⟩ := termExpr_flat (h t (by simp))
    obtain ⟨h3, h4⟩ := ih u (fun v hv => h v (List.mem_cons_of_mem _ hv)) (Sep.mul 0 0).op (Or.inr rfl)
    refine ⟨by simp [h1, h3], fun b hbo => ?_⟩
    have : ¬ one = b := fun e => hbo e.symm
    simp [h2 b hbo, h4 b hbo, expOf_cons, this]

/-- Formatting and re-reading a list of printable terms only reduces it. -/
theorem exprOfTerms_printable (ts : List Term) (hne : ts ≠ []) (h : ∀ t ∈ ts, Printable t) :
    exprOfTerms ts = reduce ts := by
  obtain ⟨t, us, rfl⟩ := List.exists_cons_of_ne_nil hne
  unfold exprOfTerms
  rw [← listExpr_text us t h]
  obtain ⟨h1, h2⟩ := listExpr_flat us t h none (Or.inl rfl)
  exact exprOfString_text (listExpr_ok us t h) _ (by simp) (fun u hu => (h u hu).base_ne) h1 h2

end Eprem.Symbolic
