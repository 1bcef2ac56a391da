import Verif.Lemmas.Terms
import Verif.Lemmas.Print
import Verif.Lemmas.Float
import Mathlib.Data.List.TakeWhile

/-!
# C115: operands and terms as the user creates them
-/

namespace Eprem.Symbolic

/-- coefficient of the term a text stands for -/
def Written.co : Written → Rat
  | .name c _ _ _ => litOr1 c
  | .group k w e => litOr1 k * powVal w.co (litOr1 e)

/-- exponent of the term a text stands for -/
def Written.ex : Written → Rat
  | .name _ _ _ e => litOr1 e
  | .group _ w e => litOr1 e * w.ex

theorem Written.co_bare : (w : Written) → w.Bare → w.co = 1
  | .name c _ _ _, h => by simp only [Written.Bare] at h; subst h; rfl
  | .group k w e, h => by
    obtain ⟨rfl, h⟩ := h
    simp only [Written.co, Written.co_bare w h, litOr1, powVal]
    split <;> simp

theorem Written.co_ne : (w : Written) → w.Ok → w.co ≠ 0
  | .name c _ _ _, h => litOr1_ne_zero h.2.2.2.1
  | .group k w e, h => mul_ne_zero (litOr1_ne_zero h.1) (powVal_ne_zero (Written.co_ne w h.2.2.2.2))

theorem Written.ex_ne : (w : Written) → w.Ok → w.ex ≠ 0
  | .name c _ _ _, h => litOr1_ne_zero h.2.2.2.2.1
  | .group k w e, h => mul_ne_zero (litOr1_ne_zero h.2.2.1) (Written.ex_ne w h.2.2.2.2)

theorem Written.symbol_ne : (w : Written) → w.Ok → w.symbol ≠ []
  | .name c ls ds _, h => by simp [Written.symbol, h.1]
  | .group k w e, h => Written.symbol_ne w h.2.2.2.2

theorem whole_mul {a b : Rat} (ha : a.den = 1) (hb : b.den = 1) : (a * b).den = 1 := by
  have h1 : a = (a.num : Rat) := (Rat.den_eq_one_iff a).1 ha |>.symm
  have h2 : b = (b.num : Rat) := (Rat.den_eq_one_iff b).1 hb |>.symm
  rw [h1, h2, ← Int.cast_mul]
  exact Rat.den_intCast _

theorem whole_mul_num {a b : Rat} (ha : a.den = 1) (hb : b.den = 1) : (a * b).num = a.num * b.num := by
  have h1 : a = (a.num : Rat) := (Rat.den_eq_one_iff a).1 ha |>.symm
  have h2 : b = (b.num : Rat) := (Rat.den_eq_one_iff b).1 hb |>.symm
  have : a * b = ((a.num * b.num : Int) : Rat) := by rw [Int.cast_mul, ← h1, ← h2]
  rw [this, Rat.num_intCast]

theorem powVal_one_left (p : Rat) : powVal 1 p = 1 := by unfold powVal; split <;> simp

theorem powVal_mul {a b p : Rat} (h : p.den = 1) : powVal (a * b) p = powVal a p * powVal b p := by
  simp [powVal, h, mul_zpow]

theorem powVal_powVal {a p q : Rat} (hp : p.den = 1) (hq : q.den = 1) :
    powVal (powVal a p) q = powVal a (p * q) := by
  simp only [powVal, hp, hq, whole_mul hp hq, if_true, whole_mul_num hp hq, zpow_mul]

theorem real_pow {c p : Rat} (h : PowOk c p) {y : ℝ} (hy : 0 < y) :
    ((c : ℝ) * y) ^ (p : ℝ) = (powVal c p : ℝ) * y ^ (p : ℝ) := by
  by_cases hp : p.den = 1
  · have e : (p : ℝ) = ((p.num : ℤ) : ℝ) := by
      conv_lhs => rw [← (Rat.den_eq_one_iff p).1 hp]
      simp
    rw [e, Real.rpow_intCast, Real.rpow_intCast, mul_zpow]
    simp [powVal, hp]
  · rcases h with h | rfl
    · exact absurd h hp
    · simp [powVal_one_left]

theorem Written.powOk {w : Written} {e : Option Lit} (h : Whole e ∨ w.Bare) : PowOk w.co (litOr1 e) := by
  rcases h with h | h
  · exact Or.inl h
  · exact Or.inr (w.co_bare h)

theorem Written.denote_eq {x : ℝ} (hx : 0 < x) : (w : Written) → w.Ok →
    w.denote x = (w.co : ℝ) * x ^ (w.ex : ℝ)
  | .name c ls ds e, _ => rfl
  | .group k w e, h => by
    obtain ⟨_, _, _, hp, hw⟩ := h
    simp only [Written.denote, Written.co, Written.ex]
    rw [Written.denote_eq hx w hw, real_pow (Written.powOk hp) (Real.rpow_pos_of_pos hx _),
      ← Real.rpow_mul hx.le]
    push_cast
    ring_nf

/-! ### the ends of a text -/

theorem digit_not_caret {c : Char} (h : isDigit c = true) : c ≠ '^' := by
  rintro rfl; exact absurd h (by decide)

theorem letter_not_caret {c : Char} (h : isLetter c = true) : c ≠ '^' := by
  rintro rfl; exact absurd h (by decide)

theorem head_coef {k : Option Lit} (hk : OptOk k) {r : Str} (hr : r.head? ≠ some '^') :
    (coefText k ++ r).head? ≠ some '^' := by
  cases k with
  | none => exact hr
  | some l =>
    obtain ⟨c, s, e, h⟩ := lit_head hk.1
    simp only [coefText, e, List.cons_append, List.head?_cons, ne_eq, Option.some.injEq]
    rintro rfl
    rcases h with h | h
    · exact absurd h (by decide)
    · simp at h

theorem last_exp {e : Option Lit} (he : OptOk e) {r : Str} (hr : r.getLast? ≠ some '^') :
    (r ++ expText e).getLast? ≠ some '^' := by
  cases e with
  | none => simpa [expText] using hr
  | some l =>
    obtain ⟨s, c, h, hc⟩ := lit_last he.1
    have : r ++ expText (some l) = (r ++ '^' :: s) ++ [c] := by simp [expText, h]
    rw [this, List.getLast?_concat]
    simp only [ne_eq, Option.some.injEq]
    exact digit_not_caret hc

theorem Written.caretEnds {w : Written} (h : w.Ok) : caretEnds w.text = false := by
  have : w.text.head? ≠ some '^' ∧ w.text.getLast? ≠ some '^' := by
    cases w with
    | name c ls ds e =>
      obtain ⟨hne, hl, hd, hc, he, _⟩ := h
      simp only [Written.text]
      constructor
      · rw [List.append_assoc]
        refine head_coef hc ?_
        obtain ⟨x, xs, rfl⟩ := List.exists_cons_of_ne_nil hne
        simpa using letter_not_caret (hl x (by simp))
      · refine last_exp he ?_
        intro hq
        have hm := List.mem_of_getLast? hq
        rw [List.getLast?_append] at hq
        have h1 : (ls ++ ds).getLast? ≠ none := by simp [hne]
        cases hx : (ls ++ ds).getLast? with
        | none => exact h1 hx
        | some y =>
          rw [hx] at hq
          simp at hq
          subst hq
          rcases List.mem_append.1 (List.mem_of_getLast? hx) with h | h
          · exact absurd (hl _ h) (by decide)
          · exact absurd (hd _ h) (by decide)
    | group k w e =>
      obtain ⟨hk, _, he, _, _⟩ := h
      simp only [Written.text]
      constructor
      · rw [List.append_assoc]
        exact head_coef hk (by simp)
      · have e1 : coefText k ++ '(' :: w.text ++ ')' :: expText e =
            (coefText k ++ '(' :: w.text ++ [')']) ++ expText e := by simp
        rw [e1]
        refine last_exp he ?_
        rw [List.getLast?_concat]; simp
  simp [Symbolic.caretEnds, this.1, this.2]

/-! ### creation -/

theorem lift_pow {c p : Rat} (hc : c ≠ 0) (h : PowOk c p) : lift (fracPow c p) = .ok (powVal c p) := by
  rw [fracPow_ok hc h]; rfl

theorem powVal_exp_one' (c : Rat) : powVal c 1 = c := by simp [powVal]

theorem createFrom_text : (w : Written) → w.Ok → ∀ (n : Nat) (c0 e0 : Rat), w.text.length < n → c0 ≠ 0 → e0 ≠ 0 →
    (e0.den = 1 ∨ w.Bare) →
    createFrom n c0 w.text e0 = .ok ⟨true, c0 * powVal w.co e0, w.symbol, w.ex * e0⟩
  | .name c ls ds e, h => by
    intro n c0 e0 hn hc0 he0 hw
    have hcar := Written.caretEnds h
    obtain ⟨hne, hl, hd, hc, he, hno⟩ := h
    obtain ⟨n, rfl⟩ : ∃ m, n = m + 1 := ⟨n - 1, by omega⟩
    have hs : searchFull (Written.name c ls ds e).text = some (.ok ⟨true, litOr1 c, ls ++ ds, litOr1 e⟩) := by
      unfold searchFull
      rw [show (Written.name c ls ds e).text = coefText c ++ (ls ++ ds) ++ expText e from rfl,
        fullSimplex_name hne hl hd hc he hno]
    have hp : PowOk (litOr1 c) e0 := by
      rcases hw with h | h
      · exact Or.inl h
      · simp only [Written.Bare] at h; subst h; exact Or.inr rfl
    simp only [createFrom, hcar, Bool.false_eq_true, if_false, hs, lift, bind, Except.bind]
    simp only [applyGiven, lift_pow (litOr1_ne_zero hc) hp, bind, Except.bind, if_true, pure, Except.pure, termOf,
      Written.co, Written.ex, Written.symbol]
    rw [mkOperand_eq (mul_ne_zero hc0 (powVal_ne_zero (litOr1_ne_zero hc))) (by simp [hne])
      (mul_ne_zero (litOr1_ne_zero he) he0)]
  | .group k w e, h => by
    intro n c0 e0 hn hc0 he0 hw
    have hcar := Written.caretEnds h
    obtain ⟨hk, hf, he, hp, hok⟩ := h
    obtain ⟨n, rfl⟩ : ∃ m, n = m + 1 := ⟨n - 1, by omega⟩
    have ht : (Written.group k w e).text = coefText k ++ '(' :: (w.text ++ ')' :: expText e) := by
      simp [Written.text]
    have hlen : w.text.length < n := by
      rw [ht] at hn; simp at hn; omega
    have hs : searchFull (Written.group k w e).text = some (.ok ⟨false, litOr1 k, w.text, litOr1 e⟩) := by
      unfold searchFull
      rw [ht, fullSimplex_group hk, fullComplex_group hk hf (w.balanced hok) (w.text_ne hok) he]
    have ih := createFrom_text w hok n 1 1 hlen one_ne_zero one_ne_zero (Or.inl rfl)
    rw [powVal_exp_one', one_mul, mul_one] at ih
    have hk0 : PowOk (litOr1 k) e0 := by
      rcases hw with h | h
      · exact Or.inl h
      · obtain ⟨rfl, _⟩ := h; exact Or.inr rfl
    have hw0 : PowOk w.co (litOr1 e * e0) := by
      rcases hw with h | h
      · rcases hp with hp | hp
        · exact Or.inl (whole_mul hp h)
        · exact Or.inr (w.co_bare hp)
      · exact Or.inr (w.co_bare h.2)
    have hval : powVal (litOr1 k * powVal w.co (litOr1 e)) e0 =
        powVal (litOr1 k) e0 * powVal w.co (litOr1 e * e0) := by
      rcases hw with h | h
      · rw [powVal_mul h]
        rcases hp with hp | hp
        · rw [powVal_powVal hp h]
        · rw [w.co_bare hp]; simp [powVal_one_left]
      · obtain ⟨rfl, h⟩ := h
        rw [w.co_bare h]; simp [powVal_one_left, litOr1]
    simp only [createFrom, hcar, Bool.false_eq_true, if_false, hs, lift, bind, Except.bind]
    simp only [applyGiven, lift_pow (litOr1_ne_zero hk) hk0, ih, lift_pow (w.co_ne hok) hw0, bind, Except.bind, if_true,
      Bool.false_eq_true, if_false, pure, Except.pure, termOf]
    rw [mkOperand_eq (mul_ne_zero (mul_ne_zero hc0 (powVal_ne_zero (litOr1_ne_zero hk))) (powVal_ne_zero (w.co_ne hok)))
      (w.symbol_ne hok) (mul_ne_zero (mul_ne_zero (litOr1_ne_zero he) he0) (w.ex_ne hok))]
    simp only [Written.co, Written.ex, Written.symbol, hval]
    congr 2
    · ring
    · ring

/-- **C115.** An operand created from a coefficient, a written term and an exponent
is a single term in the written symbol, and its value is the coefficient times the
written value raised to the exponent, whatever positive number the symbol stands
for and however deep the parentheses are. -/
theorem c115_create (w : Written) (hw : w.Ok) (c e : Rat) (hc : c ≠ 0) (he : e ≠ 0)
    (hwhole : e.den = 1 ∨ w.Bare) :
    ∃ o : Operand, create [.real c, .text w.text, .real e] = .ok o ∧ o.isTerm = true ∧ o.base = w.symbol ∧
      ∀ x : ℝ, 0 < x → (o.coeff : ℝ) * x ^ (o.exp : ℝ) = (c : ℝ) * (w.denote x) ^ (e : ℝ) := by
  refine ⟨⟨true, c * powVal w.co e, w.symbol, w.ex * e⟩, ?_, rfl, rfl, ?_⟩
  · have hn : standardBase (.text w.text) = w.text := by simp [standardBase, orOneStr, w.text_ne hw]
    simp only [create, normalizeArgs, standardCoefficient, standardExponent, hn, bind, Except.bind, pure, Except.pure]
    have := createFrom_text w hw (w.text.length + 1) c e (by omega) hc he hwhole
    simpa [orOne, hc, he] using this
  · intro x hx
    have hp : PowOk w.co e := by
      rcases hwhole with h | h
      · exact Or.inl h
      · exact Or.inr (w.co_bare h)
    rw [w.denote_eq hx hw, real_pow hp (Real.rpow_pos_of_pos hx _), ← Real.rpow_mul hx.le]
    push_cast
    ring_nf

/-- `2(3x^2)^-1` -/
def sampleWritten : Written :=
  .group (some (.int false ['2'])) (.name (some (.int false ['3'])) ['x'] [] (some (.int false ['2'])))
    (some (.int true ['1']))

theorem sampleWritten_ok : sampleWritten.Ok := by
  refine ⟨⟨⟨by decide, by decide⟩, by decide +kernel⟩, by decide +kernel, ⟨⟨by decide, by decide⟩, by decide +kernel⟩,
    Or.inl (show (litOr1 _).den = 1 by decide +kernel), by decide, by decide, by decide, ⟨⟨by decide, by decide⟩, by decide +kernel⟩,
    ⟨⟨by decide, by decide⟩, by decide +kernel⟩, ?_⟩
  rintro l _ ⟨h, _⟩
  rcases h with h | h <;> simp at h

example : sampleWritten.text = "2(3x^2)^-1".toList := by decide +kernel

example : ∃ o : Operand, create [.real 5, .text sampleWritten.text, .real 2] = .ok o ∧ o.isTerm = true ∧
    o.base = ['x'] ∧ ∀ x : ℝ, 0 < x →
      (o.coeff : ℝ) * x ^ (o.exp : ℝ) = ((5 : Rat) : ℝ) * (sampleWritten.denote x) ^ ((2 : Rat) : ℝ) :=
  c115_create sampleWritten sampleWritten_ok 5 2 (by decide) (by decide) (Or.inl (by decide))

example : create [.real 5, .text "2(3x^2)^-1".toList, .real 2] = .ok ⟨true, 20 / 9, ['x'], -4⟩ := by decide +kernel

/-- **C115.** The shorter forms are the three-argument form with ones for what is
missing: a text alone is a base, a number and a text are coefficient and base, a
text and a number are base and exponent, a number alone or two numbers have base
`'1'`. -/
theorem c115_forms (c e : Rat) (s : Str) :
    create [.text s] = create [.real 1, .text s, .real 1] ∧
    create [.real c, .text s] = create [.real c, .text s, .real 1] ∧
    create [.text s, .real e] = create [.real 1, .text s, .real e] ∧
    create [.real c] = create [.real c, .text one, .real 1] ∧
    create [.real c, .real e] = create [.real c, .text one, .real e] := by
  refine ⟨?_, ?_, ?_, ?_, ?_⟩ <;>
    simp [create, normalizeArgs, standardCoefficient, standardExponent, standardBase, orOne, orOneStr, bind,
      Except.bind, pure, Except.pure, one]

example : create [.text "3x".toList, .real 2] = .ok ⟨true, 9, ['x'], 2⟩ := by decide +kernel

/-- **C115.** No argument, more than three arguments, and one or two arguments that
include anything but numbers and texts are refused: with `OperandValueError`
for the wrong number and `OperandTypeError` for the wrong type. -/
theorem c115_refused (a b c d : TArg) (more : List TArg) (s : Str) :
    create [] = .error .operandValue ∧ create (a :: b :: c :: d :: more) = .error .operandValue ∧
    create [.other s] = .error .operandType ∧ create [.other s, a] = .error .operandType ∧
    create [a, .other s] = .error .operandType := by
  refine ⟨rfl, ?_, rfl, ?_, ?_⟩
  · cases a <;> cases b <;> rfl
  · cases a <;> rfl
  · cases a <;> rfl

/-- **C115.** A text that begins or ends with `^` is refused. -/
theorem c115_caret (s : Str) (c e : Rat) (h : s.head? = some '^' ∨ s.getLast? = some '^') :
    create [.real c, .text s, .real e] = .error .operandValue := by
  have hne : s ≠ [] := by rintro rfl; simp at h
  have hc : caretEnds s = true := by
    rcases h with h | h <;> simp [caretEnds, h]
  simp [create, normalizeArgs, standardCoefficient, standardExponent, standardBase, orOneStr, hne, bind, Except.bind,
    pure, Except.pure, createFrom, hc]

example : create [.real 1, .text "x^".toList, .real 1] = .error .operandValue :=
  c115_caret _ _ _ (Or.inr (by decide))

theorem strip_lit {l : Lit} (h : l.Ok) : strip l.text = l.text := by
  have hns : ∀ c ∈ l.text, isSpace c = false := by
    intro c hc
    rcases lit_chars h c hc with h | h | h | h | h
    · exact digit_not_space h
    all_goals subst h; decide
  have hd : ∀ s : Str, (∀ c ∈ s, isSpace c = false) → s.dropWhile isSpace = s := by
    intro s hs
    cases s with
    | nil => rfl
    | cons x xs => simp [List.dropWhile, hs x (by simp)]
  unfold strip
  rw [hd _ hns, hd _ (by simpa using hns), List.reverse_reverse]

theorem fractionOf_lit {l : Lit} (h : l.Ok) : fractionOf l.text = .ok l.value := by
  unfold fractionOf
  rw [strip_lit h, fullRational_text h]
  simp [toNum_value h, lift]

/-- **C115.** An exponent may be given as the text of a number, with or without a
leading `^`. -/
theorem c115_exponent_text (a : TArg) (s : Str) (l : Lit) (hl : l.Ok) (h0 : l.value ≠ 0) :
    create [a, .text s, .text l.text] = create [a, .text s, .real l.value] ∧
    create [a, .text s, .text ('^' :: l.text)] = create [a, .text s, .real l.value] ∧
    create [.text s, .text ('^' :: l.text)] = create [.text s, .real l.value] := by
  have hf : l.text.filter notCaret = l.text := List.filter_eq_self.2 (notCaret_lit hl)
  have hne : l.text.isEmpty = false := by
    obtain ⟨c, r, e, _⟩ := lit_head hl
    rw [e]; rfl
  have h1 : standardExponent (.text l.text) = .ok l.value := by
    simp [standardExponent, hne, hf, fractionOf_lit hl]
  have h2 : standardExponent (.text ('^' :: l.text)) = .ok l.value := by
    have : ('^' :: l.text).filter notCaret = l.text := by
      rw [List.filter_cons, if_neg (by decide), hf]
    simp only [standardExponent, List.isEmpty_cons, this, hne, Bool.false_eq_true, if_false, fractionOf_lit hl]
  have h3 : standardExponent (.real l.value) = .ok l.value := by simp [standardExponent, orOne, h0]
  refine ⟨?_, ?_, ?_⟩
  · simp only [create, normalizeArgs, h1, h3]
  · simp only [create, normalizeArgs, h2, h3]
  · simp [create, normalizeArgs, h2, orOne, h0, bind, Except.bind, pure, Except.pure]

example : create [.text "3x".toList, .text "^2".toList] = .ok ⟨true, 9, ['x'], 2⟩ := by
  have := (c115_exponent_text (.real 1) "3x".toList (.int false ['2']) ⟨by decide, by decide⟩ (by decide +kernel)).2.2
  exact this.trans (by decide +kernel)

/-- A created operand stands for all of the text it was created from: the symbols of
the text are the symbols of the operand. -/
def KeepsSymbols : Prop :=
  ∀ (s : Str) (o : Operand), create [.text s] = .ok o → ∀ c ∈ s, isLetter c = true → c ∈ o.base

/-- **C115 (violated).** A symbol written directly in front of a parenthesis is
dropped: `create('a(b)')` is the term `b`. -/
theorem c115_not_keeps : ¬ KeepsSymbols := by
  intro h
  have h1 : create [.text "a(b)".toList] = .ok ⟨true, 1, ['b'], 1⟩ := by decide +kernel
  have := h _ _ h1 'a' (by decide) (by decide)
  exact absurd this (by decide)

/-! ### `symbolic.term` -/

theorem isName_of {ls ds : Str} (hne : ls ≠ []) (hl : ∀ x ∈ ls, isLetter x = true) (hd : ∀ x ∈ ds, isDigit x = true) :
    isName (ls ++ ds) = true := by
  obtain ⟨_, h2, _, h4⟩ := name_scan (r := []) hl hd (by simp)
  rw [List.append_nil] at h2 h4
  obtain ⟨x, xs, rfl⟩ := List.exists_cons_of_ne_nil hne
  simp only [isName, h2, h4, Bool.and_eq_true]
  exact ⟨hl x (by simp), rfl⟩

theorem isSymbol_of_isName {s : Str} (h : isName s = true) : IsSymbol s := by
  simp only [isName, Bool.and_eq_true] at h
  obtain ⟨h1, h2⟩ := h
  refine ⟨s.takeWhile isLetter, (s.dropWhile isLetter).takeWhile isDigit, ?_, ?_, ?_, ?_⟩
  · have h3 := List.takeWhile_append_dropWhile (p := isDigit) (l := s.dropWhile isLetter)
    rw [List.isEmpty_iff.1 h2, List.append_nil] at h3
    rw [h3, List.takeWhile_append_dropWhile]
  · cases s with
    | nil => simp [startsLetter] at h1
    | cons x xs => simp only [startsLetter] at h1; simp [h1]
  · exact fun x hx => List.mem_takeWhile_imp hx
  · exact fun x hx => List.mem_takeWhile_imp hx

theorem isName_iff {s : Str} : isName s = true ↔ IsSymbol s := by
  refine ⟨isSymbol_of_isName, ?_⟩
  rintro ⟨ls, ds, rfl, hne, hl, hd⟩
  exact isName_of hne hl hd

/-- **C115.** A symbol makes a term with exactly the given coefficient and exponent,
by position or by keyword; with the base alone both are one. -/
theorem c115_symbol (b : Str) (hb : IsSymbol b) (c e : Rat) (hc : c ≠ 0) (he : e ≠ 0) :
    term [.text b] {} = .ok ⟨1, b, 1⟩ ∧
    term [.real c, .text b, .real e] {} = .ok ⟨c, b, e⟩ ∧
    term [] { coefficient := some c, base := some b, exponent := some e } = .ok ⟨c, b, e⟩ := by
  have hv : baseIsValid b = true := by simp [baseIsValid, isName_iff.2 hb]
  have hne : b ≠ [] := by
    obtain ⟨ls, ds, rfl, h, _⟩ := hb
    simp [h]
  simp [term, TermKw.isEmpty, positional, checkedTerm, hv, mkTerm, orOne, orOneStr, hne, hc, he, termByName, asNumber,
    bind, Except.bind, pure, Except.pure]

example : term [.real 2, .text "x1".toList, .real 3] {} = .ok ⟨2, "x1".toList, 3⟩ :=
  (c115_symbol _ ⟨['x'], ['1'], rfl, by decide, by decide, by decide⟩ 2 3 (by decide) (by decide)).2.1

/-- **C115.** A base that starts like neither a number nor a symbol is refused. -/
theorem c115_bad_base (x : Char) (s : Str) (c e : Rat) (hd : isDigit x = false) (hl : isLetter x = false)
    (hx : x ≠ '-' ∧ x ≠ '+' ∧ x ≠ '.') :
    term [.text (x :: s)] {} = .error .valueError ∧
    term [.real c, .text (x :: s), .real e] {} = .error .valueError ∧
    term [] { coefficient := some c, base := some (x :: s), exponent := some e } = .error .valueError := by
  have h1 : takeSign (x :: s) = (false, x :: s) := by unfold takeSign; split <;> simp_all
  have h2 : startsNumber (x :: s) = false := by
    cases s <;> simp [startsNumber, hd, hx.2.2]
  have hv : baseIsValid (x :: s) = false := by
    simp [baseIsValid, fullRational_none (matchRational_not_number h1 h2), isName, startsLetter, hl]
  simp [term, TermKw.isEmpty, positional, checkedTerm, hv, termByName, bind, Except.bind]

example : term [.text "(x)".toList] {} = .error .valueError := (c115_bad_base '(' _ 1 1 (by decide) (by decide) (by decide)).1

/-- **C115.** Two or more than three positional arguments, and a mixture of
positional and keyword arguments, raise `TypeError`. -/
theorem c115_arity (a b c d : TArg) (more : List TArg) (k : TermKw) (hk : k.isEmpty = false) (k' : TermKw) :
    term [a, b] k' = .error .typeError ∧ term (a :: b :: c :: d :: more) k' = .error .typeError ∧
    term (a :: more) k = .error .typeError := by
  refine ⟨rfl, rfl, ?_⟩
  match more with
  | [] => simp [term, hk]
  | [_] => rfl
  | [_, _] => simp [term, hk]
  | _ :: _ :: _ :: _ => rfl

example : ({ exponent := some 2 } : TermKw).isEmpty = false := by decide

end Eprem.Symbolic
