import Verif.Model.Stars
import Verif.Spec.Compound
import Verif.Lemmas.ParseLoop

namespace Eprem.Symbolic.Stars

open Eprem.Symbolic

/-! ### exponents -/

/-- no number can start here -/
def NoNumber (s : Str) : Prop := ∀ c, s.head? = some c → isDigit c = false ∧ c ≠ '-' ∧ c ≠ '+' ∧ c ≠ '.'

theorem NoNumber.rational {s : Str} (h : NoNumber s) : matchRational s = none := by
  cases s with
  | nil => rfl
  | cons x s =>
    obtain ⟨h1, h2, h3, h4⟩ := h x rfl
    have hts : takeSign (x :: s) = (false, x :: s) := by unfold takeSign; split <;> simp_all
    have hsn : startsNumber (x :: s) = false := by cases s <;> simp [startsNumber, h1, h4]
    unfold matchRational
    rw [hts]
    simp only [hsn, Bool.false_eq_true, if_false]

/-- no exponent can start here -/
def NoExponent (s : Str) : Prop := NoNumber (s.dropWhile (fun c => c == '*'))

theorem NoExponent.none {s : Str} (h : NoExponent s) : matchExponent s = (none, s) := by
  simp only [matchExponent, NoNumber.rational h]

theorem exponent_some {l : Lit} (hl : l.Ok) {r : Str} (h : Stop r) : matchExponent (expText (some l) ++ r) = (some l.toNum, r) := by
  obtain ⟨c, t, h1, h2⟩ := lit_head hl
  have hc : (c == '*') = false := by
    rcases h2 with h2 | rfl
    · simpa using (digit_ne h2).2.2.2.2.2.2.2.2.2.1
    · decide
  have hd : (expText (some l) ++ r).dropWhile (fun c => c == '*') = l.text ++ r := by
    simp [expText, h1, hc]
  simp only [matchExponent, hd, matchRational_text hl r h.numStop]

/-- what may follow an operand -/
def AtomStop (a : Atom) (r : Str) : Prop := NoExponent r ∧ (Stop r ∨ a.isBareGroup = true)

theorem exponent_text {e : Option Lit} (he : OptOk e) {r : Str} (hn : NoExponent r) (h : e ≠ none → Stop r) :
    matchExponent (expText e ++ r) = (e.map Lit.toNum, r) := by
  cases e with
  | none => simpa [expText] using hn.none
  | some l => exact exponent_some he.1 (h (by simp))

/-! ### one operand -/

/-- the operand that is read -/
def Atom.operand : Atom → Operand
  | .name ls ds e => ⟨true, 1, ls ++ ds, litOr1 e⟩
  | .group x e => ⟨false, 1, x.text, litOr1 e⟩

theorem exp_head (e : Option Lit) {r : Str} (h : Stop r) :
    ∀ c, (expText e ++ r).head? = some c → isDigit c = false ∧ isLetter c = false := by
  intro c hc
  cases e with
  | none => rcases h.1 c (by simpa [expText] using hc) with rfl | rfl | rfl <;> decide
  | some l => simp [expText] at hc; subst hc; decide

theorem matchSimplex_name {ls ds : Str} {e : Option Lit} (hne : ls ≠ []) (hls : ∀ x ∈ ls, isLetter x = true)
    (hds : ∀ x ∈ ds, isDigit x = true) (he : OptOk e) {r : Str} (hn : NoExponent r) (h : Stop r) :
    matchSimplex ((Atom.name ls ds e).text ++ r) = some (.ok (Atom.name ls ds e).operand, r) := by
  have hb : buildVariable ⟨none, ls ++ ds, e.map Lit.toNum, r⟩ = .ok (Atom.name ls ds e).operand := by
    unfold buildVariable
    have h0 : numOr1 (none : Option Num) = .ok 1 := rfl
    simp only [h0, numOr1_map e he, bind, Except.bind]
    rw [mkOperand_eq one_ne_zero (by simp [hne]) (litOr1_ne_zero he)]
    rfl
  have ht : (Atom.name ls ds e).text ++ r = ls ++ (ds ++ (expText e ++ r)) := by simp [Atom.text]
  rw [ht]
  obtain ⟨x, xs, rfl⟩ := List.exists_cons_of_ne_nil hne
  have hx := hls x (by simp)
  have hts : takeSign (x :: xs ++ (ds ++ (expText e ++ r))) = (false, x :: xs ++ (ds ++ (expText e ++ r))) := by
    have := letter_ne hx
    unfold takeSign; split <;> simp_all
  have hsn : startsNumber (x :: xs ++ (ds ++ (expText e ++ r))) = false := by
    have h1 := letter_not_digit hx
    have h2 := (letter_ne hx).2.2.1
    rw [List.cons_append]
    cases (xs ++ (ds ++ (expText e ++ r))) <;> simp [startsNumber, h1, h2]
  have hm : matchCoefficient (x :: xs ++ (ds ++ (expText e ++ r))) = some (none, x :: xs ++ (ds ++ (expText e ++ r))) := by
    unfold matchCoefficient
    rw [hts]
    simp only [hsn]
    simp [startsLetter, hx]
  have hcst : matchConstant (x :: xs ++ (ds ++ (expText e ++ r))) = none := by
    unfold matchConstant matchRational
    rw [hts]
    simp only [hsn, Bool.false_eq_true, if_false]
  obtain ⟨h1, h2, h3, h4⟩ := name_scan hls hds (exp_head e h)
  unfold matchSimplex matchVariable
  rw [hm, hcst]
  simp only [h1, h2, h3, h4, exponent_text he hn (fun _ => h), hb]

theorem exp_noparen {e : Option Lit} (h : OptOk e) : ∀ c ∈ expText e, c ≠ '(' ∧ c ≠ ')' := by
  intro c hc
  cases e with
  | none => simp [expText] at hc
  | some l =>
    simp only [expText, List.mem_cons] at hc
    rcases hc with rfl | rfl | hc
    · decide
    · decide
    · exact lit_noparen h.1 c hc

mutual
theorem Atom.balanced : (a : Atom) → a.Ok → Balanced a.text
  | .name ls ds e, h => by
    simp only [Atom.Ok] at h
    obtain ⟨_, hls, hds, he, _⟩ := h
    simp only [Atom.text]
    refine Balanced.append ?_ (balanced_of_chars (exp_noparen he))
    apply balanced_of_chars
    intro c hc
    rcases List.mem_append.1 hc with hc | hc
    · exact ⟨(letter_ne (hls c hc)).2.2.2.2.2.1, (letter_ne (hls c hc)).2.2.2.2.2.2.1⟩
    · exact ⟨(digit_ne (hds c hc)).2.2.2.2.2.2.2.1, (digit_ne (hds c hc)).2.2.2.2.2.2.2.2.1⟩
  | .group x e, h => by
    simp only [Atom.Ok] at h
    have := (Expr.balanced x h.2).group.append (balanced_of_chars (exp_noparen h.1))
    simpa [Atom.text] using this
theorem Expr.balanced : (x : Expr) → x.Ok → Balanced x.text
  | .one a, h => by
    simp only [Expr.Ok] at h
    simpa only [Expr.text] using Atom.balanced a h
  | .cons a s x, h => by
    simp only [Expr.Ok] at h
    simp only [Expr.text]
    exact ((Atom.balanced a h.1).append (balanced_of_chars (sep_noparen s))).append (Expr.balanced x h.2.1)
end

/-- the first character of an operand -/
theorem atom_head (a : Atom) (h : a.Ok) : ∃ c r, a.text = c :: r ∧ (isLetter c = true ∨ c = '(') := by
  cases a with
  | name ls ds e =>
    simp only [Atom.Ok] at h
    obtain ⟨x, xs, rfl⟩ := List.exists_cons_of_ne_nil h.1
    exact ⟨x, xs ++ ds ++ expText e, by simp [Atom.text], .inl (h.2.1 x (by simp))⟩
  | group x e => exact ⟨'(', x.text ++ ')' :: expText e, by simp [Atom.text], .inr rfl⟩

theorem expr_head (x : Expr) (h : x.Ok) : ∃ c r, x.text = c :: r ∧ (isLetter c = true ∨ c = '(') := by
  cases x with
  | one a =>
    simp only [Expr.Ok] at h
    simpa only [Expr.text] using atom_head a h
  | cons a s x =>
    simp only [Expr.Ok] at h
    obtain ⟨c, r, h1, h2⟩ := atom_head a h.1
    exact ⟨c, r ++ s.text ++ x.text, by simp [Expr.text, h1], h2⟩

theorem first_char {c : Char} (h : isLetter c = true ∨ c = '(') :
    isSpace c = false ∧ c ≠ '*' ∧ c ≠ '/' ∧ isDigit c = false ∧ c ≠ '-' ∧ c ≠ '+' ∧ c ≠ '.' := by
  rcases h with h | rfl
  · have := letter_ne h
    exact ⟨letter_not_space h, this.2.2.2.2.2.2.2.1, this.2.2.2.1, letter_not_digit h, this.1, this.2.1, this.2.2.1⟩
  · decide

theorem matchSimplex_paren (r : Str) : matchSimplex ('(' :: r) = none := by
  have h1 : takeSign ('(' :: r) = (false, '(' :: r) := by
    unfold takeSign; split <;> simp_all
  have h2 : startsNumber ('(' :: r) = false := by
    cases r <;> simp [startsNumber, isDigit]
  have h3 : startsLetter ('(' :: r) = false := by simp [startsLetter, isLetter]
  have hc : matchCoefficient ('(' :: r) = none := by
    unfold matchCoefficient; rw [h1]; simp [h2, h3]
  unfold matchSimplex matchVariable matchConstant matchRational
  rw [h1, hc]
  simp [h2]

theorem matchComplex_group {x : Expr} {e : Option Lit} (hx : x.Ok) (he : OptOk e) {r : Str}
    (h : AtomStop (.group x e) r) :
    matchComplex ((Atom.group x e).text ++ r) = some (.ok (Atom.group x e).operand, r) := by
  have ht : (Atom.group x e).text ++ r = '(' :: (x.text ++ (')' :: (expText e ++ r))) := by simp [Atom.text]
  rw [ht]
  unfold matchComplex
  rw [findBounds_group (Expr.balanced x hx)]
  have h1 : List.drop (x.text.length + 2) ('(' :: (x.text ++ (')' :: (expText e ++ r)))) = expText e ++ r := by
    simp [List.drop_append]
  have h2 : List.drop 1 (List.take (x.text.length + 2 - 1) ('(' :: (x.text ++ (')' :: (expText e ++ r))))) = x.text := by
    simp
  have h3 : matchExponent (expText e ++ r) = (e.map Lit.toNum, r) := by
    refine exponent_text he h.1 (fun hne => ?_)
    rcases h.2 with h | h
    · exact h
    · cases e with
      | none => exact absurd rfl hne
      | some l => simp [Atom.isBareGroup] at h
  obtain ⟨c, t, hc, _⟩ := expr_head x hx
  simp only [h1, h2, h3, numOr1_map e he]
  simp only [bind, Except.bind]
  rw [mkOperand_eq one_ne_zero (by simp [hc]) (litOr1_ne_zero he)]
  rfl

/-! ### ends -/

theorem exp_ends {e : Option Lit} (h : OptOk e) {a : Str} (ha : EndsOk a) : EndsOk (a ++ expText e) := by
  cases e with
  | none => simpa [expText] using ha
  | some l =>
    have := (lit_ends h.1).append (a := a ++ ['*', '*'])
    simpa [expText] using this

theorem atom_ends (a : Atom) (h : a.Ok) : EndsOk a.text := by
  cases a with
  | name ls ds e =>
    simp only [Atom.Ok] at h
    obtain ⟨hne, hls, hds, he, _⟩ := h
    refine exp_ends he ?_
    have hall : ls ++ ds ≠ [] := by simp [hne]
    refine ⟨(ls ++ ds).dropLast, (ls ++ ds).getLast hall, (List.dropLast_append_getLast hall).symm, ?_⟩
    rcases List.mem_append.1 (List.getLast_mem hall) with h | h
    · exact letter_not_space (hls _ h)
    · exact digit_not_space (hds _ h)
  | group x e =>
    simp only [Atom.Ok] at h
    have : EndsOk ('(' :: x.text ++ [')']) := ⟨'(' :: x.text, ')', rfl, by simp [isSpace]⟩
    have := exp_ends h.1 this
    simpa [Atom.text] using this

theorem expr_ends : (x : Expr) → x.Ok → EndsOk x.text
  | .one a, h => by
    simp only [Expr.Ok] at h
    simpa only [Expr.text] using atom_ends a h
  | .cons a s x, h => by
    simp only [Expr.Ok] at h
    simp only [Expr.text]
    exact (expr_ends x h.2.1).append

theorem noNumber_cons {c : Char} {r : Str} (h : isDigit c = false ∧ c ≠ '-' ∧ c ≠ '+' ∧ c ≠ '.') : NoNumber (c :: r) := by
  intro d hd
  simp only [List.head?_cons, Option.some.injEq] at hd
  exact hd ▸ h

theorem noExponent_cons {c : Char} {r : Str} (hs : c ≠ '*') (h : isDigit c = false ∧ c ≠ '-' ∧ c ≠ '+' ∧ c ≠ '.') :
    NoExponent (c :: r) := by
  have : (c == '*') = false := by simpa using hs
  simpa [NoExponent, List.dropWhile_cons, this] using noNumber_cons h

theorem noExponent_tail (s : Sep) {x : Expr} (h : x.Ok) : NoExponent (s.text ++ x.text) := by
  obtain ⟨c, r, h1, h2⟩ := expr_head x h
  obtain ⟨_, h3, _, h4⟩ := first_char h2
  have hx : NoExponent x.text := by rw [h1]; exact noExponent_cons h3 h4
  cases s with
  | juxt i =>
    simp only [Sep.text, blanks, List.replicate_succ, List.cons_append]
    exact noExponent_cons (by decide) (by decide)
  | mul i j =>
    cases i with
    | zero =>
      simp only [Sep.text, blanks, List.replicate_zero, List.nil_append, List.cons_append]
      cases j with
      | zero => simpa [NoExponent] using hx
      | succ j =>
        have : NoExponent (' ' :: (List.replicate j ' ' ++ x.text)) := noExponent_cons (by decide) (by decide)
        simpa [NoExponent, List.replicate_succ] using this
    | succ i =>
      simp only [Sep.text, blanks, List.replicate_succ, List.cons_append]
      exact noExponent_cons (by decide) (by decide)
  | div i j =>
    cases i with
    | zero => exact noExponent_cons (by decide) (by decide)
    | succ i =>
      simp only [Sep.text, blanks, List.replicate_succ, List.cons_append]
      exact noExponent_cons (by decide) (by decide)
  | glue => simpa [Sep.text] using hx

theorem atomStop_tail {a : Atom} {s : Sep} {x : Expr} (h : (Expr.cons a s x).Ok) : AtomStop a (s.text ++ x.text) := by
  simp only [Expr.Ok] at h
  refine ⟨noExponent_tail s h.2.1, ?_⟩
  by_cases hs : s = .glue
  · exact .inr (h.2.2 hs)
  · refine .inl (sep_stop s hs _ (fun _ c hc => ?_))
    obtain ⟨d, r, h1, h2⟩ := expr_head x h.2.1
    rw [h1, List.head?_cons, Option.some.injEq] at hc
    exact hc ▸ (first_char h2).2.2.2.1

theorem atomStop_nil (a : Atom) : AtomStop a [] :=
  ⟨by intro c hc; simp at hc, .inl ⟨by intro c hc; simp at hc, by simp⟩⟩

theorem no_sqrt {a : Atom} (h : a.Ok) {t : Str} (hs : AtomStop a t) : ¬ ['s', 'q', 'r', 't'] <+: a.text ++ t := by
  cases a with
  | name ls ds e =>
    simp only [Atom.Ok] at h
    obtain ⟨hne, hls, hds, he, hsq⟩ := h
    intro hp
    apply hsq
    have hstop : Stop t := by
      rcases hs.2 with h | h
      · exact h
      · simp [Atom.isBareGroup] at h
    have ht : (Atom.name ls ds e).text ++ t = ls ++ (ds ++ expText e ++ t) := by simp [Atom.text]
    rw [ht] at hp
    have hhead : ∀ c, (ds ++ (expText e ++ t)).head? = some c → isLetter c = false := by
      intro c hc
      cases ds with
      | cons d ds => simp at hc; subst hc; exact digit_not_letter (hds _ (by simp))
      | nil => exact (exp_head e hstop c (by simpa using hc)).2
    obtain ⟨u, hu⟩ := hp
    have h1 := (takeWhile_append_stop (p := isLetter) hls hhead).1
    rw [← List.append_assoc ds, ← hu] at h1
    simp [isLetter] at h1
    exact ⟨u.takeWhile isLetter, by rw [← h1]; rfl⟩
  | group x e =>
    intro hp
    have : (Atom.group x e).text ++ t = '(' :: (x.text ++ ')' :: expText e ++ t) := by simp [Atom.text]
    rw [this, List.cons_prefix_cons] at hp
    simp at hp

/-! ### operands of one level -/

theorem parseOperand_atom (a : Atom) (h : a.Ok) {r : Str} (hr : AtomStop a r) (n : Nat) (he : EndsOk (a.text ++ r)) :
    parseOperand (blanks n ++ (a.text ++ r)) = some (.ok a.operand, r) := by
  obtain ⟨c, t, h1, h2⟩ := atom_head a h
  unfold parseOperand
  rw [strip_blanks (by rw [h1]; simpa using (first_char h2).1) he]
  cases a with
  | name ls ds e =>
    simp only [Atom.Ok] at h
    obtain ⟨hne, hls, hds, he, _⟩ := h
    have hstop : Stop r := by
      rcases hr.2 with h | h
      · exact h
      · simp [Atom.isBareGroup] at h
    simp only [matchSimplex_name hne hls hds he hr.1 hstop]
  | group x e =>
    simp only [Atom.Ok] at h
    have hs : matchSimplex ((Atom.group x e).text ++ r) = none := by
      simp only [Atom.text, List.cons_append]; exact matchSimplex_paren _
    simp only [hs]
    exact matchComplex_group h.2 h.1 hr

/-- the sign that an operator gives -/
def opSign : Option Operator → Rat
  | some .divide => -1
  | _ => 1

/-- the operand after raising to `E` and applying the operator -/
def Atom.opd (E : Rat) (op : Option Operator) (a : Atom) : Operand :=
  ⟨a.operand.isTerm, 1, a.operand.base, opSign op * (a.operand.exp * E)⟩

def Expr.operands (E : Rat) : Option Operator → Expr → List Operand
  | op, .one a => [a.opd E op]
  | op, .cons a s x => a.opd E op :: x.operands E s.op

theorem operand_ok (a : Atom) (h : a.Ok) : a.operand.coeff = 1 ∧ a.operand.base ≠ [] ∧ a.operand.exp ≠ 0 := by
  cases a with
  | name ls ds e =>
    simp only [Atom.Ok] at h
    exact ⟨rfl, by simp [Atom.operand, h.1], litOr1_ne_zero h.2.2.2.1⟩
  | group x e =>
    simp only [Atom.Ok] at h
    obtain ⟨c, r, h1, _⟩ := expr_head x h.2
    exact ⟨rfl, by simp [Atom.operand, h1], litOr1_ne_zero h.1⟩

/-- one round of the loop -/
theorem parseLoop_step (E : Rat) (hE : E ≠ 0) (a : Atom) (h : a.Ok) {r : Str} (hr : AtomStop a r)
    (he : EndsOk (a.text ++ r)) {pre : Str} {op : Option Operator} (hpre : Pre pre op) (fuel : Nat) :
    parseLoop E (fuel + 1) (pre ++ (a.text ++ r)) = (parseLoop E fuel r).bind (fun rest => .ok (a.opd E op :: rest)) := by
  obtain ⟨c, t, h1, h2⟩ := atom_head a h
  obtain ⟨hs, h3, h4, _⟩ := first_char h2
  have hok := operand_ok a h
  have hne : pre ++ (a.text ++ r) ≠ [] := by simp [h1]
  have hps := parseOperator_pre hpre (c := c) (u := t ++ r) hs h3 h4 (by
    have := no_sqrt h hr; rw [h1] at this; simpa using this)
  have hcons : c :: (t ++ r) = a.text ++ r := by simp [h1]
  rw [hcons] at hps
  have hpow := operand_pow (o := a.operand) (p := E) (by rw [hok.1]; exact one_ne_zero) hok.2.1 hok.2.2 hE (.inr hok.1)
  rw [hok.1, powVal_one] at hpow
  simp only [parseLoop, if_neg hne]
  rcases hps with ⟨hp1, hp2, n, hp3⟩ | ⟨o, hp1, hp2⟩
  · subst hp2 hp3
    rw [hp1]
    simp only [bind, Except.bind, parseOperand_atom a h hr n he, hpow]
    cases hh : parseLoop E fuel r with
    | error e => rfl
    | ok v => simp [Atom.opd, opSign, pure, Except.pure]
  · subst hp1
    have hpo := parseOperand_atom a h hr 0 he
    rw [show blanks 0 = [] from rfl, List.nil_append] at hpo
    rw [hp2]
    simp only [bind, Except.bind, hpo, hpow]
    cases o with
    | multiply =>
      simp only [evaluate]
      cases hh : parseLoop E fuel r with
      | error e => rfl
      | ok v => simp [Atom.opd, opSign, pure, Except.pure]
    | divide =>
      have hpow2 := operand_pow (o := ⟨a.operand.isTerm, 1, a.operand.base, a.operand.exp * E⟩)
        (p := -1) one_ne_zero hok.2.1 (mul_ne_zero hok.2.2 hE) (by norm_num) (Or.inl (by simp))
      simp only [evaluate, hpow2, powVal_one]
      cases hh : parseLoop E fuel r with
      | error e => rfl
      | ok v => simp [Atom.opd, opSign, pure, Except.pure]
    | sqrt =>
      exfalso
      generalize hq : some Operator.sqrt = q at hpre
      cases hpre with
      | start => simp at hq
      | sep s => cases s <;> simp [Sep.op] at hq

theorem parseLoop_expr (E : Rat) (hE : E ≠ 0) : (x : Expr) → x.Ok →
    ∀ (pre : Str) (op : Option Operator) (fuel : Nat), Pre pre op → (pre ++ x.text).length ≤ fuel →
    parseLoop E fuel (pre ++ x.text) = .ok (x.operands E op)
  | .one a, h => by
    intro pre op fuel hpre hf
    simp only [Expr.Ok] at h
    simp only [Expr.text] at hf ⊢
    obtain ⟨c, t, h1, _⟩ := atom_head a h
    have : 0 < a.text.length := by rw [h1]; simp
    cases fuel with
    | zero => simp only [List.length_append] at hf; omega
    | succ fuel =>
      have := parseLoop_step E hE a h (r := []) (atomStop_nil a) (by simpa using atom_ends a h) hpre fuel
      simp only [List.append_nil] at this
      rw [this]
      cases fuel <;> simp [parseLoop, Except.bind, Expr.operands]
  | .cons a s x, h => by
    intro pre op fuel hpre hf
    have hstop := atomStop_tail h
    simp only [Expr.Ok] at h
    simp only [Expr.text] at hf ⊢
    obtain ⟨c, t, h1, _⟩ := atom_head a h.1
    have : 0 < a.text.length := by rw [h1]; simp
    cases fuel with
    | zero => simp only [List.length_append] at hf; omega
    | succ fuel =>
      have hst := parseLoop_step E hE a h.1 (r := s.text ++ x.text) hstop (((expr_ends x h.2.1).append).append) hpre fuel
      have e : pre ++ (a.text ++ s.text ++ x.text) = pre ++ (a.text ++ (s.text ++ x.text)) := by simp
      rw [e, hst, parseLoop_expr E hE x h.2.1 s.text s.op fuel (Pre.sep s) (by simp at hf ⊢; omega)]
      rfl

/-! ### all levels -/

mutual
/-- the terms that are read from an operand -/
def Atom.flat (E : Rat) (op : Option Operator) : Atom → List Term
  | .name ls ds e => [⟨1, ls ++ ds, opSign op * (litOr1 e * E)⟩]
  | .group x e => x.flat (opSign op * (litOr1 e * E)) none ++ [⟨1, one, 1⟩]
/-- the terms that are read from a compound name -/
def Expr.flat (E : Rat) : Option Operator → Expr → List Term
  | op, .one a => a.flat E op
  | op, .cons a s x => a.flat E op ++ x.flat E s.op
end

theorem opSign_ne_zero (op : Option Operator) : opSign op ≠ 0 := by
  cases op with
  | none => exact one_ne_zero
  | some o => cases o <;> simp [opSign]

/-- what the list comprehension in `_resolve_operations` does to one operand -/
def stepOf (fuel : Nat) (o : Operand) : Except Err (List Term) :=
  if o.isTerm then .ok [⟨o.coeff, o.base, o.exp⟩] else resolve fuel o

theorem resolve_of_steps {fuel : Nat} {x : Expr} {E : Rat} (hE : E ≠ 0) (h : x.Ok)
    (hs : concatMapM (stepOf fuel) (x.operands E none) = .ok (x.flat E none)) :
    resolve (fuel + 1) ⟨false, 1, x.text, E⟩ = .ok (x.flat E none ++ [⟨1, one, 1⟩]) := by
  have hp := parseLoop_expr E hE x h [] none x.text.length Pre.start (by simp)
  simp only [List.nil_append] at hp
  simp only [resolve, bind, Except.bind, hp]
  have : (fun o : Operand => if o.isTerm = true then Except.ok [({ coeff := o.coeff, base := o.base, exp := o.exp } : Term)]
      else resolve fuel o) = stepOf fuel := by
    funext o; simp only [stepOf]
  rw [this, hs]
  simp [pure, Except.pure, mkTerm, orOne, orOneStr, one]

mutual
theorem Atom.step (E : Rat) (hE : E ≠ 0) : (a : Atom) → a.Ok → ∀ (op : Option Operator) (fuel : Nat),
    a.text.length ≤ fuel → stepOf fuel (a.opd E op) = .ok (a.flat E op)
  | .name ls ds e, h => by
    intro op fuel hf
    simp [stepOf, Atom.flat, Atom.opd, Atom.operand]
  | .group x e, h => by
    intro op fuel hf
    simp only [Atom.Ok] at h
    simp only [stepOf, Atom.flat, Atom.opd, Atom.operand]
    cases fuel with
    | zero => simp [Atom.text] at hf
    | succ fuel =>
      have hE' : opSign op * (litOr1 e * E) ≠ 0 := mul_ne_zero (opSign_ne_zero op) (mul_ne_zero (litOr1_ne_zero h.1) hE)
      have := Expr.steps _ hE' x h.2 none fuel (by simp [Atom.text] at hf; omega)
      simpa using resolve_of_steps hE' h.2 this
theorem Expr.steps (E : Rat) (hE : E ≠ 0) : (x : Expr) → x.Ok → ∀ (op : Option Operator) (fuel : Nat),
    x.text.length ≤ fuel → concatMapM (stepOf fuel) (x.operands E op) = .ok (x.flat E op)
  | .one a, h => by
    intro op fuel hf
    simp only [Expr.Ok] at h
    simp only [Expr.text] at hf
    simp only [Expr.operands, Expr.flat, concatMapM, bind, Except.bind, Atom.step E hE a h op fuel hf]
    simp [pure, Except.pure]
  | .cons a s x, h => by
    intro op fuel hf
    simp only [Expr.Ok] at h
    simp only [Expr.text, List.length_append] at hf
    simp only [Expr.operands, Expr.flat, concatMapM, bind, Except.bind,
      Atom.step E hE a h.1 op fuel (by omega), Expr.steps E hE x h.2.1 s.op fuel (by omega)]
    simp [pure, Except.pure]
end

theorem text_ne_nil {x : Expr} (h : x.Ok) : x.text ≠ [] := by
  obtain ⟨c, r, h1, _⟩ := expr_head x h
  simp [h1]

theorem expression_text {x : Expr} (h : x.Ok) : expression x.text = reduce (x.flat 1 none ++ [⟨1, one, 1⟩]) := by
  have hb := text_ne_nil h
  rw [expression, if_neg hb]
  simp only [mkOperand_eq (i := false) one_ne_zero hb (one_ne_zero (α := Rat)), bind, Except.bind]
  rw [resolve_of_steps one_ne_zero h (Expr.steps 1 one_ne_zero x h none _ (by simp))]

/-! ### meaning -/

theorem sep_sign (s : Sep) : opSign s.op = Sep.sign s := by cases s <;> rfl

mutual
theorem Atom.flat_power (b : Str) (hb : b ≠ one) : (a : Atom) → ∀ (E : Rat) (op : Option Operator),
    expOf b (a.flat E op) = opSign op * (a.power b * E)
  | .name ls ds e => by
    intro E op
    simp only [Atom.flat, Atom.power, expOf_cons, expOf_nil, add_zero]
    split <;> simp
  | .group x e => by
    intro E op
    have : ¬ one = b := fun h => hb h.symm
    simp only [Atom.flat, Atom.power, expOf_append, expOf_cons, expOf_nil, if_neg this, add_zero]
    rw [Expr.flat_power b hb x]
    simp only [opSign]
    ring
theorem Expr.flat_power (b : Str) (hb : b ≠ one) : (x : Expr) → ∀ (E : Rat) (op : Option Operator),
    expOf b (x.flat E op) = x.power b (opSign op) * E
  | .one a => by
    intro E op
    simp only [Expr.flat, Expr.power]
    rw [Atom.flat_power b hb a]
    ring
  | .cons a s x => by
    intro E op
    simp only [Expr.flat, Expr.power, expOf_append]
    rw [Atom.flat_power b hb a, Expr.flat_power b hb x, sep_sign]
    ring
end

mutual
theorem Atom.flat_base : (a : Atom) → a.Ok → ∀ (E : Rat) (op : Option Operator), ∀ t ∈ a.flat E op, t.coeff = 1 ∧
    (t.base = one ∨ t.base ∈ a.names) ∧ t.base ≠ []
  | .name ls ds e, h => by
    intro E op t ht
    simp only [Atom.Ok] at h
    simp only [Atom.flat, List.mem_singleton] at ht
    subst ht
    exact ⟨rfl, .inr (by simp [Atom.names]), by simp [h.1]⟩
  | .group x e, h => by
    intro E op t ht
    simp only [Atom.Ok] at h
    simp only [Atom.flat, List.mem_append, List.mem_singleton] at ht
    rcases ht with ht | rfl
    · exact Expr.flat_base x h.2 _ _ t ht
    · exact ⟨rfl, .inl rfl, by simp [one]⟩
theorem Expr.flat_base : (x : Expr) → x.Ok → ∀ (E : Rat) (op : Option Operator), ∀ t ∈ x.flat E op, t.coeff = 1 ∧
    (t.base = one ∨ t.base ∈ x.names) ∧ t.base ≠ []
  | .one a, h => by
    intro E op t ht
    simp only [Expr.Ok] at h
    exact Atom.flat_base a h E op t ht
  | .cons a s x, h => by
    intro E op t ht
    simp only [Expr.Ok] at h
    simp only [Expr.flat, List.mem_append] at ht
    simp only [Expr.names, List.mem_append]
    rcases ht with ht | ht
    · obtain ⟨h1, h2, h3⟩ := Atom.flat_base a h.1 _ _ t ht
      exact ⟨h1, h2.imp id .inl, h3⟩
    · obtain ⟨h1, h2, h3⟩ := Expr.flat_base x h.2.1 _ _ t ht
      exact ⟨h1, h2.imp id .inr, h3⟩
end

theorem coefOf_ones {ts : List Term} (h : ∀ t ∈ ts, t.coeff = 1) : coefOf ts = 1 := by
  induction ts with
  | nil => rfl
  | cons t ts ih => simp [h t (by simp), ih (fun u hu => h u (by simp [hu]))]

mutual
theorem Atom.power_names (b : Str) : (a : Atom) → b ∉ a.names → a.power b = 0
  | .name ls ds e, h => by
    simp only [Atom.names, List.mem_singleton] at h
    simp only [Atom.power, if_neg (fun hh : ls ++ ds = b => h hh.symm)]
  | .group x e, h => by
    simp only [Atom.names] at h
    simp only [Atom.power, Expr.power_names b x h 1, zero_mul]
theorem Expr.power_names (b : Str) : (x : Expr) → b ∉ x.names → ∀ σ, x.power b σ = 0
  | .one a, h => by
    simp only [Expr.names] at h
    intro σ
    simp only [Expr.power, Atom.power_names b a h, mul_zero]
  | .cons a s x, h => by
    simp only [Expr.names, List.mem_append, not_or] at h
    intro σ
    simp only [Expr.power, Atom.power_names b a h.1, Expr.power_names b x h.2 _, mul_zero, add_zero]
end

mutual
theorem Atom.names_letter : (a : Atom) → a.Ok → ∀ b ∈ a.names, b ≠ one
  | .name ls ds e, h => by
    simp only [Atom.Ok] at h
    intro b hb
    simp only [Atom.names, List.mem_singleton] at hb
    rw [hb]
    exact base_ne_one h.1 h.2.1
  | .group x e, h => by
    simp only [Atom.Ok] at h
    exact Expr.names_letter x h.2
theorem Expr.names_letter : (x : Expr) → x.Ok → ∀ b ∈ x.names, b ≠ one
  | .one a, h => by
    simp only [Expr.Ok] at h
    exact Atom.names_letter a h
  | .cons a s x, h => by
    simp only [Expr.Ok] at h
    intro b hb
    rcases List.mem_append.1 hb with hb | hb
    · exact Atom.names_letter a h.1 b hb
    · exact Expr.names_letter x h.2.1 b hb
end

end Eprem.Symbolic.Stars
