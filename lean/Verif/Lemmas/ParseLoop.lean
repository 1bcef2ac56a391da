import Verif.Lemmas.Parse
import Verif.Lemmas.ReduceValue

namespace Eprem.Symbolic

/-! ### stripping -/

/-- the last character is not a blank -/
def EndsOk (s : Str) : Prop := ∃ t c, s = t ++ [c] ∧ isSpace c = false

theorem EndsOk.append {a b : Str} (h : EndsOk b) : EndsOk (a ++ b) := by
  obtain ⟨t, c, rfl, hc⟩ := h
  exact ⟨a ++ t, c, by simp, hc⟩

theorem lit_ends {l : Lit} (h : l.Ok) : EndsOk l.text := by
  obtain ⟨s, c, h1, h2⟩ := lit_last h
  exact ⟨s, c, h1, digit_not_space h2⟩

theorem exp_ends {e : Option Lit} (h : OptOk e) {a : Str} (ha : EndsOk a) : EndsOk (a ++ expText e) := by
  cases e with
  | none => simpa [expText] using ha
  | some l =>
    have := (lit_ends h.1).append (a := a ++ ['^'])
    simpa [expText] using this

theorem atom_ends (E : Rat) (a : Atom) (h : a.Ok E) : EndsOk a.text := by
  cases a with
  | const l e =>
    simp only [Atom.Ok] at h
    exact exp_ends h.2.2.2.1 (lit_ends h.1)
  | var c ls ds e =>
    simp only [Atom.Ok] at h
    obtain ⟨hne, hls, hds, _, he, _⟩ := h
    refine exp_ends he (EndsOk.append ?_)
    have hall : ls ++ ds ≠ [] := by simp [hne]
    refine ⟨(ls ++ ds).dropLast, (ls ++ ds).getLast hall, (List.dropLast_append_getLast hall).symm, ?_⟩
    rcases List.mem_append.1 (List.getLast_mem hall) with h | h
    · exact letter_not_space (hls _ h)
    · exact digit_not_space (hds _ h)
  | group x e =>
    simp only [Atom.Ok] at h
    have : EndsOk ('(' :: x.text ++ [')']) := ⟨'(' :: x.text, ')', rfl, by simp [isSpace]⟩
    have := exp_ends h.1 this
    simpa [Atom.text] using this

theorem expr_ends (E : Rat) : (x : Expr) → x.Ok E → EndsOk x.text
  | .one a, h => by
    simp only [Expr.Ok] at h
    simpa only [Expr.text] using atom_ends E a h
  | .cons a s x, h => by
    simp only [Expr.Ok] at h
    simp only [Expr.text]
    exact (expr_ends E x h.2.1).append

theorem blanks_space (n : Nat) : ∀ c ∈ blanks n, isSpace c = true := by
  intro c hc; rw [blanks_mem hc]; simp [isSpace]

theorem strip_blanks {n : Nat} {u : Str} (hh : ∀ c, u.head? = some c → isSpace c = false) (he : EndsOk u) :
    strip (blanks n ++ u) = u := by
  unfold strip
  rw [(takeWhile_append_stop (blanks_space n) hh).2]
  obtain ⟨t, c, rfl, hc⟩ := he
  simp [hc]

/-! ### operators -/

/-- the operator a separator is read as -/
def Sep.op : Sep → Option Operator
  | .juxt _ => none
  | .mul _ _ => some .multiply
  | .div _ _ => some .divide
  | .glue => none

/-- the text in front of an operand and the operator it is read as -/
inductive Pre : Str → Option Operator → Prop
  | start : Pre [] none
  | sep (s : Sep) : Pre s.text s.op

theorem matchOp_skip {x y : Char} {n : Nat} {c : Char} {u : Str} (hs : isSpace c = false) (hx : c ≠ x) :
    matchOp x y (blanks n ++ c :: u) = none := by
  unfold matchOp
  rw [(takeWhile_append_stop (blanks_space n) (by simpa using hs)).2]
  simp [hx]

theorem matchOp_hit {x y : Char} {i j : Nat} {c : Char} {u : Str} (hxs : isSpace x = false) (hs : isSpace c = false)
    (hy : c ≠ y) : matchOp x y (blanks i ++ x :: (blanks j ++ c :: u)) = some (c :: u) := by
  unfold matchOp
  rw [(takeWhile_append_stop (blanks_space i) (by simpa using hxs)).2]
  simp [(takeWhile_append_stop (b := c :: u) (blanks_space j) (by simpa using hs)).2, hy]

theorem matchSqrt_skip {n : Nat} {c : Char} {u : Str} (hs : isSpace c = false)
    (hp : ¬ ['s', 'q', 'r', 't'] <+: c :: u) : matchSqrt (blanks n ++ c :: u) = none := by
  unfold matchSqrt
  rw [(takeWhile_append_stop (blanks_space n) (by simpa using hs)).2]
  split
  · rename_i r heq
    rw [heq] at hp
    exact absurd ⟨r, rfl⟩ hp
  · rfl

theorem parseOperator_pre {pre : Str} {op : Option Operator} (h : Pre pre op) {c : Char} {u : Str}
    (hs : isSpace c = false) (h1 : c ≠ '*') (h2 : c ≠ '/') (hp : ¬ ['s', 'q', 'r', 't'] <+: c :: u) :
    (parseOperator (pre ++ c :: u) = none ∧ op = none ∧ ∃ n, pre = blanks n) ∨
    (∃ o, op = some o ∧ parseOperator (pre ++ c :: u) = some (o, c :: u)) := by
  have hnone : ∀ n, parseOperator (blanks n ++ c :: u) = none := by
    intro n
    unfold parseOperator
    rw [matchOp_skip hs h1, matchOp_skip hs h2, matchSqrt_skip hs hp]
  cases h with
  | start => left; exact ⟨by simpa [blanks] using hnone 0, rfl, 0, rfl⟩
  | sep s =>
    cases s with
    | juxt i => left; exact ⟨hnone _, rfl, _, rfl⟩
    | mul i j =>
      right
      refine ⟨_, rfl, ?_⟩
      have : (Sep.mul i j).text ++ c :: u = blanks i ++ '*' :: (blanks j ++ c :: u) := by simp [Sep.text]
      unfold parseOperator
      rw [this, matchOp_hit (by simp [isSpace]) hs h2]
    | div i j =>
      right
      refine ⟨_, rfl, ?_⟩
      have : (Sep.div i j).text ++ c :: u = blanks i ++ '/' :: (blanks j ++ c :: u) := by simp [Sep.text]
      unfold parseOperator
      rw [this, matchOp_skip (by simp [isSpace]) (by simp), matchOp_hit (by simp [isSpace]) hs h1]
    | glue => left; exact ⟨by simpa [blanks, Sep.text] using hnone 0, rfl, 0, rfl⟩

theorem stop_of {c : Char} {r : Str} (h : c = ' ' ∨ c = '*') : Stop (c :: r) := by
  refine ⟨fun d hd => ?_, fun d r' e => ?_⟩
  · simp at hd; subst hd; rcases h with h | h <;> simp [h]
  · simp at e; rcases h with h | h <;> simp [h] at e

theorem stop_slash {r : Str} (h : ∀ c, r.head? = some c → isDigit c = false) : Stop ('/' :: r) := by
  refine ⟨fun d hd => ?_, fun d r' e => ?_⟩
  · simp at hd; simp [← hd]
  · simp at e; exact h d (by simp [e])

theorem sep_stop (s : Sep) (hs : s ≠ .glue) (r : Str)
    (hd : s = .div 0 0 → ∀ c, r.head? = some c → isDigit c = false) : Stop (s.text ++ r) := by
  cases s with
  | juxt i => simp only [Sep.text, blanks, List.replicate_succ]; exact stop_of (.inl rfl)
  | mul i j =>
    cases i with
    | zero => exact stop_of (.inr rfl)
    | succ i => simp only [Sep.text, blanks, List.replicate_succ]; exact stop_of (.inl rfl)
  | div i j =>
    cases i with
    | zero =>
      refine stop_slash (fun c hc => ?_)
      cases j with
      | zero => exact hd rfl c (by simpa [blanks] using hc)
      | succ j => simp [blanks, List.replicate_succ] at hc; subst hc; decide
    | succ i => simp only [Sep.text, blanks, List.replicate_succ]; exact stop_of (.inl rfl)
  | glue => exact absurd rfl hs

theorem expr_head (E : Rat) (x : Expr) (h : x.Ok E) : ∀ c, x.text.head? = some c → c ≠ '^' := by
  cases x with
  | one a =>
    simp only [Expr.Ok] at h
    obtain ⟨c, r, h1, _, _, _, h2, _⟩ := atom_head E a h
    intro d hd
    simp only [Expr.text, h1, List.head?_cons, Option.some.injEq] at hd
    exact hd ▸ h2
  | cons a s x =>
    simp only [Expr.Ok] at h
    obtain ⟨c, r, h1, _, _, _, h2, _⟩ := atom_head E a h.1
    intro d hd
    simp only [Expr.text, h1, List.cons_append, List.head?_cons, Option.some.injEq] at hd
    exact hd ▸ h2

theorem atomStop_tail {E : Rat} {a : Atom} {s : Sep} {x : Expr} (h : (Expr.cons a s x).Ok E) :
    AtomStop a (s.text ++ x.text) := by
  simp only [Expr.Ok] at h
  by_cases hs : s = .glue
  · right
    refine .inl ⟨h.2.2.1 hs, ?_⟩
    subst hs
    simpa [Sep.text] using expr_head E x h.2.1
  · by_cases hd : s = .div 0 0
    · subst hd
      rcases h.2.2.2 rfl with h1 | h1 | h1
      · exact .inr (.inl ⟨h1, by simp [Sep.text, blanks]⟩)
      · exact .inr (.inr ⟨h1, x.text, rfl⟩)
      · exact .inl (sep_stop _ hs _ (fun _ => h1))
    · exact .inl (sep_stop s hs _ (fun h => absurd h hd))

/-! ### operands of one level -/

/-- the operand object after raising to `E` and applying the operator -/
def Atom.opd (E : Rat) (op : Option Operator) (a : Atom) : Operand :=
  let o := a.operand
  if op = some .divide then ⟨o.isTerm, (powVal o.coeff E)⁻¹, o.base, -(o.exp * E)⟩
  else ⟨o.isTerm, powVal o.coeff E, o.base, o.exp * E⟩

def Expr.operands (E : Rat) : Option Operator → Expr → List Operand
  | op, .one a => [a.opd E op]
  | op, .cons a s x => a.opd E op :: x.operands E s.op

theorem atom_operand_ok (E : Rat) (a : Atom) (h : a.Ok E) :
    a.operand.coeff ≠ 0 ∧ a.operand.base ≠ [] ∧ a.operand.exp ≠ 0 ∧ PowOk a.operand.coeff E := by
  cases a with
  | const l e =>
    simp only [Atom.Ok] at h
    exact ⟨powVal_ne_zero h.2.2.1, by simp [Atom.operand, one], by simp [Atom.operand], h.2.2.2.2.2.2⟩
  | var c ls ds e =>
    simp only [Atom.Ok] at h
    obtain ⟨hne, _, _, hc, he, hp, _⟩ := h
    exact ⟨litOr1_ne_zero hc, by simp [Atom.operand, hne], litOr1_ne_zero he, hp⟩
  | group x e =>
    simp only [Atom.Ok] at h
    exact ⟨by simp [Atom.operand], Expr.text_ne_nil _ x h.2, litOr1_ne_zero h.1, Or.inr rfl⟩

theorem operand_pow {o : Operand} {p : Rat} (hc : o.coeff ≠ 0) (hb : o.base ≠ []) (he : o.exp ≠ 0) (hp : p ≠ 0)
    (hk : PowOk o.coeff p) : o.pow p = .ok ⟨o.isTerm, powVal o.coeff p, o.base, o.exp * p⟩ := by
  unfold Operand.pow
  rw [fracPow_ok hc hk]
  simp only [bind, Except.bind]
  rw [mkOperand_eq (powVal_ne_zero hc) hb (mul_ne_zero he hp)]
  rfl

theorem powVal_neg_one (c : Rat) : powVal c (-1) = c⁻¹ := by
  simp [powVal]

theorem parseOperand_atom (E : Rat) (a : Atom) (h : a.Ok E) {r : Str} (hr : AtomStop a r) (n : Nat)
    (he : EndsOk (a.text ++ r)) :
    parseOperand (blanks n ++ (a.text ++ r)) = some (.ok a.operand, r) := by
  obtain ⟨c, t, h1, h2, _, _, _, _⟩ := atom_head E a h
  unfold parseOperand
  rw [strip_blanks (by rw [h1]; simpa using h2) he]
  cases a with
  | const l e =>
    replace hr : Stop r := by
      rcases hr with h | h | h
      · exact h
      · simp [Atom.isBareGroup] at h
      · simp [Atom.isBareName] at h
    simp only [Atom.Ok] at h
    have := matchSimplex_const h.1 h.2.1 h.2.2.1 h.2.2.2.1 h.2.2.2.2.1 h.2.2.2.2.2.1 hr
    simp only [Atom.text, List.append_assoc, this]
  | var c ls ds e =>
    replace hr : ExpStop e r := by
      rcases hr with h | h | ⟨h, s, rfl⟩
      · exact h.exp e
      · simp [Atom.isBareGroup] at h
      · cases e with
        | none => exact ⟨by simp, fun h => absurd rfl h⟩
        | some l => simp [Atom.isBareName] at h
    simp only [Atom.Ok] at h
    obtain ⟨hne, hls, hds, hc, he, _, _, hno⟩ := h
    simp only [matchSimplex_var hne hls hds hc he hno hr]
  | group x e =>
    simp only [Atom.Ok] at h
    have hs : matchSimplex ((Atom.group x e).text ++ r) = none := by
      simp only [Atom.text, List.cons_append]; exact matchSimplex_paren _
    simp only [hs]
    exact matchComplex_group _ h.2 h.1 hr

/-- one round of the loop -/
theorem parseLoop_step (E : Rat) (hE : E ≠ 0) (a : Atom) (h : a.Ok E) {r : Str} (hr : AtomStop a r)
    (he : EndsOk (a.text ++ r)) {pre : Str} {op prev : Option Operator} (hpre : Pre pre op) (fuel : Nat) :
    parseLoop false E (fuel + 1) prev (pre ++ (a.text ++ r)) =
      (parseLoop false E fuel op r).bind (fun rest => .ok (a.opd E op :: rest)) := by
  obtain ⟨c, t, h1, h2, h3, h4, _, h5⟩ := atom_head E a h
  have hok := atom_operand_ok E a h
  have hne : pre ++ (a.text ++ r) ≠ [] := by simp [h1]
  have hps := parseOperator_pre hpre (c := c) (u := t ++ r) h2 h3 h4 (by
    have := h5 r hr; rw [h1] at this; simpa using this)
  have hcons : c :: (t ++ r) = a.text ++ r := by simp [h1]
  rw [hcons] at hps
  have hpow := operand_pow hok.1 hok.2.1 hok.2.2.1 hE hok.2.2.2
  simp only [parseLoop, if_neg hne]
  rcases hps with ⟨hp1, hp2, n, hp3⟩ | ⟨o, hp1, hp2⟩
  · subst hp2 hp3
    rw [hp1]
    simp only [bind, Except.bind, parseOperand_atom E a h hr n he, hpow]
    cases hh : parseLoop false E fuel none r with
    | error e => rfl
    | ok v => simp [Atom.opd, pure, Except.pure]
  · subst hp1
    have hpo := parseOperand_atom E a h hr 0 he
    rw [show blanks 0 = [] from rfl, List.nil_append] at hpo
    have hoe : operatorError false o prev = none := by simp [operatorError]
    rw [hp2]
    simp only [hoe, bind, Except.bind, hpo, hpow]
    cases o with
    | multiply =>
      simp only [evaluate]
      cases hh : parseLoop false E fuel _ r with
      | error e => rfl
      | ok v => simp [Atom.opd, pure, Except.pure]
    | divide =>
      have hpow2 := operand_pow (o := ⟨a.operand.isTerm, powVal a.operand.coeff E, a.operand.base, a.operand.exp * E⟩)
        (p := -1) (powVal_ne_zero hok.1) hok.2.1 (mul_ne_zero hok.2.2.1 hE) (by norm_num) (Or.inl (by simp))
      simp only [evaluate, hpow2, powVal_neg_one]
      cases hh : parseLoop false E fuel _ r with
      | error e => rfl
      | ok v => simp [Atom.opd, pure, Except.pure]
    | sqrt =>
      exfalso
      generalize hq : some Operator.sqrt = q at hpre
      cases hpre with
      | start => simp at hq
      | sep s => cases s <;> simp [Sep.op] at hq

theorem parseLoop_expr (E : Rat) (hE : E ≠ 0) : (x : Expr) → x.Ok E →
    ∀ (pre : Str) (op prev : Option Operator) (fuel : Nat), Pre pre op → (pre ++ x.text).length ≤ fuel →
    parseLoop false E fuel prev (pre ++ x.text) = .ok (x.operands E op)
  | .one a, h => by
    intro pre op prev fuel hpre hf
    simp only [Expr.Ok] at h
    simp only [Expr.text] at hf ⊢
    obtain ⟨c, t, h1, _⟩ := atom_head E a h
    have : 0 < a.text.length := by rw [h1]; simp
    cases fuel with
    | zero => simp only [List.length_append] at hf; omega
    | succ fuel =>
      have := parseLoop_step E hE a h (r := []) (Or.inl ⟨by intro c hc; simp at hc, by simp⟩)
        (by simpa using atom_ends E a h) hpre (prev := prev) fuel
      simp only [List.append_nil] at this
      rw [this]
      cases fuel <;> simp [parseLoop, Except.bind, Expr.operands]
  | .cons a s x, h => by
    intro pre op prev fuel hpre hf
    have hstop := atomStop_tail h
    simp only [Expr.Ok] at h
    simp only [Expr.text] at hf ⊢
    obtain ⟨c, t, h1, _⟩ := atom_head E a h.1
    have : 0 < a.text.length := by rw [h1]; simp
    cases fuel with
    | zero => simp only [List.length_append] at hf; omega
    | succ fuel =>
      have hst := parseLoop_step E hE a h.1 (r := s.text ++ x.text) hstop
        (((expr_ends E x h.2.1).append).append) hpre (prev := prev) fuel
      have e : pre ++ (a.text ++ s.text ++ x.text) = pre ++ (a.text ++ (s.text ++ x.text)) := by simp
      rw [e, hst, parseLoop_expr E hE x h.2.1 s.text s.op op fuel (Pre.sep s) (by simp at hf ⊢; omega)]
      rfl

/-! ### all levels -/

/-- the exponent of a group after its operator -/
def groupExp (E : Rat) (op : Option Operator) (e : Rat) : Rat :=
  if op = some .divide then -(e * E) else e * E

mutual
/-- the terms the parser produces for an operand -/
def Atom.flat (E : Rat) (op : Option Operator) : Atom → List Term
  | .const l e =>
    let o := (Atom.const l e).opd E op
    [⟨o.coeff, o.base, o.exp⟩]
  | .var c ls ds e =>
    let o := (Atom.var c ls ds e).opd E op
    [⟨o.coeff, o.base, o.exp⟩]
  | .group x e => x.flat (groupExp E op (litOr1 e)) none ++ [⟨1, one, 1⟩]
/-- the terms the parser produces for an expression -/
def Expr.flat (E : Rat) : Option Operator → Expr → List Term
  | op, .one a => a.flat E op
  | op, .cons a s x => a.flat E op ++ x.flat E s.op
end

theorem powOk_neg {c p : Rat} (h : PowOk c p) : PowOk c (-p) := by
  rcases h with h | h
  · exact Or.inl (by simpa using h)
  · exact Or.inr h

mutual
theorem Atom.ok_neg (E : Rat) : (a : Atom) → a.Ok E → a.Ok (-E)
  | .const l e, h => by
    simp only [Atom.Ok] at h ⊢
    exact ⟨h.1, h.2.1, h.2.2.1, h.2.2.2.1, h.2.2.2.2.1, h.2.2.2.2.2.1, powOk_neg h.2.2.2.2.2.2⟩
  | .var c ls ds e, h => by
    simp only [Atom.Ok] at h ⊢
    obtain ⟨h1, h2, h3, h4, h5, h6, h8⟩ := h
    exact ⟨h1, h2, h3, h4, h5, powOk_neg h6, h8⟩
  | .group x e, h => by
    simp only [Atom.Ok] at h ⊢
    refine ⟨h.1, ?_⟩
    have := Expr.ok_neg _ x h.2
    simpa using this
theorem Expr.ok_neg (E : Rat) : (x : Expr) → x.Ok E → x.Ok (-E)
  | .one a, h => by
    simp only [Expr.Ok] at h ⊢
    exact Atom.ok_neg E a h
  | .cons a s x, h => by
    simp only [Expr.Ok] at h ⊢
    exact ⟨Atom.ok_neg E a h.1, Expr.ok_neg E x h.2.1, h.2.2⟩
end

theorem powVal_one (E : Rat) : powVal 1 E = 1 := by simp [powVal]

theorem group_opd (E : Rat) (op : Option Operator) (x : Expr) (e : Option Lit) :
    (Atom.group x e).opd E op = ⟨false, 1, x.text, groupExp E op (litOr1 e)⟩ := by
  simp only [Atom.opd, Atom.operand, powVal_one, groupExp]
  split <;> simp

theorem groupExp_ne_zero {E e : Rat} (hE : E ≠ 0) (he : e ≠ 0) (op) : groupExp E op e ≠ 0 := by
  unfold groupExp; split
  · exact neg_ne_zero.2 (mul_ne_zero he hE)
  · exact mul_ne_zero he hE

theorem group_ok {E : Rat} {op : Option Operator} {x : Expr} {e : Rat} (h : x.Ok (e * E)) : x.Ok (groupExp E op e) := by
  unfold groupExp; split
  · exact Expr.ok_neg _ x h
  · exact h

/-- what the list comprehension in `_resolve_operations` does to one operand -/
def stepOf (fuel : Nat) (o : Operand) : Except Err (List Term) :=
  if o.isTerm then .ok [⟨o.coeff, o.base, o.exp⟩] else resolve false fuel o

theorem resolve_of_steps {fuel : Nat} {x : Expr} {E : Rat} (hE : E ≠ 0) (h : x.Ok E)
    (hs : concatMapM (stepOf fuel) (x.operands E none) = .ok (x.flat E none)) :
    resolve false (fuel + 1) ⟨false, 1, x.text, E⟩ = .ok (x.flat E none ++ [⟨1, one, 1⟩]) := by
  have hp := parseLoop_expr E hE x h [] none none x.text.length Pre.start (by simp)
  simp only [List.nil_append] at hp
  simp only [resolve, bind, Except.bind, hp]
  have : (fun o : Operand => if o.isTerm = true then Except.ok [({ coeff := o.coeff, base := o.base, exp := o.exp } : Term)]
      else resolve false fuel o) = stepOf fuel := by
    funext o; simp only [stepOf]
  rw [this, hs]
  simp [pure, Except.pure, mkTerm, orOne, orOneStr, one]

mutual
theorem Atom.step (E : Rat) (hE : E ≠ 0) : (a : Atom) → a.Ok E → ∀ (op : Option Operator) (fuel : Nat),
    a.text.length ≤ fuel → stepOf fuel (a.opd E op) = .ok (a.flat E op)
  | .const l e, h => by
    intro op fuel hf
    simp only [stepOf, Atom.flat, Atom.opd, Atom.operand]
    split <;> simp
  | .var c ls ds e, h => by
    intro op fuel hf
    simp only [stepOf, Atom.flat, Atom.opd, Atom.operand]
    split <;> simp
  | .group x e, h => by
    intro op fuel hf
    simp only [Atom.Ok] at h
    rw [group_opd]
    simp only [stepOf, Atom.flat]
    cases fuel with
    | zero => simp [Atom.text] at hf
    | succ fuel =>
      have hE' := groupExp_ne_zero hE (litOr1_ne_zero h.1) op
      have hx : x.Ok (groupExp E op (litOr1 e)) := group_ok h.2
      have := Expr.steps _ hE' x hx none fuel (by simp [Atom.text] at hf; omega)
      simpa using resolve_of_steps hE' hx this
theorem Expr.steps (E : Rat) (hE : E ≠ 0) : (x : Expr) → x.Ok E → ∀ (op : Option Operator) (fuel : Nat),
    x.text.length ≤ fuel → concatMapM (stepOf fuel) (x.operands E op) = .ok (x.flat E op)
  | .one a, h => by
    intro op fuel hf
    simp only [Expr.Ok] at h
    simp only [Expr.text] at hf
    simp only [Expr.operands, Expr.flat, concatMapM, bind, Except.bind, Atom.step E hE a h op fuel hf]
    simp [pure, Except.pure]
  | .cons a s x, h => by
    intro op fuel hf
    simp only [Expr.Ok] at h
    simp only [Expr.text, List.length_append] at hf
    simp only [Expr.operands, Expr.flat, concatMapM, bind, Except.bind,
      Atom.step E hE a h.1 op fuel (by omega), Expr.steps E hE x h.2.1 s.op fuel (by omega)]
    simp [pure, Except.pure]
end

/-- The parser produces exactly the terms of the syntax tree. -/
theorem parse_text (x : Expr) (h : x.Ok 1) : parse false x.text = .ok (x.flat 1 none ++ [⟨1, one, 1⟩]) := by
  unfold parse
  have hb := Expr.text_ne_nil 1 x h
  rw [mkOperand_eq one_ne_zero hb one_ne_zero]
  exact resolve_of_steps one_ne_zero h (Expr.steps 1 one_ne_zero x h none _ (by simp))

/-! ### meaning -/

/-- the effect of an operator on a real number -/
noncomputable def actOp : Option Operator → ℝ → ℝ
  | some .divide, v => v⁻¹
  | _, v => v

theorem sep_act (s : Sep) : actOp s.op = s.act := by
  funext v; cases s <;> rfl

theorem powVal_real {c p : Rat} (h : PowOk c p) : ((powVal c p : Rat) : ℝ) = (c : ℝ) ^ (p : ℝ) := by
  unfold powVal
  split
  · rename_i hd
    have hp : (p : ℝ) = ((p.num : ℤ) : ℝ) := by
      have : p = p.num := by
        conv_lhs => rw [← Rat.num_div_den p, hd]
        simp
      rw [this]; simp
    rw [hp, Real.rpow_intCast]; push_cast; rfl
  · rename_i hd
    rcases h with h | h
    · contradiction
    · simp [h]

theorem actOp_pos {v : ℝ} (h : 0 < v) (op) : 0 < actOp op v := by
  unfold actOp; split
  · exact inv_pos.2 h
  · exact h

theorem actOp_rpow {v : ℝ} (h : 0 < v) (op) (E : ℝ) : (actOp op v) ^ E = actOp op (v ^ E) := by
  unfold actOp; split
  · exact Real.inv_rpow h.le E
  · rfl

mutual
theorem Atom.denote_pos (ρ : Str → ℝ) (hρ : Positive ρ) : (a : Atom) → a.Pos → 0 < a.denote ρ
  | .const l e, h => by
    simp only [Atom.Pos] at h
    simp only [Atom.denote]
    exact Real.rpow_pos_of_pos (by exact_mod_cast h) _
  | .var c ls ds e, h => by
    simp only [Atom.Pos] at h
    simp only [Atom.denote]
    exact mul_pos (by exact_mod_cast h) (Real.rpow_pos_of_pos (hρ _) _)
  | .group x e, h => by
    simp only [Atom.Pos] at h
    simp only [Atom.denote]
    have := Expr.denote_pos ρ hρ x h none
    exact Real.rpow_pos_of_pos this _
theorem Expr.denote_pos (ρ : Str → ℝ) (hρ : Positive ρ) : (x : Expr) → x.Pos →
    ∀ op, 0 < x.denote ρ (actOp op)
  | .one a, h => by
    intro op
    simp only [Expr.Pos] at h
    simp only [Expr.denote]
    exact actOp_pos (Atom.denote_pos ρ hρ a h) op
  | .cons a s x, h => by
    intro op
    simp only [Expr.Pos] at h
    simp only [Expr.denote]
    rw [← sep_act]
    exact mul_pos (actOp_pos (Atom.denote_pos ρ hρ a h.1) op) (Expr.denote_pos ρ hρ x h.2 s.op)
end

theorem actOp_none : actOp none = id := by funext v; rfl

theorem value_append (ρ : Str → ℝ) (a b : List Term) : value ρ (a ++ b) = value ρ a * value ρ b := by
  simp [value]

theorem value_unit (ρ : Str → ℝ) : value ρ [⟨1, one, 1⟩] = 1 := by simp [value, Term.val]

theorem base_ne_one {ls ds : Str} (hne : ls ≠ []) (hls : ∀ x ∈ ls, isLetter x = true) : ls ++ ds ≠ one := by
  obtain ⟨x, xs, rfl⟩ := List.exists_cons_of_ne_nil hne
  intro h
  have hx := hls x (by simp)
  simp [one] at h
  rw [h.1] at hx
  simp [isLetter] at hx

mutual
theorem Atom.value_flat (ρ : Str → ℝ) (hρ : Positive ρ) (E : Rat) : (a : Atom) → a.Ok E → a.Pos → ∀ op,
    value ρ (a.flat E op) = actOp op ((a.denote ρ) ^ (E : ℝ))
  | .const l e, h, hpos => by
    intro op
    simp only [Atom.Ok] at h
    simp only [Atom.Pos] at hpos
    obtain ⟨_, _, _, _, hp, _, hp2⟩ := h
    simp only [Atom.flat, value, List.map_cons, List.map_nil, List.prod_cons, List.prod_nil, mul_one, Term.val,
      Atom.denote, Atom.opd, Atom.operand]
    rw [← powVal_real hp, ← powVal_real hp2]
    by_cases hop : op = some .divide
    · subst hop; simp [actOp]
    · rw [if_neg hop]
      have : ∀ v, actOp op v = v := by
        intro v; unfold actOp; split
        · exact absurd rfl hop
        · rfl
      simp [this]
  | .var c ls ds e, h, hpos => by
    intro op
    simp only [Atom.Ok] at h
    simp only [Atom.Pos] at hpos
    obtain ⟨hne, hls, _, _, _, hp, _⟩ := h
    simp only [Atom.flat, value, List.map_cons, List.map_nil, List.prod_cons, List.prod_nil, mul_one, Term.val,
      Atom.denote, Atom.opd, Atom.operand]
    have hb : (if op = some Operator.divide then
          (⟨true, (powVal (litOr1 c) E)⁻¹, ls ++ ds, -(litOr1 e * E)⟩ : Operand)
        else ⟨true, powVal (litOr1 c) E, ls ++ ds, litOr1 e * E⟩).base = ls ++ ds := by split <;> rfl
    rw [hb, if_neg (base_ne_one hne hls), Real.mul_rpow (by exact_mod_cast hpos.le) (Real.rpow_pos_of_pos (hρ _) _).le,
      ← Real.rpow_mul (hρ _).le, ← powVal_real hp]
    by_cases hop : op = some .divide
    · subst hop
      simp [actOp, Real.rpow_neg (hρ _).le, mul_comm]
    · rw [if_neg hop]
      have : ∀ v, actOp op v = v := by
        intro v; unfold actOp; split
        · exact absurd rfl hop
        · rfl
      rw [this]; push_cast; rfl
  | .group x e, h, hpos => by
    intro op
    simp only [Atom.Ok] at h
    simp only [Atom.Pos] at hpos
    have hx : x.Ok (groupExp E op (litOr1 e)) := group_ok h.2
    have hP := hpos
    replace hpos := Expr.denote_pos ρ hρ x hpos none
    rw [actOp_none] at hpos
    simp only [Atom.flat, value_append, value_unit, mul_one, Atom.denote]
    rw [Expr.value_flat ρ hρ _ x hx hP none, actOp_none, ← Real.rpow_mul hpos.le]
    by_cases hop : op = some .divide
    · subst hop
      simp only [groupExp, if_true, actOp]
      push_cast
      rw [Real.rpow_neg hpos.le]
    · simp only [groupExp, if_neg hop]
      have : ∀ v, actOp op v = v := by
        intro v; unfold actOp; split
        · exact absurd rfl hop
        · rfl
      rw [this]; push_cast; rfl
theorem Expr.value_flat (ρ : Str → ℝ) (hρ : Positive ρ) (E : Rat) : (x : Expr) → x.Ok E → x.Pos → ∀ op,
    value ρ (x.flat E op) = (x.denote ρ (actOp op)) ^ (E : ℝ)
  | .one a, h, hpos => by
    intro op
    simp only [Expr.Ok] at h
    simp only [Expr.Pos] at hpos
    simp only [Expr.flat, Expr.denote]
    rw [Atom.value_flat ρ hρ E a h hpos op, actOp_rpow (Atom.denote_pos ρ hρ a hpos)]
  | .cons a s x, h, hpos => by
    intro op
    simp only [Expr.Ok] at h
    simp only [Expr.Pos] at hpos
    simp only [Expr.flat, Expr.denote, value_append]
    have h1 := Atom.denote_pos ρ hρ a hpos.1
    have h2 := Expr.denote_pos ρ hρ x hpos.2 s.op
    rw [← sep_act, Real.mul_rpow (actOp_pos h1 op).le h2.le, Atom.value_flat ρ hρ E a h.1 hpos.1 op,
      Expr.value_flat ρ hρ E x h.2.1 hpos.2 s.op, actOp_rpow h1]
end

mutual
theorem Atom.flat_wf (E : Rat) (hE : E ≠ 0) : (a : Atom) → a.Ok E → ∀ op, WF (a.flat E op)
  | .const l e, h => by
    intro op t ht
    have hok := atom_operand_ok E _ h
    simp only [Atom.flat, List.mem_singleton] at ht
    subst ht
    simp only [Atom.opd]
    split
    · exact ⟨inv_ne_zero (powVal_ne_zero hok.1), hok.2.1, neg_ne_zero.2 (mul_ne_zero hok.2.2.1 hE)⟩
    · exact ⟨powVal_ne_zero hok.1, hok.2.1, mul_ne_zero hok.2.2.1 hE⟩
  | .var c ls ds e, h => by
    intro op t ht
    have hok := atom_operand_ok E _ h
    simp only [Atom.flat, List.mem_singleton] at ht
    subst ht
    simp only [Atom.opd]
    split
    · exact ⟨inv_ne_zero (powVal_ne_zero hok.1), hok.2.1, neg_ne_zero.2 (mul_ne_zero hok.2.2.1 hE)⟩
    · exact ⟨powVal_ne_zero hok.1, hok.2.1, mul_ne_zero hok.2.2.1 hE⟩
  | .group x e, h => by
    intro op t ht
    simp only [Atom.Ok] at h
    simp only [Atom.flat, List.mem_append, List.mem_singleton] at ht
    rcases ht with ht | rfl
    · exact Expr.flat_wf _ (groupExp_ne_zero hE (litOr1_ne_zero h.1) op) x (group_ok h.2) none t ht
    · exact ⟨one_ne_zero, by simp [one], one_ne_zero⟩
theorem Expr.flat_wf (E : Rat) (hE : E ≠ 0) : (x : Expr) → x.Ok E → ∀ op, WF (x.flat E op)
  | .one a, h => by
    intro op
    simp only [Expr.Ok] at h
    simpa only [Expr.flat] using Atom.flat_wf E hE a h op
  | .cons a s x, h => by
    intro op t ht
    simp only [Expr.Ok] at h
    simp only [Expr.flat, List.mem_append] at ht
    rcases ht with ht | ht
    · exact Atom.flat_wf E hE a h.1 op t ht
    · exact Expr.flat_wf E hE x h.2.1 s.op t ht
end

end Eprem.Symbolic
