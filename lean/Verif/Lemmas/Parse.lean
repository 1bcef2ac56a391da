import Verif.Lemmas.Token

namespace Eprem.Symbolic

/-! ### one operand -/

/-- what may follow an operand: nothing, a blank, `*`, or `/` without a digit after it -/
def Stop (r : Str) : Prop :=
  (∀ c, r.head? = some c → c = ' ' ∨ c = '*' ∨ c = '/') ∧ ∀ d r', r = '/' :: d :: r' → isDigit d = false

theorem Stop.numStop {r : Str} (h : Stop r) : NumStop r := by
  refine ⟨fun c hc => ?_, h.2, noexp_of_head fun c hc => ?_⟩
  · rcases h.1 c hc with rfl | rfl | rfl <;> simp [isDigit]
  · rcases h.1 c hc with rfl | rfl | rfl <;> simp

theorem Stop.not_letter {r : Str} (h : Stop r) : startsLetter r = false := by
  cases r with
  | nil => rfl
  | cons c r => rcases h.1 c (by simp) with rfl | rfl | rfl <;> simp [startsLetter, isLetter]

theorem numStop_caret (r : Str) : NumStop ('^' :: r) := by
  refine ⟨by simp [isDigit], by simp, noexp_of_head (by simp)⟩

theorem numStop_exp (e : Option Lit) {r : Str} (h : Stop r) : NumStop (expText e ++ r) := by
  cases e with
  | none => exact h.numStop
  | some l => exact numStop_caret _

theorem exp_not_letter (e : Option Lit) {r : Str} (h : Stop r) : startsLetter (expText e ++ r) = false := by
  cases e with
  | none => exact h.not_letter
  | some l => simp [expText, startsLetter, isLetter]

theorem matchExponent_text (e : Option Lit) (he : OptOk e) {r : Str} (h : Stop r) :
    matchExponent (expText e ++ r) = (e.map Lit.toNum, r) := by
  cases e with
  | none =>
    simp only [expText, List.nil_append, Option.map_none]
    unfold matchExponent
    split
    · rename_i s; rcases h.1 '^' (by simp) with h | h | h <;> simp at h
    · rfl
  | some l =>
    have := matchRational_text he.1 r h.numStop
    simp [expText, matchExponent, this]

theorem numOr1_map (e : Option Lit) (he : OptOk e) : numOr1 (e.map Lit.toNum) = .ok (litOr1 e) := by
  cases e with
  | none => rfl
  | some l => exact toNum_value he.1

theorem litOr1_ne_zero {e : Option Lit} (he : OptOk e) : litOr1 e ≠ 0 := by
  cases e with
  | none => exact one_ne_zero
  | some l => exact he.2

theorem fracPow_ok {c p : Rat} (hc : c ≠ 0) (h : PowOk c p) : fracPow c p = .ok (powVal c p) := by
  unfold fracPow powVal
  split
  · simp [hc]
  · rcases h with h | h
    · contradiction
    · simp [h]

theorem powVal_ne_zero {c p : Rat} (hc : c ≠ 0) : powVal c p ≠ 0 := by
  unfold powVal; split
  · exact zpow_ne_zero _ hc
  · exact one_ne_zero

theorem mkOperand_eq {i : Bool} {c : Rat} {b : Str} {e : Rat} (hc : c ≠ 0) (hb : b ≠ []) (he : e ≠ 0) :
    mkOperand i c b e = ⟨i, c, b, e⟩ := by simp [mkOperand, orOne, orOneStr, hc, hb, he]

/-- the operand object read for an atom -/
def Atom.operand : Atom → Operand
  | .const l e => ⟨true, powVal l.value (litOr1 e), one, 1⟩
  | .var c ls ds e => ⟨true, litOr1 c, ls ++ ds, litOr1 e⟩
  | .group x e => ⟨false, 1, x.text, litOr1 e⟩

theorem matchConstant_text {l : Lit} {e : Option Lit} (hl : l.Ok) (he : OptOk e) {r : Str} (h : Stop r) :
    matchConstant (l.text ++ (expText e ++ r)) = some (l.toNum, e.map Lit.toNum, r) := by
  unfold matchConstant
  rw [matchRational_text hl _ (numStop_exp e h)]
  simp only [matchExponent_text e he h]

theorem matchVariable_const {l : Lit} {e : Option Lit} (hl : l.Ok) (hs : l.signedExp = false) (he : OptOk e)
    {r : Str} (h : Stop r) :
    matchVariable (l.text ++ (expText e ++ r)) = none ∨
    ∃ v, matchVariable (l.text ++ (expText e ++ r)) = some v ∧ v.rest = r := by
  unfold matchVariable
  rw [matchCoefficient_text hl _ (numStop_exp e h), exp_not_letter e h]
  cases l with
  | int => simp
  | frac => simp
  | dec => simp
  | sci neg ds fs eneg es =>
    right
    have hen : eneg = false := hs
    subst hen
    obtain ⟨_, _, hes⟩ := hl
    refine ⟨_, rfl, ?_⟩
    obtain ⟨c, t, rfl, hc⟩ := hes.head
    have h1 : ('e' :: (signText false ++ c :: t) ++ (expText e ++ r)) = ['e'] ++ ((c :: t) ++ (expText e ++ r)) := by
      simp [signText]
    have h2 := takeWhile_append_stop (a := ['e']) (b := (c :: t) ++ (expText e ++ r)) (p := isLetter)
      (by simp [isLetter]) (by simpa using digit_not_letter hc)
    have h3 := takeWhile_append_stop (a := c :: t) (b := expText e ++ r) (p := isDigit) hes.2
      (fun c hc => ((numStop_exp e h).head c hc).1)
    simp only [h1, h2, h3]
    exact congrArg Prod.snd (matchExponent_text e he h)

theorem matchSimplex_const {l : Lit} {e : Option Lit} (hl : l.Ok) (hs : l.signedExp = false)
    (hpos : l.value ≠ 0) (he : OptOk e) (hp : PowOk l.value (litOr1 e))
    (hf : fl (powVal l.value (litOr1 e)) = powVal l.value (litOr1 e)) {r : Str} (h : Stop r) :
    matchSimplex (l.text ++ (expText e ++ r)) = some (.ok (Atom.const l e).operand, r) := by
  have hb : buildConstant l.toNum (e.map Lit.toNum) = .ok (Atom.const l e).operand := by
    unfold buildConstant
    rw [toNum_value hl, numOr1_map e he]
    simp only [bind, Except.bind, fracPow_ok hpos hp, hf]
    rw [mkOperand_eq (powVal_ne_zero hpos) (by simp [one]) one_ne_zero]
    rfl
  unfold matchSimplex
  rw [matchConstant_text hl he h]
  rcases matchVariable_const hl hs he h with h1 | ⟨v, h1, h2⟩
  · simp [h1, hb]
  · simp [h1, h2, hb]

theorem name_scan {ls ds r : Str} (hl : ∀ x ∈ ls, isLetter x = true) (hd : ∀ x ∈ ds, isDigit x = true)
    (hr : ∀ c, r.head? = some c → isDigit c = false ∧ isLetter c = false) :
    (ls ++ (ds ++ r)).takeWhile isLetter = ls ∧ (ls ++ (ds ++ r)).dropWhile isLetter = ds ++ r ∧
    (ds ++ r).takeWhile isDigit = ds ∧ (ds ++ r).dropWhile isDigit = r := by
  have h1 := takeWhile_append_stop (a := ls) (b := ds ++ r) (p := isLetter) hl (by
    intro c hc
    cases ds with
    | nil => exact (hr c (by simpa using hc)).2
    | cons d ds => simp at hc; subst hc; exact digit_not_letter (hd _ (by simp)))
  have h2 := takeWhile_append_stop (a := ds) (b := r) (p := isDigit) hd (fun c hc => (hr c hc).1)
  exact ⟨h1.1, h1.2, h2.1, h2.2⟩

/-- what may follow an exponent: where there is none, `/` may also be followed by a digit -/
def ExpStop (e : Option Lit) (r : Str) : Prop :=
  (∀ c, r.head? = some c → c = ' ' ∨ c = '*' ∨ c = '/') ∧
    (e ≠ none → ∀ d r', r = '/' :: d :: r' → isDigit d = false)

theorem Stop.exp {r : Str} (h : Stop r) (e : Option Lit) : ExpStop e r := ⟨h.1, fun _ => h.2⟩

theorem exponent_text (e : Option Lit) (he : OptOk e) {r : Str} (h : ExpStop e r) :
    matchExponent (expText e ++ r) = (e.map Lit.toNum, r) := by
  cases e with
  | none =>
    simp only [expText, List.nil_append, Option.map_none]
    unfold matchExponent
    split
    · rename_i s; rcases h.1 '^' (by simp) with h | h | h <;> simp at h
    · rfl
  | some l => exact matchExponent_text _ he ⟨h.1, h.2 (by simp)⟩

theorem exp_head (e : Option Lit) {r : Str} (h : ExpStop e r) :
    ∀ c, (expText e ++ r).head? = some c → isDigit c = false ∧ isLetter c = false := by
  intro c hc
  cases e with
  | none => rcases h.1 c (by simpa [expText] using hc) with rfl | rfl | rfl <;> decide
  | some l => simp [expText] at hc; subst hc; decide

/-- a name does not continue a number, unless it looks like a decimal exponent -/
theorem numStop_name {ls ds r : Str} (hne : ls ≠ []) (hl : ∀ x ∈ ls, isLetter x = true)
    (hd : ∀ x ∈ ds, isDigit x = true) (hno : ¬ LooksLikeExp ls ds)
    (hr : ∀ c, r.head? = some c → isDigit c = false ∧ isLetter c = false ∧ c ≠ '-' ∧ c ≠ '+') :
    NumStop (ls ++ (ds ++ r)) := by
  cases ls with
  | nil => exact absurd rfl hne
  | cons x ls =>
    have hx := hl x (by simp)
    have hxn := letter_ne hx
    refine ⟨?_, ?_, ?_⟩
    · intro c hc; simp at hc; subst hc; exact ⟨letter_not_digit hx, hxn.2.2.1⟩
    · intro d r' e; simp at e; exact absurd e.1 hxn.2.2.2.1
    · simp only [List.cons_append, takeExp]
      split
      · rename_i hE
        -- what follows `e` is a letter or the end of the name
        have key : ∀ s : Str, (∀ c, s.head? = some c → isDigit c = false ∧ c ≠ '-' ∧ c ≠ '+') →
            (let (neg, r) := takeSign s
             let ds := r.takeWhile isDigit
             if ds = [] then none else some (neg, ds, r.dropWhile isDigit)) = none := by
          intro s hs
          cases s with
          | nil => simp [takeSign]
          | cons y s =>
            have := hs y (by simp)
            have hts : takeSign (y :: s) = (false, y :: s) := by
              unfold takeSign; split <;> simp_all
            rw [hts]; simp [this.1]
        cases ls with
        | cons y ls =>
          apply key
          intro c hc; simp at hc; subst hc
          have hy := hl y (by simp)
          exact ⟨letter_not_digit hy, (letter_ne hy).1, (letter_ne hy).2.1⟩
        | nil =>
          cases ds with
          | cons d ds =>
            exfalso; apply hno
            refine ⟨?_, by simp⟩
            rcases hE with rfl | rfl <;> simp
          | nil =>
            apply key
            intro c hc
            have := hr c (by simpa using hc)
            exact ⟨this.1, this.2.2.1, this.2.2.2⟩
      · rfl

theorem exp_head' (e : Option Lit) {r : Str} (h : ExpStop e r) :
    ∀ c, (expText e ++ r).head? = some c → isDigit c = false ∧ isLetter c = false ∧ c ≠ '-' ∧ c ≠ '+' := by
  intro c hc
  have := exp_head e h c hc
  refine ⟨this.1, this.2, ?_, ?_⟩
  · rintro rfl
    cases e with
    | none => rcases h.1 '-' (by simpa [expText] using hc) with h | h | h <;> simp at h
    | some l => simp [expText] at hc
  · rintro rfl
    cases e with
    | none => rcases h.1 '+' (by simpa [expText] using hc) with h | h | h <;> simp at h
    | some l => simp [expText] at hc

/-- a coefficient in front of a name -/
theorem coefficient_name {l : Lit} (hl : l.Ok) {ls ds r : Str} (hne : ls ≠ [])
    (hls : ∀ x ∈ ls, isLetter x = true) (hds : ∀ x ∈ ds, isDigit x = true)
    (hno : LooksLikeExp ls ds → ∃ n s d, l = .frac n s d)
    (hr : ∀ c, r.head? = some c → isDigit c = false ∧ isLetter c = false ∧ c ≠ '-' ∧ c ≠ '+') :
    matchCoefficient (l.text ++ (ls ++ (ds ++ r))) = some (some l.toNum, ls ++ (ds ++ r)) ∧
    matchRational (l.text ++ (ls ++ (ds ++ r))) = some (l.toNum, ls ++ (ds ++ r)) := by
  by_cases hE : LooksLikeExp ls ds
  · obtain ⟨neg, s, d, rfl⟩ := hno hE
    obtain ⟨hs, hd, _⟩ := hl
    have hhead : ∀ c, (ls ++ (ds ++ r)).head? = some c → isDigit c = false := by
      intro c hc
      cases ls with
      | nil => exact absurd rfl hne
      | cons x ls => simp at hc; subst hc; exact letter_not_digit (hls _ (by simp))
    have hlet : startsLetter (ls ++ (ds ++ r)) = true := by
      cases ls with
      | nil => exact absurd rfl hne
      | cons x ls => exact hls _ (by simp)
    generalize ls ++ (ds ++ r) = w at hhead hlet
    have h1 := scan_int neg s ('/' :: ([d] ++ w)) hs (by simp [isDigit])
    have h5 := takeWhile_append_stop (a := [d]) (b := w) (p := isDigit) (by simpa using hd) hhead
    have ht : (Lit.frac neg s d).text ++ w = signText neg ++ s ++ ('/' :: ([d] ++ w)) := by simp [Lit.text]
    constructor
    · rw [ht]; unfold matchCoefficient
      rw [h1.1]
      simp only [h1, if_true, Lit.toNum, h5]
      simp [hlet]
    · rw [ht]; unfold matchRational
      rw [h1.1]
      simp only [h1, if_true, Lit.toNum]
      simp [hd]
  · have hst := numStop_name hne hls hds hE hr
    have hlet : startsLetter (ls ++ (ds ++ r)) = true := by
      cases ls with
      | nil => exact absurd rfl hne
      | cons x ls => exact hls _ (by simp)
    refine ⟨?_, matchRational_text hl _ hst⟩
    rw [matchCoefficient_text hl _ hst, hlet]; rfl

theorem matchVariable_of_coefficient {s : Str} {c : Option Num} {ls ds r : Str} {e : Option Lit}
    (hls : ∀ x ∈ ls, isLetter x = true) (hds : ∀ x ∈ ds, isDigit x = true) (he : OptOk e)
    (h : ExpStop e r) (hc : matchCoefficient s = some (c, ls ++ (ds ++ (expText e ++ r)))) :
    matchVariable s = some ⟨c, ls ++ ds, e.map Lit.toNum, r⟩ := by
  obtain ⟨h1, h2, h3, h4⟩ := name_scan hls hds (exp_head e h)
  unfold matchVariable
  rw [hc]
  simp only [h1, h2, h3, h4, exponent_text e he h]

theorem matchSimplex_var {c : Option Lit} {ls ds : Str} {e : Option Lit} (hne : ls ≠ [])
    (hls : ∀ x ∈ ls, isLetter x = true) (hds : ∀ x ∈ ds, isDigit x = true)
    (hc : OptOk c) (he : OptOk e)
    (hno : ∀ l, c = some l → LooksLikeExp ls ds → ∃ n s d, l = .frac n s d)
    {r : Str} (h : ExpStop e r) :
    matchSimplex ((Atom.var c ls ds e).text ++ r) = some (.ok (Atom.var c ls ds e).operand, r) := by
  have hb : buildVariable ⟨c.map Lit.toNum, ls ++ ds, e.map Lit.toNum, r⟩ = .ok (Atom.var c ls ds e).operand := by
    unfold buildVariable
    simp only [numOr1_map c hc, numOr1_map e he, bind, Except.bind]
    rw [mkOperand_eq (litOr1_ne_zero hc) (by simp [hne]) (litOr1_ne_zero he)]
    rfl
  cases c with
  | none =>
    have ht : (Atom.var none ls ds e).text ++ r = ls ++ (ds ++ (expText e ++ r)) := by simp [Atom.text]
    rw [ht]
    obtain ⟨x, xs, rfl⟩ := List.exists_cons_of_ne_nil hne
    have hx := hls x (by simp)
    have hts : takeSign (x :: xs ++ (ds ++ (expText e ++ r))) = (false, x :: xs ++ (ds ++ (expText e ++ r))) := by
      have := letter_ne hx
      unfold takeSign; split <;> simp_all
    have hsn : startsNumber (x :: xs ++ (ds ++ (expText e ++ r))) = false := by
      have h1 := letter_not_digit hx
      have h2 := (letter_ne hx).2.2.1
      rw [List.cons_append]
      cases (xs ++ (ds ++ (expText e ++ r))) <;> simp [startsNumber, h1, h2]
    have hm : matchCoefficient (x :: xs ++ (ds ++ (expText e ++ r))) = some (none, x :: xs ++ (ds ++ (expText e ++ r))) := by
      unfold matchCoefficient
      rw [hts]
      simp only [hsn]
      simp [startsLetter, hx]
    have hcst : matchConstant (x :: xs ++ (ds ++ (expText e ++ r))) = none := by
      unfold matchConstant matchRational
      rw [hts]
      simp only [hsn, Bool.false_eq_true, if_false]
    unfold matchSimplex
    rw [matchVariable_of_coefficient hls hds he h hm, hcst]
    simp only [Option.map_none] at hb
    simp only [hb]
  | some l =>
    have ht : (Atom.var (some l) ls ds e).text ++ r = l.text ++ (ls ++ (ds ++ (expText e ++ r))) := by simp [Atom.text]
    rw [ht]
    obtain ⟨h1, h2⟩ := coefficient_name hc.1 hne hls hds (hno l rfl) (exp_head' e h)
    have hcst : matchConstant (l.text ++ (ls ++ (ds ++ (expText e ++ r)))) =
        some (l.toNum, none, ls ++ (ds ++ (expText e ++ r))) := by
      unfold matchConstant
      rw [h2]
      obtain ⟨x, xs, rfl⟩ := List.exists_cons_of_ne_nil hne
      have hx := (letter_ne (hls x (by simp))).2.2.2.2.1
      have : matchExponent (x :: xs ++ (ds ++ (expText e ++ r))) = (none, x :: xs ++ (ds ++ (expText e ++ r))) := by
        unfold matchExponent; split <;> simp_all
      simp only [this]
    unfold matchSimplex
    rw [matchVariable_of_coefficient hls hds he h h1, hcst]
    have hlen : ¬ r.length = (ls ++ (ds ++ (expText e ++ r))).length := by
      have : 0 < ls.length := List.length_pos_iff.2 hne
      simp; omega
    simp only [hlen, if_false]
    simp only [Option.map_some] at hb
    rw [hb]

/-! ### groups -/

/-- a string that the bracket counter crosses without stopping -/
def Balanced (s : Str) : Prop := ∀ (r : Str) (i : Nat) (k : Int) (i0 : Nat), 1 ≤ k →
  findBoundsAux (s ++ r) i true k i0 = findBoundsAux r (i + s.length) true k i0

theorem balanced_nil : Balanced [] := by intro r i k i0 _; simp

theorem Balanced.append {a b : Str} (ha : Balanced a) (hb : Balanced b) : Balanced (a ++ b) := by
  intro r i k i0 hk
  rw [List.append_assoc, ha _ _ _ _ hk, hb _ _ _ _ hk]
  congr 1; simp; omega

theorem balanced_char {c : Char} (h1 : c ≠ '(') (h2 : c ≠ ')') : Balanced [c] := by
  intro r i k i0 hk
  have : k ≠ 0 := by omega
  simp [findBoundsAux, h1, h2, this]

theorem balanced_of_chars {s : Str} (h : ∀ c ∈ s, c ≠ '(' ∧ c ≠ ')') : Balanced s := by
  induction s with
  | nil => exact balanced_nil
  | cons c s ih =>
    have := (balanced_char (h c (by simp)).1 (h c (by simp)).2).append (ih (fun c hc => h c (by simp [hc])))
    simpa using this

theorem Balanced.group {s : Str} (h : Balanced s) : Balanced ('(' :: s ++ [')']) := by
  intro r i k i0 hk
  have e : '(' :: s ++ [')'] ++ r = '(' :: (s ++ (')' :: r)) := by simp
  rw [e]
  have h1 : k + 1 ≠ 0 := by omega
  simp only [findBoundsAux, if_true, h1, and_false, if_false]
  rw [h _ _ _ _ (by omega)]
  have h2 : k ≠ 0 := by omega
  simp [findBoundsAux, h2]
  congr 1
  omega

theorem findBounds_group {s : Str} (h : Balanced s) (r : Str) :
    findBounds ('(' :: (s ++ (')' :: r))) = some (0, s.length + 2) := by
  unfold findBounds
  simp only [findBoundsAux, if_true]
  simp only [zero_add, one_ne_zero, and_false, if_false, Bool.false_eq_true]
  rw [h _ _ _ _ (by omega)]
  simp [findBoundsAux]
  omega

theorem sign_char (neg : Bool) : ∀ c ∈ signText neg, c = '-' := by
  cases neg <;> simp [signText]

theorem lit_chars {l : Lit} (h : l.Ok) : ∀ c ∈ l.text, isDigit c = true ∨ c = '-' ∨ c = '.' ∨ c = '/' ∨ c = 'e' := by
  intro c hc
  cases l with
  | int neg ds =>
    simp only [Lit.text, List.mem_append] at hc
    rcases hc with hc | hc
    · exact Or.inr (Or.inl (sign_char _ c hc))
    · exact Or.inl (h.2 c hc)
  | frac neg ds d =>
    simp only [Lit.text, List.mem_append, List.mem_cons, List.not_mem_nil, or_false] at hc
    rcases hc with (hc | hc) | hc | hc
    · exact Or.inr (Or.inl (sign_char _ c hc))
    · exact Or.inl (h.1.2 c hc)
    · simp [hc]
    · exact Or.inl (hc ▸ h.2.1)
  | dec neg ds fs =>
    simp only [Lit.text, List.mem_append, List.mem_cons] at hc
    rcases hc with (hc | hc) | hc | hc
    · exact Or.inr (Or.inl (sign_char _ c hc))
    · exact Or.inl (h.1.2 c hc)
    · simp [hc]
    · exact Or.inl (h.2.2 c hc)
  | sci neg ds fs eneg es =>
    simp only [Lit.text, List.mem_append, List.mem_cons] at hc
    obtain ⟨h1, h2, h3⟩ := h
    rcases hc with (((hc | hc) | hc | hc) | hc | hc) | hc
    · exact Or.inr (Or.inl (sign_char _ c hc))
    · exact Or.inl (h1.2 c hc)
    · simp [hc]
    · exact Or.inl (h2.2 c hc)
    · simp [hc]
    · exact Or.inr (Or.inl (sign_char _ c hc))
    · exact Or.inl (h3.2 c hc)

theorem lit_noparen {l : Lit} (h : l.Ok) : ∀ c ∈ l.text, c ≠ '(' ∧ c ≠ ')' := by
  intro c hc
  rcases lit_chars h c hc with h | h | h | h | h
  · exact ⟨(digit_ne h).2.2.2.2.2.2.2.1, (digit_ne h).2.2.2.2.2.2.2.2.1⟩
  all_goals subst h; simp

theorem exp_noparen {e : Option Lit} (h : OptOk e) : ∀ c ∈ expText e, c ≠ '(' ∧ c ≠ ')' := by
  cases e with
  | none => simp [expText]
  | some l =>
    intro c hc
    rcases List.mem_cons.1 hc with rfl | hc
    · simp
    · exact lit_noparen h.1 c hc

theorem blanks_mem {n : Nat} {c : Char} (h : c ∈ blanks n) : c = ' ' := by
  simp [blanks, List.mem_replicate] at h; exact h.2

theorem sep_noparen (s : Sep) : ∀ c ∈ s.text, c ≠ '(' ∧ c ≠ ')' := by
  intro c hc
  cases s with
  | juxt i => rw [blanks_mem hc]; simp
  | mul i j =>
    simp only [Sep.text, List.mem_append, List.mem_cons] at hc
    rcases hc with hc | rfl | hc
    · rw [blanks_mem hc]; simp
    · simp
    · rw [blanks_mem hc]; simp
  | div i j =>
    simp only [Sep.text, List.mem_append, List.mem_cons] at hc
    rcases hc with hc | rfl | hc
    · rw [blanks_mem hc]; simp
    · simp
    · rw [blanks_mem hc]; simp
  | glue => simp [Sep.text] at hc

mutual
theorem Atom.balanced (E : Rat) : (a : Atom) → a.Ok E → Balanced a.text
  | .const l e, h => by
    simp only [Atom.Ok] at h
    simp only [Atom.text]
    exact (balanced_of_chars (lit_noparen h.1)).append (balanced_of_chars (exp_noparen h.2.2.2.1))
  | .var c ls ds e, h => by
    simp only [Atom.Ok] at h
    obtain ⟨_, hls, hds, hc, he, _⟩ := h
    simp only [Atom.text]
    refine Balanced.append (Balanced.append ?_ ?_) (balanced_of_chars (exp_noparen he))
    · cases c with
      | none => exact balanced_nil
      | some l => exact balanced_of_chars (lit_noparen hc.1)
    · apply balanced_of_chars
      intro c hc
      rcases List.mem_append.1 hc with hc | hc
      · exact ⟨(letter_ne (hls c hc)).2.2.2.2.2.1, (letter_ne (hls c hc)).2.2.2.2.2.2.1⟩
      · exact ⟨(digit_ne (hds c hc)).2.2.2.2.2.2.2.1, (digit_ne (hds c hc)).2.2.2.2.2.2.2.2.1⟩
  | .group x e, h => by
    simp only [Atom.Ok] at h
    have := (Expr.balanced _ x h.2).group.append (balanced_of_chars (exp_noparen h.1))
    simpa [Atom.text] using this
theorem Expr.balanced (E : Rat) : (x : Expr) → x.Ok E → Balanced x.text
  | .one a, h => by
    simp only [Expr.Ok] at h
    simpa only [Expr.text] using Atom.balanced E a h
  | .cons a s x, h => by
    simp only [Expr.Ok] at h
    simp only [Expr.text]
    exact ((Atom.balanced E a h.1).append (balanced_of_chars (sep_noparen s))).append (Expr.balanced E x h.2.1)
end

theorem Expr.text_ne_nil (E : Rat) : (x : Expr) → x.Ok E → x.text ≠ []
  | .one a, h => by
    cases a with
    | const l e =>
      simp only [Expr.Ok, Atom.Ok] at h
      simp only [Expr.text, Atom.text]
      intro hh
      have := (List.append_eq_nil_iff.1 hh).1
      cases l <;> simp [Lit.text] at this
      exact absurd this.2 h.1.1
    | var c ls ds e =>
      simp only [Expr.Ok, Atom.Ok] at h
      simp [Expr.text, Atom.text, h.1]
    | group => simp [Expr.text, Atom.text]
  | .cons a s x, h => by
    simp only [Expr.Ok] at h
    have := Expr.text_ne_nil E x h.2.1
    simp [Expr.text, this]

theorem matchSimplex_paren (r : Str) : matchSimplex ('(' :: r) = none := by
  have h1 : takeSign ('(' :: r) = (false, '(' :: r) := by
    unfold takeSign; split <;> simp_all
  have h2 : startsNumber ('(' :: r) = false := by
    cases r <;> simp [startsNumber, isDigit]
  have h3 : startsLetter ('(' :: r) = false := by simp [startsLetter, isLetter]
  have hc : matchCoefficient ('(' :: r) = none := by
    unfold matchCoefficient; rw [h1]; simp [h2, h3]
  unfold matchSimplex matchVariable matchConstant matchRational
  rw [h1, hc]
  simp [h2]

/-- what may follow a given operand: also `/` and a digit after a bare name, and anything but `^` after a bare group -/
def AtomStop (a : Atom) (r : Str) : Prop :=
  Stop r ∨ (a.isBareGroup = true ∧ ∀ c, r.head? = some c → c ≠ '^') ∨ (a.isBareName = true ∧ ∃ s, r = '/' :: s)

theorem matchExponent_none {r : Str} (h : ∀ c, r.head? = some c → c ≠ '^') : matchExponent r = (none, r) := by
  unfold matchExponent
  split
  · rename_i s; exact absurd rfl (h '^' (by simp))
  · rfl

theorem matchExponent_group {x : Expr} {e : Option Lit} (he : OptOk e) {r : Str} (h : AtomStop (.group x e) r) :
    matchExponent (expText e ++ r) = (e.map Lit.toNum, r) := by
  rcases h with h | ⟨h1, h2⟩ | ⟨h1, _⟩
  · exact matchExponent_text e he h
  · cases e with
    | none => exact matchExponent_none h2
    | some l => simp [Atom.isBareGroup] at h1
  · simp [Atom.isBareName] at h1

theorem matchComplex_group {x : Expr} {e : Option Lit} (E : Rat) (hx : x.Ok E) (he : OptOk e) {r : Str}
    (h : AtomStop (.group x e) r) :
    matchComplex ((Atom.group x e).text ++ r) = some (.ok (Atom.group x e).operand, r) := by
  have ht : (Atom.group x e).text ++ r = '(' :: (x.text ++ (')' :: (expText e ++ r))) := by simp [Atom.text]
  rw [ht]
  unfold matchComplex
  rw [findBounds_group (Expr.balanced E x hx)]
  have h1 : List.drop (x.text.length + 2) ('(' :: (x.text ++ (')' :: (expText e ++ r)))) = expText e ++ r := by
    simp [List.drop_append]
  have h2 : List.drop 1 (List.take (x.text.length + 2 - 1) ('(' :: (x.text ++ (')' :: (expText e ++ r))))) = x.text := by
    simp
  simp only [h1, h2, matchExponent_group he h, numOr1_map e he]
  simp only [bind, Except.bind]
  rw [mkOperand_eq one_ne_zero (Expr.text_ne_nil E x hx) (litOr1_ne_zero he)]
  rfl

/-! ### first and last characters -/

theorem lit_head {l : Lit} (h : l.Ok) : ∃ c r, l.text = c :: r ∧ (isDigit c = true ∨ c = '-') := by
  have aux : ∀ (neg : Bool) (ds r : Str), Digits ds → ∃ c t, signText neg ++ ds ++ r = c :: t ∧ (isDigit c = true ∨ c = '-') := by
    intro neg ds r hd
    obtain ⟨c, t, rfl, hc⟩ := hd.head
    cases neg with
    | true => exact ⟨'-', c :: t ++ r, by simp [signText], Or.inr rfl⟩
    | false => exact ⟨c, t ++ r, by simp [signText], Or.inl hc⟩
  cases l with
  | int neg ds => simpa [Lit.text] using aux neg ds [] h
  | frac neg ds d => simpa [Lit.text] using aux neg ds ['/', d] h.1
  | dec neg ds fs => simpa [Lit.text] using aux neg ds ('.' :: fs) h.1
  | sci neg ds fs eneg es => simpa [Lit.text] using aux neg ds ('.' :: fs ++ 'e' :: signText eneg ++ es) h.1

theorem lit_last {l : Lit} (h : l.Ok) : ∃ s c, l.text = s ++ [c] ∧ isDigit c = true := by
  have aux : ∀ (s ds : Str), Digits ds → ∃ t c, s ++ ds = t ++ [c] ∧ isDigit c = true := by
    intro s ds hd
    refine ⟨s ++ ds.dropLast, ds.getLast hd.1, by rw [List.append_assoc, List.dropLast_append_getLast], hd.2 _ (List.getLast_mem _)⟩
  cases l with
  | int neg ds => exact aux _ ds h
  | frac neg ds d => exact ⟨signText neg ++ ds ++ ['/'], d, by simp [Lit.text], h.2.1⟩
  | dec neg ds fs => simpa [Lit.text] using aux (signText neg ++ ds ++ ['.']) fs h.2
  | sci neg ds fs eneg es =>
    simpa [Lit.text] using aux (signText neg ++ ds ++ '.' :: fs ++ 'e' :: signText eneg) es h.2.2

/-- the first character of an operand -/
theorem atom_head (E : Rat) (a : Atom) (h : a.Ok E) :
    ∃ c r, a.text = c :: r ∧ isSpace c = false ∧ c ≠ '*' ∧ c ≠ '/' ∧
      c ≠ '^' ∧ (∀ t, AtomStop a t → ¬ ['s', 'q', 'r', 't'] <+: a.text ++ t) := by
  have key : ∀ (c : Char) (r : Str), isDigit c = true ∨ c = '-' →
      isSpace c = false ∧ c ≠ '*' ∧ c ≠ '/' ∧ c ≠ 's' ∧ c ≠ '^' := by
    intro c r hc
    rcases hc with hc | rfl
    · exact ⟨digit_not_space hc, (digit_ne hc).2.2.2.2.2.2.2.2.2.1, (digit_ne hc).2.2.2.1, (digit_ne hc).2.2.2.2.2.2.2.2.2.2, (digit_ne hc).2.2.2.2.2.2.1⟩
    · simp [isSpace]
  have hpre : ∀ (c : Char) (r t : Str), c ≠ 's' → ¬ ['s', 'q', 'r', 't'] <+: c :: r ++ t := by
    intro c r t hc hp
    rw [List.cons_append, List.cons_prefix_cons] at hp
    exact hc hp.1.symm
  cases a with
  | const l e =>
    simp only [Atom.Ok] at h
    obtain ⟨c, r, h1, h2⟩ := lit_head h.1
    have hk := key c r h2
    refine ⟨c, r ++ expText e, by simp [Atom.text, h1], hk.1, hk.2.1, hk.2.2.1, hk.2.2.2.2, fun t _ => ?_⟩
    have := hpre c (r ++ expText e) t hk.2.2.2.1
    simpa [Atom.text, h1] using this
  | var c ls ds e =>
    simp only [Atom.Ok] at h
    obtain ⟨hne, hls, hds, hc, he, _, hsq, _⟩ := h
    cases c with
    | none =>
      obtain ⟨x, xs, rfl⟩ := List.exists_cons_of_ne_nil hne
      have hx := hls x (by simp)
      refine ⟨x, xs ++ ds ++ expText e, by simp [Atom.text], letter_not_space hx, (letter_ne hx).2.2.2.2.2.2.2.1, (letter_ne hx).2.2.2.1, (letter_ne hx).2.2.2.2.1, ?_⟩
      intro t hstop hp
      replace hstop : ExpStop e t := by
        rcases hstop with h | h | ⟨h, s, rfl⟩
        · exact h.exp e
        · simp [Atom.isBareGroup] at h
        · cases e with
          | none => exact ⟨by simp, fun h => absurd rfl h⟩
          | some l => simp [Atom.isBareName] at h
      apply hsq rfl
      -- a prefix made of letters is a prefix of the leading letters
      have ht : (Atom.var none (x :: xs) ds e).text ++ t = (x :: xs) ++ (ds ++ expText e ++ t) := by simp [Atom.text]
      rw [ht] at hp
      have hhead : ∀ c, (ds ++ (expText e ++ t)).head? = some c → isLetter c = false := by
        intro c hc
        cases ds with
        | cons d ds => simp at hc; subst hc; exact digit_not_letter (hds _ (by simp))
        | nil => exact (exp_head e hstop c (by simpa using hc)).2
      obtain ⟨u, hu⟩ := hp
      have h1 := (takeWhile_append_stop (p := isLetter) hls hhead).1
      rw [← List.append_assoc ds, ← hu] at h1
      simp [isLetter] at h1
      exact ⟨u.takeWhile isLetter, by rw [← h1.1, ← h1.2]; rfl⟩
    | some l =>
      obtain ⟨c, r, h1, h2⟩ := lit_head hc.1
      have hk := key c r h2
      refine ⟨c, r ++ (ls ++ ds) ++ expText e, by simp [Atom.text, h1], hk.1, hk.2.1, hk.2.2.1, hk.2.2.2.2, fun t _ => ?_⟩
      have := hpre c (r ++ (ls ++ ds) ++ expText e) t hk.2.2.2.1
      simpa [Atom.text, h1] using this
  | group x e =>
    refine ⟨'(', x.text ++ ')' :: expText e, by simp [Atom.text], by simp [isSpace], by simp, by simp, by simp, ?_⟩
    intro t _ hp
    have : (Atom.group x e).text ++ t = '(' :: (x.text ++ ')' :: expText e ++ t) := by simp [Atom.text]
    rw [this, List.cons_prefix_cons] at hp
    simp at hp

end Eprem.Symbolic
